import Verif.Lemmas.BackwardExact
import Verif.Lemmas.RiccatiExist

/-!
# When the backward pass succeeds
-/
set_option linter.unusedSectionVars false
set_option linter.unusedSimpArgs false

namespace Mim
open Matrix Spec
variable {K : Type} [Field K] [LinearOrder K] [IsStrictOrderedRing K] {P : Problem K}

theorem posDef_cancel {a b : ℕ} {U : Mat K a a} (h : PosDef U) {A B : Mat K a b} (e : U * A = U * B) : A = B := by
  have hu := (Matrix.isUnit_iff_isUnit_det U).mp (posDef_isUnit h)
  rw [← Matrix.one_mul A, ← Matrix.nonsing_inv_mul U hu, Matrix.mul_assoc, e, ← Matrix.mul_assoc,
    Matrix.nonsing_inv_mul U hu, Matrix.one_mul]

/-- one stage, started with the value function of the recursion, succeeds unless a value is out of range and leaves the value
function of the recursion. -/
theorem stage_live {llt : LLT K} (hllt : LLTExact llt) {d : Data P} (hsym : SymHess d) {fs c : ℕ → Vec K P.ndx}
    {feas : Bool} {preg dreg : K} (hc : ∀ t, c t = if feas then 0 else fs t)
    {V : ℕ → Mat K P.ndx P.ndx} {v : ℕ → Vec K P.ndx} {G : (t : ℕ) → Mat K (P.nu t) P.ndx}
    {k : (t : ℕ) → Vec K (P.nu t)} {Quu : (t : ℕ) → Mat K (P.nu t) (P.nu t)} (hR : Riccati (lqOf d c preg dreg) V v G k Quu)
    (hpd : ∀ t, t < P.T → PosDef (Quu t)) {t : ℕ} (ht : t < P.T) {b : BP P} (h1 : b.Vxx (t + 1) = V (t + 1))
    (h2 : b.Vx (t + 1) = v (t + 1) + V (t + 1) *ᵥ c (t + 1)) :
    ∃ b', b'.Vxx t = V t ∧ b'.Vx t = v t + V t *ᵥ c t ∧ backwardStage llt d fs feas preg dreg t b =
      if badStage (v t + V t *ᵥ c t) (V t) then .exn b' else .ok b' := by
  have hvx : ∀ (W : Mat K P.ndx P.ndx) (a : Vec K P.ndx), Bwd.Vx feas a W (fs t) = a + W *ᵥ c t := by
    intro W a
    rw [hc t]
    unfold Bwd.Vx
    cases feas <;> simp
  have hsq : (A : Mat K P.ndx P.ndx) → Aᵀ = A → Bwd.Vxx preg A = A + preg • (1 : Matrix _ _ K) := by
    intro A hA
    unfold Bwd.Vxx
    simp only [isnan_exact, Bool.false_eq_true, if_false, addDiag_exact]
    rw [symm_of_sym hA]
  have hxx : (Bwd.Qxx d t (V (t + 1)))ᵀ = Bwd.Qxx d t (V (t + 1)) := by
    unfold Bwd.Qxx
    simp only [mm_exact, Matrix.transpose_add, hsym.xx t ht, Matrix.transpose_mul, Matrix.transpose_transpose,
      hR.sym (t + 1) ht, Matrix.mul_assoc]
  rcases Nat.eq_zero_or_pos (P.nu t) with h0 | h0
  · have e := Bwd.stage_zero (llt := llt) (d := d) (fs := fs) (feas := feas) (preg := preg) (dreg := dreg) t b h0
    simp only [] at e
    have eV : Bwd.Vxx preg (Bwd.Qxx d t (b.Vxx (t + 1))) = V t := by
      rw [h1, hsq _ hxx, hR.hess t ht]
      have hz : ((lqOf d c preg dreg).Hxu t + ((lqOf d c preg dreg).A t)ᵀ * V (t + 1) * (lqOf d c preg dreg).B t) * G t = 0 := by
        ext i j
        rw [Matrix.mul_apply]
        exact Finset.sum_eq_zero fun i' _ => (Fin.cast h0 i').elim0
      rw [hz]
      unfold Bwd.Qxx lqOf
      simp only [mm_exact]
      abel
    have ev : Bwd.Vx feas (Bwd.Qx d t (b.Vx (t + 1))) (V t) (fs t) = v t + V t *ᵥ c t := by
      rw [hvx, h2, hR.grad t ht]
      have hz : ∀ z : Vec K (P.nu t), (G t)ᵀ *ᵥ z = 0 := by
        intro z
        funext i
        rw [Matrix.mulVec, dotProduct]
        exact Finset.sum_eq_zero fun i' _ => (Fin.cast h0 i').elim0
      rw [hz, sub_zero]
      unfold Bwd.Qx lqOf
      simp only [mv_exact]
    rw [eV, ev] at e
    exact ⟨_, Function.update_self _ _ _, Function.update_self _ _ _, e⟩
  · have e := Bwd.stage_pos (llt := llt) (d := d) (fs := fs) (feas := feas) (preg := preg) (dreg := dreg) t b h0
    simp only [] at e
    have eU : Bwd.Quu d t (b.Vxx (t + 1)) dreg = Quu t := by
      rw [h1, hR.quu t ht]
      unfold Bwd.Quu lqOf
      simp only [isnan_exact, Bool.false_eq_true, if_false, addDiag_exact, mm_exact]
      abel
    obtain ⟨s, hs⟩ := hllt.complete _ (Quu t) (hR.symU t ht) (hpd t ht)
    have e' := e.1 s (by rw [eU]; exact hs)
    have hsol := hllt.solves _ _ _ (hR.symU t ht) hs
    have eX : Bwd.Qxu d t (V (t + 1)) = (lqOf d c preg dreg).Hxu t + ((lqOf d c preg dreg).A t)ᵀ * V (t + 1) * (lqOf d c preg dreg).B t := by
      unfold Bwd.Qxu lqOf
      simp only [mm_exact]
    have eK : Bwd.K d t (b.Vxx (t + 1)) s = G t := by
      apply posDef_cancel (hpd t ht)
      unfold Bwd.K
      rw [solveCols_mul hsol, h1, eX, hR.gain t ht]
    have sXG : (Bwd.Qxu d t (V (t + 1)) * G t)ᵀ = Bwd.Qxu d t (V (t + 1)) * G t := by
      have e2 : Bwd.Qxu d t (V (t + 1)) = (Quu t * G t)ᵀ := by rw [hR.gain t ht, Matrix.transpose_transpose, eX]
      rw [e2]
      simp only [Matrix.transpose_mul, Matrix.transpose_transpose, hR.symU t ht, Matrix.mul_assoc]
    have eV : Bwd.stVxx d preg t (b.Vxx (t + 1)) s = V t := by
      unfold Bwd.stVxx
      rw [eK, h1, mm_exact, hsq _ (by rw [Matrix.transpose_sub, hxx, sXG]), hR.hess t ht, ← eX]
      unfold Bwd.Qxx lqOf
      simp only [mm_exact]
      abel
    have ev : Bwd.stVx d fs feas preg t (b.Vxx (t + 1)) (b.Vx (t + 1)) s = v t + V t *ᵥ c t := by
      unfold Bwd.stVx
      rw [eV, eK, hvx, h2, hR.grad t ht]
      unfold Bwd.Qx Bwd.Qu lqOf
      simp only [mv_exact]
    rw [eV, ev] at e'
    exact ⟨_, Function.update_self _ _ _, Function.update_self _ _ _, e'⟩

/-- the backward pass succeeds if the recursion exists and stays in range. -/
theorem backward_live {llt : LLT K} (hllt : LLTExact llt) {d : Data P} (hsym : SymHess d) {fs c : ℕ → Vec K P.ndx}
    {feas : Bool} {preg dreg : K} (hc : ∀ t, c t = if feas then 0 else fs t)
    {V : ℕ → Mat K P.ndx P.ndx} {v : ℕ → Vec K P.ndx} {G : (t : ℕ) → Mat K (P.nu t) P.ndx}
    {k : (t : ℕ) → Vec K (P.nu t)} {Quu : (t : ℕ) → Mat K (P.nu t) (P.nu t)} (hR : Riccati (lqOf d c preg dreg) V v G k Quu)
    (hpd : ∀ t, t < P.T → PosDef (Quu t)) (hgood : ∀ t, t < P.T → badStage (v t + V t *ᵥ c t) (V t) = false) (b : BP P) :
    ∃ b', backwardPass llt d fs feas preg dreg b = .ok b' := by
  have key : ∀ n, n ≤ P.T → ∀ b : BP P, b.Vxx n = V n → b.Vx n = v n + V n *ᵥ c n →
      ∃ b', forDownR n (backwardStage llt d fs feas preg dreg) b = .ok b' := by
    intro n
    induction n with
    | zero => intro _ b _ _; exact ⟨b, rfl⟩
    | succ n ih =>
      intro hn b h1 h2
      obtain ⟨b1, e1, e2, e3⟩ := stage_live hllt hsym hc hR hpd (t := n) hn h1 h2
      rw [hgood n hn] at e3
      rw [forDownR_succ, e3]
      exact ih (by omega) b1 e1 e2
  unfold backwardPass
  refine key P.T le_rfl _ ?_ ?_
  · rw [hR.VT]
    unfold backwardInit lqOf
    simp only [isnan_exact, Bool.false_eq_true, if_false, addDiag_exact, Function.update_self]
  · rw [hR.VT, hR.vT]
    unfold backwardInit lqOf
    simp only [isnan_exact, Bool.false_eq_true, if_false, addDiag_exact, Function.update_self, hc, mv_exact]
    cases feas <;> simp

end Mim
