import Verif.Lemmas.KKTInv

/-!
# The stopping criterion of SolverKKT
-/
set_option linter.unusedSectionVars false
set_option linter.unusedSimpArgs false

namespace Mim
open Spec

section
variable {F : Type} [Add F] [Sub F] [Mul F] [Div F] [Neg F] [Zero F] [One F] [FloatOps F] {P : Problem F}

theorem KKT.dF_entries (d : Data P) (lam : ℕ → Vec F P.ndx) (v : FVec F) :
    (∀ t (i : Fin P.ndx), t < P.T → dF d lam v (t * P.ndx + i) = (lam t - mv (d.rd t).Fx.transpose (lam (t + 1))) i) ∧
    (∀ i : Fin P.ndx, dF d lam v (P.T * P.ndx + i) = lam P.T i) ∧
    ∀ t (i : Fin (P.nu t)), t < P.T → dF d lam v (P.nX + offs P.nu t + i) = (-mv (d.rd t).Fu.transpose (lam (t + 1))) i := by
  have hTx : P.T * P.ndx + P.ndx ≤ P.nX := by unfold Problem.nX; linarith [Nat.succ_mul P.T P.ndx]
  have h1 : (fun k (v : FVec F) =>
      (∀ t (i : Fin P.ndx), t < k → v (t * P.ndx + i) = (lam t - mv (d.rd t).Fx.transpose (lam (t + 1))) i) ∧
      ∀ t (i : Fin (P.nu t)), t < k → v (P.nX + offs P.nu t + i) = (-mv (d.rd t).Fu.transpose (lam (t + 1))) i) P.T
      (forUp P.T (fun t v =>
        let v := setSeg (t * P.ndx) (lam t - mv (d.rd t).Fx.transpose (lam (t + 1))) v
        setSeg (P.nX + offs P.nu t) (-mv (d.rd t).Fu.transpose (lam (t + 1))) v) v) := by
    refine forUp_inv (fun k (v : FVec F) =>
      (∀ t (i : Fin P.ndx), t < k → v (t * P.ndx + i) = (lam t - mv (d.rd t).Fx.transpose (lam (t + 1))) i) ∧
      ∀ t (i : Fin (P.nu t)), t < k → v (P.nX + offs P.nu t + i) = (-mv (d.rd t).Fu.transpose (lam (t + 1))) i) P.T _ v ?_ ?_
    · refine ⟨?_, ?_⟩ <;> intros <;> omega
    · rintro k hk w ⟨a1, a2⟩
      have hkx : k * P.ndx + P.ndx ≤ P.nX := by
        unfold Problem.nX
        have : (k + 1) * P.ndx ≤ (P.T + 1) * P.ndx := Nat.mul_le_mul_right _ (by omega)
        linarith [Nat.succ_mul k P.ndx]
      refine ⟨?_, ?_⟩
      · intro t i ht
        have := x_lt i.2 (show t ≤ P.T by omega)
        simp only
        rw [setSeg_out _ _ (by omega)]
        by_cases hk1 : t = k
        · subst hk1; exact setSeg_in _ _ i
        · rw [setSeg_out _ _ (blk_ne i.2 hk1)]; exact a1 t i (by omega)
      · intro t i ht
        simp only
        by_cases hk1 : t = k
        · subst hk1; exact setSeg_in _ _ i
        · have := offs_ne i.2 hk1
          rw [setSeg_out _ _ (by omega), setSeg_out _ _ (by omega)]; exact a2 t i (by omega)
  obtain ⟨b1, b2⟩ := h1
  refine ⟨?_, ?_, ?_⟩
  · intro t i ht
    rw [dF]
    simp only
    rw [setSeg_out _ _ (blk_ne i.2 (by omega))]
    exact b1 t i ht
  · intro i
    rw [dF]
    exact setSeg_in _ _ i
  · intro t i ht
    rw [dF]
    simp only
    rw [setSeg_out _ _ (by omega)]
    exact b2 t i ht

end

section Exact
variable {K : Type} [Field K] [LinearOrder K] [IsStrictOrderedRing K] {P : Problem K}
open Matrix

/-- the stopping criterion is the squared violation of the optimality conditions at the point where the system was assembled. -/
theorem KKT.stopping_eq (s : KKT P) (xs : Traj P) (us : Ctrls P)
    (hR : RefEntries ((s.data.calcAll xs us).calcDiffAll xs us) xs s.ref)
    (hrd : ∀ t, t < P.T → s.data.rd t = P.calcDiffR t (xs t) (us t)) :
    s.stopping.stop = optError P xs us s.lam := by
  obtain ⟨b1, b2, b3⟩ := dF_entries s.data s.lam (fun _ => 0)
  have e1 : sqNorm (fun i : Fin P.nP => s.ref i + dF s.data s.lam (fun _ => 0) i) =
      (∑ t ∈ Finset.range (P.T + 1), ∑ i : Fin P.ndx, (s.ref (t * P.ndx + i) + dF s.data s.lam (fun _ => 0) (t * P.ndx + i)) ^ 2) +
      ∑ t ∈ Finset.range P.T, ∑ i : Fin (P.nu t), (s.ref (P.nX + offs P.nu t + i) + dF s.data s.lam (fun _ => 0) (P.nX + offs P.nu t + i)) ^ 2 := by
    rw [sqNorm_exact, dotProduct, ← Finset.sum_range (fun i => (s.ref i + dF s.data s.lam (fun _ => 0) i) * (s.ref i + dF s.data s.lam (fun _ => 0) i))]
    unfold Problem.nP
    rw [Finset.sum_range_add]
    unfold Problem.nX Problem.nU
    rw [sum_blk, sum_offs]
    simp only [Nat.add_assoc, sq]
  have e2 : sqNorm (seg P.nP P.nX s.ref) = ∑ t ∈ Finset.range (P.T + 1), ∑ i : Fin P.ndx, (s.ref (P.nP + (t * P.ndx + i))) ^ 2 := by
    rw [sqNorm_exact, dotProduct]
    simp only [seg]
    rw [← Finset.sum_range (fun i => s.ref (P.nP + i) * s.ref (P.nP + i))]
    unfold Problem.nX
    rw [sum_blk]
    simp only [sq]
  rw [stopping]
  simp only
  rw [e1, e2, Finset.sum_range_succ, Finset.sum_range_succ' (n := P.T)]
  have hx : ∀ t ∈ Finset.range P.T, ∑ i : Fin P.ndx, (s.ref (t * P.ndx + i) + dF s.data s.lam (fun _ => 0) (t * P.ndx + i)) ^ 2 =
      ∑ i, (((P.calcDiffR t (xs t) (us t)).Lx + s.lam t - (P.calcDiffR t (xs t) (us t)).Fxᵀ *ᵥ s.lam (t + 1)) i) ^ 2 := by
    intro t ht
    have ht := Finset.mem_range.mp ht
    refine Finset.sum_congr rfl fun i _ => ?_
    rw [b1 t i ht, hR.x t i ht, KKT.fresh_diff s.data xs us ht, hrd t ht, mv_exact]
    simp only [Pi.add_apply, Pi.sub_apply]
    ring
  have hu : ∀ t ∈ Finset.range P.T, ∑ i : Fin (P.nu t), (s.ref (P.nX + offs P.nu t + i) + dF s.data s.lam (fun _ => 0) (P.nX + offs P.nu t + i)) ^ 2 =
      ∑ i, (((P.calcDiffR t (xs t) (us t)).Lu - (P.calcDiffR t (xs t) (us t)).Fuᵀ *ᵥ s.lam (t + 1)) i) ^ 2 := by
    intro t ht
    have ht := Finset.mem_range.mp ht
    refine Finset.sum_congr rfl fun i _ => ?_
    rw [b3 t i ht, hR.u t i ht, KKT.fresh_diff s.data xs us ht, hrd t ht, mv_exact]
    simp only [Pi.neg_apply, Pi.sub_apply]
    ring
  have hl : ∀ t ∈ Finset.range P.T, ∑ i : Fin P.ndx, (s.ref (P.nP + ((t + 1) * P.ndx + i))) ^ 2 =
      ∑ i, (P.diff (P.calcR t (xs t) (us t)).xnext (xs (t + 1)) i) ^ 2 := by
    intro t ht
    have ht := Finset.mem_range.mp ht
    refine Finset.sum_congr rfl fun i _ => ?_
    rw [hR.l t i ht, KKT.fresh_calc s.data xs us ht]
  have hxT : ∑ i : Fin P.ndx, (s.ref (P.T * P.ndx + i) + dF s.data s.lam (fun _ => 0) (P.T * P.ndx + i)) ^ 2 =
      ∑ i, (((P.calcDiffT (xs P.T)).Lx + s.lam P.T) i) ^ 2 := by
    refine Finset.sum_congr rfl fun i _ => ?_
    rw [b2 i, hR.xT i]
    rfl
  have hl0 : ∑ i : Fin P.ndx, (s.ref (P.nP + (0 * P.ndx + i))) ^ 2 = ∑ i, (P.diff P.x0 (xs 0) i) ^ 2 := by
    refine Finset.sum_congr rfl fun i _ => ?_
    rw [Nat.zero_mul, Nat.zero_add, hR.l0 i]
  rw [Finset.sum_congr rfl hx, Finset.sum_congr rfl hu, Finset.sum_congr rfl hl, hxT, hl0, optError]
  simp only [Finset.sum_add_distrib]
  ring

end Exact
end Mim
