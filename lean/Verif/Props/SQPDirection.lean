import Verif.Lemmas.BackwardExact
import Verif.Props.SQPLine

/-!
# The SQP direction in exact arithmetic (C18, C19) and gap contraction (C20)
-/
set_option linter.unusedSectionVars false
set_option linter.unusedSimpArgs false

namespace Mim
open Spec SQP Matrix

section
variable {F : Type} [Add F] [Sub F] [Mul F] [Div F] [Neg F] [Zero F] [One F] [FloatOps F] {P : Problem F}

/-- what `forwardPass` computes. -/
theorem SQP.forwardPass_eqs (s : SQP P) :
    let s' := forwardPass s
    s'.dx 0 = s.dx 0 ∧
    (∀ t, t < P.T → s'.du t = mv (-(s.bp.K t)) (s'.dx t) - s.bp.k t) ∧
    (∀ t, t < P.T → s'.dx (t + 1) = s.fs (t + 1) + mv (s.data.rd t).Fu (s'.du t) + mv (s.data.rd t).Fx (s'.dx t)) ∧
    (∀ t, t < P.T → s'.lagMul t = mv (s.bp.Vxx t) (s'.dx t - s.fs t) + s.bp.Vx t) ∧
    s'.lagMul P.T = s.bp.Vx P.T + mv (s.bp.Vxx P.T) (s'.dx P.T - s.fs P.T) := by
  have key : ∀ n, n ≤ P.T → ∀ s0 : SQP P,
      let s' := forUp n forwardStage s0
      (s'.data = s0.data ∧ s'.fs = s0.fs ∧ s'.bp = s0.bp) ∧ s'.dx 0 = s0.dx 0 ∧
      (∀ t, t < n → s'.du t = mv (-(s0.bp.K t)) (s'.dx t) - s0.bp.k t) ∧
      (∀ t, t < n → s'.dx (t + 1) = s0.fs (t + 1) + mv (s0.data.rd t).Fu (s'.du t) + mv (s0.data.rd t).Fx (s'.dx t)) ∧
      (∀ t, t < n → s'.lagMul t = mv (s0.bp.Vxx t) (s'.dx t - s0.fs t) + s0.bp.Vx t) := by
    intro n
    induction n with
    | zero => intro _ s0; exact ⟨⟨rfl, rfl, rfl⟩, rfl, fun t h => by omega, fun t h => by omega, fun t h => by omega⟩
    | succ n ih =>
      intro hn s0
      obtain ⟨⟨a1, a2, a3⟩, a4, a5, a6, a7⟩ := ih (by omega) s0
      simp only [forUp_succ]
      generalize forUp n forwardStage s0 = s1 at *
      have hdx : ∀ t, t ≤ n → (forwardStage n s1).dx t = s1.dx t := fun t ht => by
        simp only [forwardStage]; rw [Function.update_of_ne (by omega)]
      have hdu : ∀ t, t < n → (forwardStage n s1).du t = s1.du t := fun t ht => by
        simp only [forwardStage]; rw [Function.update_of_ne (by omega)]
      have hlm : ∀ t, t < n → (forwardStage n s1).lagMul t = s1.lagMul t := fun t ht => by
        simp only [forwardStage]; rw [Function.update_of_ne (by omega)]
      have e1 : (forwardStage n s1).du n = mv (-(s0.bp.K n)) (s1.dx n) - s0.bp.k n := by
        simp only [forwardStage, Function.update_self, a3]
      have e2 : (forwardStage n s1).dx (n + 1) = s0.fs (n + 1) + mv (s0.data.rd n).Fu ((forwardStage n s1).du n) +
          mv (s0.data.rd n).Fx (s1.dx n) := by
        rw [e1]; simp only [forwardStage, Function.update_self, a1, a2, a3]
      have e3 : (forwardStage n s1).lagMul n = mv (s0.bp.Vxx n) (s1.dx n - s0.fs n) + s0.bp.Vx n := by
        simp only [forwardStage, Function.update_self, a2, a3]
      refine ⟨⟨a1, a2, a3⟩, by rw [hdx 0 (by omega), a4], ?_, ?_, ?_⟩
      · intro t ht
        rcases Nat.lt_succ_iff_lt_or_eq.mp ht with h | rfl
        · rw [hdu t h, hdx t (by omega), a5 t h]
        · rw [e1, hdx t le_rfl]
      · intro t ht
        rcases Nat.lt_succ_iff_lt_or_eq.mp ht with h | rfl
        · rw [hdu t h, hdx t (by omega), hdx (t + 1) h, a6 t h]
        · rw [e2, hdx t le_rfl]
      · intro t ht
        rcases Nat.lt_succ_iff_lt_or_eq.mp ht with h | rfl
        · rw [hlm t h, hdx t (by omega), a7 t h]
        · rw [e3, hdx t le_rfl]
  obtain ⟨⟨a1, a2, a3⟩, a4, a5, a6, a7⟩ := key P.T le_rfl { s with xGrad := 0, uGrad := 0 }
  simp only []
  refine ⟨a4, a5, a6, ?_, ?_⟩
  · intro t ht
    have h := a7 t ht
    unfold forwardPass
    simp only []
    rw [Function.update_of_ne (by omega)]
    exact h
  · unfold forwardPass
    simp only [Function.update_self]
    rw [a2, a3]

/-- the state after a successful `computeDirection` in terms of the backward pass. -/
theorem SQP.computeDirection_ok {llt : LLT F} {r : Bool} {s s1 : SQP P} (h : computeDirection llt r s = .ok s1) :
    ∃ s0 : SQP P, ∃ b0 : BP P, s1 = forwardPass s0 ∧
      backwardPass llt s1.data s1.fs s.feas s1.preg s1.dreg b0 = .ok s0.bp ∧ s0.data = s1.data ∧ s0.fs = s1.fs ∧
      s0.dx = s.dx := by
  unfold computeDirection at h
  simp only [] at h
  split at h
  · rename_i b hb
    cases h
    have e1 : ∀ s : SQP P, (forwardPass s).data = s.data := forwardPass_frame data fun _ _ _ _ _ _ => rfl
    have e2 : ∀ s : SQP P, (forwardPass s).fs = s.fs := forwardPass_frame fs fun _ _ _ _ _ _ => rfl
    have e3 : ∀ s : SQP P, (forwardPass s).preg = s.preg := forwardPass_frame preg fun _ _ _ _ _ _ => rfl
    have e4 : ∀ s : SQP P, (forwardPass s).dreg = s.dreg := forwardPass_frame dreg fun _ _ _ _ _ _ => rfl
    refine ⟨_, s.bp, rfl, ?_, (e1 _).symm, (e2 _).symm, ?_⟩
    · rw [e1, e2, e3, e4]
      cases r
      · exact hb
      · exact hb
    · cases r <;> rfl
  · cases h
end

section
variable {K : Type} [Field K] [LinearOrder K] [IsStrictOrderedRing K] {P : Problem K}
variable {llt : LLT K} {fuel : ℕ} {xs : Option (Traj P)} {us : Option (Ctrls P)} {m : ℕ} {ri : K} {s s1 : SQP P} {r : Bool}

/-- direction and Riccati relation. -/
theorem computeDirection_riccati (hllt : LLTExact llt) (hf : s.feas = false)
    (h : computeDirection llt r s = .ok s1) (hsym : SymHess s1.data) :
    ∃ b : BP P, Riccati (lqOf s1.data s1.fs s1.preg s1.dreg) b.Vxx (fun t => b.Vx t - b.Vxx t *ᵥ s1.fs t) b.K b.k b.Quu ∧
      (∀ t, t < P.T → PosDef (b.Quu t)) ∧
      (lqOf s1.data s1.fs s1.preg s1.dreg).Dyn s1.dx s1.du ∧
      (∀ t, t < P.T → s1.du t = -(b.K t *ᵥ s1.dx t) - b.k t) ∧
      (∀ t, t ≤ P.T → s1.lagMul t = b.Vxx t *ᵥ s1.dx t + (b.Vx t - b.Vxx t *ᵥ s1.fs t)) := by
  obtain ⟨s0, b0, e, hb, hd, hfs, hdx⟩ := computeDirection_ok h
  obtain ⟨hr, hpd⟩ := backward_riccati hllt hsym hb
  rw [hf] at hr
  simp only [Bool.false_eq_true, if_false] at hr
  obtain ⟨f1, f2, f3, f4, f5⟩ := forwardPass_eqs s0
  rw [← e] at f1 f2 f3 f4 f5
  simp only [mv_exact, hd, hfs] at f2 f3 f4 f5
  refine ⟨s0.bp, hr, hpd, ?_, ?_, ?_⟩
  · intro t ht
    rw [f3 t ht]
    simp only [lqOf]
    abel
  · intro t ht
    rw [f2 t ht, Matrix.neg_mulVec]
  · intro t ht
    rcases Nat.eq_or_lt_of_le ht with rfl | ht
    · rw [f5, Matrix.mulVec_sub]; abel
    · rw [f4 t ht, Matrix.mulVec_sub]; abel

/-- a successful retry loop ends with a successful direction computation; nothing but regularization differs in its start. -/
theorem retry_true_feas {fuel : ℕ} {r : Bool} {s s1 : SQP P} (h : retry llt fuel r s = some (true, s1)) :
    ∃ s0 r0, computeDirection llt r0 s0 = .ok s1 ∧ s0.feas = s.feas := by
  induction fuel generalizing r s with
  | zero => cases h
  | succ n ih =>
    unfold retry at h
    split at h
    · rename_i s2 hs2
      simp only [Option.some.injEq, Prod.mk.injEq, true_and] at h
      subst h
      exact ⟨s, r, hs2, rfl⟩
    · rename_i s2 hs2
      have hf := computeDirection_frame (P := P) feas (fun _ _ _ _ _ _ _ _ _ _ _ _ => rfl) llt r s
      rw [hs2] at hf
      simp only [] at h
      split at h
      · simp at h
      · obtain ⟨s0, r0, h1, h2⟩ := ih h
        exact ⟨s0, r0, h1, h2.trans hf⟩

/-- **C18.**  In exact arithmetic, whenever a direction computation succeeds inside the retry loop (at the first attempt or
after any number of failed ones), the direction and the multipliers satisfy every equation of the KKT system of the quadratic
model with Hessian blocks `Lxx + preg I`, `Luu + dreg I`, `Lxu` under the linearised dynamics with the current gaps;
for a solver in any reachable state the first block of the direction is zero. -/
theorem C18_sqp_direction_kkt (hllt : LLTExact llt) (hf : s.feas = false)
    (h : retry llt fuel r s = some (true, s1)) (hsym : SymHess s1.data) :
    (lqOf s1.data s1.fs s1.preg s1.dreg).KKT s1.dx s1.du s1.lagMul ∧ (Reachable s → s1.dx 0 = 0) := by
  obtain ⟨s0, r0, h1, h2⟩ := retry_true_feas h
  obtain ⟨b, hr, hpd, hd, hu, hl⟩ := computeDirection_riccati hllt (h2.trans hf) h1 hsym
  exact ⟨hr.kkt hd hu hl, fun hs => (retry_dx0 h).trans hs.dx0⟩

/-- **C19.**  Among all `(dx', du')` satisfying the linearised dynamics with the same first state the computed direction
is the unique minimiser of the regularized quadratic model. -/
theorem C19_sqp_direction_minimal (hllt : LLTExact llt) (hf : s.feas = false)
    (h : retry llt fuel r s = some (true, s1)) (hsym : SymHess s1.data)
    {dx' : ℕ → Vec K P.ndx} {du' : (t : ℕ) → Vec K (P.nu t)}
    (hd' : (lqOf s1.data s1.fs s1.preg s1.dreg).Dyn dx' du') (h0 : dx' 0 = s1.dx 0) :
    (lqOf s1.data s1.fs s1.preg s1.dreg).cost s1.dx s1.du ≤ (lqOf s1.data s1.fs s1.preg s1.dreg).cost dx' du' ∧
    ((lqOf s1.data s1.fs s1.preg s1.dreg).cost dx' du' = (lqOf s1.data s1.fs s1.preg s1.dreg).cost s1.dx s1.du →
      (∀ t, t < P.T → du' t = s1.du t) ∧ ∀ t, t ≤ P.T → dx' t = s1.dx t) := by
  obtain ⟨s0, r0, h1, h2⟩ := retry_true_feas h
  obtain ⟨b, hr, hpd, hd, hu, hl⟩ := computeDirection_riccati hllt (h2.trans hf) h1 hsym
  exact hr.minimal hpd hd hd' h0 hu

/-- **C19, quantitative form.**  The excess of any other feasible direction is half the sum of squares, in the metric of
positive definite matrices, of its deviations from the feedback law. -/
theorem C19_sqp_excess (hllt : LLTExact llt) (hf : s.feas = false)
    (h : retry llt fuel r s = some (true, s1)) (hsym : SymHess s1.data) :
    ∃ (G : (t : ℕ) → Mat K (P.nu t) P.ndx) (k : (t : ℕ) → Vec K (P.nu t)) (Q : (t : ℕ) → Mat K (P.nu t) (P.nu t)),
      (∀ t, t < P.T → PosDef (Q t) ∧ s1.du t = -(G t *ᵥ s1.dx t) - k t) ∧
      ∀ dx' du', (lqOf s1.data s1.fs s1.preg s1.dreg).Dyn dx' du' → dx' 0 = s1.dx 0 →
        (lqOf s1.data s1.fs s1.preg s1.dreg).cost dx' du' = (lqOf s1.data s1.fs s1.preg s1.dreg).cost s1.dx s1.du +
          ∑ t ∈ Finset.range P.T, ((du' t + G t *ᵥ dx' t + k t) ⬝ᵥ (Q t *ᵥ (du' t + G t *ᵥ dx' t + k t))) / 2 := by
  obtain ⟨s0, r0, h1, h2⟩ := retry_true_feas h
  obtain ⟨b, hr, hpd, hd, hu, hl⟩ := computeDirection_riccati hllt (h2.trans hf) h1 hsym
  refine ⟨b.K, b.k, b.Quu, fun t ht => ⟨hpd t ht, hu t ht⟩, fun dx' du' hd' h0 => ?_⟩
  have c1 := hr.cost_sq hd
  have c2 := hr.cost_sq hd'
  have hs : ∑ t ∈ Finset.range P.T, ((s1.du t + b.K t *ᵥ s1.dx t + b.k t) ⬝ᵥ
      (b.Quu t *ᵥ (s1.du t + b.K t *ᵥ s1.dx t + b.k t))) / 2 = 0 :=
    Finset.sum_eq_zero fun t ht => by
      have : s1.du t + b.K t *ᵥ s1.dx t + b.k t = 0 := by rw [hu t (Finset.mem_range.mp ht)]; abel
      rw [this]; simp
  rw [hs] at c1
  rw [h0] at c2
  rw [c1, c2]; ring

end
end Mim
