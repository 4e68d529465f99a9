import Verif.Props.ProxRecognise
import Verif.Lemmas.ConvexLQ

/-!
# Constrained linear-quadratic problems: the QP at any point is the problem itself
-/
set_option linter.unusedSectionVars false
set_option linter.unusedSimpArgs false

namespace Mim
open Matrix Spec QP
variable {K : Type} [Field K] [LinearOrder K] [IsStrictOrderedRing K] {P : Problem K}

/-- the unique minimiser of the constrained optimal control problem over all trajectories that satisfy dynamics and bounds. -/
def Spec.OptimalCon (P : Problem K) (X : Traj P) (U : Ctrls P) : Prop :=
  Feasible P X U ∧ ConFeasible P X U ∧ ∀ X' U', Feasible P X' U' → ConFeasible P X' U' → trajCost P X U ≤ trajCost P X' U' ∧
    (trajCost P X' U' = trajCost P X U → (∀ t, t ≤ P.T → X' t = X t) ∧ ∀ t, t < P.T → U' t = U t)

/-- the constraint Jacobians are constant: derivatives of affine constraints. -/
structure Spec.ConstCon (P : Problem K) : Prop where
  Gx : ∀ t, t < P.T → ∀ x u x' u', (P.calcDiffR t x' u').Gx = (P.calcDiffR t x u).Gx
  Gu : ∀ t, t < P.T → ∀ x u x' u', (P.calcDiffR t x' u').Gu = (P.calcDiffR t x u).Gu
  GT : ∀ x x', (P.calcDiffT x').Gx = (P.calcDiffT x).Gx

theorem stageCost_mid {T n : ℕ} {m : ℕ → ℕ} (Q : LQ K T n m) (t : ℕ) (x x' : Vec K n) (u u' : Vec K (m t)) :
    Q.stageCost t ((2⁻¹ : K) • (x + x')) ((2⁻¹ : K) • (u + u')) = (Q.stageCost t x u + Q.stageCost t x' u') / 2 -
      ((x' - x) ⬝ᵥ (Q.Hxx t *ᵥ (x' - x)) + 2 * ((x' - x) ⬝ᵥ (Q.Hxu t *ᵥ (u' - u))) + (u' - u) ⬝ᵥ (Q.Huu t *ᵥ (u' - u))) / 8 := by
  simp only [LQ.stageCost, mulVec_smul, smul_dotProduct, dotProduct_smul, smul_eq_mul, mulVec_add, mulVec_sub, add_dotProduct, sub_dotProduct,
    dotProduct_add, dotProduct_sub]
  ring

/-- the cost half-way between two steps. -/
theorem cost_mid {T n : ℕ} {m : ℕ → ℕ} (Q : LQ K T n m) (x x' : ℕ → Vec K n) (u u' : (t : ℕ) → Vec K (m t)) :
    Q.cost (fun t => (2⁻¹ : K) • (x t + x' t)) (fun t => (2⁻¹ : K) • (u t + u' t)) = (Q.cost x u + Q.cost x' u') / 2 -
      Q.curv (fun t => x' t - x t) (fun t => u' t - u t) / 8 := by
  unfold LQ.cost LQ.curv
  rw [Finset.sum_congr rfl fun t _ => stageCost_mid Q t (x t) (x' t) (u t) (u' t), Finset.sum_sub_distrib, ← Finset.sum_div, ← Finset.sum_div,
    Finset.sum_add_distrib]
  simp only [mulVec_smul, smul_dotProduct, dotProduct_smul, smul_eq_mul, mulVec_add, mulVec_sub, add_dotProduct, sub_dotProduct,
    dotProduct_add, dotProduct_sub]
  ring

/-- a convex QP with positive curvature has one solution: a feasible step that is not more expensive is the same step. -/
theorem QPKKT.unique {d : Data P} {fs : ℕ → Vec K P.ndx} (hs : SymHess d) (hc : Convex d 0 0) (hp : (lqOf d fs 0 0).PosCurv)
    {x x' lam : ℕ → Vec K P.ndx} {u u' : (t : ℕ) → Vec K (P.nu t)} {y : (t : ℕ) → Vec K (P.ng t)} (h : QPKKT d fs 0 0 x u lam y)
    (h' : QPFeasible d fs x' u') (hle : (lqOf d fs 0 0).cost x' u' ≤ (lqOf d fs 0 0).cost x u) :
    (∀ t, t ≤ P.T → x' t = x t) ∧ ∀ t, t < P.T → u' t = u t := by
  have hdyn : ∀ t, t < P.T → x' (t + 1) - x (t + 1) = (d.rd t).Fx *ᵥ (x' t - x t) + (d.rd t).Fu *ᵥ (u' t - u t) := by
    intro t ht
    rw [h'.dyn t ht, h.feas.dyn t ht, mulVec_sub, mulVec_sub]
    abel
  have h0 : x' 0 - x 0 = 0 := by rw [h'.start, h.feas.start, sub_self]
  have hu : ∀ t, t < P.T → u' t - u t = 0 := by
    by_contra hne
    push Not at hne
    have hcv := hp (fun t => x' t - x t) (fun t => u' t - u t) ⟨h0, hdyn⟩ hne
    have hbox : ∀ {n : ℕ} {lb ub : Fin n → Option K} {g c c' : Vec K n}, InBox lb ub (g + c) → InBox lb ub (g + c') →
        InBox lb ub (g + (2⁻¹ : K) • (c + c')) := by
      intro n lb ub g c c' h1 h2 i
      have a1 := h1 i
      have a2 := h2 i
      refine ⟨fun l hl => ?_, fun w hw => ?_⟩
      · have b1 := a1.1 l hl
        have b2 := a2.1 l hl
        simp only [Pi.add_apply, Pi.smul_apply, smul_eq_mul] at b1 b2 ⊢
        linarith
      · have b1 := a1.2 w hw
        have b2 := a2.2 w hw
        simp only [Pi.add_apply, Pi.smul_apply, smul_eq_mul] at b1 b2 ⊢
        linarith
    have hfeas : QPFeasible d fs (fun t => (2⁻¹ : K) • (x t + x' t)) (fun t => (2⁻¹ : K) • (u t + u' t)) := by
      refine ⟨?_, fun t ht => ?_, fun t ht => ?_, ?_⟩
      · simp only [h.feas.start, h'.start, add_zero, smul_zero]
      · change (2⁻¹ : K) • (x (t + 1) + x' (t + 1)) = (d.rd t).Fx *ᵥ ((2⁻¹ : K) • (x t + x' t)) + (d.rd t).Fu *ᵥ ((2⁻¹ : K) • (u t + u' t)) + fs (t + 1)
        have e : fs (t + 1) = (2⁻¹ : K) • (fs (t + 1) + fs (t + 1)) := by
          funext i; simp only [Pi.add_apply, Pi.smul_apply, smul_eq_mul]; ring
        rw [h.feas.dyn t ht, h'.dyn t ht, mulVec_smul, mulVec_smul, mulVec_add, mulVec_add]
        nth_rw 3 [e]
        rw [← smul_add, ← smul_add]
        congr 1
        abel
      · have := hbox (h.feas.con t ht) (h'.con t ht)
        change InBox _ _ ((d.run t).g + conLin d t ((2⁻¹ : K) • (x t + x' t)) ((2⁻¹ : K) • (u t + u' t)))
        have e : conLin d t ((2⁻¹ : K) • (x t + x' t)) ((2⁻¹ : K) • (u t + u' t)) = (2⁻¹ : K) • (conLin d t (x t) (u t) + conLin d t (x' t) (u' t)) := by
          unfold conLin
          rw [mulVec_smul, mulVec_smul, mulVec_add, mulVec_add, ← smul_add]
          congr 1
          abel
        rw [e]
        exact this
      · have := hbox h.feas.conT h'.conT
        change InBox _ _ (d.ter.g + d.td.Gx *ᵥ ((2⁻¹ : K) • (x P.T + x' P.T)))
        rw [mulVec_smul, mulVec_add]
        exact this
    have g1 := QPKKT.global hs hc h hfeas
    rw [cost_mid] at g1
    linarith
  have hx : ∀ t, t ≤ P.T → x' t - x t = 0 := by
    intro t
    induction t with
    | zero => intro _; exact h0
    | succ t ih =>
      intro ht
      rw [hdyn t ht, ih (by omega), hu t ht]
      simp
  exact ⟨fun t ht => sub_eq_zero.mp (hx t ht), fun t ht => sub_eq_zero.mp (hu t ht)⟩

theorem violation_of_inBox {X : Traj P} {U : Ctrls P} (h : ConFeasible P X U) : violation P X U = 0 := by
  have row : ∀ {n : ℕ} {lb ub : Fin n → Option K} {c : Vec K n}, InBox lb ub c → ∑ i, rowViol (lb i) (ub i) (c i) = 0 := by
    intro n lb ub c h
    refine Finset.sum_eq_zero fun i _ => ?_
    unfold rowViol
    have h1 : ((lb i).elim 0 fun l => max (l - c i) 0) = 0 := by
      cases e : lb i with
      | none => rfl
      | some l => exact max_eq_right (sub_nonpos.mpr ((h i).1 l e))
    have h2 : ((ub i).elim 0 fun u => max (c i - u) 0) = 0 := by
      cases e : ub i with
      | none => rfl
      | some l => exact max_eq_right (sub_nonpos.mpr ((h i).2 l e))
    rw [h1, h2, add_zero]
  unfold violation
  rw [row h.2, add_zero]
  exact Finset.sum_eq_zero fun t ht => row (h.1 t (Finset.mem_range.mp ht))

section
variable {φ : P.X → Vec K P.ndx} (hE : Euclid P φ) (hA : AffineDyn P φ) (hQ : QuadGrad P φ) (hC : QuadCost P φ) (hG : AffineCon P φ)
  {d : Data P} {fs : ℕ → Vec K P.ndx} {X : Traj P} {U : Ctrls P} (f1 : FreshCalc P d X U) (f2 : FreshDiff P d X U)
  (f3 : ∀ t, t < P.T → fs (t + 1) = shootGap P X U t) (hx0 : X 0 = P.x0)

include hE hA hG f1 f2 f3 hx0 in
/-- a trajectory is feasible iff its difference to the current one is feasible for the QP. -/
theorem qpFeasible_iff (X' : Traj P) (U' : Ctrls P) :
    QPFeasible d fs (fun t => φ (X' t) - φ (X t)) (fun t => U' t - U t) ↔ Feasible P X' U' ∧ ConFeasible P X' U' := by
  have hgap : ∀ t, t < P.T → shootGap P X U t = φ (P.calcR t (X t) (U t)).xnext - φ (X (t + 1)) := fun t _ => hE.diff _ _
  have hdyn : ∀ t, t < P.T → (φ (X' (t + 1)) - φ (X (t + 1)) = (d.rd t).Fx *ᵥ (φ (X' t) - φ (X t)) + (d.rd t).Fu *ᵥ (U' t - U t) + fs (t + 1) ↔
      X' (t + 1) = (P.calcR t (X' t) (U' t)).xnext) := by
    intro t ht
    have e := hA t ht (X t) (U t) (X' t) (U' t)
    rw [f2.run t ht, f3 t ht, hgap t ht]
    constructor
    · intro h
      refine hE.inj _ _ ?_
      rw [e]
      have := eq_add_of_sub_eq h
      rw [this]; abel
    · intro h
      rw [h, e]; abel
  have hcon : ∀ t, t < P.T → (d.run t).g + conLin d t (φ (X' t) - φ (X t)) (U' t - U t) = (P.calcR t (X' t) (U' t)).g := by
    intro t ht
    rw [hG.run t ht (X t) (U t), f1.run t ht]
    unfold conLin
    rw [f2.run t ht]
    abel
  have hconT : d.ter.g + d.td.Gx *ᵥ (φ (X' P.T) - φ (X P.T)) = (P.calcT (X' P.T)).g := by
    rw [hG.ter (X P.T), f1.ter, f2.ter]
  constructor
  · intro h
    refine ⟨⟨?_, fun t ht => (hdyn t ht).1 (h.dyn t ht)⟩, fun t ht => ?_, ?_⟩
    · rw [← hx0]; exact hE.inj _ _ (sub_eq_zero.mp h.start)
    · rw [← hcon t ht]; exact h.con t ht
    · rw [← hconT]; exact h.conT
  · rintro ⟨⟨h1, h2⟩, h3, h4⟩
    refine ⟨?_, fun t ht => (hdyn t ht).2 (h2 t ht), fun t ht => ?_, ?_⟩
    · change φ (X' 0) - φ (X 0) = 0
      rw [h1, hx0, sub_self]
    · change InBox _ _ ((d.run t).g + conLin d t (φ (X' t) - φ (X t)) (U' t - U t))
      rw [hcon t ht]; exact h3 t ht
    · change InBox _ _ (d.ter.g + d.td.Gx *ᵥ (φ (X' P.T) - φ (X P.T)))
      rw [hconT]; exact h4

include hE hA hC hG f1 f2 f3 hx0 in
/-- the step of an exact QP solution leads to the unique solution of the constrained problem. -/
theorem optimalCon_of_qp (hP : Spec.SymProblem P) (hcv : ConvexProblem P) (hst : StrictControls P) {dx lam : ℕ → Vec K P.ndx}
    {du : (t : ℕ) → Vec K (P.nu t)} {y : (t : ℕ) → Vec K (P.ng t)} (hk : QPKKT d fs 0 0 dx du lam y) :
    OptimalCon P (stepX P X dx 1) (stepU P U du 1) := by
  have h2 : (fun t => φ (stepX P X dx 1 t) - φ (X t)) = dx := funext fun t => by
    unfold stepX; rw [hE.integrate, sv_exact, one_smul]; abel
  have h3 : (fun t => stepU P U du 1 t - U t) = du := funext fun t => by
    unfold stepU; rw [sv_exact, one_smul]; abel
  have hsym := symHess_of_fresh hP f2
  have hcx : Convex d 0 0 := ⟨fun t ht x u => by
      rw [f2.run t ht]; have := hcv.stage t ht (X t) (U t) x u; simpa using this, fun x => by
      rw [f2.ter]; have := hcv.term (X P.T) x; simpa using this⟩
  have hpc : (lqOf d fs 0 0).PosCurv := posCurv_of_convexData le_rfl le_rfl
    (fun t ht x u => by rw [f2.run t ht]; exact hcv.stage t ht _ _ x u) (fun x => by rw [f2.ter]; exact hcv.term _ x)
    (.inl fun t ht => by rw [f2.run t ht]; exact hst t ht _ _)
  have hf := (qpFeasible_iff hE hA hG f1 f2 f3 hx0 (stepX P X dx 1) (stepU P U du 1)).1 (by rw [h2, h3]; exact hk.feas)
  have hm := trajCost_model (fs := fs) hC f2 (stepX P X dx 1) (stepU P U du 1)
  rw [h2, h3] at hm
  refine ⟨hf.1, hf.2, fun X' U' hX hcX => ?_⟩
  have hq := (qpFeasible_iff hE hA hG f1 f2 f3 hx0 X' U').2 ⟨hX, hcX⟩
  have hm' := trajCost_model (fs := fs) hC f2 X' U'
  refine ⟨?_, fun heq => ?_⟩
  · rw [hm, hm']
    have := QPKKT.global hsym hcx hk hq
    linarith
  · obtain ⟨u1, u2⟩ := QPKKT.unique hsym hcx hpc hk hq (by rw [hm, hm'] at heq; linarith)
    refine ⟨fun t ht => hE.inj _ _ ?_, fun t ht => ?_⟩
    · have e : φ (stepX P X dx 1 t) - φ (X t) = dx t := congrFun h2 t
      have := u1 t ht
      rw [← e] at this
      exact sub_left_inj.mp this
    · have e : stepU P U du 1 t - U t = du t := congrFun h3 t
      have := u2 t ht
      rw [← e] at this
      exact sub_left_inj.mp this

include hE hA hQ hG f1 f2 f3 hx0 in
/-- after the step of an exact QP solution its multipliers satisfy the optimality conditions exactly. -/
theorem pkkt_of_qp (hJ : ConstCon P) (hT : 0 < P.T) {dx lam : ℕ → Vec K P.ndx} {du : (t : ℕ) → Vec K (P.nu t)}
    {y : (t : ℕ) → Vec K (P.ng t)} (hk : QPKKT d fs 0 0 dx du lam y) :
    IsPKKT P 0 (stepX P X dx 1) (stepU P U du 1) lam y ∧ Complementary P (stepX P X dx 1) (stepU P U du 1) y := by
  have h2 : ∀ t, φ (stepX P X dx 1 t) - φ (X t) = dx t := fun t => by
    unfold stepX; rw [hE.integrate, sv_exact, one_smul]; abel
  have h3 : ∀ t, stepU P U du 1 t - U t = du t := fun t => by
    unfold stepU; rw [sv_exact, one_smul]; abel
  have hz : ∀ {n : ℕ} {v : Vec K n}, v = 0 → ∀ i, |v i| ≤ 0 := fun h i => by rw [h]; simp
  have hf := (qpFeasible_iff hE hA hG f1 f2 f3 hx0 (stepX P X dx 1) (stepU P U du 1)).1 (by
    rw [funext h2, funext h3]; exact hk.feas)
  have hcon : ∀ t, t < P.T → (d.run t).g + conLin d t (dx t) (du t) = (P.calcR t (stepX P X dx 1 t) (stepU P U du 1 t)).g := by
    intro t ht
    rw [hG.run t ht (X t) (U t), f1.run t ht, h2, h3]
    unfold conLin
    rw [f2.run t ht]
    abel
  have hconT : d.ter.g + d.td.Gx *ᵥ dx P.T = (P.calcT (stepX P X dx 1 P.T)).g := by
    rw [hG.ter (X P.T), f1.ter, f2.ter, h2]
  refine ⟨⟨fun t h0 ht => hz ?_, fun t ht => hz ?_, hz ?_, fun t ht => hz ?_, ?_⟩, fun t ht i => ?_, fun i => ?_⟩
  · have := hk.stat_x t h0 ht
    simp only [zero_smul, add_zero, f2.run t ht] at this
    rw [hQ.Lx t ht (X t) (U t), hQ.Fx t ht (X t) (U t), hJ.Gx t ht (X t) (U t), h2, h3, ← this]
    abel
  · have := hk.stat_u t ht
    simp only [zero_smul, add_zero, f2.run t ht] at this
    rw [hQ.Lu t ht (X t) (U t), hQ.Fu t ht (X t) (U t), hJ.Gu t ht (X t) (U t), h2, h3, ← this]
    abel
  · have := hk.stat_T
    simp only [zero_smul, add_zero, f2.ter] at this
    rw [hQ.LT (X P.T), hJ.GT (X P.T), h2, ← this]
    abel
  · unfold shootGap
    rw [hE.diff, hf.1.2 t ht, sub_self]
  · refine le_of_eq (violation_of_inBox hf.2)
  · have := hk.compl t ht i
    rw [hcon t ht] at this
    exact this
  · have := hk.complT i
    rw [hconT] at this
    exact this

end
end Mim
