import Verif.Spec.ConvexCost
import Verif.Lemmas.ConvexLQ
import Verif.Lemmas.QPOpt
import Verif.Spec.Stacked

/-!
# Approximate KKT points of convex problems are approximately optimal
-/
set_option linter.unusedSectionVars false
set_option linter.unusedSimpArgs false

namespace Mim
open Spec Matrix
variable {K : Type} [Field K] [LinearOrder K] [IsStrictOrderedRing K] {P : Problem K}

theorem sumAbs_nonneg {n : ℕ} (v : Vec K n) : 0 ≤ sumAbs v := Finset.sum_nonneg fun _ _ => abs_nonneg _

/-- a vector with entries at most `tol`, paired with another. -/
theorem dot_ge {n : ℕ} {r : Vec K n} {tol : K} (h : ∀ i, |r i| ≤ tol) (v : Vec K n) : -(tol * sumAbs v) ≤ r ⬝ᵥ v := by
  unfold sumAbs dotProduct
  rw [Finset.mul_sum, ← Finset.sum_neg_distrib]
  refine Finset.sum_le_sum fun i _ => ?_
  have h1 : |r i * v i| ≤ tol * |v i| := by
    rw [abs_mul]; exact mul_le_mul_of_nonneg_right (h i) (abs_nonneg _)
  linarith [neg_abs_le (r i * v i)]

/-- quadratic convex costs are convex. -/
theorem convexCost_of_quad {φ : P.X → Vec K P.ndx} (hC : QuadCost P φ) (hcv : ConvexProblem P) : ConvexCost P φ := by
  refine ⟨fun t ht x u x' u' => ?_, fun x x' => ?_⟩
  · rw [hC.run t ht x u x' u']
    linarith [hcv.stage t ht x u (φ x' - φ x) (u' - u)]
  · rw [hC.ter x x']
    linarith [hcv.term x (φ x' - φ x)]

/-- The gap to any feasible trajectory of a point whose Lagrangian gradient is small; `wx`, `wu`, `wT` is the part of that
gradient that comes from constraints. -/
theorem subopt_core {φ : P.X → Vec K P.ndx} (hE : Euclid P φ) (hA : AffineDyn P φ) (hC : ConvexCost P φ) {tol tol0 : K}
    {X : Traj P} {U : Ctrls P} {lam : ℕ → Vec K P.ndx} (wx : ℕ → Vec K P.ndx) (wu : (t : ℕ) → Vec K (P.nu t)) (wT : Vec K P.ndx)
    (sx : ∀ t, t < P.T → ∀ i, |((P.calcDiffR t (X t) (U t)).Lx + (P.calcDiffR t (X t) (U t)).Fxᵀ *ᵥ lam (t + 1) - lam t + wx t) i| ≤ tol)
    (su : ∀ t, t < P.T → ∀ i, |((P.calcDiffR t (X t) (U t)).Lu + (P.calcDiffR t (X t) (U t)).Fuᵀ *ᵥ lam (t + 1) + wu t) i| ≤ tol)
    (sT : ∀ i, |((P.calcDiffT (X P.T)).Lx - lam P.T + wT) i| ≤ tol)
    (h0 : ∀ i, |P.diff (X 0) P.x0 i| ≤ tol0) (hg : ∀ t, t < P.T → ∀ i, |shootGap P X U t i| ≤ tol)
    {X' : Traj P} {U' : Ctrls P} (hf : Feasible P X' U') :
    trajCost P X U ≤ trajCost P X' U' + tol * (trajDist P φ X U X' U' + multNorm P lam) + tol0 * sumAbs (lam 0) +
      ((∑ t ∈ Finset.range P.T, (wx t ⬝ᵥ (φ (X' t) - φ (X t)) + wu t ⬝ᵥ (U' t - U t))) + wT ⬝ᵥ (φ (X' P.T) - φ (X P.T))) := by
  have node : ∀ t, t < P.T → nodeCost P X U t ≤ nodeCost P X' U' t +
      tol * (sumAbs (φ (X' t) - φ (X t)) + sumAbs (U' t - U t) + sumAbs (lam (t + 1))) +
      (wx t ⬝ᵥ (φ (X' t) - φ (X t)) + wu t ⬝ᵥ (U' t - U t)) +
      (lam (t + 1) ⬝ᵥ (φ (X' (t + 1)) - φ (X (t + 1))) - lam t ⬝ᵥ (φ (X' t) - φ (X t))) := by
    intro t ht
    have c := hC.run t ht (X t) (U t) (X' t) (U' t)
    have a := hA t ht (X t) (U t) (X' t) (U' t)
    rw [← hf.2 t ht] at a
    have e1 := dot_ge (sx t ht) (φ (X' t) - φ (X t))
    have e2 := dot_ge (su t ht) (U' t - U t)
    have e3 := dot_ge (hg t ht) (lam (t + 1))
    unfold shootGap at e3
    rw [hE.diff] at e3
    generalize P.calcDiffR t (X t) (U t) = D at *
    have e4 : lam (t + 1) ⬝ᵥ (φ (X' (t + 1)) - φ (X (t + 1))) = (φ (P.calcR t (X t) (U t)).xnext - φ (X (t + 1))) ⬝ᵥ lam (t + 1) +
        (D.Fxᵀ *ᵥ lam (t + 1)) ⬝ᵥ (φ (X' t) - φ (X t)) + (D.Fuᵀ *ᵥ lam (t + 1)) ⬝ᵥ (U' t - U t) := by
      rw [a, Matrix.mulVec_transpose, Matrix.mulVec_transpose, ← Matrix.dotProduct_mulVec, ← Matrix.dotProduct_mulVec,
        dotProduct_comm (φ _ - φ _) (lam (t + 1)), ← dotProduct_add, ← dotProduct_add]
      congr 1; abel
    simp only [add_dotProduct, sub_dotProduct] at e1 e2
    unfold nodeCost
    linarith
  have term := hC.ter (X P.T) (X' P.T)
  have e1 := dot_ge sT (φ (X' P.T) - φ (X P.T))
  have e0 := dot_ge h0 (lam 0)
  rw [hE.diff, ← hf.1] at e0
  have tele := Finset.sum_range_sub (fun t => lam t ⬝ᵥ (φ (X' t) - φ (X t))) P.T
  have all := Finset.sum_le_sum fun t (ht : t ∈ Finset.range P.T) => node t (Finset.mem_range.mp ht)
  simp only [Finset.sum_add_distrib, ← Finset.mul_sum] at all
  unfold trajCost trajDist multNorm
  rw [sumUp_exact, sumUp_exact, Finset.sum_range_succ (fun t => sumAbs (φ (X' t) - φ (X t)))]
  simp only [add_dotProduct, sub_dotProduct] at e1
  rw [dotProduct_comm] at e0
  simp only [Finset.sum_add_distrib]
  simp only [Finset.sum_sub_distrib] at all tele
  linarith

/-- the same for a trajectory that starts at the initial state: nothing is needed at the first node. -/
theorem subopt_pinned {φ : P.X → Vec K P.ndx} (hE : Euclid P φ) (hA : AffineDyn P φ) (hC : ConvexCost P φ) {tol : K} (ht0 : 0 ≤ tol)
    {X : Traj P} {U : Ctrls P} {lam : ℕ → Vec K P.ndx} (wx : ℕ → Vec K P.ndx) (wu : (t : ℕ) → Vec K (P.nu t)) (wT : Vec K P.ndx)
    (hT : 0 < P.T)
    (sx : ∀ t, 0 < t → t < P.T → ∀ i,
      |((P.calcDiffR t (X t) (U t)).Lx + (P.calcDiffR t (X t) (U t)).Fxᵀ *ᵥ lam (t + 1) - lam t + wx t) i| ≤ tol)
    (su : ∀ t, t < P.T → ∀ i, |((P.calcDiffR t (X t) (U t)).Lu + (P.calcDiffR t (X t) (U t)).Fuᵀ *ᵥ lam (t + 1) + wu t) i| ≤ tol)
    (sT : ∀ i, |((P.calcDiffT (X P.T)).Lx - lam P.T + wT) i| ≤ tol)
    (h0 : X 0 = P.x0) (hg : ∀ t, t < P.T → ∀ i, |shootGap P X U t i| ≤ tol)
    {X' : Traj P} {U' : Ctrls P} (hf : Feasible P X' U') :
    trajCost P X U ≤ trajCost P X' U' + tol * (trajDist P φ X U X' U' + multNorm P lam) +
      ((∑ t ∈ Finset.range P.T, (wx t ⬝ᵥ (φ (X' t) - φ (X t)) + wu t ⬝ᵥ (U' t - U t))) + wT ⬝ᵥ (φ (X' P.T) - φ (X P.T))) := by
  have hs : ∀ (v : Vec K P.ndx) t, Function.update lam 0 v (t + 1) = lam (t + 1) := fun v t =>
    Function.update_of_ne (Nat.succ_ne_zero t) _ _
  have := subopt_core (tol := tol) (tol0 := 0) (X := X) (U := U)
    (lam := Function.update lam 0 ((P.calcDiffR 0 (X 0) (U 0)).Lx + (P.calcDiffR 0 (X 0) (U 0)).Fxᵀ *ᵥ lam 1 + wx 0))
    hE hA hC wx wu wT ?_ ?_ ?_ ?_ hg hf
  · have e : multNorm P (Function.update lam 0 ((P.calcDiffR 0 (X 0) (U 0)).Lx + (P.calcDiffR 0 (X 0) (U 0)).Fxᵀ *ᵥ lam 1 + wx 0)) =
        multNorm P lam := by
      unfold multNorm; simp only [hs]
    rw [e] at this
    linarith
  · intro t ht i
    rw [hs]
    rcases Nat.eq_zero_or_pos t with rfl | hp
    · rw [Function.update_self, zero_add]
      have : ((P.calcDiffR 0 (X 0) (U 0)).Lx + (P.calcDiffR 0 (X 0) (U 0)).Fxᵀ *ᵥ lam 1 -
        ((P.calcDiffR 0 (X 0) (U 0)).Lx + (P.calcDiffR 0 (X 0) (U 0)).Fxᵀ *ᵥ lam 1 + wx 0) + wx 0) = 0 := by abel
      rw [this]; simpa using ht0
    · rw [Function.update_of_ne hp.ne']; exact sx t hp ht i
  · intro t ht i; rw [hs]; exact su t ht i
  · intro i; rw [Function.update_of_ne hT.ne']; exact sT i
  · intro i; rw [hE.diff, h0]; simp

theorem rowGap_ge {lb ub : Option K} {g g' y : K} (hs : (0 < y → ub ≠ none) ∧ (y < 0 → lb ≠ none))
    (hb : (∀ l, lb = some l → l ≤ g') ∧ ∀ u, ub = some u → g' ≤ u) : y * (g' - g) ≤ rowGap lb ub g y := by
  unfold rowGap
  rcases lt_trichotomy y 0 with h | h | h
  · rw [if_neg (not_lt.mpr h.le), if_pos h]
    cases lb with
    | none => exact absurd rfl (hs.2 h)
    | some l => exact mul_le_mul_of_nonpos_left (by linarith [hb.1 l rfl]) h.le
  · subst h; simp
  · rw [if_pos h]
    cases ub with
    | none => exact absurd rfl (hs.1 h)
    | some u => exact mul_le_mul_of_nonneg_left (by linarith [hb.2 u rfl]) h.le

/-- a complementary row has no gap. -/
theorem rowGap_zero {lb ub : Option K} {g y : K} (h : RowCompl lb ub g y) : rowGap lb ub g y = 0 := by
  unfold rowGap
  rcases lt_trichotomy y 0 with h1 | h1 | h1
  · rw [if_neg (not_lt.mpr h1.le), if_pos h1, h.2 h1]; simp
  · subst h1; simp
  · rw [if_pos h1, h.1 h1]; simp

theorem complGap_zero {X : Traj P} {U : Ctrls P} {y : (t : ℕ) → Vec K (P.ng t)} (h : Complementary P X U y) : complGap P X U y = 0 := by
  unfold complGap
  rw [Finset.sum_eq_zero fun t ht => Finset.sum_eq_zero fun i _ => rowGap_zero (h.1 t (Finset.mem_range.mp ht) i),
    Finset.sum_eq_zero fun i _ => rowGap_zero (h.2 i), add_zero]

theorem signsOK_of_compl {X : Traj P} {U : Ctrls P} {y : (t : ℕ) → Vec K (P.ng t)} (h : Complementary P X U y) : SignsOK P y := by
  intro t ht i
  rcases ht.lt_or_eq with h1 | rfl
  · exact ⟨fun hp => by rw [(h.1 t h1 i).1 hp]; simp, fun hp => by rw [(h.1 t h1 i).2 hp]; simp⟩
  · exact ⟨fun hp => by rw [(h.2 i).1 hp]; simp, fun hp => by rw [(h.2 i).2 hp]; simp⟩

/-- constraint multipliers in the normal cone at displaced constraint values: the gap is the pairing with the displacement. -/
theorem rowGap_cone {lb ub : Option K} {g z y : K} (h : (0 < y → ub = some (g + z)) ∧ (y < 0 → lb = some (g + z))) :
    rowGap lb ub g y = y * z := by
  unfold rowGap
  rcases lt_trichotomy y 0 with h1 | h1 | h1
  · rw [if_neg (not_lt.mpr h1.le), if_pos h1, h.2 h1]; simp
  · subst h1; simp
  · rw [if_pos h1, h.1 h1]; simp

/-- the constrained bound, from the conditions the solvers check. -/
theorem subopt_con {φ : P.X → Vec K P.ndx} (hE : Euclid P φ) (hA : AffineDyn P φ) (hC : ConvexCost P φ) (hG : AffineCon P φ) {tol : K}
    (ht0 : 0 ≤ tol) (hT : 0 < P.T) {X : Traj P} {U : Ctrls P} {lam : ℕ → Vec K P.ndx} {y : (t : ℕ) → Vec K (P.ng t)} (hk : IsPKKT P tol X U lam y) (h0 : X 0 = P.x0)
    (hs : SignsOK P y) {X' : Traj P} {U' : Ctrls P} (hf : Feasible P X' U') (hc : ConFeasible P X' U') :
    trajCost P X U ≤ trajCost P X' U' + tol * (trajDist P φ X U X' U' + multNorm P lam) + complGap P X U y := by
  have h := subopt_pinned hE hA hC ht0 (fun t => (P.calcDiffR t (X t) (U t)).Gxᵀ *ᵥ y t) (fun t => (P.calcDiffR t (X t) (U t)).Guᵀ *ᵥ y t)
    ((P.calcDiffT (X P.T)).Gxᵀ *ᵥ y P.T) hT hk.stat_x hk.stat_u hk.stat_T h0 hk.gaps hf
  refine h.trans (add_le_add_right ?_ _)
  unfold complGap
  refine add_le_add (Finset.sum_le_sum fun t ht => ?_) ?_
  · have ht := Finset.mem_range.mp ht
    have e := hG.run t ht (X t) (U t) (X' t) (U' t)
    have e2 : ((P.calcDiffR t (X t) (U t)).Gxᵀ *ᵥ y t) ⬝ᵥ (φ (X' t) - φ (X t)) + ((P.calcDiffR t (X t) (U t)).Guᵀ *ᵥ y t) ⬝ᵥ (U' t - U t) =
        y t ⬝ᵥ ((P.calcR t (X' t) (U' t)).g - (P.calcR t (X t) (U t)).g) := by
      rw [e, Matrix.mulVec_transpose, Matrix.mulVec_transpose, ← Matrix.dotProduct_mulVec, ← Matrix.dotProduct_mulVec, ← dotProduct_add]
      congr 1; abel
    rw [e2]
    exact Finset.sum_le_sum fun i _ => rowGap_ge (hs t ht.le i) (hc.1 t ht i)
  · have e := hG.ter (X P.T) (X' P.T)
    have e2 : ((P.calcDiffT (X P.T)).Gxᵀ *ᵥ y P.T) ⬝ᵥ (φ (X' P.T) - φ (X P.T)) = y P.T ⬝ᵥ ((P.calcT (X' P.T)).g - (P.calcT (X P.T)).g) := by
      rw [e, Matrix.mulVec_transpose, ← Matrix.dotProduct_mulVec]
      congr 1; abel
    rw [e2]
    exact Finset.sum_le_sum fun i _ => rowGap_ge (hs _ le_rfl i) (hc.2 i)

theorem IsCKKT.toP {tol : K} {X : Traj P} {U : Ctrls P} {lam : ℕ → Vec K P.ndx} {y : (t : ℕ) → Vec K (P.ng t)} (h : IsCKKT P tol X U lam y) :
    IsPKKT P tol X U lam y := ⟨fun t _ ht => h.stat_x t ht, h.stat_u, h.stat_T, h.gaps, h.feas⟩

end Mim
