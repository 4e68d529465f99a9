import Verif.Props.PyOsqp
import Verif.Props.PyBoyd
import Verif.Props.PyOsqpEx

/-!
# Convergence rate of the QP solvers written in Python while their penalty does not change (C85, C86)
-/
set_option linter.unusedSectionVars false
set_option linter.unusedSimpArgs false

namespace Mim
open QP Spec Matrix
variable {K : Type} [Field K] [LinearOrder K] [IsStrictOrderedRing K]

/-- a nonnegative quantity that decreases by `e j` in step `j` gives a small `e j` among the first `k`. -/
theorem small_among {d e : ℕ → K} (k : ℕ) (hk : 0 < k) (h : ∀ j, j < k → d (j + 1) + e j ≤ d j) (hd : 0 ≤ d k) :
    ∃ j, j < k ∧ (k : K) * e j ≤ d 0 := by
  have hsum : ∀ n, n ≤ k → d n + ∑ j ∈ Finset.range n, e j ≤ d 0 := by
    intro n
    induction n with
    | zero => intro _; simp
    | succ n ih =>
      intro hn
      rw [Finset.sum_range_succ]
      have h1 := ih (by omega)
      have h2 := h n (by omega)
      linarith
  by_contra hc
  push Not at hc
  have h1 := hsum k le_rfl
  have h2 : ∑ j ∈ Finset.range k, (k : K) * e j > ∑ _j ∈ Finset.range k, d 0 :=
    Finset.sum_lt_sum_of_nonempty (Finset.nonempty_range_iff.mpr (by omega)) fun j hj => hc j (Finset.mem_range.mp hj)
  rw [Finset.sum_const, Finset.card_range, nsmul_eq_mul, ← Finset.mul_sum] at h2
  have hkp : (0 : K) < k := by exact_mod_cast hk
  have h3 := lt_of_mul_lt_mul_left h2 hkp.le
  linarith

namespace OState
variable [SqrtOps K] {n m : ℕ} {sp : SpSolve K} {c : OConf K} {D : OQP K n m}

/-- every iterate but the first has `z` within the bounds and `y` in their normal cone. -/
theorem after_cone (h0 : 0 < c.rhoMin) (h1 : c.rhoMin ≤ c.rhoMax) (hb : BoxOK D.l D.u) (s : OState K n m) (j : ℕ) :
    InBox D.l D.u (after sp c D (s.init c D) (j + 1)).z ∧
    NormalCone D.l D.u (after sp c D (s.init c D) (j + 1)).z (after sp c D (s.init c D) (j + 1)).y := by
  have hrho := (Rho.init (D := D) h0 h1 s).after (sp := sp) (D := D) h0 h1 j
  obtain ⟨-, -, e3, e4, -⟩ := step_spec (sp := sp) (c := c) (D := D) (after sp c D (s.init c D) j) (j + 1)
  have hs := clip_split hb (w := c.alpha • ((after sp c D (s.init c D) j).solveSys sp c D).zt + (1 - c.alpha) • (after sp c D (s.init c D) j).z)
    (y := (after sp c D (s.init c D) j).y) hrho.pos
  rw [← e3, ← e4] at hs
  exact hs

/-- **C85 (g).**  Exact linear solver, convex QP with a solution `(xs, ys)`, `0 < alpha < 2`: as long as the penalties do not change
after the first iteration, some iteration among `2 … k + 1` moves by little: `k · alpha (2 - alpha) (sigma ‖x̃ - x‖² + ‖A x̃ - z‖²_rho)`
is at most the distance of the first iterate from the solution.  The residual of the ADMM iteration vanishes at least like `1 / √k`. -/
theorem C85_osqp_rate (hsp : SpExact sp) (hP : PSD D.P) (hs : 0 < c.sigma) (ha : 0 < c.alpha)
    (h0 : 0 < c.rhoMin) (h1 : c.rhoMin ≤ c.rhoMax) (hb : BoxOK D.l D.u) (s : OState K n m) {xs : Vec K n} {ys : Vec K m}
    (hk : BoxKKT D xs ys) (k : ℕ) (hkp : 0 < k)
    (hconst : ∀ j, j < k → (after sp c D (s.init c D) (j + 1)).rhoVec = (after sp c D (s.init c D) 1).rhoVec) :
    ∃ j, j < k ∧
      (k : K) * (c.alpha * (2 - c.alpha) * (c.sigma * sqDist (after sp c D (s.init c D) (j + 2)).xt (after sp c D (s.init c D) (j + 1)).x +
        wDist (after sp c D (s.init c D) 1).rhoVec (D.A *ᵥ (after sp c D (s.init c D) (j + 2)).xt) (after sp c D (s.init c D) (j + 1)).z)) ≤
      osqpDist D (after sp c D (s.init c D) 1).rhoVec c.sigma (after sp c D (s.init c D) 1).x (after sp c D (s.init c D) 1).z
        (after sp c D (s.init c D) 1).y xs ys := by
  have hpos : ∀ j i, 0 < (after sp c D (s.init c D) j).rhoVec i := fun j =>
    ((Rho.init (D := D) h0 h1 s).after (sp := sp) (D := D) h0 h1 j).pos
  refine small_among (d := fun j => osqpDist D (after sp c D (s.init c D) 1).rhoVec c.sigma (after sp c D (s.init c D) (j + 1)).x
    (after sp c D (s.init c D) (j + 1)).z (after sp c D (s.init c D) (j + 1)).y xs ys) k hkp (fun j hj => ?_) ?_
  · obtain ⟨hz, hy⟩ := after_cone (sp := sp) h0 h1 hb s j
    have := C85_osqp_fejer (c := c) hsp hP hs ha (after sp c D (s.init c D) (j + 1)) (hpos (j + 1)) hz hy (j + 2) hk
    rw [hconst j hj] at this
    exact this
  · refine add_nonneg (mul_nonneg hs.le (boxSqDist_nonneg _ _)) ?_
    exact Finset.sum_nonneg fun i _ => div_nonneg (sq_nonneg _) (hpos 1 i).le

end OState

namespace BState
variable [SqrtOps K] {n e m : ℕ} {sp : SpSolve K} {c : OConf K} {D : BQP K n e m}

theorem after_cone (h0 : 0 < c.rhoMin) (h1 : c.rhoMin ≤ c.rhoMax) (hb : BoxOK D.l D.u) (s : BState K n e m) (j : ℕ) :
    InBox D.l D.u (after sp c D (s.init c D) (j + 1)).z ∧
    NormalCone D.l D.u (after sp c D (s.init c D) (j + 1)).z (after sp c D (s.init c D) (j + 1)).y := by
  have hrho := (Rho.init (D := D) h0 h1 s).after (sp := sp) (D := D) h0 h1 j
  obtain ⟨e3, e4, -⟩ := step_spec (sp := sp) (c := c) (D := D) (after sp c D (s.init c D) j) (j + 1)
  have hs := clip_split hb (w := c.alpha • (D.A *ᵥ (after sp c D (s.init c D) (j + 1)).x) + (1 - c.alpha) • (after sp c D (s.init c D) j).z)
    (y := (after sp c D (s.init c D) j).y) hrho.pos
  change _ = _ at e3
  rw [show after sp c D (s.init c D) (j + 1) = (after sp c D (s.init c D) j).step sp c D (j + 1) from rfl] at hs ⊢
  rw [← e3, ← e4] at hs
  exact hs

/-- **C86 (h).**  The same for `StagewiseQPKKT`, `0 < alpha ≤ 2`, exact linear solver, convex QP with independent equality rows. -/
theorem C86_boyd_rate (hsp : SpExact sp) (hP : PSD D.P) (hE : FullRank D.E) (hs : 0 < c.sigma) (ha : 0 < c.alpha)
    (h0 : 0 < c.rhoMin) (h1 : c.rhoMin ≤ c.rhoMax) (hb : BoxOK D.l D.u) (s : BState K n e m) {xs : Vec K n} {ys : Vec K m} {vs : Vec K e}
    (hk : BoxEqKKT D xs ys vs) (k : ℕ) (hkp : 0 < k)
    (hconst : ∀ j, j < k → (after sp c D (s.init c D) (j + 1)).rhoVec = (after sp c D (s.init c D) 1).rhoVec) :
    ∃ j, j < k ∧
      (k : K) * (c.alpha * c.sigma * sqDist (after sp c D (s.init c D) (j + 2)).x (after sp c D (s.init c D) (j + 1)).x +
        c.alpha * (2 - c.alpha) *
          wDist (after sp c D (s.init c D) 1).rhoVec (D.A *ᵥ (after sp c D (s.init c D) (j + 2)).x) (after sp c D (s.init c D) (j + 1)).z) ≤
      boydDist D.toOQP (after sp c D (s.init c D) 1).rhoVec c.sigma c.alpha (after sp c D (s.init c D) 1).x (after sp c D (s.init c D) 1).z
        (after sp c D (s.init c D) 1).y xs ys := by
  have hpos : ∀ j i, 0 < (after sp c D (s.init c D) j).rhoVec i := fun j =>
    ((Rho.init (D := D) h0 h1 s).after (sp := sp) (D := D) h0 h1 j).pos
  refine small_among (d := fun j => boydDist D.toOQP (after sp c D (s.init c D) 1).rhoVec c.sigma c.alpha (after sp c D (s.init c D) (j + 1)).x
    (after sp c D (s.init c D) (j + 1)).z (after sp c D (s.init c D) (j + 1)).y xs ys) k hkp (fun j hj => ?_) ?_
  · obtain ⟨hz, hy⟩ := after_cone (sp := sp) h0 h1 hb s j
    have := C86_boyd_fejer (c := c) hsp hP hE hs ha (after sp c D (s.init c D) (j + 1)) (hpos (j + 1)) hz hy (j + 2) hk
    rw [hconst j hj] at this
    rw [add_assoc] at this
    exact this
  · refine add_nonneg (mul_nonneg (mul_nonneg ha.le hs.le) (boxSqDist_nonneg _ _)) ?_
    exact Finset.sum_nonneg fun i _ => div_nonneg (sq_nonneg _) (hpos 1 i).le

end BState

namespace Ex
/-- the hypotheses of C85 (g) are met by a run of 3 iterations: the interval exceeds the number of iterations. -/
example (s : OState ℚ 1 1) : ∃ j, j < 3 ∧
    (3 : ℚ) * (1 * sqDist (OState.after (fun _ M b => M⁻¹ *ᵥ b) { oconf with interval := 10 } box1 (s.init { oconf with interval := 10 } box1) (j + 2)).xt
      (OState.after (fun _ M b => M⁻¹ *ᵥ b) { oconf with interval := 10 } box1 (s.init { oconf with interval := 10 } box1) (j + 1)).x) ≤
    osqpDist box1 (fun _ => 1) 1 (OState.after (fun _ M b => M⁻¹ *ᵥ b) { oconf with interval := 10 } box1 (s.init { oconf with interval := 10 } box1) 1).x
      (OState.after (fun _ M b => M⁻¹ *ᵥ b) { oconf with interval := 10 } box1 (s.init { oconf with interval := 10 } box1) 1).z
      (OState.after (fun _ M b => M⁻¹ *ᵥ b) { oconf with interval := 10 } box1 (s.init { oconf with interval := 10 } box1) 1).y 1 1 := by
  have hstep : ∀ (w : OState ℚ 1 1) j, j < 10 → 0 < j →
      (w.step (fun _ M b => M⁻¹ *ᵥ b) { oconf with interval := 10 } box1 j).rhoVec = w.rhoVec := by
    intro w j hj h0
    unfold OState.step OState.updateRho OConf.due
    have : (j % 10 == 0) = false := by rw [Nat.mod_eq_of_lt hj]; simp; omega
    simp only [this, Bool.false_and, Bool.false_eq_true, if_false]
    rfl
  have h1 : (OState.after (fun _ M b => M⁻¹ *ᵥ b) { oconf with interval := 10 } box1 (s.init { oconf with interval := 10 } box1) 1).rhoVec = fun _ => 1 := by
    have : OState.after (fun _ M b => M⁻¹ *ᵥ b) { oconf with interval := 10 } box1 (s.init { oconf with interval := 10 } box1) 1 =
      (s.init { oconf with interval := 10 } box1).step (fun _ M b => M⁻¹ *ᵥ b) { oconf with interval := 10 } box1 1 := rfl
    rw [this, hstep _ 1 (by omega) (by omega)]
    funext i
    obtain rfl : i = 0 := Subsingleton.elim _ _
    have hd : ((OState.init { oconf with interval := 10 } box1 s).rhoVec 0 : ℚ) =
      rowSet (1 / 1000) (cppMin (cppMax 1 (1 / 1000)) 1000) (some 0) (some 1) := rfl
    rw [hd]
    decide +kernel
  obtain ⟨j, hj, h⟩ := OState.C85_osqp_rate (c := { oconf with interval := 10 }) spExact_inv box1_psd (by norm_num [oconf]) (by norm_num [oconf])
    (by norm_num [oconf]) (by norm_num [oconf]) box1_ok s box1_kkt 3 (by omega) (fun j hj => by
      induction j with
      | zero => rfl
      | succ j ih => rw [← ih (by omega)]; exact hstep _ (j + 2) (by omega) (by omega))
  refine ⟨j, hj, ?_⟩
  rw [h1] at h
  have h3 := boxWDist_nonneg (rho := fun _ : Fin 1 => (1 : ℚ)) (fun _ => one_pos)
    (box1.A *ᵥ (OState.after (fun _ M b => M⁻¹ *ᵥ b) { oconf with interval := 10 } box1 (s.init { oconf with interval := 10 } box1) (j + 2)).xt)
    (OState.after (fun _ M b => M⁻¹ *ᵥ b) { oconf with interval := 10 } box1 (s.init { oconf with interval := 10 } box1) (j + 1)).z
  simp only [oconf] at h h3 ⊢
  refine le_trans ?_ h
  push_cast
  nlinarith
end Ex
end Mim
