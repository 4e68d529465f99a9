import Verif.Props.PyCppLine
import Verif.Props.PyCppInfeasible
import Verif.Props.PySQPEx

/-!
# The hypotheses of C78 to C82 are met: concrete runs of the Python class `SQP_CPP`
-/
set_option linter.unusedSectionVars false
set_option linter.unusedSimpArgs false

namespace Mim.Ex
open Spec

/-- a default-constructed `SQP_CPP` for `lq` (filter line search), and one with the merit function. -/
def cppLq (f : Bool) : SQPCpp lq := SQPCpp.new f (Data.zero lq)

/-- the guess "initial state everywhere, no control": the default one, dynamically feasible. -/
def stayX : Traj lq := fun _ => (1 : ℚ)
def stayU : Ctrls lq := fun _ _ => 0

/-- it is the guess used when none is given. -/
theorem stay_default (f : Bool) : (cppLq f).start (some stayX) (some stayU) = (cppLq f).start none none := rfl

theorem stay_feasible : Feasible lq stayX stayU := by
  refine ⟨rfl, fun t _ => ?_⟩
  change (1 : ℚ) = 1 + 0
  rw [add_zero]

/-- zero multipliers do not certify it. -/
theorem stay_not_kkt (f : Bool) : ¬ IsKKT lq (cppLq f).tol stayX stayU (cppLq f).lagMul := by
  intro h
  have h1 := h.stat_T (0 : Fin 1)
  have h2 : ¬ |((1 : ℚ) * 1 - 0)| ≤ lit (1 / 10 ^ 6) := by decide +kernel
  exact h2 h1

theorem lq_dir (f : Bool) : ∃ s1, SQPCpp.computeDirection llt1 ((cppLq f).start (some stayX) (some stayU)) = .ok s1 := by
  have h : ∀ f : Bool, okAnd (fun _ => true) (SQPCpp.computeDirection llt1 ((cppLq f).start (some stayX) (some stayU))) = true := by
    intro f
    cases f <;> decide +kernel
  obtain ⟨q, e, -⟩ := okAnd_true (h f)
  exact ⟨q, e⟩

/-- everything C80 and C81 assume holds for a new solver on `lq` with the default guess. -/
theorem lq_run (f : Bool) : ∃ s1, SQPCpp.LQRun llt1 chart (cppLq f) stayX stayU s1 := by
  obtain ⟨s1, e⟩ := lq_dir f
  exact ⟨s1, ⟨llt1_exact, lq_euclid, lq_affine, lq_quad, lq_quadCost, lq_sym, .new _ _, by
    change (0 : ℚ) < lit (1 / 10 ^ 6)
    decide +kernel, rfl, stay_not_kkt f, e⟩, stay_feasible⟩

/-- the default guess is not optimal. -/
theorem stay_not_optimal : ¬ OptimalTraj lq stayX stayU := by
  intro h
  have h1 := (h.2 lqX lqU (kkt_feasible lq_euclid lq_kkt)).1
  have h2 : ¬ trajCost lq stayX stayU ≤ trajCost lq lqX lqU := by
    have : decide (trajCost lq stayX stayU ≤ trajCost lq lqX lqU) = false := by decide +kernel
    exact of_decide_eq_false this
  exact h2 h1

/-- C80 applies to the default call: **`solve()` on the regulator returns True with residual zero at a trajectory that is not
optimal**, for every number of iterations from two on. -/
theorem C80_cpp_example (m : ℕ) : ∃ s', SQPCpp.solve llt1 none none (m + 2) (cppLq true) = (.ret true, s') ∧ s'.KKT = 0 ∧
    ¬ OptimalTraj lq s'.xs s'.us := by
  obtain ⟨s1, h⟩ := lq_run true
  exact SQPCpp.C80_cpp_not_optimal h rfl m stay_not_optimal

/-- result of the default call with at most 100 iterations: outcome, residual, states, controls. -/
noncomputable def cppRun : PyOut × ℚ × (ℚ × ℚ × ℚ) × ℚ × ℚ :=
  let r := SQPCpp.solve llt1 none none 100 (cppLq true)
  (r.1, r.2.KKT, (r.2.xs 0, r.2.xs 1, r.2.xs 2), r.2.us 0 (0 : Fin 1), r.2.us 1 (0 : Fin 1))

/-- the numbers: the optimum is `x = (1, 2/5, 1/5)`, `u = (-3/5, -1/5)` with cost `4/5`; returned are `x = (1, -1/5, -3/5)`,
`u = (-6/5, -2/5)` with cost `3/2`, the cost of the guess. -/
theorem C80_cpp_numbers : cppRun = (.ret true, 0, (1, -1 / 5, -3 / 5), -6 / 5, -2 / 5) := by decide +kernel

/-- a call of `solve` with the exact optimum as guess, on a solver object: outcome, states, controls. -/
noncomputable def cppAtOptimum (s : SQPCpp lq) : PyOut × (ℚ × ℚ × ℚ) × ℚ × ℚ :=
  let r := SQPCpp.solve llt1 (some lqX) (some lqU) 100 s
  (r.1, (r.2.xs 0, r.2.xs 1, r.2.xs 2), r.2.us 0 (0 : Fin 1), r.2.us 1 (0 : Fin 1))

/-- **The result depends on the history of the object**: with the exact optimum as guess a new solver returns it; a solver that has
solved the same problem before recognises it with the multipliers of that call and then moves away from it along the direction of that
call.  Both return True. -/
theorem C79_cpp_history : cppAtOptimum (cppLq true) = (.ret true, (1, 2 / 5, 1 / 5), -3 / 5, -1 / 5) ∧
    cppAtOptimum (SQPCpp.solve llt1 none none 100 (cppLq true)).2 = (.ret true, (1, -1 / 5, -3 / 5), -6 / 5, -2 / 5) :=
  ⟨by decide +kernel, by decide +kernel⟩

/-- a guess with gap `1` at the first node. -/
def farX : Traj lq := fun t => match t with | 0 => (1 : ℚ) | _ => (2 : ℚ)

/-- the assumptions of `C80_cpp_overshoot` hold for it. -/
theorem far_start : ∃ s1, SQPCpp.LQStart llt1 chart (cppLq true) farX stayU s1 := by
  have h : okAnd (fun _ => true) (SQPCpp.computeDirection llt1 ((cppLq true).start (some farX) (some stayU))) = true := by
    decide +kernel
  obtain ⟨s1, e, -⟩ := okAnd_true h
  refine ⟨s1, llt1_exact, lq_euclid, lq_affine, lq_quad, lq_quadCost, lq_sym, .new _ _, ?_, rfl, fun h => ?_, e⟩
  · change (0 : ℚ) < lit (1 / 10 ^ 6)
    decide +kernel
  · have h1 := h.stat_T (0 : Fin 1)
    have h2 : ¬ |((1 : ℚ) * 2 - 0)| ≤ lit (1 / 10 ^ 6) := by decide +kernel
    exact h2 h1

/-- result of the call from that guess: outcome, residual, and the gaps of the returned trajectory. -/
noncomputable def cppFar : PyOut × ℚ × ℚ × ℚ :=
  let r := SQPCpp.solve llt1 (some farX) (some stayU) 100 (cppLq true)
  (r.1, r.2.KKT, shootGap lq r.2.xs r.2.us 0 (0 : Fin 1), shootGap lq r.2.xs r.2.us 1 (0 : Fin 1))

/-- **True with residual zero at a trajectory that violates the dynamics**: its first gap is `1/8`. -/
theorem C80_cpp_infeasible_result : cppFar = (.ret true, 0, 1 / 8, 0) := by decide +kernel

/-- C81 applies as well: with the merit function the same call reaches the optimum and returns False. -/
theorem C81_cpp_example (m : ℕ) : ∃ s', SQPCpp.solve llt1 none none (m + 2) (cppLq false) = (.ret false, s') ∧
    IsKKT lq 0 s'.xs s'.us s'.lagMul := by
  obtain ⟨s1, h⟩ := lq_run false
  exact SQPCpp.C81_cpp_merit_false h rfl m

/-- C78 and C79 apply to the same run. -/
example : ∃ s', SQPCpp.solve llt1 none none 3 (cppLq true) = (.ret true, s') ∧ s'.KKT < (cppLq true).tol ∧ SQPCpp.Reachable s' := by
  obtain ⟨s', e, hk, -⟩ := C80_cpp_example 1
  refine ⟨s', e, ?_, .solve _ _ llt1 none none 3 _ (.new _ _) e⟩
  rw [hk]
  change (0 : ℚ) < lit (1 / 10 ^ 6)
  decide +kernel

/-- Two nodes, cost `-u + u²/2 + (11/20) u⁴`, dynamics `x⁺ = x + u + (3/4) u²`, no terminal cost; smooth, with exact derivatives
and positive definite Hessian. -/
def twoNodes : Problem ℚ where
  T := 2
  ndx := 1
  nu _ := 1
  ng _ := 0
  X := ℚ
  integrate x d := x + d 0
  diff a b := fun _ => b - a
  zeroX := 0
  x0 := 0
  calcR _ x u := ⟨-u 0 + u 0 * u 0 / 2 + 11 / 20 * (u 0 * u 0 * u 0 * u 0), x + u 0 + 3 / 4 * (u 0 * u 0), fun i => i.elim0⟩
  calcDiffR _ _ u := ⟨fun _ => 0, fun _ => -1 + u 0 + 11 / 5 * (u 0 * u 0 * u 0), m1 0, m1 0, m1 (1 + 33 / 5 * (u 0 * u 0)), m1 1,
    m1 (1 + 3 / 2 * u 0), Matrix.of fun i => i.elim0, Matrix.of fun i => i.elim0⟩
  calcT _ := ⟨0, fun i => i.elim0⟩
  calcDiffT _ := ⟨fun _ => 0, m1 0, Matrix.of fun i => i.elim0⟩
  badX _ := false
  lb _ i := i.elim0
  ub _ i := i.elim0

/-- a guess with total gap `1`. -/
def twoX : Traj twoNodes := fun t => match t with | 0 => (0 : ℚ) | _ => (1 : ℚ)
def twoU : Ctrls twoNodes := fun _ _ => 0

/-- everything `C82_cpp_example` states, as one computation. -/
noncomputable def twoTest (f : Bool) : PySQP.Search × ℚ × ℚ × ℚ × ℚ :=
  match SQPCpp.computeDirection llt1 ((SQPCpp.new f (Data.zero twoNodes)).start (some twoX) (some twoU)) with
  | .exn _ => (.gaveUp, 0, 0, 0, 0)
  | .ok s1 =>
    let r := SQPCpp.search 0 10 (PySQP.halve 0) s1.pushFilter
    (r.1, trajCost twoNodes r.2.2.xs r.2.2.us, shootGapNorm twoNodes r.2.2.xs r.2.2.us,
      trajCost twoNodes s1.xs s1.us, shootGapNorm twoNodes s1.xs s1.us)

/-- **C82 is sharp**: in the first iteration, from this guess, both line searches accept a step that increases the cost (from `0` to
`1/10`) and the gap (from `1` to `3/2`). -/
theorem C82_cpp_example (f : Bool) : ∃ s1 a q', SQPCpp.computeDirection llt1 ((SQPCpp.new f (Data.zero twoNodes)).start (some twoX) (some twoU)) = .ok s1 ∧
    SQPCpp.search 0 10 (PySQP.halve 0) s1.pushFilter = (.accepted, a, q') ∧
    trajCost twoNodes s1.xs s1.us < trajCost twoNodes q'.xs q'.us ∧ shootGapNorm twoNodes s1.xs s1.us < shootGapNorm twoNodes q'.xs q'.us := by
  have h : ∀ f : Bool, twoTest f = (.accepted, 1 / 10, 3 / 2, 0, 1) := by
    intro f
    cases f <;> decide +kernel
  have h := h f
  unfold twoTest at h
  split at h
  · cases h
  · rename_i s1 e
    obtain ⟨r, a, q', e2⟩ : ∃ r a q', SQPCpp.search 0 10 (PySQP.halve 0) s1.pushFilter = (r, a, q') := ⟨_, _, _, rfl⟩
    simp only [e2, Prod.mk.injEq] at h
    obtain ⟨rfl, h1, h2, h3, h4⟩ := h
    refine ⟨s1, a, q', e, e2, ?_, ?_⟩
    · rw [h1, h3]; decide +kernel
    · rw [h2, h4]; decide +kernel

/-- the hypotheses of C82 hold for it. -/
example (f : Bool) : SQPCpp.Reachable (SQPCpp.new f (Data.zero twoNodes)) ∧ (∀ x, twoNodes.integrate x 0 = x) ∧ (∀ x, twoNodes.diff x x = 0) := by
  refine ⟨.new _ _, fun x => ?_, fun x => ?_⟩
  · exact add_zero (M := ℚ) x
  · funext i
    exact sub_self (G := ℚ) x

end Mim.Ex
