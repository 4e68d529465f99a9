import Verif.Props.ParallelTry
import Verif.Props.CSQPFilter

/-!
# C47, C50 (trials): schedules exist, the hypotheses are met, and what happens without them
-/
set_option linter.unusedSectionVars false
set_option linter.unusedSimpArgs false

namespace Mim
open Omp Spec CSQP
namespace Ex

instance : NaNAdd (Dbl ℚ) where
  left a b h := by
    cases a <;> first | (cases b <;> rfl) | (simp [isnan, Dbl.isNan] at h)
  right a b h := by
    cases b <;> first | (cases a <;> rfl) | (simp [isnan, Dbl.isNan] at h)

/-- Two threads: thread 1 runs node 0, thread 0 runs nodes 2 and 1, and their operations interleave; the sums are combined in a
different order for each variable. -/
def sched3 : Sched 2 TryEv where
  chunk i := if i = 0 then [2, 1] else [0]
  trace := [(1, .eval 0), (0, .eval 2), (0, .cost 2), (1, .cost 0), (1, .diff 0), (1, .gap 0), (0, .diff 2), (1, .low 0), (0, .gap 2),
    (0, .low 2), (0, .up 2), (0, .check 2), (0, .eval 1), (1, .up 0), (0, .cost 1), (0, .diff 1), (1, .check 0), (0, .gap 1),
    (0, .low 1), (0, .up 1), (0, .check 1)]
  comb v := if v = 0 then .node (.leaf (some 1)) (.node (.leaf none) (.leaf (some 0)))
    else .node (.node (.leaf none) (.leaf (some 0))) (.leaf (some 1))

theorem sched3_valid : sched3.Valid 3 tryOps := by
  refine ⟨by decide, fun i => ?_, fun v => ?_⟩
  · revert i; decide
  · by_cases h : v = 0
    · subst h; decide
    · rw [show sched3.comb v = .node (.node (.leaf none) (.leaf (some 0))) (.leaf (some 1)) from if_neg h]; decide

/-- a solver for three nodes and a direction `dx = (0, 1, 1, 1)`, `du = (1, 0, 0)`. -/
def try3 : CSQP (clq 3 1 1 1 1) :=
  let s := CSQP.new (Data.zero (clq 3 1 1 1 1)) (fun _ _ => 0) (fun _ _ => 0) 0
  { s with q := { s.q with v := { s.q.v with dx := fun t _ => if t = 0 then 0 else 1, du := fun t _ => if t = 0 then 1 else 0 } } }

theorem try3_nonneg (xs : Traj (clq 3 1 1 1 1)) (us : Ctrls (clq 3 1 1 1 1)) : NonnegCosts (clq 3 1 1 1 1) xs us := by
  have key : ∀ x u : ℚ, 0 ≤ (1 * x * x + 1 * u * u) / 2 := fun x u => by
    have h1 := mul_self_nonneg x
    have h2 := mul_self_nonneg u
    linarith
  have key2 : ∀ x : ℚ, 0 ≤ 1 * x * x / 2 := fun x => by
    have h1 := mul_self_nonneg x
    linarith
  exact ⟨fun t _ => key _ _, key2 _⟩

/-- C47 applies to the trial with step length 1/2. -/
example : Harmless try3 (1 / 2) := .inr (.inr ⟨try3_nonneg _ _, by decide +kernel⟩)

example : ∃ s', tryStep (1 / 2) try3 = .ok s' ∧ tryStepMt sched3 (1 / 2) try3 = some (.ok s') := by
  rcases C47_csqp_trial_nonneg (P := clq 3 1 1 1 1) sched3_valid (1 / 2) try3 (try3_nonneg _ _) with h | ⟨⟨s', h⟩, -⟩
  · exact h
  · have : (tryStep (1 / 2) try3).isOk = true := by decide +kernel
    rw [h] at this; cases this

/-- Two nodes whose costs are `-2e30` and `2e30`. -/
def huge : Problem ℚ where
  T := 2
  ndx := 1
  nu _ := 1
  ng _ := 0
  X := ℚ
  integrate x d := x + d 0
  diff a b := fun _ => b - a
  zeroX := 0
  x0 := 0
  calcR t x u := ⟨if t = 0 then -2 * 10 ^ 30 else 2 * 10 ^ 30, x + u 0, fun i => i.elim0⟩
  calcDiffR _ _ _ := ⟨fun _ => 0, fun _ => 0, m1 0, m1 0, m1 1, m1 1, m1 1, Matrix.of fun i => i.elim0, Matrix.of fun i => i.elim0⟩
  calcT _ := ⟨0, fun i => i.elim0⟩
  calcDiffT _ := ⟨fun _ => 0, m1 1, Matrix.of fun i => i.elim0⟩
  badX _ := false
  lb _ i := i.elim0
  ub _ i := i.elim0

/-- one node per thread (the default static distribution of two iterations over two threads), one thread after the other. -/
def sched2 : Sched 2 TryEv where
  chunk i := [i.val]
  trace := inTurn fun i => tryOps i.val
  comb _ := .node (.node (.leaf none) (.leaf (some 0))) (.leaf (some 1))

theorem sched2_valid : sched2.Valid 2 tryOps := by
  refine ⟨by decide, fun i => ?_, fun v => ?_⟩
  · revert i; decide
  · change Comb.Valid (.node (.node (.leaf none) (.leaf (some 0))) (.leaf (some 1))); decide

/-- **C47 / C50, negative part.**  Without the sign condition the result depends on the schedule even in exact arithmetic: costs
`-2e30, 2e30` pass the sequential checks (running sums `-2e30`, `0`), but with one node per thread the second thread's private sum
is `2e30`, and the program is terminated. -/
theorem C47_csqp_negative_cost_refuted :
    sched2.Valid huge.T tryOps ∧
    (tryStep 1 (CSQP.new (Data.zero huge) (fun _ i => i.elim0) (fun _ i => i.elim0) 0)).isOk = true ∧
    tryStepMt sched2 1 (CSQP.new (Data.zero huge) (fun _ i => i.elim0) (fun _ i => i.elim0) 0) = none := by
  refine ⟨sched2_valid, by decide +kernel, ?_⟩
  rw [C50_csqp_terminates_iff (P := huge) sched2_valid]
  refine ⟨by decide +kernel, by decide +kernel, 1, [], 1, [], rfl, by decide +kernel⟩

/-- One node with cost `-u` (Hessian 1); the cost is NaN for `u > 1/2`.  Gap, constraints: none. -/
def nanCost : Problem (Dbl ℚ) where
  T := 1
  ndx := 1
  nu _ := 1
  ng _ := 0
  X := Dbl ℚ
  integrate x d := x + d 0
  diff a b := fun _ => b - a
  zeroX := Dbl.fin 0
  x0 := Dbl.fin 0
  calcR _ x u := ⟨if ltb (Dbl.fin (1 / 2)) (u 0) then Dbl.nan else -(u 0), x, fun i => i.elim0⟩
  calcDiffR _ _ _ := ⟨fun _ => Dbl.fin 0, fun _ => Dbl.fin (-1), d1 1, d1 0, d1 1, d1 1, d1 0,
    Matrix.of fun i => i.elim0, Matrix.of fun i => i.elim0⟩
  calcT _ := ⟨Dbl.fin 0, fun i => i.elim0⟩
  calcDiffT _ := ⟨fun _ => Dbl.fin 0, d1 1, Matrix.of fun i => i.elim0⟩
  badX _ := false
  lb _ i := i.elim0
  ub _ i := i.elim0

/-- a default solver for it (time limit 1, one QP iteration, no regularization). -/
def nanCostC : CSQP nanCost :=
  let s := CSQP.new (Data.zero nanCost) (fun _ _ => Dbl.fin 0) (fun _ _ => Dbl.fin 0) (Dbl.fin 0)
  { s with c := { s.c with maxQP := 1, maxTime := Dbl.fin 1, removeReg := true } }

/-- **C50, witness.**  Sequentially the solver skips the full step, whose cost is NaN, and takes half of it.  The multi-threaded
line search of the same iteration terminates the program, whatever the number of threads and the schedules. -/
theorem C50_csqp_program_terminates :
    (CSQP.solve worldD 20 none none 1 (Dbl.fin 0) nanCostC).map (fun r => (r.2.nTry, r.2.acc)) = some (2, [Dbl.fin (1 / 2)]) ∧
    ∃ s1, (nanCostC.start worldD none none 1 (Dbl.fin 0)).prepare.dir worldD = .ok s1 ∧
      (lineSearch s1.c.par.alphas s1.checkKKT.callbacks.pushFilter.setMerit).1 = true ∧
      ∀ n (σ : ℕ → Sched n TryEv), (∀ k, (σ k).Valid nanCost.T tryOps) →
        lineSearchMt σ s1.c.par.alphas s1.checkKKT.callbacks.pushFilter.setMerit = none := by
  refine ⟨by decide +kernel, ?_⟩
  obtain ⟨s1, h1⟩ : ∃ s1, (nanCostC.start worldD none none 1 (Dbl.fin 0)).prepare.dir worldD = .ok s1 := ok_of_isOk (by decide +kernel)
  have hst : s1 = ((nanCostC.start worldD none none 1 (Dbl.fin 0)).prepare.dir worldD).st := by rw [h1]; rfl
  refine ⟨s1, h1, ?_, ?_⟩
  · rw [hst]; decide +kernel
  · intro n σ hσ
    have hal : s1.c.par.alphas = Dbl.fin 1 :: s1.c.par.alphas.tail := by rw [hst]; decide +kernel
    have hn : isnan (nodeCost nanCost (stepX nanCost s1.checkKKT.callbacks.pushFilter.setMerit.xs
        s1.checkKKT.callbacks.pushFilter.setMerit.q.v.dx (Dbl.fin 1)) (stepU nanCost s1.checkKKT.callbacks.pushFilter.setMerit.us
        s1.checkKKT.callbacks.pushFilter.setMerit.q.v.du (Dbl.fin 1)) 0) = true := by
      rw [hst]; decide +kernel
    rw [hal]
    exact (C50_csqp_nan_terminates (P := nanCost) (hσ 0) (by decide +kernel) (by decide +kernel) (show 0 < nanCost.T by decide) hn).2.2.1 σ hσ _

end Ex
end Mim
