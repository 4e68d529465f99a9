import Verif.Spec.Examples
import Verif.Model.CSQP

/-!
# Concrete constrained problems, and CSQP solvers for them

`sqrt` is needed to state the model; none of the runs below uses its value in a decision.
-/
set_option linter.unusedSectionVars false

namespace Mim.Ex

/-- the law-free square root of the examples. -/
instance sqrtQ : SqrtOps ℚ := ⟨fun x => x⟩

/-- the entry of a one-dimensional vector. -/
def sc (v : Fin 1 → ℚ) : ℚ := v 0

/-- One node with control `u ≤ 1` and a linear cost `-u`; the state does not move.  The minimum is at `u = 1`. -/
def lin : Problem ℚ where
  T := 1
  ndx := 1
  nu _ := 1
  ng _ := 1
  X := ℚ
  integrate x d := x + d 0
  diff a b := fun _ => b - a
  zeroX := 0
  x0 := 0
  calcR _ x u := ⟨-(u 0), x, fun _ => u 0⟩
  calcDiffR _ _ _ := ⟨fun _ => 0, fun _ => -1, m1 0, m1 0, m1 0, m1 1, m1 0, m1 0, m1 1⟩
  calcT _ := ⟨0, fun _ => 0⟩
  calcDiffT _ := ⟨fun _ => 0, m1 0, m1 0⟩
  badX _ := false
  lb _ _ := none
  ub t _ := if t = 0 then some 1 else none

/-- sequential, exact factorisation, a clock that stands still. -/
noncomputable def world : World ℚ := ⟨llt1, fun _ => 0, none⟩

/-- a solver for `lin`: `σ = 1/30`, `ρ = 1/2`, one QP iteration, no initial guess from the unconstrained QP, no
regularization; everything else default (time limit 1). -/
def linSolver : CSQP lin :=
  let s := CSQP.new (Data.zero lin) (fun _ _ => 0) (fun _ _ => 0) 0
  { s with c := { s.c with sigma := 1 / 30, rhoBase := 1 / 2, maxQP := 1, eqGuess := false, maxTime := 1, removeReg := true } }

/-- A scalar LQ problem with the control constraint `u ≤ 1` at every node and a free terminal row: `min Σ (q x² + r u²)/2 +
qT x_T²/2`, `x⁺ = x + u`. -/
def clq (T : ℕ) (q r qT x0 : ℚ) : Problem ℚ where
  T := T
  ndx := 1
  nu _ := 1
  ng _ := 1
  X := ℚ
  integrate x d := x + d 0
  diff a b := fun _ => b - a
  zeroX := 0
  x0 := x0
  calcR _ x u := ⟨(q * x * x + r * u 0 * u 0) / 2, x + u 0, fun _ => u 0⟩
  calcDiffR _ x u := ⟨fun _ => q * x, fun _ => r * u 0, m1 q, m1 0, m1 r, m1 1, m1 1, m1 0, m1 1⟩
  calcT x := ⟨qT * x * x / 2, fun _ => 0⟩
  calcDiffT x := ⟨fun _ => qT * x, m1 qT, m1 0⟩
  badX _ := false
  lb _ _ := none
  ub t _ := if t < T then some 1 else none

/-- a default-constructed CSQP solver (time limit 1, one QP iteration). -/
def clqSolver : CSQP (clq 1 1 1 1 1) :=
  let s := CSQP.new (Data.zero _) (fun _ _ => 0) (fun _ _ => 0) 0
  { s with c := { s.c with maxQP := 1, maxTime := 1 } }

end Mim.Ex
