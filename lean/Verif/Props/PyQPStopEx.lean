import Verif.Props.PyQPStop
import Verif.Props.PyCSQPEx

/-!
# The hypotheses of C83 are met: a QP whose penalty changes, and one that stops early
-/
set_option linter.unusedSectionVars false
set_option linter.unusedSimpArgs false

namespace Mim
namespace Ex
open PyCSQP

/-- `clq` with the update interval 2 and at most 2 QP iterations. -/
def stopP : PyCSQP (clq 1 1 1 1 1) :=
  let p := PyCSQP.new false (Data.zero (clq 1 1 1 1 1))
  { p with c := { p.c with maxQP := 2, interval := 2 } }

/-- what the first `computeDirection` leaves behind: the number of QP iterations, the penalty, whether the primal residual was computed. -/
noncomputable def stopD (c : PyConf ℚ) : Option (ℕ × Bool × Bool) :=
  match dirAt pl 0 ({ stopP with c := c }.start (some twinX) (some twinU)) with
  | .ok p => some (p.q.qpIters, decide (p.q.rhoSparse = c.rhoBase), decide (p.q.n.p < 0))
  | .exn _ => none

/-- the second iteration computes the norms and changes the penalty. -/
example : stopD stopP.c = some (2, false, false) := by decide +kernel
/-- with a wide tolerance the loop stops there, although a third iteration is allowed. -/
example : stopD { stopP.c with maxQP := 3, epsAbs := 100 } = some (2, false, false) := by decide +kernel
/-- the first iteration never computes norms: with one iteration and the interval 1, the residual keeps its initial value -∞ (here -1) and
the penalty does not change. -/
example : stopD { stopP.c with maxQP := 1, interval := 1, epsAbs := 100 } = some (1, true, true) := by decide +kernel
example : PyQP.UpdateIter stopP.c 2 := by unfold PyQP.UpdateIter; decide

end Ex
end Mim
