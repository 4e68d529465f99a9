import Verif.Model.CSQP

/-!
# The test of the constructors of SolverCSQP and SolverPROXQP

Both constructors add up the numbers `nh` of Crocoddyl equality constraints of all models and throw if the sum is not zero
(/repo/src/csqp.cpp:51,67-154, /repo/src/csqp_proxqp.cpp:43,73-114).  `std::size_t` is taken as 64 bits, the sum wraps around.
-/
set_option linter.unusedSectionVars false
set_option linter.unusedSimpArgs false

namespace Mim

/-- addition of `std::size_t` (64 bits). -/
def addSize (a b : ℕ) : ℕ := (a + b) % 2 ^ 64

/-- `n_eq_crocoddyl`: starts at 0 (csqp.cpp:51), the running models are added in the loop over `t` (csqp.cpp:71, the line
`n_eq_crocoddyl += model->get_nh()`), the terminal model last (csqp.cpp:146); the same in csqp_proxqp.cpp:43,86,105.
`nh t` is `get_nh()` of the running model at `t < T` and of the terminal model for `t = T`. -/
def nEqCrocoddyl (T : ℕ) (nh : ℕ → ℕ) : ℕ := addSize (forUp T (fun t n => addSize n (nh t)) 0) (nh T)

variable {F : Type} [Add F] [Sub F] [Mul F] [Div F] [Neg F] [Zero F] [One F] [FloatOps F] {P : Problem F}

/-- `SolverCSQP::SolverCSQP`, csqp.cpp:24-168: `none` if the constructor throws. -/
def CSQP.construct (nh : ℕ → ℕ) (d : Data P) (rho0 inv0 : (t : ℕ) → Vec F (P.ng t)) (lag0 : F) : Option (CSQP P) :=
  if nEqCrocoddyl P.T nh ≠ 0 then none else some (CSQP.new d rho0 inv0 lag0)

end Mim
