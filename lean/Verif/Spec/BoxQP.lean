import Verif.Spec.QP
import Verif.Spec.AdmmDist
import Verif.Model.PyDense

/-!
# Specification: dense quadratic programs with bounds, for the QP solvers written in Python

`min ½ x'Px + q'x` subject to `l ≤ A x ≤ u` (and `E x = b`).
-/
set_option linter.unusedSectionVars false

namespace Mim.Spec
open Matrix
variable {K : Type} [Field K] [LinearOrder K] [IsStrictOrderedRing K] {n e m : ℕ}

/-- a symmetric positive semidefinite matrix. -/
def PSD (M : Mat K n n) : Prop := Mᵀ = M ∧ ∀ v, 0 ≤ v ⬝ᵥ (M *ᵥ v)

/-- no lower bound is above its upper bound. -/
def BoxOK (l u : Fin m → Option K) : Prop := ∀ i a b, l i = some a → u i = some b → a ≤ b

/-- the rows of `E` are independent. -/
def FullRank (E : Mat K e n) : Prop := ∀ w : Vec K e, Eᵀ *ᵥ w = 0 → w = 0

/-- the objective. -/
def boxObj (D : OQP K n m) (x : Vec K n) : K := (x ⬝ᵥ (D.P *ᵥ x)) / 2 + D.q ⬝ᵥ x

/-- the KKT conditions of `min ½ x'Px + q'x` subject to `l ≤ A x ≤ u`. -/
structure BoxKKT (D : OQP K n m) (x : Vec K n) (y : Vec K m) : Prop where
  feas : InBox D.l D.u (D.A *ᵥ x)
  stat : D.P *ᵥ x + D.q + D.Aᵀ *ᵥ y = 0
  compl : NormalCone D.l D.u (D.A *ᵥ x) y

/-- the KKT conditions with the additional equalities `E x = b`. -/
structure BoxEqKKT (D : BQP K n e m) (x : Vec K n) (y : Vec K m) (v : Vec K e) : Prop where
  eq : D.E *ᵥ x = D.b
  feas : InBox D.l D.u (D.A *ᵥ x)
  stat : D.P *ᵥ x + D.q + D.Aᵀ *ᵥ y + D.Eᵀ *ᵥ v = 0
  compl : NormalCone D.l D.u (D.A *ᵥ x) y

/-- a linear solver that solves the systems with a nonsingular matrix. -/
def SpExact (sp : SpSolve K) : Prop := ∀ n (M : Mat K n n) (b : Vec K n), (∀ v, M *ᵥ v = 0 → v = 0) → M *ᵥ sp n M b = b

/-- distance of `(x, z, y)` from a solution `xs` with the multiplier `ys`, for an iteration that relaxes `x` as well. -/
def osqpDist (D : OQP K n m) (rho : Vec K m) (sigma : K) (x : Vec K n) (z y : Vec K m) (xs : Vec K n) (ys : Vec K m) : K :=
  sigma * sqDist x xs + dualDist rho z y (D.A *ᵥ xs) ys

/-- the same for an iteration that relaxes only `z`, with relaxation `alpha`. -/
def boydDist (D : OQP K n m) (rho : Vec K m) (sigma alpha : K) (x : Vec K n) (z y : Vec K m) (xs : Vec K n) (ys : Vec K m) : K :=
  alpha * sigma * sqDist x xs + dualDist rho z y (D.A *ᵥ xs) ys

end Mim.Spec
