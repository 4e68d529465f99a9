import Verif.Spec.LQ
import Verif.Spec.OCP

/-!
# Specification: curvature of a linear-quadratic problem

The directions of a linear-quadratic problem with fixed first state are the pairs `(x, u)` with `x_0 = 0` and
`x_{t+1} = A_t x_t + B_t u_t`.  The problem is strictly convex *on its directions* if the quadratic form of its cost is positive
on every direction with some nonzero control.  This is the second order condition under which the problem has exactly one
minimiser; it does not require the Hessians themselves to be positive definite.
-/
set_option linter.unusedSectionVars false
set_option linter.unusedSimpArgs false

namespace Mim.Spec
open Matrix
variable {K : Type} [Field K] [LinearOrder K] [IsStrictOrderedRing K] {T n : ℕ} {m : ℕ → ℕ}

namespace LQ
variable (Q : LQ K T n m)

/-- the quadratic form of the cost. -/
def curv (x : ℕ → Vec K n) (u : (t : ℕ) → Vec K (m t)) : K :=
  ∑ t ∈ Finset.range T, (x t ⬝ᵥ (Q.Hxx t *ᵥ x t) + 2 * (x t ⬝ᵥ (Q.Hxu t *ᵥ u t)) + u t ⬝ᵥ (Q.Huu t *ᵥ u t)) +
    x T ⬝ᵥ (Q.HT *ᵥ x T)

/-- `(x, u)` is a direction. -/
structure Direction (x : ℕ → Vec K n) (u : (t : ℕ) → Vec K (m t)) : Prop where
  init : x 0 = 0
  step : ∀ t, t < T → x (t + 1) = Q.A t *ᵥ x t + Q.B t *ᵥ u t

/-- positive curvature along every direction that is not zero. -/
def PosCurv : Prop := ∀ x u, Q.Direction x u → (∃ t, t < T ∧ u t ≠ 0) → 0 < Q.curv x u

/-- convex stage costs that are strictly convex in the controls, convex terminal cost. -/
structure ConvexCosts : Prop where
  stage : ∀ t, t < T → ∀ (x : Vec K n) (u : Vec K (m t)),
    0 ≤ x ⬝ᵥ (Q.Hxx t *ᵥ x) + 2 * (x ⬝ᵥ (Q.Hxu t *ᵥ u)) + u ⬝ᵥ (Q.Huu t *ᵥ u)
  term : ∀ x : Vec K n, 0 ≤ x ⬝ᵥ (Q.HT *ᵥ x)
  ctrl : ∀ t, t < T → PosDef (Q.Huu t)

end LQ

/-- **Convex optimal control costs**: at every point the (Gauss-Newton) Hessian of every stage cost and of the terminal cost is
positive semidefinite. -/
structure ConvexProblem (P : Problem K) : Prop where
  stage : ∀ t, t < P.T → ∀ x u (ξ : Vec K P.ndx) (υ : Vec K (P.nu t)),
    0 ≤ ξ ⬝ᵥ ((P.calcDiffR t x u).Lxx *ᵥ ξ) + 2 * (ξ ⬝ᵥ ((P.calcDiffR t x u).Lxu *ᵥ υ)) + υ ⬝ᵥ ((P.calcDiffR t x u).Luu *ᵥ υ)
  term : ∀ x (ξ : Vec K P.ndx), 0 ≤ ξ ⬝ᵥ ((P.calcDiffT x).Lxx *ᵥ ξ)

/-- the costs are strictly convex in the controls. -/
def StrictControls (P : Problem K) : Prop := ∀ t, t < P.T → ∀ x u, PosDef (P.calcDiffR t x u).Luu

end Mim.Spec
