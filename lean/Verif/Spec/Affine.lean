import Verif.Spec.OCP

/-!
# Specification: problems with affine dynamics and quadratic cost
-/
set_option linter.unusedSectionVars false
set_option linter.unusedSimpArgs false

namespace Mim.Spec
open Matrix
variable {K : Type} [Field K] [LinearOrder K] [IsStrictOrderedRing K] (P : Problem K)

/-- The state space is a vector space with coordinates `φ` (Crocoddyl's `StateVector`). -/
structure Euclid (φ : P.X → Vec K P.ndx) : Prop where
  inj : ∀ a b, φ a = φ b → a = b
  integrate : ∀ x d, φ (P.integrate x d) = φ x + d
  diff : ∀ a b, P.diff a b = φ b - φ a

/-- The dynamics are affine: the linearisation at any point is exact. -/
def AffineDyn (φ : P.X → Vec K P.ndx) : Prop :=
  ∀ t, t < P.T → ∀ x u x' u', φ (P.calcR t x' u').xnext = φ (P.calcR t x u).xnext +
    (P.calcDiffR t x u).Fx *ᵥ (φ x' - φ x) + (P.calcDiffR t x u).Fu *ᵥ (u' - u)

/-- The gradients are affine and the Jacobians constant: derivatives of a linear-quadratic problem. -/
structure QuadGrad (φ : P.X → Vec K P.ndx) : Prop where
  Fx : ∀ t, t < P.T → ∀ x u x' u', (P.calcDiffR t x' u').Fx = (P.calcDiffR t x u).Fx
  Fu : ∀ t, t < P.T → ∀ x u x' u', (P.calcDiffR t x' u').Fu = (P.calcDiffR t x u).Fu
  Lx : ∀ t, t < P.T → ∀ x u x' u', (P.calcDiffR t x' u').Lx = (P.calcDiffR t x u).Lx +
    (P.calcDiffR t x u).Lxx *ᵥ (φ x' - φ x) + (P.calcDiffR t x u).Lxu *ᵥ (u' - u)
  Lu : ∀ t, t < P.T → ∀ x u x' u', (P.calcDiffR t x' u').Lu = (P.calcDiffR t x u).Lu +
    (P.calcDiffR t x u).Lxuᵀ *ᵥ (φ x' - φ x) + (P.calcDiffR t x u).Luu *ᵥ (u' - u)
  LT : ∀ x x', (P.calcDiffT x').Lx = (P.calcDiffT x).Lx + (P.calcDiffT x).Lxx *ᵥ (φ x' - φ x)

/-- The costs are quadratic: the second order expansion at any point is exact. -/
structure QuadCost (φ : P.X → Vec K P.ndx) : Prop where
  run : ∀ t, t < P.T → ∀ x u x' u', (P.calcR t x' u').cost = (P.calcR t x u).cost +
    (P.calcDiffR t x u).Lx ⬝ᵥ (φ x' - φ x) + (P.calcDiffR t x u).Lu ⬝ᵥ (u' - u) +
    ((φ x' - φ x) ⬝ᵥ ((P.calcDiffR t x u).Lxx *ᵥ (φ x' - φ x))) / 2 +
    (φ x' - φ x) ⬝ᵥ ((P.calcDiffR t x u).Lxu *ᵥ (u' - u)) +
    ((u' - u) ⬝ᵥ ((P.calcDiffR t x u).Luu *ᵥ (u' - u))) / 2
  ter : ∀ x x', (P.calcT x').cost = (P.calcT x).cost + (P.calcDiffT x).Lx ⬝ᵥ (φ x' - φ x) +
    ((φ x' - φ x) ⬝ᵥ ((P.calcDiffT x).Lxx *ᵥ (φ x' - φ x))) / 2

/-- the Hessian blocks of the problem are symmetric everywhere. -/
structure SymProblem : Prop where
  xx : ∀ t, t < P.T → ∀ x u, (P.calcDiffR t x u).Lxxᵀ = (P.calcDiffR t x u).Lxx
  uu : ∀ t, t < P.T → ∀ x u, (P.calcDiffR t x u).Luuᵀ = (P.calcDiffR t x u).Luu
  T : ∀ x, (P.calcDiffT x).Lxxᵀ = (P.calcDiffT x).Lxx

end Mim.Spec
