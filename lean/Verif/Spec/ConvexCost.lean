import Verif.Spec.Rollout
import Verif.Spec.Affine
import Verif.Spec.Constrained
import Verif.Spec.QP

/-!
# Specification: convex costs (not necessarily quadratic), affine constraints, distances between trajectories
-/
set_option linter.unusedSectionVars false
set_option linter.unusedSimpArgs false

namespace Mim.Spec
open Matrix
variable {K : Type} [Field K] [LinearOrder K] [IsStrictOrderedRing K] (P : Problem K)

/-- The running and terminal costs are convex and `calcDiff` returns (sub)gradients: every cost lies above its linearisation. -/
structure ConvexCost (φ : P.X → Vec K P.ndx) : Prop where
  run : ∀ t, t < P.T → ∀ x u x' u', (P.calcR t x u).cost + (P.calcDiffR t x u).Lx ⬝ᵥ (φ x' - φ x) +
    (P.calcDiffR t x u).Lu ⬝ᵥ (u' - u) ≤ (P.calcR t x' u').cost
  ter : ∀ x x', (P.calcT x).cost + (P.calcDiffT x).Lx ⬝ᵥ (φ x' - φ x) ≤ (P.calcT x').cost

/-- The constraint functions are affine: their linearisation at any point is exact. -/
structure AffineCon (φ : P.X → Vec K P.ndx) : Prop where
  run : ∀ t, t < P.T → ∀ x u x' u', (P.calcR t x' u').g = (P.calcR t x u).g +
    (P.calcDiffR t x u).Gx *ᵥ (φ x' - φ x) + (P.calcDiffR t x u).Gu *ᵥ (u' - u)
  ter : ∀ x x', (P.calcT x').g = (P.calcT x).g + (P.calcDiffT x).Gx *ᵥ (φ x' - φ x)

/-- sum of the absolute values of the entries. -/
def sumAbs {n : ℕ} (v : Vec K n) : K := ∑ i, |v i|

/-- L1 distance between two trajectories (states and controls). -/
def trajDist (φ : P.X → Vec K P.ndx) (X : Traj P) (U : Ctrls P) (X' : Traj P) (U' : Ctrls P) : K :=
  (∑ t ∈ Finset.range (P.T + 1), sumAbs (φ (X' t) - φ (X t))) + ∑ t ∈ Finset.range P.T, sumAbs (U' t - U t)

/-- L1 norm of the multipliers of the dynamics. -/
def multNorm (lam : ℕ → Vec K P.ndx) : K := ∑ t ∈ Finset.range P.T, sumAbs (lam (t + 1))

/-- the constraints of the trajectory are within their bounds. -/
def ConFeasible (X : Traj P) (U : Ctrls P) : Prop :=
  (∀ t, t < P.T → InBox (P.lb t) (P.ub t) (P.calcR t (X t) (U t)).g) ∧ InBox (P.lb P.T) (P.ub P.T) (P.calcT (X P.T)).g

/-- What one row lacks to complementarity: multiplier times the distance to the bound its sign points to. -/
def rowGap (lb ub : Option K) (g y : K) : K :=
  if 0 < y then ub.elim 0 fun u => y * (u - g) else if y < 0 then lb.elim 0 fun l => y * (l - g) else 0

/-- the complementarity gap of a trajectory and constraint multipliers. -/
def complGap (X : Traj P) (U : Ctrls P) (y : (t : ℕ) → Vec K (P.ng t)) : K :=
  (∑ t ∈ Finset.range P.T, ∑ i, rowGap (P.lb t i) (P.ub t i) ((P.calcR t (X t) (U t)).g i) (y t i)) +
    ∑ i, rowGap (P.lb P.T i) (P.ub P.T i) ((P.calcT (X P.T)).g i) (y P.T i)

/-- a multiplier is positive only where there is an upper bound, negative only where there is a lower bound. -/
def SignsOK (y : (t : ℕ) → Vec K (P.ng t)) : Prop :=
  ∀ t, t ≤ P.T → ∀ i, (0 < y t i → P.ub t i ≠ none) ∧ (y t i < 0 → P.lb t i ≠ none)

end Mim.Spec
