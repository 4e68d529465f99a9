import Verif.Model.Crocoddyl

/-!
# Specification vocabulary: trajectories, costs, gaps, KKT points

These definitions mention only the optimal control problem, not the solvers.
-/
set_option linter.unusedSectionVars false
set_option linter.unusedSimpArgs false

namespace Mim.Spec

section
variable {F : Type} [Add F] [Sub F] [Mul F] [Div F] [Neg F] [Zero F] [One F] [FloatOps F]
variable (P : Problem F)

/-- the trajectory obtained by moving each state along `a * dx`. -/
def stepX (xs : Traj P) (dx : ℕ → Vec F P.ndx) (a : F) : Traj P := fun t => P.integrate (xs t) (sv a (dx t))

/-- the controls obtained by moving along `a * du`. -/
def stepU (us : Ctrls P) (du : (t : ℕ) → Vec F (P.nu t)) (a : F) : Ctrls P := fun t => us t + sv a (du t)

/-- cost of node `t` of a trajectory. -/
def nodeCost (xs : Traj P) (us : Ctrls P) (t : ℕ) : F := (P.calcR t (xs t) (us t)).cost

/-- total cost of a trajectory. -/
def trajCost (xs : Traj P) (us : Ctrls P) : F := sumUp P.T (nodeCost P xs us) + (P.calcT (xs P.T)).cost

/-- shooting gap between node `t` and `t+1`: predicted next state minus the next state of the trajectory. -/
def shootGap (xs : Traj P) (us : Ctrls P) (t : ℕ) : Vec F P.ndx :=
  P.diff (xs (t + 1)) (P.calcR t (xs t) (us t)).xnext

/-- L1 norm of all shooting gaps. -/
def shootGapNorm (xs : Traj P) (us : Ctrls P) : F := sumUp P.T fun t => norm1 (shootGap P xs us t)

/-- the running or total cost is NaN, infinite or huge. -/
def CostBlowsUp (xs : Traj P) (us : Ctrls P) : Prop :=
  (∃ t, t < P.T ∧ bad (sumUp (t + 1) (nodeCost P xs us)) = true) ∨ bad (trajCost P xs us) = true

/-- The stored costs, next states and constraint values are those of the trajectory `xs, us`. -/
structure FreshCalc (d : Data P) (xs : Traj P) (us : Ctrls P) : Prop where
  run : ∀ t, t < P.T → d.run t = P.calcR t (xs t) (us t)
  ter : d.ter = P.calcT (xs P.T)

/-- The stored derivatives are those of the trajectory `xs, us`. -/
structure FreshDiff (d : Data P) (xs : Traj P) (us : Ctrls P) : Prop where
  run : ∀ t, t < P.T → d.rd t = P.calcDiffR t (xs t) (us t)
  ter : d.td = P.calcDiffT (xs P.T)

end

section
variable {K : Type} [Field K] [LinearOrder K] [IsStrictOrderedRing K] (P : Problem K)
open Matrix

/-- First-order optimality conditions of the optimal control problem (no inequality constraints) up to `tol`:
stationarity of the Lagrangian `Σ ℓ_t + λ_{t+1}·(f_t - x_{t+1}) + λ_0·(x0 - x_0)`, shooting gaps and initial condition. -/
structure IsKKT (tol : K) (xs : Traj P) (us : Ctrls P) (lam : ℕ → Vec K P.ndx) : Prop where
  stat_x : ∀ t, t < P.T → ∀ i, |((P.calcDiffR t (xs t) (us t)).Lx +
    (P.calcDiffR t (xs t) (us t)).Fxᵀ *ᵥ lam (t + 1) - lam t) i| ≤ tol
  stat_u : ∀ t, t < P.T → ∀ i, |((P.calcDiffR t (xs t) (us t)).Lu +
    (P.calcDiffR t (xs t) (us t)).Fuᵀ *ᵥ lam (t + 1)) i| ≤ tol
  stat_T : ∀ i, |((P.calcDiffT (xs P.T)).Lx - lam P.T) i| ≤ tol
  init : ∀ i, |P.diff (xs 0) P.x0 i| ≤ tol
  gaps : ∀ t, t < P.T → ∀ i, |shootGap P xs us t i| ≤ tol

end
end Mim.Spec
