import Verif.Spec.OCP
import Verif.Model.CSQP

/-!
# Specification vocabulary for inequality constraints `lb ≤ g ≤ ub`
-/
set_option linter.unusedSectionVars false
set_option linter.unusedSimpArgs false

namespace Mim.Spec

section
variable {F : Type} [Add F] [Sub F] [Mul F] [Div F] [Neg F] [Zero F] [One F] [FloatOps F]
variable (P : Problem F)

/-- L1 norm of the constraint violations of a trajectory, accumulated node by node (floating point order). -/
def conViol (xs : Traj P) (us : Ctrls P) : F :=
  addViol (P.lb P.T) (P.ub P.T) (P.calcT (xs P.T)).g
    (forUp P.T (fun t acc => addViol (P.lb t) (P.ub t) (P.calcR t (xs t) (us t)).g acc) 0)

/-- merit function: cost plus weighted L1 gaps and violations; if one of the weights `muDyn`, `muCon` is negative, both are
replaced by `lagCoef * lagInf`, a multiple of the largest multiplier. -/
def merit (c : CConf F) (lagInf : F) (xs : Traj P) (us : Ctrls P) : F :=
  if ltb c.muDyn 0 || ltb c.muCon 0 then
    trajCost P xs us + c.lagCoef * lagInf * (shootGapNorm P xs us + conViol P xs us)
  else trajCost P xs us + c.muDyn * shootGapNorm P xs us + c.muCon * conViol P xs us

end

section
variable {K : Type} [Field K] [LinearOrder K] [IsStrictOrderedRing K] (P : Problem K)
open Matrix

/-- amount by which `g` lies outside `[lb, ub]`. -/
def rowViol (lb ub : Option K) (g : K) : K := (lb.elim 0 fun l => max (l - g) 0) + (ub.elim 0 fun u => max (g - u) 0)

/-- total violation of all constraints of a trajectory (L1 norm). -/
def violation (xs : Traj P) (us : Ctrls P) : K :=
  (∑ t ∈ Finset.range P.T, ∑ i, rowViol (P.lb t i) (P.ub t i) ((P.calcR t (xs t) (us t)).g i)) +
    ∑ i, rowViol (P.lb P.T i) (P.ub P.T i) ((P.calcT (xs P.T)).g i)

/-- First-order conditions of the constrained problem up to `tol`, **without** the sign and complementarity conditions on the
constraint multipliers `y`: stationarity of `Σ ℓ_t + λ_{t+1}·(f_t - x_{t+1}) + λ_0·(x0 - x_0) + y_t·g_t`, feasibility. -/
structure IsCKKT (tol : K) (xs : Traj P) (us : Ctrls P) (lam : ℕ → Vec K P.ndx) (y : (t : ℕ) → Vec K (P.ng t)) : Prop where
  stat_x : ∀ t, t < P.T → ∀ i, |((P.calcDiffR t (xs t) (us t)).Lx +
    (P.calcDiffR t (xs t) (us t)).Fxᵀ *ᵥ lam (t + 1) - lam t + (P.calcDiffR t (xs t) (us t)).Gxᵀ *ᵥ y t) i| ≤ tol
  stat_u : ∀ t, t < P.T → ∀ i, |((P.calcDiffR t (xs t) (us t)).Lu +
    (P.calcDiffR t (xs t) (us t)).Fuᵀ *ᵥ lam (t + 1) + (P.calcDiffR t (xs t) (us t)).Guᵀ *ᵥ y t) i| ≤ tol
  stat_T : ∀ i, |((P.calcDiffT (xs P.T)).Lx - lam P.T + (P.calcDiffT (xs P.T)).Gxᵀ *ᵥ y P.T) i| ≤ tol
  gaps : ∀ t, t < P.T → ∀ i, |shootGap P xs us t i| ≤ tol
  feas : violation P xs us ≤ tol

/-- one row's sign and complementarity condition: `y > 0` only at the upper bound, `y < 0` only at the lower bound. -/
def RowCompl (lb ub : Option K) (g y : K) : Prop := (0 < y → ub = some g) ∧ (y < 0 → lb = some g)

/-- sign and complementarity conditions of all rows. -/
def Complementary (xs : Traj P) (us : Ctrls P) (y : (t : ℕ) → Vec K (P.ng t)) : Prop :=
  (∀ t, t < P.T → ∀ i, RowCompl (P.lb t i) (P.ub t i) ((P.calcR t (xs t) (us t)).g i) (y t i)) ∧
  (∀ i, RowCompl (P.lb P.T i) (P.ub P.T i) ((P.calcT (xs P.T)).g i) (y P.T i))

theorem rowViol_nonneg (lb ub : Option K) (g : K) : 0 ≤ rowViol lb ub g := by
  unfold rowViol
  cases lb <;> cases ub <;> simp [add_nonneg, le_max_right]

end
end Mim.Spec
