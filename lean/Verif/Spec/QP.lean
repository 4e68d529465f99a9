import Verif.Spec.LQ
import Verif.Model.Crocoddyl
import Verif.Lemmas.BackwardExact

/-!
# Specification: the quadratic subproblem of SolverCSQP and its ADMM splitting

QP:  minimise the quadratic model `(lqOf d fs preg dreg).cost` subject to the linearised dynamics, `dx_0 = 0` and
`lb ≤ g + G d ≤ ub`.
-/
set_option linter.unusedSectionVars false
set_option linter.unusedSimpArgs false

namespace Mim.Spec
open Matrix

section
variable {K : Type} [Field K] [LinearOrder K] [IsStrictOrderedRing K] {P : Problem K}

/-- linearised constraint of a running node, without the constant `g`. -/
def conLin (d : Data P) (t : ℕ) (x : Vec K P.ndx) (u : Vec K (P.nu t)) : Vec K (P.ng t) :=
  (d.rd t).Gx *ᵥ x + (d.rd t).Gu *ᵥ u

/-- squared distance. -/
def sqDist {n : ℕ} (a b : Vec K n) : K := ∑ i, (a i - b i) ^ 2

/-- `½ Σ_i ρ_i (c_i - z_i + y_i/ρ_i)²`. -/
def penalty {m : ℕ} (rho y z c : Vec K m) : K := ∑ i, rho i * (c i - z i + y i / rho i) ^ 2 / 2

/-- The data of one ADMM step: proximal weight `σ`, previous iterate `(px, pu)`, splitting variable `z`, multiplier `y`,
penalties `ρ`. -/
structure Admm (P : Problem K) where
  sigma : K
  px : ℕ → Vec K P.ndx
  pu : (t : ℕ) → Vec K (P.nu t)
  z : (t : ℕ) → Vec K (P.ng t)
  y : (t : ℕ) → Vec K (P.ng t)
  rho : (t : ℕ) → Vec K (P.ng t)

/-- The function an ADMM step minimises over `(x, u)`: regularized quadratic model, proximal term, penalty. -/
def augCost (d : Data P) (fs : ℕ → Vec K P.ndx) (preg dreg : K) (a : Admm P) (x : ℕ → Vec K P.ndx)
    (u : (t : ℕ) → Vec K (P.nu t)) : K :=
  (lqOf d fs preg dreg).cost x u +
  (∑ t ∈ Finset.range P.T, (a.sigma / 2 * (sqDist (x t) (a.px t) + sqDist (u t) (a.pu t)) +
    penalty (a.rho t) (a.y t) (a.z t) (conLin d t (x t) (u t)))) +
  a.sigma / 2 * sqDist (x P.T) (a.px P.T) + penalty (a.rho P.T) (a.y P.T) (a.z P.T) (d.td.Gx *ᵥ x P.T)

/-- `(x, u)` is the unique minimiser of the function of an ADMM step among the steps that start with `0` and satisfy the
linearised dynamics. -/
structure IsAdmmStep (d : Data P) (fs : ℕ → Vec K P.ndx) (preg dreg : K) (a : Admm P) (x : ℕ → Vec K P.ndx)
    (u : (t : ℕ) → Vec K (P.nu t)) : Prop where
  start : x 0 = 0
  dyn : ∀ t, t < P.T → x (t + 1) = (d.rd t).Fx *ᵥ x t + (d.rd t).Fu *ᵥ u t + fs (t + 1)
  minimal : ∀ x' u', x' 0 = 0 → (∀ t, t < P.T → x' (t + 1) = (d.rd t).Fx *ᵥ x' t + (d.rd t).Fu *ᵥ u' t + fs (t + 1)) →
    augCost d fs preg dreg a x u ≤ augCost d fs preg dreg a x' u'
  unique : ∀ x' u', x' 0 = 0 → (∀ t, t < P.T → x' (t + 1) = (d.rd t).Fx *ᵥ x' t + (d.rd t).Fu *ᵥ u' t + fs (t + 1)) →
    augCost d fs preg dreg a x' u' = augCost d fs preg dreg a x u →
    (∀ t, t ≤ P.T → x' t = x t) ∧ ∀ t, t < P.T → u' t = u t

/-- `c` lies within the bounds. -/
def InBox {n : ℕ} (lb ub : Fin n → Option K) (c : Vec K n) : Prop :=
  ∀ i, (∀ l, lb i = some l → l ≤ c i) ∧ ∀ u, ub i = some u → c i ≤ u

/-- `y` is in the normal cone of the bounds at `c`: a positive entry only at the upper bound, a negative one only at the lower
bound. -/
def NormalCone {n : ℕ} (lb ub : Fin n → Option K) (c y : Vec K n) : Prop :=
  ∀ i, (0 < y i → ub i = some (c i)) ∧ (y i < 0 → lb i = some (c i))

/-- A step is feasible for the QP: it starts with zero, satisfies the linearised dynamics, and the linearised constraints are
within the bounds. -/
structure QPFeasible (d : Data P) (fs : ℕ → Vec K P.ndx) (x : ℕ → Vec K P.ndx) (u : (t : ℕ) → Vec K (P.nu t)) : Prop where
  start : x 0 = 0
  dyn : ∀ t, t < P.T → x (t + 1) = (d.rd t).Fx *ᵥ x t + (d.rd t).Fu *ᵥ u t + fs (t + 1)
  con : ∀ t, t < P.T → InBox (P.lb t) (P.ub t) ((d.run t).g + conLin d t (x t) (u t))
  conT : InBox (P.lb P.T) (P.ub P.T) (d.ter.g + d.td.Gx *ᵥ x P.T)

/-- The KKT conditions of the QP (`preg`, `dreg` are the regularization of the Hessians) with multipliers `lam` for the dynamics
and `y` for the constraints. -/
structure QPKKT (d : Data P) (fs : ℕ → Vec K P.ndx) (preg dreg : K) (x : ℕ → Vec K P.ndx) (u : (t : ℕ) → Vec K (P.nu t))
    (lam : ℕ → Vec K P.ndx) (y : (t : ℕ) → Vec K (P.ng t)) : Prop where
  feas : QPFeasible d fs x u
  stat_x : ∀ t, 0 < t → t < P.T → (d.rd t).Lxx *ᵥ x t + preg • x t + (d.rd t).Lxu *ᵥ u t + (d.rd t).Lx +
    (d.rd t).Fxᵀ *ᵥ lam (t + 1) + (d.rd t).Gxᵀ *ᵥ y t = lam t
  stat_u : ∀ t, t < P.T → (d.rd t).Lxuᵀ *ᵥ x t + (d.rd t).Luu *ᵥ u t + dreg • u t + (d.rd t).Lu +
    (d.rd t).Fuᵀ *ᵥ lam (t + 1) + (d.rd t).Guᵀ *ᵥ y t = 0
  stat_T : d.td.Lxx *ᵥ x P.T + preg • x P.T + d.td.Lx + d.td.Gxᵀ *ᵥ y P.T = lam P.T
  compl : ∀ t, t < P.T → NormalCone (P.lb t) (P.ub t) ((d.run t).g + conLin d t (x t) (u t)) (y t)
  complT : NormalCone (P.lb P.T) (P.ub P.T) (d.ter.g + d.td.Gx *ᵥ x P.T) (y P.T)

/-- gradient of the Lagrangian of the QP with respect to the state step of a running node (`lam t` is the multiplier of the
equation that defines `x t`). -/
def statX (d : Data P) (preg : K) (x : ℕ → Vec K P.ndx) (u : (t : ℕ) → Vec K (P.nu t)) (lam : ℕ → Vec K P.ndx)
    (y : (t : ℕ) → Vec K (P.ng t)) (t : ℕ) : Vec K P.ndx :=
  (d.rd t).Lxx *ᵥ x t + preg • x t + (d.rd t).Lxu *ᵥ u t + (d.rd t).Lx + (d.rd t).Fxᵀ *ᵥ lam (t + 1) + (d.rd t).Gxᵀ *ᵥ y t - lam t

/-- the same with respect to the control step. -/
def statU (d : Data P) (dreg : K) (x : ℕ → Vec K P.ndx) (u : (t : ℕ) → Vec K (P.nu t)) (lam : ℕ → Vec K P.ndx)
    (y : (t : ℕ) → Vec K (P.ng t)) (t : ℕ) : Vec K (P.nu t) :=
  (d.rd t).Lxuᵀ *ᵥ x t + (d.rd t).Luu *ᵥ u t + dreg • u t + (d.rd t).Lu + (d.rd t).Fuᵀ *ᵥ lam (t + 1) + (d.rd t).Guᵀ *ᵥ y t

/-- the same with respect to the terminal state step. -/
def statT (d : Data P) (preg : K) (x : ℕ → Vec K P.ndx) (lam : ℕ → Vec K P.ndx) (y : (t : ℕ) → Vec K (P.ng t)) : Vec K P.ndx :=
  d.td.Lxx *ᵥ x P.T + preg • x P.T + d.td.Lx + d.td.Gxᵀ *ᵥ y P.T - lam P.T

end
end Mim.Spec
