import Verif.Spec.QP
import Verif.Spec.Constrained
import Verif.Model.ProxQP

/-!
# Specification: dense quadratic programs and the stacked variable of SolverPROXQP

`min ½ z'Pz + q'z  s.t.  A z = b,  l ≤ C z ≤ u`, with `z = (dx_1, …, dx_T, du_0, …, du_{T-1})`.
-/
set_option linter.unusedSectionVars false
set_option linter.unusedSimpArgs false

namespace Mim.Spec
open Matrix

section
variable {K : Type} [Field K] [LinearOrder K] [IsStrictOrderedRing K]

/-- `M v` for a matrix with `n` columns. -/
def prod (n : ℕ) (M : FMat K) (v : FVec K) (i : ℕ) : K := ∑ j ∈ Finset.range n, M i j * v j

/-- `Mᵀ v` for a matrix with `n` rows. -/
def prodT (n : ℕ) (M : FMat K) (v : FVec K) (j : ℕ) : K := ∑ i ∈ Finset.range n, M i j * v i

/-- the objective. -/
def PQP.obj (nv : ℕ) (m : PQP K) (z : FVec K) : K :=
  (∑ i ∈ Finset.range nv, z i * prod nv m.P z i) / 2 + ∑ i ∈ Finset.range nv, m.q i * z i

/-- the KKT conditions of the dense QP in ProxSuite's convention: `P x + q + A'y + C'z = 0`, `z` in the normal cone of `[l, u]` at
`C x`. -/
structure DenseKKT (nv ne ni : ℕ) (m : PQP K) (x y z : FVec K) : Prop where
  stat : ∀ i, i < nv → prod nv m.P x i + m.q i + prodT ne m.A y i + prodT ni m.C z i = 0
  eq : ∀ i, i < ne → prod nv m.A x i = m.b i
  lo : ∀ i, i < ni → ∀ l, m.l i = some l → l ≤ prod nv m.C x i
  up : ∀ i, i < ni → ∀ u, m.u i = some u → prod nv m.C x i ≤ u
  pos : ∀ i, i < ni → 0 < z i → m.u i = some (prod nv m.C x i)
  neg : ∀ i, i < ni → z i < 0 → m.l i = some (prod nv m.C x i)

/-- a QP solver that, whenever it answers, answers with a solution of the KKT conditions. -/
def QPExact (nv ne ni : ℕ) (qp : PSolve K) : Prop := ∀ n m a, qp n m = some a → DenseKKT nv ne ni m a.x a.y a.z

/-- a stacked vector satisfies the constraints of the dense QP. -/
def DenseFeasible (nv ne ni : ℕ) (m : PQP K) (z : FVec K) : Prop :=
  (∀ i, i < ne → prod nv m.A z i = m.b i) ∧
  ∀ i, i < ni → (∀ l, m.l i = some l → l ≤ prod nv m.C z i) ∧ ∀ u, m.u i = some u → prod nv m.C z i ≤ u

/-- the quadratic model of the cost at stored derivatives, for a step `(x, u)`. -/
def quadModel {P : Problem K} (d : Data P) (x : ℕ → Vec K P.ndx) (u : (t : ℕ) → Vec K (P.nu t)) : K :=
  (∑ t ∈ Finset.range P.T, ((d.rd t).Lx ⬝ᵥ x t + (d.rd t).Lu ⬝ᵥ u t + (x t ⬝ᵥ ((d.rd t).Lxx *ᵥ x t)) / 2 +
    x t ⬝ᵥ ((d.rd t).Lxu *ᵥ u t) + (u t ⬝ᵥ ((d.rd t).Luu *ᵥ u t)) / 2)) +
  d.td.Lx ⬝ᵥ x P.T + (x P.T ⬝ᵥ (d.td.Lxx *ᵥ x P.T)) / 2

variable (P : Problem K)

/-- the state steps in a stacked vector (`dx_0 = 0` is not a variable). -/
def stX (z : FVec K) : ℕ → Vec K P.ndx
  | 0 => 0
  | k + 1 => fun i => z (k * P.ndx + i)

/-- the control steps in a stacked vector: after the `T` state steps, the controls of the earlier nodes. -/
def stU (z : FVec K) (t : ℕ) : Vec K (P.nu t) := fun i => z (P.T * P.ndx + offs P.nu t + i)

/-- the multipliers of the dynamics in a stacked vector of equality multipliers: `lam_{t+1} = -y_t`. -/
def stLam (y : FVec K) : ℕ → Vec K P.ndx
  | 0 => 0
  | k + 1 => fun i => -y (k * P.ndx + i)

/-- the multipliers of the constraints of node `t`. -/
def stY (z : FVec K) (t : ℕ) : Vec K (P.ng t) := fun i => z (offs P.ng t + i)

end

section
variable {F : Type} [Neg F] (P : Problem F)

/-- the multipliers of the dynamics after the QP answer with equality multipliers `y`; blocks other than `1..T` keep the value `base`. -/
def lamAfter (base : ℕ → Vec F P.ndx) (y : FVec F) (t : ℕ) : Vec F P.ndx :=
  if 1 ≤ t ∧ t ≤ P.T then fun i => -y ((t - 1) * P.ndx + i) else base t

/-- the multipliers of the constraints after the QP answer with inequality multipliers `z`. -/
def yAfter (base : (t : ℕ) → Vec F (P.ng t)) (z : FVec F) (t : ℕ) : Vec F (P.ng t) :=
  if t ≤ P.T then fun i => z (offs P.ng t + i) else base t

/-- the multipliers of the dynamics after a series of answers: those of the last one. -/
def lamLast (base : ℕ → Vec F P.ndx) (l : List (PAns F)) : ℕ → Vec F P.ndx := l.getLast?.elim base fun a => lamAfter P base a.y

/-- the multipliers of the constraints after a series of answers: those of the last one. -/
def yLast (base : (t : ℕ) → Vec F (P.ng t)) (l : List (PAns F)) : (t : ℕ) → Vec F (P.ng t) :=
  l.getLast?.elim base fun a => yAfter P base a.z
end

section
variable {K : Type} [Field K] [LinearOrder K] [IsStrictOrderedRing K] (P : Problem K)
open Matrix
/-- First-order conditions up to `tol` that SolverPROXQP checks: as `IsCKKT` (no sign or complementarity conditions on `y`), without
the stationarity condition of the initial state, which involves the multiplier of the initial condition only. -/
structure IsPKKT (tol : K) (xs : Traj P) (us : Ctrls P) (lam : ℕ → Vec K P.ndx) (y : (t : ℕ) → Vec K (P.ng t)) : Prop where
  stat_x : ∀ t, 0 < t → t < P.T → ∀ i, |((P.calcDiffR t (xs t) (us t)).Lx +
    (P.calcDiffR t (xs t) (us t)).Fxᵀ *ᵥ lam (t + 1) - lam t + (P.calcDiffR t (xs t) (us t)).Gxᵀ *ᵥ y t) i| ≤ tol
  stat_u : ∀ t, t < P.T → ∀ i, |((P.calcDiffR t (xs t) (us t)).Lu +
    (P.calcDiffR t (xs t) (us t)).Fuᵀ *ᵥ lam (t + 1) + (P.calcDiffR t (xs t) (us t)).Guᵀ *ᵥ y t) i| ≤ tol
  stat_T : ∀ i, |((P.calcDiffT (xs P.T)).Lx - lam P.T + (P.calcDiffT (xs P.T)).Gxᵀ *ᵥ y P.T) i| ≤ tol
  gaps : ∀ t, t < P.T → ∀ i, |shootGap P xs us t i| ≤ tol
  feas : violation P xs us ≤ tol
end
end Mim.Spec
