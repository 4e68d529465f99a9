import Verif.Model.SQP
import Verif.Lemmas.SQPHist

/-!
# Changing the unit and the zero of the costs

`P.recost c D`: the problem with the cost of node `t` replaced by `c · cost + D t` (`D T` for the terminal node), and with the
derivatives of the cost multiplied by `c`.  `noScreen` is exact arithmetic in which `raiseIfNaN` never fires (its threshold 1e30 is an absolute
number, so no statement about units can include it).
-/
set_option autoImplicit false
set_option linter.unusedSectionVars false
set_option linter.unusedSimpArgs false

namespace Mim

section
variable {K : Type} [Field K] [LinearOrder K] [IsStrictOrderedRing K]

/-- exact arithmetic without the blow-up screen. -/
@[instance_reducible] def noScreen : FloatOps K := { exactOps with bad := fun _ => false }

/-- the derivatives of a running node with the cost multiplied by `c`. -/
def RunDiff.recost (c : K) {ndx nu ng : ℕ} (r : RunDiff K ndx nu ng) : RunDiff K ndx nu ng :=
  { r with Lx := sv c r.Lx, Lu := sv c r.Lu, Lxx := sm c r.Lxx, Lxu := sm c r.Lxu, Luu := sm c r.Luu }

/-- … of the terminal node. -/
def TerDiff.recost (c : K) {ndx ng : ℕ} (r : TerDiff K ndx ng) : TerDiff K ndx ng :=
  { r with Lx := sv c r.Lx, Lxx := sm c r.Lxx }

/-- the same problem with other costs: `c · cost + D t` at node `t`. -/
@[reducible] def Problem.recost (P : Problem K) (c : K) (D : ℕ → K) : Problem K :=
  { P with
    calcR := fun t x u => { P.calcR t x u with cost := c * (P.calcR t x u).cost + D t }
    calcDiffR := fun t x u => (P.calcDiffR t x u).recost c
    calcT := fun x => { P.calcT x with cost := c * (P.calcT x).cost + D P.T }
    calcDiffT := fun x => (P.calcDiffT x).recost c }

/-- the regularization of the rescaled problem. -/
def Params.recost (c : K) (p : Params K) : Params K := { p with regMin := c * p.regMin, regMax := c * p.regMax }

/-- the Cholesky solver respects the unit: `c · A` is factorised iff `A` is, and `(c · A)⁻¹ (c · v) = A⁻¹ v`. -/
def LLT.Unitless (llt : LLT K) (c : K) : Prop :=
  ∀ n (A : Mat K n n), (llt n A = none ∧ llt n (sm c A) = none) ∨
    ∃ s s', llt n A = some s ∧ llt n (sm c A) = some s' ∧ ∀ v, s' (sv c v) = s v

/-- all offsets together: what a pure change of the zero adds to the cost of a trajectory. -/
def offset (P : Problem K) (D : ℕ → K) : K := sumUp P.T D + D P.T

/-- before `solve`: `s'` is configured like `s`, in the new unit.  Regularization bounds and the weight of the gaps in the merit function are
multiplied by `c`; everything else is equal; the memories have the configured size. -/
structure Rescaled {P : Problem K} (c : K) (D : ℕ → K) (s : SQP P) (s' : SQP (P.recost c D)) : Prop where
  par : s'.par = s.par.recost c
  mu : s'.mu = c * s.mu
  useFilter : s'.useFilter = s.useFilter
  filterSize : s'.filterSize = s.filterSize
  extra : s'.extra = s.extra
  dx0 : s'.dx 0 = s.dx 0
  gapList : s'.gapList = s.gapList
  costFull : s.costList.Full s.filterSize
  costFull' : s'.costList.Full s.filterSize

/-- the same candidate trajectory. -/
structure SameCandidate {P : Problem K} (c : K) (D : ℕ → K) (s : SQP P) (s' : SQP (P.recost c D)) : Prop where
  iter : s'.iter = s.iter
  xs : ∀ t, t ≤ P.T → s'.xs t = s.xs t
  us : ∀ t, t < P.T → s'.us t = s.us t

/-- the same answer: the trajectory and the feedback policy are equal; the cost is `c · cost +` all offsets, the multipliers are `c` times the old
ones, the constraint violation is equal. -/
structure SameAnswer {P : Problem K} (c : K) (D : ℕ → K) (s : SQP P) (s' : SQP (P.recost c D)) : Prop extends SameCandidate c D s s' where
  cost : s'.cost = c * s.cost + offset P D
  gap : s'.gap = s.gap
  lag : ∀ t, t ≤ P.T → s'.lagMul t = sv c (s.lagMul t)
  gains : ∀ t, t < P.T → s'.bp.K t = s.bp.K t ∧ s'.bp.k t = s.bp.k t
  direction : (∀ t, t ≤ P.T → s'.dx t = s.dx t) ∧ ∀ t, t < P.T → s'.du t = s.du t
  preg : s'.preg = c * s.preg
  /-- the residual is the maximum of a stationarity part, which scales, and the gaps, which do not. -/
  KKT : ∃ a g, 0 ≤ a ∧ 0 ≤ g ∧ s.KKT = max a g ∧ s'.KKT = max (c * a) g

end
end Mim
