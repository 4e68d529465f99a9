import Verif.Base.Scalar
import Verif.Base.Loop

/-!
# The part of Crocoddyl the solvers talk to

These are assumptions about an external library, stated as definitions (see DESIGN.md, trusted base).
-/
set_option linter.unusedSectionVars false
set_option linter.unusedSimpArgs false

namespace Mim

/-- what `ActionModelAbstract::calc(d, x, u)` writes into the action data: cost, next state, constraint residual. -/
structure RunCalc (F X : Type) (ng : ℕ) where
  cost : F
  xnext : X
  g : Vec F ng

/-- what `ActionModelAbstract::calcDiff(d, x, u)` writes. -/
structure RunDiff (F : Type) (ndx nu ng : ℕ) where
  Lx : Vec F ndx
  Lu : Vec F nu
  Lxx : Mat F ndx ndx
  Lxu : Mat F ndx nu
  Luu : Mat F nu nu
  Fx : Mat F ndx ndx
  Fu : Mat F ndx nu
  Gx : Mat F ng ndx
  Gu : Mat F ng nu

/-- terminal node: result of `calc(d, x)`. -/
structure TerCalc (F : Type) (ng : ℕ) where
  cost : F
  g : Vec F ng

/-- terminal node: result of `calcDiff(d, x)`. -/
structure TerDiff (F : Type) (ndx ng : ℕ) where
  Lx : Vec F ndx
  Lxx : Mat F ndx ndx
  Gx : Mat F ng ndx

/-- `crocoddyl::ShootingProblem`.  `ng T` is the number of constraints of the terminal model.  A bound `none` is
infinite (`-inf` as a lower bound, `+inf` as an upper bound).  Action models are assumed deterministic: `calc` and
`calcDiff` are functions of `(x, u)`.  For nodes with `nu = 0`, `calc(d, x)` is identified with `calc(d, x, u)` for
the empty `u`.  All nodes share one state space, as Crocoddyl's constructor enforces. -/
structure Problem (F : Type) where
  T : ℕ
  ndx : ℕ
  nu : ℕ → ℕ
  ng : ℕ → ℕ
  X : Type
  integrate : X → Vec F ndx → X
  diff : X → X → Vec F ndx
  zeroX : X
  x0 : X
  calcR : (t : ℕ) → X → Vec F (nu t) → RunCalc F X (ng t)
  calcDiffR : (t : ℕ) → X → Vec F (nu t) → RunDiff F ndx (nu t) (ng t)
  calcT : X → TerCalc F (ng T)
  calcDiffT : X → TerDiff F ndx (ng T)
  /-- `raiseIfNaN(x.lpNorm<Infinity>())` on a state (ddp.cpp:382, fddp.cpp:320,362). -/
  badX : X → Bool
  lb : (t : ℕ) → Fin (ng t) → Option F
  ub : (t : ℕ) → Fin (ng t) → Option F

abbrev Traj {F : Type} (P : Problem F) := ℕ → P.X
abbrev Ctrls {F : Type} (P : Problem F) := (t : ℕ) → Vec F (P.nu t)

/-- the problem's action datas, i.e. the memory `calc` and `calcDiff` write to. -/
structure Data {F : Type} (P : Problem F) where
  run : (t : ℕ) → RunCalc F P.X (P.ng t)
  rd : (t : ℕ) → RunDiff F P.ndx (P.nu t) (P.ng t)
  ter : TerCalc F (P.ng P.T)
  td : TerDiff F P.ndx (P.ng P.T)

section
variable {F : Type} [Add F] [Zero F] {P : Problem F}

/-- freshly created action datas: everything zero (`xnext` is some state). -/
def Data.zero (P : Problem F) : Data P where
  run _ := ⟨0, P.zeroX, fun _ => 0⟩
  rd _ := ⟨fun _ => 0, fun _ => 0, Matrix.of fun _ _ => 0, Matrix.of fun _ _ => 0, Matrix.of fun _ _ => 0,
    Matrix.of fun _ _ => 0, Matrix.of fun _ _ => 0, Matrix.of fun _ _ => 0, Matrix.of fun _ _ => 0⟩
  ter := ⟨0, fun _ => 0⟩
  td := ⟨fun _ => 0, Matrix.of fun _ _ => 0, Matrix.of fun _ _ => 0⟩

/-- `Σ_{t<n} f t` accumulated in loop order starting from `0.`. -/
def sumUp (n : ℕ) (f : ℕ → F) : F := forUp n (fun t acc => acc + f t) 0

/-- the sum of the costs stored in the datas, as both `ShootingProblem::calc` and `calcDiff` return it. -/
def Data.totalCost (d : Data P) : F := sumUp P.T (fun t => (d.run t).cost) + d.ter.cost

/-- `ShootingProblem::calc(xs, us)`: every node's `calc`. -/
def Data.calcAll (d : Data P) (xs : Traj P) (us : Ctrls P) : Data P :=
  { d with
    run := fun t => if t < P.T then P.calcR t (xs t) (us t) else d.run t
    ter := P.calcT (xs P.T) }

/-- `ShootingProblem::calcDiff(xs, us)`: every node's `calcDiff`; costs and next states are *not* recomputed. -/
def Data.calcDiffAll (d : Data P) (xs : Traj P) (us : Ctrls P) : Data P :=
  { d with
    rd := fun t => if t < P.T then P.calcDiffR t (xs t) (us t) else d.rd t
    td := P.calcDiffT (xs P.T) }

/-- one node's `m->calc(d, x, u)`. -/
def Data.calcNode (d : Data P) (t : ℕ) (x : P.X) (u : Vec F (P.nu t)) : Data P :=
  { d with run := Function.update d.run t (P.calcR t x u) }

/-- terminal node's `m->calc(d, x)`. -/
def Data.calcTer (d : Data P) (x : P.X) : Data P := { d with ter := P.calcT x }

/-- `SolverAbstract::computeDynamicFeasibility` (the part that fills `fs_`):
`fs[0] = diff(xs[0], x0)`, `fs[t+1] = diff(xs[t+1], datas[t]->xnext)` with the *stored* next states. -/
def gapsOf (d : Data P) (xs : Traj P) : ℕ → Vec F P.ndx
  | 0 => P.diff (xs 0) P.x0
  | t + 1 => P.diff (xs (t + 1)) (d.run t).xnext

end
end Mim
