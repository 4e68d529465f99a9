import Verif.Model.PySQP

/-!
# The Python class `SQP_CPP` (/repo/python/sqp_cpp.py)

`SQP_CPP` derives from Crocoddyl's own `SolverFDDP` and drives its `calcDiff` and `backwardPass` from Python.  The C++ parts are
those of Crocoddyl, of which /repo/src/ddp.cpp is a copy: they are modelled by the functions of `Model/DDP` (assumption, see
DESIGN.md).  As for `PySQP` all nodes have the same positive number of controls and `ndx > 0`.  The Python loop variable `iter`
is local: the solver's own `iter_` stays 0, so that `calcDiff` always evaluates (ddp.cpp:254-257).  `with_callbacks` only prints.
`solve` also overwrites the first entry of the caller's list `init_xs` (sqp_cpp.py:131).
-/
set_option linter.unusedSectionVars false
set_option linter.unusedSimpArgs false

namespace Mim

/-- Attributes of the class `SQP_CPP`, sqp_cpp.py:18-28, 206-228, with the members of the C++ base class it reads.  `nRej` is a
ghost counter of line searches that accepted no step. -/
structure SQPCpp {F : Type} (P : Problem F) where
  mu : F
  tol : F
  useFilter : Bool
  filterSize : ℕ
  preg : F
  dreg : F
  xs : Traj P
  us : Ctrls P
  xsTry : Traj P
  usTry : Ctrls P
  data : Data P
  fs : ℕ → Vec F P.ndx
  bp : BP P
  gapTry : ℕ → Vec F P.ndx
  dx : ℕ → Vec F P.ndx
  du : (t : ℕ) → Vec F (P.nu t)
  lagMul : ℕ → Vec F P.ndx
  cost : F
  costTry : F
  gapNorm : F
  gapNormTry : F
  merit : F
  meritTry : F
  xGrad : F
  uGrad : F
  KKT : F
  gapList : CBuf F
  costList : CBuf F
  nRej : ℕ

section
variable {F : Type} [Add F] [Sub F] [Mul F] [Div F] [Neg F] [Zero F] [One F] [FloatOps F]

namespace SQPCpp
variable {P : Problem F}

/-- a freshly constructed `SQP_CPP(shootingProblem, use_filter_line_search)`, sqp_cpp.py:18-28, 206-228.  `d` is the content of
the problem's datas.  `KKT`, `gap_list`, `cost_list` do not exist before the first `solve`; their values here are never read. -/
def new (useFilter : Bool) (d : Data P) : SQPCpp P where
  mu := lit 1
  tol := lit (1 / 10 ^ 6)
  useFilter := useFilter
  filterSize := 1
  preg := 0
  dreg := 0
  xs _ := P.zeroX
  us t := zeroV F (P.nu t)
  xsTry := Function.update (fun _ => P.zeroX) 0 P.x0
  usTry t := zeroV F (P.nu t)
  data := d
  fs _ := zeroV F P.ndx
  bp := BP.zero P
  gapTry _ := zeroV F P.ndx
  dx _ := zeroV F P.ndx
  du t := zeroV F (P.nu t)
  lagMul _ := zeroV F P.ndx
  cost := 0
  costTry := 0
  gapNorm := 0
  gapNormTry := 0
  merit := 0
  meritTry := 0
  xGrad := 0
  uGrad := 0
  KKT := 0
  gapList := ⟨0, []⟩
  costList := ⟨0, []⟩
  nRej := 0

/-- `calc()`, sqp_cpp.py:30-33, with Crocoddyl's `calcDiff` (ddp.cpp:253-263).  The sum of the gap norms is not divided by `T`. -/
def evaluate (s : SQPCpp P) : SQPCpp P :=
  let d := (s.data.calcAll s.xs s.us).calcDiffAll s.xs s.us
  let fs := gapsOf d s.xs
  let gn := rowsNorm fs
  { s with data := d, fs := fs, cost := d.totalCost, gapNorm := gn, merit := d.totalCost + s.mu * gn }

/-- `KKT_check()`, sqp_cpp.py:71-87, with the multipliers of the previous direction. -/
def kktCheck (s : SQPCpp P) : SQPCpp P := { s with KKT := kktResidual s.data s.fs s.lagMul }

/-- one node of `computeUpdates`, sqp_cpp.py:50-64. -/
def updateStage (t : ℕ) (s : SQPCpp P) : SQPCpp P :=
  let r := s.data.rd t
  { s with
    lagMul := Function.update s.lagMul t (mv (s.bp.Vxx t) (s.dx t - s.fs t) + s.bp.Vx t)
    du := Function.update s.du t (mv (-(s.bp.K t)) (s.dx t) - s.bp.k t)
    dx := Function.update s.dx (t + 1)
      (mv (r.Fx + mm (-r.Fu) (s.bp.K t)) (s.dx t) + mv (-r.Fu) (s.bp.k t) + s.fs (t + 1)) }

/-- `computeUpdates()`, sqp_cpp.py:48-68. -/
def computeUpdates (s : SQPCpp P) : SQPCpp P :=
  let s := forUp P.T updateStage s
  { s with
    lagMul := Function.update s.lagMul P.T (mv (s.bp.Vxx P.T) (s.dx P.T - s.fs P.T) + s.bp.Vx P.T)
    xGrad := rowsNorm s.dx / lit (P.T : ℚ)
    uGrad := sumUp P.T (fun t => norm1 (s.du t)) / lit (P.T : ℚ) }

/-- `computeDirection()`, sqp_cpp.py:36-46 (`kkt_check` is true in every call of the class): when the residual is below the
tolerance it returns before the backward pass and leaves the old direction in place.  `exn` is the exception of Crocoddyl's
`backwardPass`. -/
def computeDirection (llt : LLT F) (s : SQPCpp P) : Res (SQPCpp P) :=
  let s := s.evaluate.kktCheck
  if ltb s.KKT s.tol then .ok s
  else
    match backwardPass llt s.data s.fs false s.preg s.dreg s.bp with
    | .ok b => .ok (computeUpdates { s with bp := b })
    | .exn b => .exn { s with bp := b }

/-- the first loop of `tryStep` with the terminal state, sqp_cpp.py:94-101. -/
def trialPoint (a : F) (s : SQPCpp P) : SQPCpp P :=
  let s := forUp P.T (fun t s => { s with
    xsTry := Function.update s.xsTry t (P.integrate (s.xs t) (sv a (s.dx t)))
    usTry := Function.update s.usTry t (s.us t + sv a (s.du t)) }) s
  { s with xsTry := Function.update s.xsTry P.T (P.integrate (s.xs P.T) (sv a (s.dx P.T))) }

/-- one node of the second loop of `tryStep`, sqp_cpp.py:103-108. -/
def tryNode (t : ℕ) (s : SQPCpp P) : SQPCpp P :=
  let d := s.data.calcNode t (s.xsTry t) (s.usTry t)
  { s with
    data := d
    gapTry := Function.update s.gapTry t (P.diff (s.xsTry (t + 1)) (d.run t).xnext)
    costTry := s.costTry + (d.run t).cost }

/-- `tryStep(alpha)`, sqp_cpp.py:89-117.  Here the sum of the gap norms *is* divided by `T`. -/
def tryStep (a : F) (s : SQPCpp P) : SQPCpp P :=
  let s := forUp P.T tryNode (trialPoint a { s with meritTry := 0, costTry := 0 })
  let d := s.data.calcTer (s.xsTry P.T)
  let c := s.costTry + d.ter.cost
  let gn := rowsNorm s.gapTry / lit (P.T : ℚ)
  { s with data := d, costTry := c, gapNormTry := gn, meritTry := c + s.mu * gn }

/-- `is_worse_than_memory`, sqp_cpp.py:156-168; the loop is the one of sqp.py. -/
def worse (iter : ℕ) (s : SQPCpp P) : Bool :=
  PySQP.filterLoop s.costList s.gapList s.filterSize iter s.costTry s.gapNormTry s.filterSize 0

/-- `acceptStep()`, sqp_cpp.py:120-121. -/
def acceptStep (s : SQPCpp P) : SQPCpp P := { s with xs := s.xsTry, us := s.usTry }

/-- the line search, sqp_cpp.py:151-181, with `n` trials left; returns also the final value of `alpha`. -/
def search (iter : ℕ) : ℕ → F → SQPCpp P → PySQP.Search × F × SQPCpp P
  | 0, a, s => (.exhausted, a, { s with nRej := s.nRej + 1 })
  | n + 1, a, s =>
    let s := tryStep a s
    if s.useFilter then
      if s.worse iter then search iter n (a * lit (1 / 2)) s else (.accepted, a, s.acceptStep)
    else if n = 0 then (.gaveUp, a, s)
    else if ltb s.meritTry s.merit then (.accepted, a, s.acceptStep)
    else search iter n (a * lit (1 / 2)) s

/-- `gap_list.append`, `cost_list.append`, sqp_cpp.py:149-150. -/
def pushFilter (s : SQPCpp P) : SQPCpp P :=
  { s with gapList := s.gapList.push s.gapNorm, costList := s.costList.push s.cost }

/-- the main loop, sqp_cpp.py:147-199: `n` iterations left, `iter` the current one.  The tolerance is tested after the line
search, on the residual computed before it. -/
def iterate (llt : LLT F) : ℕ → ℕ → SQPCpp P → PyOut × SQPCpp P
  | 0, _, s => (.ret true, s)
  | n + 1, iter, s =>
    match computeDirection llt s with
    | .exn s => (.raised .linAlg, s)
    | .ok s =>
      match search iter 10 (lit 1) s.pushFilter with
      | (.gaveUp, _, s) => (.ret false, s)
      | (_, _, s) => if ltb s.KKT s.tol then (.ret true, s) else iterate llt n (iter + 1) s

/-- the beginning of `solve`, sqp_cpp.py:126-141; an omitted guess is the initial state at every node and zero controls. -/
def start (initXs : Option (Traj P)) (initUs : Option (Ctrls P)) (s : SQPCpp P) : SQPCpp P :=
  { s with
    xs := Function.update (initXs.getD fun _ => P.x0) 0 P.x0
    us := initUs.getD fun t => zeroV F (P.nu t)
    gapList := infDeque s.filterSize
    costList := infDeque s.filterSize }

/-- `solve(init_xs, init_us, maxiter, isFeasible, regInit)`, sqp_cpp.py:123-199 (the last two arguments are ignored). -/
def solve (llt : LLT F) (initXs : Option (Traj P)) (initUs : Option (Ctrls P)) (maxiter : ℕ) (s : SQPCpp P) :
    PyOut × SQPCpp P :=
  iterate llt maxiter 0 (s.start initXs initUs)

end SQPCpp
end
end Mim
