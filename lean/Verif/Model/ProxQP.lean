import Verif.Model.Construct
import Verif.Base.Flat

/-!
# SolverPROXQP (/repo/src/csqp_proxqp.cpp, /repo/include/mim_solvers/csqp_proxqp.hpp)

The variables of the QP are stacked as `(dx_1, …, dx_T, du_0, …, du_{T-1})`, the equalities by stage, the inequalities by stage.
The code mixes `nx` and `ndx` and works for `nx = ndx` only (otherwise Eigen's dimension checks fail); the model has one dimension.
The running index variables of type `double` are naturals here.  ProxSuite's `qp_.solve()` is an arbitrary function of the call
number and of the data it is given; `none` means that it throws.
-/
set_option linter.unusedSectionVars false
set_option linter.unusedSimpArgs false

namespace Mim

/-- the matrices and vectors handed to ProxSuite, csqp_proxqp.hpp:239-254; a bound `none` is infinite. -/
structure PQP (F : Type) where
  P : FMat F
  q : FVec F
  A : FMat F
  b : FVec F
  C : FMat F
  l : FVec (Option F)
  u : FVec (Option F)

/-- what ProxSuite returns: `results.x y z` and `results.info.iter pri_res dua_res`. -/
structure PAns (F : Type) where
  x : FVec F
  y : FVec F
  z : FVec F
  iters : ℕ
  pri : F
  dua : F

/-- ProxSuite: call number, data; `none` if it throws. -/
abbrev PSolve (F : Type) := ℕ → PQP F → Option (PAns F)

/-- settings, csqp_proxqp.hpp:213-234 and those of `SolverDDP`. -/
structure PConf (F : Type) where
  par : Params F
  tol : F
  muDyn : F
  muCon : F
  useFilter : Bool
  filterSize : ℕ
  cb : Bool

/-- State of a `SolverPROXQP`.  `e`, `w` as for `SolverCSQP`; `m` the QP data; `lam` is `lag_mul_`.
Ghosts: `nQP` calls of ProxSuite, `nKKT` KKT checks, `nTry` calls of `tryStep`, `nRej` line searches that accepted nothing,
`acc` accepted step lengths, `hist` the triples pushed in this solve, `log` printed lines, `ans` ProxSuite's answers in order. -/
structure PROX {F : Type} (P : Problem F) where
  c : PConf F
  preg : F
  dreg : F
  iter : ℕ
  steplength : F
  xs : Traj P
  us : Ctrls P
  feas : Bool
  wasFeas : Bool
  data : Data P
  e : CEval P
  m : PQP F
  dx : ℕ → Vec F P.ndx
  du : (t : ℕ) → Vec F (P.nu t)
  lam : ℕ → Vec F P.ndx
  y : (t : ℕ) → Vec F (P.ng t)
  qpIters : ℕ
  pri : F
  dua : F
  w : CTry P
  merit : F
  xGrad : F
  uGrad : F
  KKT : F
  costList : CBuf F
  gapList : CBuf F
  conList : CBuf F
  isWorse : Bool
  nQP : ℕ
  nKKT : ℕ
  nTry : ℕ
  nRej : ℕ
  acc : List F
  hist : List (F × F × F)
  log : List (CbEvent F)
  ans : List (PAns F)

section
variable {F : Type} [Add F] [Sub F] [Mul F] [Div F] [Neg F] [Zero F] [One F] [FloatOps F] {P : Problem F}

/-- `n_eq`: the sum of the state dimensions of nodes `1..T`, csqp_proxqp.cpp:49-58. -/
def Problem.nEq (P : Problem F) : ℕ := P.T * P.ndx
/-- `n_vars`, csqp_proxqp.cpp:48-57. -/
def Problem.nVars (P : Problem F) : ℕ := P.nEq + offs P.nu P.T
/-- `n_in`, csqp_proxqp.cpp:89,118. -/
def Problem.nIn (P : Problem F) : ℕ := offs P.ng (P.T + 1)

/-- `lb - g` and `ub - g`, csqp_proxqp.cpp:312-313,342-343. -/
def loRow {n : ℕ} (lb : Fin n → Option F) (g : Vec F n) : Vec (Option F) n := fun i => (lb i).map fun l => l - g i

namespace PROX

/-- A freshly constructed `SolverPROXQP` (no Crocoddyl equality constraints): csqp_proxqp.cpp:22-141, defaults of
csqp_proxqp.hpp:209-254. -/
def new (d : Data P) : PROX P where
  c := { par := Params.default, tol := lit (1 / 10 ^ 8), muDyn := lit 10, muCon := lit 10, useFilter := true, filterSize := 1, cb := false }
  preg := 0
  dreg := 0
  iter := 0
  steplength := 1
  xs _ := P.zeroX
  us t := zeroV F (P.nu t)
  feas := false
  wasFeas := false
  data := d
  e := { fs := fun _ => zeroV F P.ndx, cost := 0, gap := 0, con := 0 }
  m := { P := fun _ _ => 0, q := fun _ => 0, A := fun _ _ => 0, b := fun _ => 0, C := fun _ _ => 0, l := fun _ => some 0
         u := fun _ => some 0 }
  dx _ := zeroV F P.ndx
  du t := zeroV F (P.nu t)
  lam _ := zeroV F P.ndx
  y t := zeroV F (P.ng t)
  qpIters := 0
  pri := 0
  dua := 0
  w := { xs := fun _ => P.zeroX, us := fun t => zeroV F (P.nu t), fs := fun _ => zeroV F P.ndx, cost := 0, gap := 0, con := 0
         merit := 0 }
  merit := 0
  xGrad := 0
  uGrad := 0
  KKT := -negInf
  costList := CBuf.empty.resize 1
  gapList := CBuf.empty.resize 1
  conList := CBuf.empty.resize 1
  isWorse := false
  nQP := 0
  nKKT := 0
  nTry := 0
  nRej := 0
  acc := []
  hist := []
  log := []
  ans := []

/-- the constructor, csqp_proxqp.cpp:22-141: `none` if it throws (lines 105-114). -/
def construct (nh : ℕ → ℕ) (d : Data P) : Option (PROX P) := if nEqCrocoddyl P.T nh ≠ 0 then none else some (new d)

/-- one stage of the assembly in `calc`, csqp_proxqp.cpp:296-326.  The columns of `Gu` start at `T * nx + t * nu` with the control
dimension of *this* stage, those of `Luu`, `Fu` at the running offset `index_u`.  Writes beyond the matrix (an Eigen assertion
or undefined behaviour in the code) go to positions of the model that are not part of the QP. -/
def fillStage (d : Data P) (fs : ℕ → Vec F P.ndx) (t : ℕ) (m : PQP F) : PQP F :=
  let r := d.rd t
  let ix := (t - 1) * P.ndx
  let iu := P.nEq + offs P.nu t
  let nin := offs P.ng t
  let m := if 0 < t then
      { m with
        P := setBlock iu ix r.Lxu.transpose (setBlock ix iu r.Lxu (setBlock ix ix r.Lxx m.P))
        q := setSeg ix r.Lx m.q
        A := setBlock (t * P.ndx) ix (-r.Fx) m.A
        C := if P.ng t ≠ 0 then setBlock nin ix r.Gx m.C else m.C }
    else m
  let m := if P.ng t ≠ 0 then
      { m with
        C := setBlock nin (P.T * P.ndx + t * P.nu t) r.Gu m.C
        l := setSeg nin (loRow (P.lb t) (d.run t).g) m.l
        u := setSeg nin (loRow (P.ub t) (d.run t).g) m.u }
    else m
  { m with
    P := setBlock iu iu r.Luu m.P
    q := setSeg iu r.Lu m.q
    A := setBlock (t * P.ndx) (t * P.ndx) (idMat P.ndx) (setBlock (t * P.ndx) iu (-r.Fu) m.A)
    b := setSeg (t * P.ndx) (fs (t + 1)) m.b }

/-- the terminal part of the assembly, csqp_proxqp.cpp:329-345. -/
def fillTerminal (d : Data P) (m : PQP F) : PQP F :=
  let ix := (P.T - 1) * P.ndx
  let nin := offs P.ng P.T
  let m := { m with P := setBlock ix ix d.td.Lxx m.P, q := setSeg ix d.td.Lx m.q }
  if P.ng P.T ≠ 0 then
    { m with
      C := setBlock nin ix d.td.Gx m.C
      l := setSeg nin (loRow (P.lb P.T) d.ter.g) m.l
      u := setSeg nin (loRow (P.ub P.T) d.ter.g) m.u }
  else m

/-- the QP left by `calc` when it finds `m`, csqp_proxqp.cpp:277-345. -/
def assemble (d : Data P) (fs : ℕ → Vec F P.ndx) (m : PQP F) : PQP F := fillTerminal d (forUp P.T (fillStage d fs) m)

/-- `calc(true)`, csqp_proxqp.cpp:260-357. -/
def calcEval (s : PROX P) : PROX P :=
  let d := (s.data.calcAll s.xs s.us).calcDiffAll s.xs s.us
  let fs := CSQP.calcFs d s.xs s.e.fs
  let gap := sumUp P.T (fun t => norm1 (fs (t + 1)))
  let con := CSQP.conNorm d
  { s with
    data := d
    e := { fs := fs, cost := d.totalCost, gap := gap, con := con }
    m := assemble d fs s.m
    merit := d.totalCost + s.c.muDyn * gap + s.c.muCon * con }

/-- the residual of `checkKKTConditions`, csqp_proxqp.cpp:421-451. -/
def residual (d : Data P) (fs lam : ℕ → Vec F P.ndx) (y : (t : ℕ) → Vec F (P.ng t)) (con : F) : F :=
  let K := forUp P.T (fun t K =>
    let r := d.rd t
    let K := if t = 0 then K
      else cppMax K (normInf (r.Lx + mv r.Fx.transpose (lam (t + 1)) - lam t + mv r.Gx.transpose (y t)))
    cppMax K (normInf (r.Lu + mv r.Fu.transpose (lam (t + 1)) + mv r.Gu.transpose (y t)))) 0
  let K := cppMax K (normInf (d.td.Lx - lam P.T + mv d.td.Gx.transpose (y P.T)))
  let K := cppMax K (forUp P.T (fun t m => cppMax m (normInf (fs (t + 1)))) 0)
  cppMax K con

/-- `checkKKTConditions()`, csqp_proxqp.cpp:421-451. -/
def checkKKT (s : PROX P) : PROX P :=
  { s with KKT := residual s.data s.e.fs s.lam s.y s.e.con, nKKT := s.nKKT + 1 }

/-- reading ProxSuite's answer, csqp_proxqp.cpp:378-416.  `dx_[0]` and `lag_mul_[0]` are not written. -/
def readAnswer (a : PAns F) (s : PROX P) : PROX P :=
  let dx : ℕ → Vec F P.ndx := fun t =>
    match t with
    | 0 => s.dx 0
    | t + 1 => if t < P.T then seg (t * P.ndx) P.ndx a.x else s.dx (t + 1)
  let du : (t : ℕ) → Vec F (P.nu t) := fun t => if t < P.T then seg (P.nEq + offs P.nu t) (P.nu t) a.x else s.du t
  { s with
    ans := s.ans ++ [a]
    qpIters := a.iters
    pri := a.pri
    dua := a.dua
    dx := dx
    du := du
    lam := fun t =>
      match t with
      | 0 => s.lam 0
      | t + 1 => if t < P.T then -seg (t * P.ndx) P.ndx a.y else s.lam (t + 1)
    y := fun t => if t ≤ P.T then seg (offs P.ng t) (P.ng t) a.z else s.y t
    xGrad := sumUp P.T (fun t => norm1 (dx (t + 1))) / lit ((P.T : ℚ) + 1)
    uGrad := sumUp P.T (fun t => norm1 (du t)) / lit (P.T : ℚ) }

/-- `computeDirection(recalcDiff)`, csqp_proxqp.cpp:359-419: the KKT check precedes the QP. -/
def computeDirection (qp : PSolve F) (recalc : Bool) (s : PROX P) : Res (PROX P) :=
  let s := (if recalc then s.calcEval else s).checkKKT
  match qp s.nQP s.m with
  | none => .exn { s with nQP := s.nQP + 1 }
  | some a => .ok (readAnswer a { s with nQP := s.nQP + 1 })

/-- one line of `printCallbacks`, csqp_proxqp.cpp:541-572. -/
def callbacks (s : PROX P) : PROX P :=
  { s with log := if s.c.cb then s.log ++ [⟨0, s.iter, s.KKT, s.e.cost, s.e.gap⟩] else s.log }

/-- pushes into the filter memory, csqp_proxqp.cpp:198-200. -/
def pushFilter (s : PROX P) : PROX P :=
  { s with
    conList := s.conList.push s.e.con
    gapList := s.gapList.push s.e.gap
    costList := s.costList.push s.e.cost
    hist := s.hist ++ [(s.e.cost, s.e.gap, s.e.con)] }

/-- the trial states and controls, csqp_proxqp.cpp:471-485. -/
def tryMove (a : F) (s : PROX P) : PROX P :=
  { s with w := { s.w with
    xs := fun t => if t ≤ P.T then P.integrate (s.xs t) (sv a (s.dx t)) else s.w.xs t
    us := fun t => if t < P.T ∧ P.nu t ≠ 0 then s.us t + sv a (s.du t) else s.w.us t } }

/-- one node of the evaluation loop, csqp_proxqp.cpp:487-508. -/
def tryStage (t : ℕ) (s : PROX P) : Res (PROX P) :=
  let d := s.data.calcNode t (s.w.xs t) (s.w.us t)
  let f := P.diff (s.w.xs (t + 1)) (d.run t).xnext
  let cost := s.w.cost + (d.run t).cost
  Res.throwIf (bad cost) { s with
    data := d
    w := { s.w with
      cost := cost
      fs := Function.update s.w.fs (t + 1) f
      gap := s.w.gap + norm1 f
      con := addViol (P.lb t) (P.ub t) (d.run t).g s.w.con } }

/-- the terminal node and the merit, csqp_proxqp.cpp:510-532. -/
def tryTerminal (s : PROX P) : Res (PROX P) :=
  let d := s.data.calcTer (s.w.xs P.T)
  let cost := s.w.cost + d.ter.cost
  let con := addViol (P.lb P.T) (P.ub P.T) d.ter.g s.w.con
  Res.throwIf (bad cost) { s with
    data := d
    w := { s.w with cost := cost, con := con, merit := cost + s.c.muDyn * s.w.gap + s.c.muCon * con } }

/-- `tryStep(steplength)`, csqp_proxqp.cpp:453-537. -/
def tryStep (a : F) (s : PROX P) : Res (PROX P) :=
  let s := { s with nTry := s.nTry + 1 }
  if ltb 1 a || ltb a 0 then .exn s
  else (forUpR P.T tryStage ({ s with w := { s.w with cost := 0, merit := 0, gap := 0, con := 0 } }.tryMove a)).bind tryTerminal

/-- `is_worse_than_memory_` after the loop csqp_proxqp.cpp:215-225. -/
def worse (s : PROX P) : Bool :=
  CSQP.filterLoop s.costList s.gapList s.conList s.c.filterSize (min s.c.filterSize (s.iter + 1)) s.w.cost s.w.gap s.w.con
    s.c.filterSize 0

/-- `setCandidate(xs_try_, us_try_, false)`, csqp_proxqp.cpp:227,235. -/
def accept (a : F) (s : PROX P) : PROX P := { s with xs := s.w.xs, us := s.w.us, feas := false, acc := s.acc ++ [a] }

/-- the line search, csqp_proxqp.cpp:203-240: the flag says whether a step was accepted. -/
def lineSearch : List F → PROX P → Bool × PROX P
  | [], s => (false, s)
  | a :: as, s =>
    match tryStep a { s with steplength := a } with
    | .exn s => lineSearch as s
    | .ok s =>
      if s.c.useFilter then
        let s := { s with isWorse := s.worse }
        if s.isWorse then lineSearch as s else (true, s.accept a)
      else if ltb s.w.merit s.merit then (true, s.accept a)
      else lineSearch as s

/-- `increaseRegularization()`, ddp.cpp:431-437. -/
def increaseReg (s : PROX P) : PROX P := { s with preg := incReg s.c.par s.preg, dreg := incReg s.c.par s.preg }
/-- `decreaseRegularization()`, ddp.cpp:439-445. -/
def decreaseReg (s : PROX P) : PROX P := { s with preg := decReg s.c.par s.preg, dreg := decReg s.c.par s.preg }

/-- the retry loop, csqp_proxqp.cpp:174-187. -/
def retry (qp : PSolve F) : ℕ → Bool → PROX P → Option (Bool × PROX P)
  | 0, _, _ => none
  | fuel + 1, recalc, s =>
    match s.computeDirection qp recalc with
    | .ok s => some (true, s)
    | .exn s =>
      let s := s.increaseReg
      if eqb s.preg s.c.par.regMax then some (false, s) else retry qp fuel false s

/-- the regularization update, csqp_proxqp.cpp:242-251: `(true, s)` means `return false`. -/
def updateReg (s : PROX P) : Bool × PROX P :=
  let s := if ltb s.c.par.thStepDec s.steplength then s.decreaseReg else s
  if leb s.steplength s.c.par.thStepInc then
    let s := s.increaseReg
    (eqb s.preg s.c.par.regMax, s)
  else (false, s)

/-- the line search, csqp_proxqp.cpp:203-240, with the ghost counter of failed searches. -/
def search (s : PROX P) : PROX P :=
  let (found, s) := lineSearch s.c.par.alphas s
  if found then s else { s with nRej := s.nRej + 1 }

/-- one iteration, csqp_proxqp.cpp:171-254.  `some (some b, s)`: `solve` returns `b`. -/
def body (qp : PSolve F) (fuel : ℕ) (s : PROX P) : Option (Option Bool × PROX P) :=
  match retry qp fuel true { s with wasFeas := false } with
  | none => none
  | some (false, s) => some (some false, s)
  | some (true, s) =>
    if leb s.KKT s.c.tol then some (some true, s.callbacks)
    else
      let r := s.pushFilter.search.updateReg
      if r.1 then some (some false, r.2) else some (none, r.2.callbacks)

/-- the main loop, csqp_proxqp.cpp:170. -/
def iterate (qp : PSolve F) (fuel : ℕ) : ℕ → PROX P → Option (Option Bool × PROX P)
  | 0, s => some (none, s)
  | n + 1, s =>
    match body qp fuel s with
    | none => none
    | some (some b, s) => some (some b, s)
    | some (none, s) => iterate qp fuel n { s with iter := s.iter + 1 }

/-- the beginning of `solve`, csqp_proxqp.cpp:153-168. -/
def start (initXs : Option (Traj P)) (initUs : Option (Ctrls P)) (reginit : F) (s : PROX P) : PROX P :=
  { s with
    xs := Function.update (initXs.getD fun _ => P.zeroX) 0 P.x0
    us := initUs.getD fun t => zeroV F (P.nu t)
    feas := false
    w := { s.w with xs := Function.update s.w.xs 0 P.x0 }
    preg := initReg s.c.par reginit
    dreg := initReg s.c.par reginit
    iter := 0
    hist := [] }

/-- `solve`, csqp_proxqp.cpp:145-258 (`is_feasible` is ignored by the code). -/
def solve (qp : PSolve F) (fuel : ℕ) (initXs : Option (Traj P)) (initUs : Option (Ctrls P)) (maxiter : ℕ) (reginit : F) (s : PROX P) :
    Option (Bool × PROX P) :=
  match iterate qp fuel maxiter (s.start initXs initUs reginit) with
  | none => none
  | some (some b, s) => some (b, s)
  | some (none, s) => some (false, s)

/-- `set_filter_size`, csqp_proxqp.hpp:168-173. -/
def setFilterSize (n : ℕ) (s : PROX P) : PROX P :=
  { s with c := { s.c with filterSize := n }, gapList := s.gapList.resize n, conList := s.conList.resize n
           costList := s.costList.resize n }

end PROX
end
end Mim
