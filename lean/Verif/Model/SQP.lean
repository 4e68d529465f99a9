import Verif.Model.DDP

/-!
# SolverSQP (/repo/src/sqp.cpp, /repo/include/mim_solvers/sqp.hpp)
-/
set_option linter.unusedSectionVars false
set_option linter.unusedSimpArgs false

namespace Mim

/-- what a callback can observe when it is invoked (`callback(*this, "SQP")`): which callback, the iteration, the
residual, cost and gap norm. -/
structure CbEvent (F : Type) where
  idx : ℕ
  iter : ℕ
  KKT : F
  cost : F
  gap : F

/-- Members of `SolverSQP` (sqp.hpp:131-190) together with those it inherits and uses.
`nKKT`, `nTry`, `nRej`, `hist`, `log` are ghost history variables that the code does not have: number of KKT checks, of
`tryStep` calls, of line searches that accepted no step, the (cost, gap norm) pairs pushed during the current solve,
oldest first, and the callback calls. -/
structure SQP {F : Type} (P : Problem F) where
  -- parameters
  par : Params F
  tol : F
  mu : F
  useFilter : Bool
  filterSize : ℕ
  extra : Bool
  ncb : ℕ
  -- state
  preg : F
  dreg : F
  iter : ℕ
  steplength : F
  xs : Traj P
  us : Ctrls P
  xsTry : Traj P
  usTry : Ctrls P
  feas : Bool
  data : Data P
  fs : ℕ → Vec F P.ndx
  fsTry : ℕ → Vec F P.ndx
  bp : BP P
  dx : ℕ → Vec F P.ndx
  du : (t : ℕ) → Vec F (P.nu t)
  lagMul : ℕ → Vec F P.ndx
  cost : F
  costTry : F
  gap : F
  gapTry : F
  merit : F
  meritTry : F
  xGrad : F
  uGrad : F
  KKT : F
  gapList : CBuf F
  costList : CBuf F
  isWorse : Bool
  -- ghost
  nKKT : ℕ
  nTry : ℕ
  nRej : ℕ
  hist : List (F × F)
  log : List (CbEvent F)

section
variable {F : Type} [Add F] [Sub F] [Mul F] [Div F] [Neg F] [Zero F] [One F] [FloatOps F]

/-- L1 norm of all gaps, accumulated as at sqp.cpp:229-234 and fddp.cpp:195-200. -/
def gapNorm {P : Problem F} (fs : ℕ → Vec F P.ndx) : F :=
  sumUp P.T (fun t => norm1 (fs t)) + norm1 (fs P.T)

/-- The residual computed by `checkKKTConditions`: sqp.cpp:244-268 (same formulas at ddp.cpp:177-198,
fddp.cpp:206-227).  `fs_flat_` is the concatenation of the gaps; its infinity norm is the maximum over the nodes. -/
def kktResidual {P : Problem F} (d : Data P) (fs lam : ℕ → Vec F P.ndx) : F :=
  let K := forUp P.T (fun t K =>
    let r := d.rd t
    let K := cppMax K (normInf (r.Lx + mv r.Fx.transpose (lam (t + 1)) - lam t))
    cppMax K (normInf (r.Lu + mv r.Fu.transpose (lam (t + 1))))) 0
  let K := cppMax K (normInf (d.td.Lx - lam P.T))
  cppMax K (forUp (P.T + 1) (fun t m => cppMax m (normInf (fs t))) 0)

namespace SQP
variable {P : Problem F}

/-- A freshly constructed `SolverSQP`: sqp.cpp:23-71, defaults of sqp.hpp:157-185, ddp.cpp:23-58 and Crocoddyl's
`SolverAbstract` constructor.  `d` is the content of the problem's datas, which the solver does not initialise;
`KKT_` starts at `+inf`. -/
def new (d : Data P) : SQP P where
  par := Params.default
  tol := lit (1 / 10 ^ 6)
  mu := lit 1
  useFilter := true
  filterSize := 1
  extra := false
  ncb := 0
  preg := 0
  dreg := 0
  iter := 0
  steplength := 1
  xs _ := P.zeroX
  us t := zeroV F (P.nu t)
  xsTry _ := P.zeroX
  usTry t := zeroV F (P.nu t)
  feas := false
  data := d
  fs _ := zeroV F P.ndx
  fsTry _ := zeroV F P.ndx
  bp := BP.zero P
  dx _ := zeroV F P.ndx
  du t := zeroV F (P.nu t)
  lagMul _ := zeroV F P.ndx
  cost := 0
  costTry := 0
  gap := 0
  gapTry := 0
  merit := 0
  meritTry := 0
  xGrad := 0
  uGrad := 0
  KKT := -negInf
  gapList := CBuf.empty.resize 1
  costList := CBuf.empty.resize 1
  isWorse := false
  nKKT := 0
  nTry := 0
  nRej := 0
  hist := []
  log := []

/-- `setCandidate(xs, us, is_feasible)` for vectors of the right sizes (crocoddyl `SolverAbstract`). -/
def setCandidate (s : SQP P) (xs : Traj P) (us : Ctrls P) (feas : Bool) : SQP P :=
  { s with xs := xs, us := us, feas := feas }

/-- `calcDiff()` of `SolverDDP`, ddp.cpp:253-263: `calc` is only run at iteration 0. -/
def calcDiff (s : SQP P) : SQP P :=
  let d := if s.iter = 0 then s.data.calcAll s.xs s.us else s.data
  let d := d.calcDiffAll s.xs s.us
  { s with data := d, cost := d.totalCost, fs := gapsOf d s.xs }

/-- one node of `forwardPass`, sqp.cpp:280-295. -/
def forwardStage (t : ℕ) (s : SQP P) : SQP P :=
  let r := s.data.rd t
  let lam := mv (s.bp.Vxx t) (s.dx t - s.fs t) + s.bp.Vx t
  let du := mv (-(s.bp.K t)) (s.dx t) - s.bp.k t
  let dxn := s.fs (t + 1) + mv r.Fu du + mv r.Fx (s.dx t)
  { s with
    lagMul := Function.update s.lagMul t lam
    du := Function.update s.du t du
    dx := Function.update s.dx (t + 1) dxn
    xGrad := s.xGrad + norm1 (s.dx t)
    uGrad := s.uGrad + norm1 du }

/-- `forwardPass()`, sqp.cpp:270-305.  `(double)T` is `lit T`. -/
def forwardPass (s : SQP P) : SQP P :=
  let s := forUp P.T forwardStage { s with xGrad := 0, uGrad := 0 }
  { s with
    lagMul := Function.update s.lagMul P.T
      (s.bp.Vx P.T + mv (s.bp.Vxx P.T) (s.dx P.T - s.fs P.T))
    xGrad := (s.xGrad + norm1 (s.dx P.T)) / lit ((P.T : ℚ) + 1)
    uGrad := s.uGrad / lit (P.T : ℚ) }

/-- `computeDirection(recalcDiff)`, sqp.cpp:224-242. -/
def computeDirection (llt : LLT F) (recalc : Bool) (s : SQP P) : Res (SQP P) :=
  let s := if recalc then s.calcDiff else s
  let gap := gapNorm s.fs
  let s := { s with gap := gap, merit := s.cost + s.mu * gap }
  match backwardPass llt s.data s.fs s.feas s.preg s.dreg s.bp with
  | .ok b => .ok (forwardPass { s with bp := b })
  | .exn b => .exn { s with bp := b }

/-- `checkKKTConditions()`, sqp.cpp:244-268. -/
def checkKKT (s : SQP P) : SQP P :=
  { s with KKT := kktResidual s.data s.fs s.lagMul, nKKT := s.nKKT + 1 }

/-- one node of `tryStep`, sqp.cpp:323-345. -/
def tryStage (a : F) (t : ℕ) (s : SQP P) : Res (SQP P) :=
  let x := P.integrate (s.xs t) (sv a (s.dx t))
  let usTry := if P.nu t ≠ 0 then Function.update s.usTry t (s.us t + sv a (s.du t)) else s.usTry
  let d := s.data.calcNode t x (usTry t)
  let s := { s with
    xsTry := Function.update s.xsTry t x
    usTry := usTry
    data := d
    costTry := s.costTry + (d.run t).cost }
  let s := if 0 < t then
      let f := P.diff x (s.data.run (t - 1)).xnext
      { s with fsTry := Function.update s.fsTry (t - 1) f, gapTry := s.gapTry + norm1 f }
    else s
  if bad s.costTry then .exn s else .ok s

/-- terminal part of `tryStep`, sqp.cpp:348-368. -/
def tryTerminal (a : F) (s : SQP P) : Res (SQP P) :=
  let x := P.integrate (s.xs P.T) (sv a (s.dx P.T))
  let d := s.data.calcTer x
  let f := P.diff x (d.run (P.T - 1)).xnext
  let costTry := s.costTry + d.ter.cost
  let gapTry := s.gapTry + norm1 f
  let s := { s with
    xsTry := Function.update s.xsTry P.T x
    data := d
    costTry := costTry
    fsTry := Function.update s.fsTry (P.T - 1) f
    gapTry := gapTry
    meritTry := costTry + s.mu * gapTry }
  if bad s.costTry then .exn s else .ok s

/-- `tryStep(steplength)`, sqp.cpp:307-374. -/
def tryStep (a : F) (s : SQP P) : Res (SQP P) :=
  let s := { s with nTry := s.nTry + 1 }
  if ltb 1 a || ltb a 0 then .exn s
  else (forUpR P.T (tryStage a) { s with costTry := 0, meritTry := 0, gapTry := 0 }).bind (tryTerminal a)

/-- the filter test, sqp.cpp:149-157 (same code at fddp.cpp:121-129): result `is_worse_than_memory_`.
The loop counter starts at `count`; `fuel` bounds the loop (it makes at most `filter_size_` turns). -/
def filterLoop (costList gapList : CBuf F) (filterSize iter : ℕ) (costTry gapTry : F) : ℕ → ℕ → Bool
  | 0, _ => false
  | n + 1, count =>
    if count < filterSize ∧ count ≤ iter then
      if leb (costList.get (filterSize - 1 - count)) costTry && leb (gapList.get (filterSize - 1 - count)) gapTry
      then true
      else filterLoop costList gapList filterSize iter costTry gapTry n (count + 1)
    else false

/-- `is_worse_than_memory_` after the loop. -/
def worse (s : SQP P) : Bool :=
  filterLoop s.costList s.gapList s.filterSize s.iter s.costTry s.gapTry s.filterSize 0

/-- the line search, sqp.cpp:137-172.  Returns whether a step was accepted. -/
def lineSearch : List F → SQP P → Bool × SQP P
  | [], s => (false, s)
  | a :: as, s =>
    match tryStep a { s with steplength := a } with
    | .exn s => lineSearch as s
    | .ok s =>
      if s.useFilter then
        let s := { s with isWorse := s.worse }
        if s.isWorse then lineSearch as s else (true, s.setCandidate s.xsTry s.usTry false)
      else if ltb s.meritTry s.merit then (true, s.setCandidate s.xsTry s.usTry false)
      else lineSearch as s

def increaseReg (s : SQP P) : SQP P := { s with preg := incReg s.par s.preg, dreg := incReg s.par s.preg }
def decreaseReg (s : SQP P) : SQP P := { s with preg := decReg s.par s.preg, dreg := decReg s.par s.preg }

/-- the retry loop, sqp.cpp:103-116 and 189-203.  `none`: still looping after `fuel` attempts; `(true, s)`: a
direction was computed; `(false, s)`: `solve` returns false. -/
def retry (llt : LLT F) : ℕ → Bool → SQP P → Option (Bool × SQP P)
  | 0, _, _ => none
  | fuel + 1, recalc, s =>
    match s.computeDirection llt recalc with
    | .ok s => some (true, s)
    | .exn s =>
      let s := s.increaseReg
      if eqb s.preg s.par.regMax then some (false, s) else retry llt fuel false s

/-- the callback loop, sqp.cpp:121-126, 208-213. -/
def callbacks (s : SQP P) : SQP P :=
  { s with log := s.log ++ (List.range s.ncb).map fun c => ⟨c, s.iter, s.KKT, s.cost, s.gap⟩ }

/-- the regularization update after the line search, sqp.cpp:174-183: `(true, s)` means `return false`. -/
def updateReg (s : SQP P) : Bool × SQP P :=
  let s := if ltb s.par.thStepDec s.steplength then s.decreaseReg else s
  if leb s.steplength s.par.thStepInc then
    let s := s.increaseReg
    (eqb s.preg s.par.regMax, s)
  else (false, s)

/-- pushes into the filter memory, sqp.cpp:133-134. -/
def pushFilter (s : SQP P) : SQP P :=
  { s with gapList := s.gapList.push s.gap, costList := s.costList.push s.cost
           hist := s.hist ++ [(s.cost, s.gap)] }

/-- the line search over `alphas_` with the ghost counter of failed searches. -/
def search (s : SQP P) : SQP P :=
  let (found, s) := lineSearch s.par.alphas s
  if found then s else { s with nRej := s.nRej + 1 }

/-- one iteration, sqp.cpp:101-184.  `some (some b, s)`: `solve` returns `b`; `some (none, s)`: go on. -/
def body (llt : LLT F) (fuel : ℕ) (s : SQP P) : Option (Option Bool × SQP P) :=
  match retry llt fuel true s with
  | none => none
  | some (false, s) => some (some false, s)
  | some (true, s) =>
    let s := s.checkKKT.callbacks
    if leb s.KKT s.tol then some (some true, s)
    else
      let r := s.pushFilter.search.updateReg
      if r.1 then some (some false, r.2) else some (none, r.2)

/-- the main loop, sqp.cpp:100: `n` remaining iterations. -/
def iterate (llt : LLT F) (fuel : ℕ) : ℕ → SQP P → Option (Option Bool × SQP P)
  | 0, s => some (none, s)
  | n + 1, s =>
    match body llt fuel s with
    | none => none
    | some (some b, s) => some (some b, s)
    | some (none, s) => iterate llt fuel n { s with iter := s.iter + 1 }

/-- the extra iteration, sqp.cpp:186-218. -/
def extraIter (llt : LLT F) (fuel : ℕ) (s : SQP P) : Option (Bool × SQP P) :=
  if s.extra then
    match retry llt fuel true s with
    | none => none
    | some (false, s) => some (false, s)
    | some (true, s) =>
      let s := s.checkKKT.callbacks
      some (leb s.KKT s.tol, s)
  else some (false, s)

/-- the beginning of `solve`, sqp.cpp:82-98.  `none` as initial guess is the empty `std::vector` (crocoddyl then uses
the zero state and zero controls). -/
def start (initXs : Option (Traj P)) (initUs : Option (Ctrls P)) (reginit : F) (s : SQP P) : SQP P :=
  let xs := initXs.getD fun _ => P.zeroX
  let us := initUs.getD fun t => zeroV F (P.nu t)
  let s := s.setCandidate xs us false
  { s with
    xs := Function.update s.xs 0 P.x0
    xsTry := Function.update s.xsTry 0 P.x0
    preg := initReg s.par reginit
    dreg := initReg s.par reginit
    iter := 0
    hist := [] }

/-- `solve(init_xs, init_us, maxiter, is_feasible, reginit)`, sqp.cpp:75-222 (`is_feasible` is ignored by the code).
`none`: some retry loop is still running after `fuel` attempts. -/
def solve (llt : LLT F) (fuel : ℕ) (initXs : Option (Traj P)) (initUs : Option (Ctrls P)) (maxiter : ℕ)
    (reginit : F) (s : SQP P) : Option (Bool × SQP P) :=
  match iterate llt fuel maxiter (s.start initXs initUs reginit) with
  | none => none
  | some (some b, s) => some (b, s)
  | some (none, s) => extraIter llt fuel s

/-- `set_filter_size`, sqp.hpp:143-147. -/
def setFilterSize (n : ℕ) (s : SQP P) : SQP P :=
  { s with filterSize := n, gapList := s.gapList.resize n, costList := s.costList.resize n }

end SQP
end
end Mim
