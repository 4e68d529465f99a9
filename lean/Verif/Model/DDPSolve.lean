import Verif.Model.SQP

/-!
# SolverDDP::solve (/repo/src/ddp.cpp) and SolverFDDP (/repo/src/fddp.cpp)

`SolverFDDP` derives from `SolverDDP`; both are modelled over one state type.  The two `solve` functions have the same text
except for the functions collected in `DDP.Kind`, so the loop is written once and instantiated twice (`DDP.ddp`, `DDP.fddp`).
The backward pass is the one of `Model/DDP`.
-/
set_option linter.unusedSectionVars false
set_option linter.unusedSimpArgs false

namespace Mim

/-- Configuration: members no function called by `solve` writes.  `useFilter`, `filterSize`, `thNeg` exist in
`SolverFDDP` only (fddp.hpp:147-153,171). -/
structure DConf (F : Type) where
  par : Params F
  tol : F
  useFilter : Bool
  filterSize : ℕ
  thNeg : F
  ncb : ℕ

/-- Members written by `computeDirection` (besides the problem's datas): ddp.cpp:161-168, fddp.cpp:189-204.  `gap` is
`SolverFDDP::gap_norm_`. -/
structure DEv {F : Type} (P : Problem F) where
  fs : ℕ → Vec F P.ndx
  bp : BP P
  cost : F
  gap : F

/-- Members written by a forward pass, and the problem's datas: ddp.cpp:350-399, fddp.cpp:281-383.  `fsTry`, `gapTry`,
`xnext` are used by `SolverFDDP` only. -/
structure DTry {F : Type} (P : Problem F) where
  data : Data P
  xs : Traj P
  us : Ctrls P
  dx : ℕ → Vec F P.ndx
  lagMul : ℕ → Vec F P.ndx
  cost : F
  fs : ℕ → Vec F P.ndx
  gap : F
  xnext : P.X

/-- Scalars: `d_`, `dg_`, `dq_`, `dv_`, `dV_`, `dVexp_`, `stop_`, `KKT_` and the filter memory. -/
structure DScal (F : Type) where
  d0 : F
  d1 : F
  dg : F
  dq : F
  dv : F
  dV : F
  dVexp : F
  stop : F
  KKT : F
  gapList : CBuf F
  costList : CBuf F

/-- State of a `SolverDDP` or `SolverFDDP`.  `recalc` is the local variable `recalcDiff` of `solve`.  `nKKT`, `nTry`, `nRej`,
`log`, `hist` are ghost history variables (number of KKT checks, of trials, of line searches that accepted no step, callback
calls, `(cost, gap)` pairs pushed in the current solve). -/
structure DDP {F : Type} (P : Problem F) where
  c : DConf F
  preg : F
  dreg : F
  iter : ℕ
  steplength : F
  xs : Traj P
  us : Ctrls P
  feas : Bool
  wasFeas : Bool
  e : DEv P
  y : DTry P
  m : DScal F
  recalc : Bool
  nKKT : ℕ
  nTry : ℕ
  nRej : ℕ
  log : List (CbEvent F)
  hist : List (F × F)

section
variable {F : Type} [Add F] [Sub F] [Mul F] [Div F] [Neg F] [Zero F] [One F] [FloatOps F]

namespace DDP
variable {P : Problem F}

/-- A freshly constructed solver: ddp.cpp:23-58, 447-509, ddp.hpp:415-426, fddp.cpp:27-53, fddp.hpp:145-173 and Crocoddyl's
`SolverAbstract` constructor.  `d` is the content of the problem's datas. -/
def new (d : Data P) : DDP P where
  c := { par := Params.default, tol := lit (1 / 10 ^ 6), useFilter := true, filterSize := 1, thNeg := lit 2, ncb := 0 }
  preg := 0
  dreg := 0
  iter := 0
  steplength := 1
  xs _ := P.zeroX
  us t := zeroV F (P.nu t)
  feas := false
  wasFeas := false
  e := { fs := fun _ => zeroV F P.ndx, bp := BP.zero P, cost := 0, gap := 0 }
  y := { data := d, xs := Function.update (fun _ => P.zeroX) 0 P.x0, us := fun t => zeroV F (P.nu t),
         dx := fun _ => zeroV F P.ndx, lagMul := fun _ => zeroV F P.ndx, cost := 0, fs := fun _ => zeroV F P.ndx, gap := 0
         xnext := P.zeroX }
  m := { d0 := 0, d1 := 0, dg := 0, dq := 0, dv := 0, dV := 0, dVexp := 0, stop := 0, KKT := -negInf
         gapList := CBuf.empty.resize 1, costList := CBuf.empty.resize 1 }
  recalc := true
  nKKT := 0
  nTry := 0
  nRej := 0
  log := []
  hist := []

/-- `calcDiff()`, ddp.cpp:253-263. -/
def calcDiff (s : DDP P) : DDP P :=
  let d := if s.iter = 0 then s.y.data.calcAll s.xs s.us else s.y.data
  let d := d.calcDiffAll s.xs s.us
  { s with y := { s.y with data := d }, e := { s.e with cost := d.totalCost, fs := gapsOf d s.xs } }

/-- `SolverDDP::computeDirection`, ddp.cpp:161-168. -/
def dirDDP (llt : LLT F) (recalc : Bool) (s : DDP P) : Res (DDP P) :=
  let s := if recalc then s.calcDiff else s
  (backwardPass llt s.y.data s.e.fs s.feas s.preg s.dreg s.e.bp).map fun b => { s with e := { s.e with bp := b } }

/-- `SolverFDDP::computeDirection`, fddp.cpp:189-204. -/
def dirFDDP (llt : LLT F) (recalc : Bool) (s : DDP P) : Res (DDP P) :=
  let s := if recalc then s.calcDiff else s
  let s := { s with e := { s.e with gap := gapNorm s.e.fs } }
  (backwardPass llt s.y.data s.e.fs s.feas s.preg s.dreg s.e.bp).map fun b => { s with e := { s.e with bp := b } }

/-- `SolverDDP::expectedImprovement`, ddp.cpp:215-228. -/
def improveDDP (s : DDP P) : DDP P :=
  let f := fun t (d : F × F) =>
    if P.nu t ≠ 0 then (d.1 + dot (s.e.bp.Qu t) (s.e.bp.k t), d.2 - dot (s.e.bp.k t) (s.e.bp.Quuk t)) else d
  let d := forUp P.T f (0, 0)
  { s with m := { s.m with d0 := d.1, d1 := d.2 } }

/-- `SolverFDDP::updateExpectedImprovement`, fddp.cpp:256-279. -/
def improveFDDP (s : DDP P) : DDP P :=
  let b := s.e.bp
  let init : F × F := if s.feas then (0, 0)
    else (0 - dot (b.Vx P.T) (s.e.fs P.T), 0 + dot (s.e.fs P.T) (mv (b.Vxx P.T) (s.e.fs P.T)))
  let f := fun t (d : F × F) =>
    let d := if P.nu t ≠ 0 then (d.1 + dot (b.Qu t) (b.k t), d.2 - dot (b.k t) (b.Quuk t)) else d
    if s.feas then d else (d.1 - dot (b.Vx t) (s.e.fs t), d.2 + dot (s.e.fs t) (mv (b.Vxx t) (s.e.fs t)))
  let d := forUp P.T f init
  { s with m := { s.m with dg := d.1, dq := d.2 } }

/-- `checkKKTConditions()`, ddp.cpp:177-198 = fddp.cpp:206-227: the multipliers are those of the last forward pass. -/
def checkKKT (s : DDP P) : DDP P :=
  { s with m := { s.m with KKT := kktResidual s.y.data s.e.fs s.y.lagMul }, nKKT := s.nKKT + 1 }

/-- one node of `SolverDDP::forwardPass`, ddp.cpp:363-378: the members it writes.  The multiplier is computed from the `dx_`
left by the previous forward pass. -/
def nodeDDP (a : F) (t : ℕ) (s : DDP P) : DTry P :=
  let b := s.e.bp
  let y := s.y
  let dx := P.diff (s.xs t) (y.xs t)
  let us := if P.nu t ≠ 0 then Function.update y.us t (s.us t - sv a (b.k t) - mv (b.K t) dx) else y.us
  let d := y.data.calcNode t (y.xs t) (us t)
  { y with
    lagMul := Function.update y.lagMul t (mv (b.Vxx t) (y.dx t) + b.Vx t)
    dx := Function.update y.dx t dx
    us := us
    data := d
    xs := Function.update y.xs (t + 1) (d.run t).xnext
    cost := y.cost + (d.run t).cost }

/-- one node of `SolverDDP::forwardPass` with its screens, ddp.cpp:363-387. -/
def stageDDP (a : F) (t : ℕ) (s : DDP P) : Res (DDP P) :=
  let y := nodeDDP a t s
  .throwIf (bad y.cost || P.badX (y.xs (t + 1))) { s with y := y }

/-- end of `SolverDDP::forwardPass`, ddp.cpp:389-398.  `dx_` has `T` elements: `dx_.back()` is `dx_[T-1]`. -/
def finishDDP (s : DDP P) : Res (DDP P) :=
  let b := s.e.bp
  let y := s.y
  let d := y.data.calcTer (y.xs P.T)
  let y := { y with
    lagMul := Function.update y.lagMul P.T (mv (b.Vxx P.T) (y.dx (P.T - 1)) + b.Vx P.T)
    data := d
    cost := y.cost + d.ter.cost }
  .throwIf (bad y.cost) { s with y := y }

/-- `SolverDDP::tryStep`, ddp.cpp:170-175 with `forwardPass`, ddp.cpp:350-399. -/
def tryDDP (a : F) (s : DDP P) : Res (DDP P) :=
  if ltb 1 a || ltb a 0 then .exn s
  else ((forUpR P.T (stageDDP a) { s with y := { s.y with cost := 0 } }).bind finishDDP).bind fun s =>
    .ok { s with m := { s.m with dV := s.e.cost - s.y.cost } }

/-- one node of `SolverFDDP::forwardPass`: fddp.cpp:295-315 if `roll` (feasible candidate or step 1), else fddp.cpp:340-357. -/
def nodeFDDP (roll : Bool) (a : F) (t : ℕ) (s : DDP P) : DTry P :=
  let b := s.e.bp
  let y := s.y
  let x := if roll then y.xnext else P.integrate y.xnext (sv (a - 1) (s.e.fs t))
  let dx := P.diff (s.xs t) x
  let us := if P.nu t ≠ 0 then Function.update y.us t (s.us t - sv a (b.k t) - mv (b.K t) dx) else y.us
  let d := y.data.calcNode t x (us t)
  let f := P.diff x (d.run t).xnext
  { y with
    lagMul := Function.update y.lagMul t
      (if roll then mv (b.Vxx t) (y.dx t) + b.Vx t else mv (b.Vxx t) (y.dx t - s.e.fs t) + b.Vx t)
    dx := Function.update y.dx t dx
    us := us
    data := d
    xs := Function.update y.xs t x
    cost := y.cost + (d.run t).cost
    xnext := (d.run t).xnext
    fs := Function.update y.fs t f
    gap := y.gap + norm1 f }

/-- with the screens, fddp.cpp:316-324 and 359-367. -/
def stageFDDP (roll : Bool) (a : F) (t : ℕ) (s : DDP P) : Res (DDP P) :=
  let y := nodeFDDP roll a t s
  .throwIf (bad y.cost || P.badX y.xnext) { s with y := y }

/-- end of `SolverFDDP::forwardPass`, fddp.cpp:327-338 and 370-382. -/
def finishFDDP (roll : Bool) (a : F) (s : DDP P) : Res (DDP P) :=
  let b := s.e.bp
  let y := s.y
  let x := if roll then y.xnext else P.integrate y.xnext (sv (a - 1) (s.e.fs P.T))
  let d := y.data.calcTer x
  let y := { y with
    lagMul := Function.update y.lagMul P.T
      (if roll then mv (b.Vxx P.T) (y.dx (P.T - 1)) + b.Vx P.T
        else mv (b.Vxx P.T) (y.dx (P.T - 1) - s.e.fs P.T) + b.Vx P.T)
    xs := Function.update y.xs P.T x
    data := d
    cost := y.cost + d.ter.cost }
  .throwIf (bad y.cost) { s with y := y }

/-- `SolverFDDP`'s `tryStep` (inherited, ddp.cpp:170-175) with `SolverFDDP::forwardPass`, fddp.cpp:281-383. -/
def tryFDDP (a : F) (s : DDP P) : Res (DDP P) :=
  if ltb 1 a || ltb a 0 then .exn s
  else
    let roll := s.feas || eqb a 1
    ((forUpR P.T (stageFDDP roll a) { s with y := { s.y with cost := 0, gap := 0, xnext := P.x0 } }).bind
      (finishFDDP roll a)).bind fun s => .ok { s with m := { s.m with dV := s.e.cost - s.y.cost } }

/-- `SolverFDDP::expectedImprovement`, fddp.cpp:229-254. -/
def expFDDP (s : DDP P) : DDP P :=
  let y := s.y
  let dT := P.diff (y.xs P.T) (s.xs P.T)
  let dx1 := if s.feas then y.dx else Function.update y.dx (P.T - 1) dT
  let dv0 : F := if s.feas then 0 else 0 - dot (s.e.fs P.T) (mv (s.e.bp.Vxx P.T) dT)
  let r : (ℕ → Vec F P.ndx) × F := if s.feas then (dx1, dv0)
    else forUp P.T (fun t r =>
      let d := P.diff (y.xs t) (s.xs t)
      (Function.update r.1 t d, r.2 - dot (s.e.fs t) (mv (s.e.bp.Vxx t) d))) (dx1, dv0)
  { s with y := { y with dx := r.1 }, m := { s.m with dv := r.2, d0 := s.m.dg + r.2, d1 := s.m.dq - lit 2 * r.2 } }

/-- `setCandidate` for vectors of the right sizes. -/
def setCandidate (s : DDP P) (xs : Traj P) (us : Ctrls P) (feas : Bool) : DDP P :=
  { s with xs := xs, us := us, feas := feas }

/-- `dVexp_ = steplength_ * (d_[0] + 0.5 * steplength_ * d_[1])`, ddp.cpp:119, fddp.cpp:139. -/
def setExp (a : F) (s : DDP P) : DDP P :=
  { s with m := { s.m with dVexp := a * (s.m.d0 + lit (1 / 2) * a * s.m.d1) } }

/-- acceptance test of `SolverDDP::solve`, ddp.cpp:119-123. -/
def testDDP (a : F) (s : DDP P) : Bool × DDP P :=
  let s := s.setExp a
  (leb 0 s.m.dVexp && (ltb s.m.d0 s.c.par.thGrad || !s.feas || ltb (s.c.par.thAccept * s.m.dVexp) s.m.dV), s)

/-- what `SolverDDP::solve` does on acceptance, ddp.cpp:124-126. -/
def commitDDP (_a : F) (s : DDP P) : DDP P :=
  let s := { s with wasFeas := s.feas }
  let s := s.setCandidate s.y.xs s.y.us true
  { s with e := { s.e with cost := s.y.cost } }

/-- acceptance test of `SolverFDDP::solve`, fddp.cpp:120-160. -/
def testFDDP (a : F) (s : DDP P) : Bool × DDP P :=
  if s.c.useFilter then
    (!SQP.filterLoop s.m.costList s.m.gapList s.c.filterSize s.iter s.y.cost s.y.gap s.c.filterSize 0, s)
  else
    let s := (s.expFDDP).setExp a
    (if leb 0 s.m.dVexp then ltb s.m.d0 s.c.par.thGrad || ltb (s.c.par.thAccept * s.m.dVexp) s.m.dV
      else ltb (s.c.thNeg * s.m.dVexp) s.m.dV, s)

/-- what `SolverFDDP::solve` does on acceptance, fddp.cpp:131, 143-146, 145-150, 161-167. -/
def commitFDDP (a : F) (s : DDP P) : DDP P :=
  if s.c.useFilter then s.setCandidate s.y.xs s.y.us false
  else
    let s := { s with wasFeas := s.feas }
    let s := s.setCandidate s.y.xs s.y.us (s.wasFeas || eqb a 1)
    { s with e := { s.e with cost := s.y.cost } }

/-- pushes into the filter memory, fddp.cpp:102-103. -/
def pushFDDP (s : DDP P) : DDP P :=
  { s with m := { s.m with gapList := s.m.gapList.push s.e.gap, costList := s.m.costList.push s.e.cost }
           hist := s.hist ++ [(s.e.cost, s.e.gap)] }

/-- The functions in which `SolverDDP::solve` and `SolverFDDP::solve` differ. -/
structure Kind (P : Problem F) where
  dir : LLT F → Bool → DDP P → Res (DDP P)
  improve : DDP P → DDP P
  push : DDP P → DDP P
  trial : F → DDP P → Res (DDP P)
  test : F → DDP P → Bool × DDP P
  commit : F → DDP P → DDP P

/-- `SolverDDP`. -/
def ddp (P : Problem F) : Kind P := ⟨dirDDP, improveDDP, fun s => s, tryDDP, testDDP, commitDDP⟩
/-- `SolverFDDP`. -/
def fddp (P : Problem F) : Kind P := ⟨dirFDDP, improveFDDP, pushFDDP, tryFDDP, testFDDP, commitFDDP⟩

def increaseReg (s : DDP P) : DDP P := { s with preg := incReg s.c.par s.preg, dreg := incReg s.c.par s.preg }
def decreaseReg (s : DDP P) : DDP P := { s with preg := decReg s.c.par s.preg, dreg := decReg s.c.par s.preg }

/-- the retry loop, ddp.cpp:85-98, fddp.cpp:79-92. -/
def retry (k : Kind P) (llt : LLT F) : ℕ → DDP P → Option (Bool × DDP P)
  | 0, _ => none
  | fuel + 1, s =>
    match k.dir llt s.recalc s with
    | .ok s => some (true, s)
    | .exn s =>
      let s := { s with recalc := false }.increaseReg
      if eqb s.preg s.c.par.regMax then some (false, s) else retry k llt fuel s

/-- the line search, ddp.cpp:110-131, fddp.cpp:107-162; returns whether a step was accepted. -/
def lineSearch (k : Kind P) : List F → DDP P → Bool × DDP P
  | [], s => (false, s)
  | a :: as, s =>
    match k.trial a { s with steplength := a, nTry := s.nTry + 1 } with
    | .exn s => lineSearch k as s
    | .ok s =>
      let r := k.test a s
      if r.1 then (true, { k.commit a r.2 with recalc := true }) else lineSearch k as r.2

/-- the line search over `alphas_` with the ghost counter of failed searches. -/
def search (k : Kind P) (s : DDP P) : DDP P :=
  let r := lineSearch k s.c.par.alphas { s with recalc := false }
  if r.1 then r.2 else { r.2 with nRej := r.2.nRej + 1 }

/-- the regularization update, ddp.cpp:133-142, fddp.cpp:164-173: `(true, s)` means `return false`. -/
def updateReg (s : DDP P) : Bool × DDP P :=
  let s := if ltb s.c.par.thStepDec s.steplength then s.decreaseReg else s
  if leb s.steplength s.c.par.thStepInc then
    let s := s.increaseReg
    (eqb s.preg s.c.par.regMax, s)
  else (false, s)

/-- `stoppingCriteria()`, ddp.cpp:200-213. -/
def stopping (s : DDP P) : DDP P :=
  let v : F := forUp P.T (fun t acc => if P.nu t ≠ 0 then acc + sqNorm (s.e.bp.Qu t) else acc) 0
  { s with m := { s.m with stop := v } }

/-- the callback loop, ddp.cpp:145-150, fddp.cpp:176-181. -/
def callbacks (s : DDP P) : DDP P :=
  { s with log := s.log ++ (List.range s.c.ncb).map fun c => ⟨c, s.iter, s.m.KKT, s.e.cost, s.e.gap⟩ }

/-- one iteration, ddp.cpp:85-155.  `some (some b, s)`: `solve` returns `b`. -/
def body (k : Kind P) (llt : LLT F) (fuel : ℕ) (s : DDP P) : Option (Option Bool × DDP P) :=
  match retry k llt fuel s with
  | none => none
  | some (false, s) => some (some false, s)
  | some (true, s) =>
    let s := (k.improve s).checkKKT
    if leb s.m.KKT s.c.tol then some (some true, s)
    else
      let r := (search k (k.push s)).updateReg
      if r.1 then some (some false, r.2) else some (none, r.2.stopping.callbacks)

/-- the main loop, ddp.cpp:84. -/
def iterate (k : Kind P) (llt : LLT F) (fuel : ℕ) : ℕ → DDP P → Option (Option Bool × DDP P)
  | 0, s => some (none, s)
  | n + 1, s =>
    match body k llt fuel s with
    | none => none
    | some (some b, s) => some (some b, s)
    | some (none, s) => iterate k llt fuel n { s with iter := s.iter + 1 }

/-- the beginning of `solve`, ddp.cpp:70-83, fddp.cpp:65-77. -/
def start (initXs : Option (Traj P)) (initUs : Option (Ctrls P)) (feas : Bool) (reginit : F) (s : DDP P) : DDP P :=
  let s := { s with y := { s.y with xs := Function.update s.y.xs 0 P.x0 } }
  let s := s.setCandidate (initXs.getD fun _ => P.zeroX) (initUs.getD fun t => zeroV F (P.nu t)) feas
  { s with preg := initReg s.c.par reginit, dreg := initReg s.c.par reginit, wasFeas := false, recalc := true, iter := 0,
           hist := [] }

/-- `solve(init_xs, init_us, maxiter, is_feasible, reginit)`, ddp.cpp:62-159 and fddp.cpp:57-187.  `none`: a retry loop is
still running after `fuel` attempts. -/
def solve (k : Kind P) (llt : LLT F) (fuel : ℕ) (initXs : Option (Traj P)) (initUs : Option (Ctrls P)) (maxiter : ℕ)
    (feas : Bool) (reginit : F) (s : DDP P) : Option (Bool × DDP P) :=
  match iterate k llt fuel maxiter (s.start initXs initUs feas reginit) with
  | none => none
  | some (some b, s) => some (b, s)
  | some (none, s) => some (false, s)

end DDP
end
end Mim
