import Verif.Model.CSQPQP

/-!
# SolverCSQP, the SQP level (/repo/src/csqp.cpp:24-168, 197-452, 584-628, 1342-1435)
-/
set_option linter.unusedSectionVars false
set_option linter.unusedSimpArgs false

namespace Mim

/-- written by `calc`: `fs_`, `cost_`, `gap_norm_`, `constraint_norm_`. -/
structure CEval {F : Type} (P : Problem F) where
  fs : ℕ → Vec F P.ndx
  cost : F
  gap : F
  con : F

/-- written by `tryStep`: `xs_try_ us_try_ fs_try_ cost_try_ gap_norm_try_ constraint_norm_try_ merit_try_`. -/
structure CTry {F : Type} (P : Problem F) where
  xs : Traj P
  us : Ctrls P
  fs : ℕ → Vec F P.ndx
  cost : F
  gap : F
  con : F
  merit : F

/-- scalars: `merit_ lag_mul_inf_norm_ x_grad_norm_ u_grad_norm_ KKT_`, the filter memory and `is_worse_than_memory_`. -/
structure CScal (F : Type) where
  merit : F
  lagInf : F
  xGrad : F
  uGrad : F
  KKT : F
  costList : CBuf F
  gapList : CBuf F
  conList : CBuf F
  isWorse : Bool

/-- State of a `SolverCSQP`.  `w` holds the trial.  Ghosts: `nKKT` KKT checks, `nTry` calls of `tryStep`, `nRej` line searches
that accepted nothing, `acc` accepted step lengths, `hist` the triples (cost, gap, constraint) pushed in this solve (oldest
first), `log` callback calls. -/
structure CSQP {F : Type} (P : Problem F) where
  c : CConf F
  preg : F
  dreg : F
  iter : ℕ
  steplength : F
  xs : Traj P
  us : Ctrls P
  feas : Bool
  data : Data P
  e : CEval P
  q : CQP P
  w : CTry P
  m : CScal F
  lagMul : ℕ → Vec F P.ndx
  nKKT : ℕ
  nTry : ℕ
  nRej : ℕ
  acc : List F
  hist : List (F × F × F)
  log : List (CbEvent F)

/-- how `solve` ends: a value is returned or an exception escapes. -/
inductive Out | ret (b : Bool) | thrown
  deriving DecidableEq

/-- result of one iteration of the main loop: `solve` ends, the loop is left by `break`, or it goes on. -/
inductive Step | fin (o : Out) | brk | next
  deriving DecidableEq

/-- What a solve depends on besides the solver's state: the factorisation routine, the clock readings and the schedules. -/
structure World (F : Type) where
  llt : LLT F
  clock : ℕ → F
  sched : Option (ℕ → List ℕ)

section
variable {F : Type} [Add F] [Sub F] [Mul F] [Div F] [Neg F] [Zero F] [One F] [FloatOps F]

/-- one row of `(lb - g).cwiseMax(0)`, csqp.cpp:437 etc.; 0 if there is no lower bound. -/
def lowViol (lb : Option F) (g : F) : F :=
  match lb with
  | none => 0
  | some l => cppMax (l - g) 0

/-- one row of `(g - ub).cwiseMax(0)`, csqp.cpp:439 etc. -/
def upViol (ub : Option F) (g : F) : F :=
  match ub with
  | none => 0
  | some u => cppMax (g - u) 0

/-- `acc += ‖max(lb - g, 0)‖₁; acc += ‖max(g - ub, 0)‖₁`, csqp.cpp:436-439, 446-451, 1394-1397, 1411-1416. -/
def addViol {m : ℕ} (lb ub : Fin m → Option F) (g : Vec F m) (acc : F) : F :=
  acc + norm1 (fun i => lowViol (lb i) (g i)) + norm1 (fun i => upViol (ub i) (g i))

/-- the residual of `checkKKTConditions`, csqp.cpp:585-624, given the multipliers. -/
def ckktResidual {P : Problem F} (d : Data P) (fs lam : ℕ → Vec F P.ndx) (y : (t : ℕ) → Vec F (P.ng t)) (con : F) : F :=
  let K := forUp P.T (fun t K =>
    let r := d.rd t
    let gx := r.Lx + mv r.Fx.transpose (lam (t + 1)) - lam t
    let gx := if 0 < t then gx + mv r.Gx.transpose (y t) else gx
    let K := cppMax K (normInf gx)
    cppMax K (normInf (r.Lu + mv r.Fu.transpose (lam (t + 1)) + mv r.Gu.transpose (y t)))) 0
  let K := cppMax K (normInf (d.td.Lx - lam P.T + mv d.td.Gx.transpose (y P.T)))
  let K := cppMax K (forUp (P.T + 1) (fun t m => cppMax m (normInf (fs t))) 0)
  cppMax K con

namespace CSQP
variable {P : Problem F}

/-- A freshly constructed `SolverCSQP`: csqp.cpp:24-168 (for problems without Crocoddyl equality constraints; see
`Model/Construct`), defaults of csqp.hpp:256-357.  `d` is the content of the problem's datas; `rho0`, `inv0`, `lag0` are the
uninitialised contents of `rho_vec_`, `inv_rho_vec_`, `lag_mul_inf_norm_`.  `+inf` is `-negInf`. -/
def new (d : Data P) (rho0 inv0 : (t : ℕ) → Vec F (P.ng t)) (lag0 : F) : CSQP P where
  c :=
    { par := Params.default, tol := lit (1 / 10 ^ 6), muDyn := lit 10, muCon := lit 10, lagCoef := lit 10
      sigma := lit (1 / 10 ^ 6), alpha := lit (16 / 10), maxQP := 1000, rhoBase := lit (1 / 10), rhoMin := lit (1 / 10 ^ 6)
      rhoMax := lit (10 ^ 3), interval := 25, adaptTol := lit 5, epsAbs := lit (1 / 10 ^ 4), epsRel := lit (1 / 10 ^ 4)
      eqGuess := true, useFilter := true, filterSize := 1, extra := false, removeReg := false, resetY := false
      resetRho := false, heuristic := false, ncb := 0, maxTime := -negInf }
  preg := 0
  dreg := 0
  iter := 0
  steplength := 1
  xs _ := P.zeroX
  us t := zeroV F (P.nu t)
  feas := false
  data := d
  e := { fs := fun _ => zeroV F P.ndx, cost := 0, gap := 0, con := 0 }
  q :=
    { b := { bp := BP.zero P, vfs := fun _ => zeroV F P.ndx }
      v := { dx := fun _ => zeroV F P.ndx, du := fun t => zeroV F (P.nu t), dxt := fun _ => zeroV F P.ndx
             dut := fun t => zeroV F (P.nu t), z := fun t => zeroV F (P.ng t), zPrev := fun t => zeroV F (P.ng t)
             zRel := fun t => zeroV F (P.ng t), y := fun t => zeroV F (P.ng t), rho := rho0, inv := inv0 }
      n := { p := 0, d := 0, pr := 0, dr := 0 }
      tolP := 0, tolD := 0, rhoSparse := lit (1 / 10), rhoEst := 0, qpIters := 0, tick := 0, t0 := 0, reached := false
      exec := 0, why := .limit }
  w := { xs := fun _ => P.zeroX, us := fun t => zeroV F (P.nu t), fs := fun _ => zeroV F P.ndx, cost := 0, gap := 0, con := 0
         merit := 0 }
  m := { merit := 0, lagInf := lag0, xGrad := 0, uGrad := 0, KKT := -negInf, costList := CBuf.empty.resize 1
         gapList := CBuf.empty.resize 1, conList := CBuf.empty.resize 1, isWorse := false }
  lagMul _ := zeroV F P.ndx
  nKKT := 0
  nTry := 0
  nRej := 0
  acc := []
  hist := []
  log := []

/-- `fs_` after `calc`: entries `1..T` are written, entry 0 is not (csqp.cpp:427-431). -/
def calcFs (d : Data P) (xs : Traj P) (fs : ℕ → Vec F P.ndx) : ℕ → Vec F P.ndx
  | 0 => fs 0
  | t + 1 => if t < P.T then P.diff (xs (t + 1)) (d.run t).xnext else fs (t + 1)

/-- constraint violation of all nodes, csqp.cpp:435-451. -/
def conNorm (d : Data P) : F :=
  addViol (P.lb P.T) (P.ub P.T) d.ter.g (forUp P.T (fun t acc => addViol (P.lb t) (P.ub t) (d.run t).g acc) 0)

/-- `calc(true)`, csqp.cpp:411-452. -/
def calcEval (s : CSQP P) : CSQP P :=
  let d := (s.data.calcAll s.xs s.us).calcDiffAll s.xs s.us
  let fs := calcFs d s.xs s.e.fs
  { s with
    data := d
    e := { fs := fs, cost := d.totalCost, gap := sumUp P.T (fun t => norm1 (fs (t + 1))), con := conNorm d } }

/-- what the QP solver sees. -/
def env (W : World F) (s : CSQP P) : QEnv P where
  c := s.c
  d := s.data
  fs := s.e.fs
  preg := s.preg
  dreg := s.dreg
  clock := W.clock
  sched := W.sched

/-- `lag_mul_[t] = Vx_[t] + Vxx_[t] * dxtilde_[t]`, csqp.cpp:590-593. -/
def multipliers (s : CSQP P) : ℕ → Vec F P.ndx := fun t =>
  if t ≤ P.T then s.q.b.bp.Vx t + mv (s.q.b.bp.Vxx t) (s.q.v.dxt t) else s.lagMul t

/-- `checkKKTConditions()`, csqp.cpp:584-628. -/
def checkKKT (s : CSQP P) : CSQP P :=
  let lam := s.multipliers
  { s with
    lagMul := lam
    m := { s.m with
      KKT := ckktResidual s.data s.e.fs lam s.q.v.y s.e.con
      xGrad := (sumUp P.T (fun t => norm1 (s.q.v.dxt t)) + norm1 (s.q.v.dxt P.T)) / lit ((P.T : ℚ) + 1)
      uGrad := sumUp P.T (fun t => norm1 (s.q.v.dut t)) / lit (P.T : ℚ) }
    nKKT := s.nKKT + 1 }

/-- the callback loop, csqp.cpp:280-282, 397-399. -/
def callbacks (s : CSQP P) : CSQP P :=
  { s with log := s.log ++ (List.range s.c.ncb).map fun c => ⟨c, s.iter, s.m.KKT, s.e.cost, s.e.gap⟩ }

/-- merit function with the weights in use, csqp.cpp:305-310 and 1418-1425. -/
def meritOf (c : CConf F) (lagInf cost gap con : F) : F :=
  if ltb c.muDyn 0 || ltb c.muCon 0 then cost + c.lagCoef * lagInf * (gap + con)
  else cost + c.muDyn * gap + c.muCon * con

/-- pushes into the filter memory, csqp.cpp:290-292. -/
def pushFilter (s : CSQP P) : CSQP P :=
  { s with
    m := { s.m with conList := s.m.conList.push s.e.con, gapList := s.m.gapList.push s.e.gap
                    costList := s.m.costList.push s.e.cost }
    hist := s.hist ++ [(s.e.cost, s.e.gap, s.e.con)] }

/-- largest multiplier, csqp.cpp:296-304. -/
def lagInfNorm (s : CSQP P) : F :=
  let a := forUp (P.T + 1) (fun t m => cppMax m (normInf (s.lagMul t))) 0
  forUp (P.T + 1) (fun t m => cppMax m (normInf (s.q.v.y t))) a

/-- the merit function at the current iterate, csqp.cpp:295-310. -/
def setMerit (s : CSQP P) : CSQP P :=
  let l := if ltb s.c.muDyn 0 || ltb s.c.muCon 0 then s.lagInfNorm else s.m.lagInf
  { s with m := { s.m with lagInf := l, merit := meritOf s.c l s.e.cost s.e.gap s.e.con } }

/-- the trial states and controls, csqp.cpp:1362-1378. -/
def tryMove (a : F) (s : CSQP P) : CSQP P :=
  { s with w := { s.w with
    xs := fun t => if t ≤ P.T then P.integrate (s.xs t) (sv a (s.q.v.dx t)) else s.w.xs t
    us := fun t => if t < P.T ∧ P.nu t ≠ 0 then s.us t + sv a (s.q.v.du t) else s.w.us t } }

/-- one node of the evaluation loop, csqp.cpp:1384-1403. -/
def tryStage (t : ℕ) (s : CSQP P) : Res (CSQP P) :=
  let d := s.data.calcNode t (s.w.xs t) (s.w.us t)
  let f := P.diff (s.w.xs (t + 1)) (d.run t).xnext
  let cost := s.w.cost + (d.run t).cost
  Res.throwIf (bad cost) { s with
    data := d
    w := { s.w with
      cost := cost
      fs := Function.update s.w.fs (t + 1) f
      gap := s.w.gap + norm1 f
      con := addViol (P.lb t) (P.ub t) (d.run t).g s.w.con } }

/-- the terminal node and the merit, csqp.cpp:1406-1430. -/
def tryTerminal (s : CSQP P) : Res (CSQP P) :=
  let d := s.data.calcTer (s.w.xs P.T)
  let cost := s.w.cost + d.ter.cost
  let con := addViol (P.lb P.T) (P.ub P.T) d.ter.g s.w.con
  Res.throwIf (bad cost) { s with
    data := d
    w := { s.w with cost := cost, con := con, merit := meritOf s.c s.m.lagInf cost s.w.gap con } }

/-- `tryStep(steplength)`, csqp.cpp:1342-1435 (sequential order of the evaluation loop; see `Props/Parallel`). -/
def tryStep (a : F) (s : CSQP P) : Res (CSQP P) :=
  let s := { s with nTry := s.nTry + 1 }
  if ltb 1 a || ltb a 0 then .exn s
  else (forUpR P.T tryStage ({ s with w := { s.w with cost := 0, merit := 0, gap := 0, con := 0 } }.tryMove a)).bind tryTerminal

/-- the filter loop, csqp.cpp:324-333: `is_worse_than_memory_` at its end; the counter starts at `count`, `n` bounds the turns. -/
def filterLoop (cl gl nl : CBuf F) (filterSize maxCount : ℕ) (cost gap con : F) : ℕ → ℕ → Bool
  | 0, _ => false
  | n + 1, count =>
    if count < maxCount then
      if leb (cl.get (filterSize - 1 - count)) cost && leb (gl.get (filterSize - 1 - count)) gap
          && leb (nl.get (filterSize - 1 - count)) con
      then true
      else filterLoop cl gl nl filterSize maxCount cost gap con n (count + 1)
    else false

/-- `is_worse_than_memory_` after the loop. -/
def worse (s : CSQP P) : Bool :=
  filterLoop s.m.costList s.m.gapList s.m.conList s.c.filterSize (min s.c.filterSize (s.iter + 1)) s.w.cost s.w.gap s.w.con
    s.c.filterSize 0

/-- `setCandidate(xs_try_, us_try_, false)`. -/
def accept (a : F) (s : CSQP P) : CSQP P := { s with xs := s.w.xs, us := s.w.us, feas := false, acc := s.acc ++ [a] }

/-- the line search, csqp.cpp:316-348.  The loop variable `steplength_` shadows the member, which is not written. -/
def lineSearch : List F → CSQP P → Bool × CSQP P
  | [], s => (false, s)
  | a :: as, s =>
    match tryStep a s with
    | .exn s => lineSearch as s
    | .ok s =>
      if s.c.useFilter then
        let s := { s with m := { s.m with isWorse := s.worse } }
        if s.m.isWorse then lineSearch as s else (true, s.accept a)
      else if ltb s.w.merit s.m.merit then (true, s.accept a)
      else lineSearch as s

def increaseReg (s : CSQP P) : CSQP P := { s with preg := incReg s.c.par s.preg, dreg := incReg s.c.par s.preg }
def decreaseReg (s : CSQP P) : CSQP P := { s with preg := decReg s.c.par s.preg, dreg := decReg s.c.par s.preg }

/-- the regularization update, csqp.cpp:354-365: `(true, s)` means `return false`.  `steplength` is the member. -/
def updateReg (s : CSQP P) : Bool × CSQP P :=
  if s.c.removeReg then (false, s)
  else if ltb s.c.par.thStepDec s.steplength then (false, s.decreaseReg)
  else
    let s := s.increaseReg
    (leb s.c.par.regMax s.preg, s)

/-- the beginning of `solve`, csqp.cpp:203-238 (including the special case `maxiter == 0` and the clock reading). -/
def start (W : World F) [SqrtOps F] (initXs : Option (Traj P)) (initUs : Option (Ctrls P)) (maxiter : ℕ) (reginit : F)
    (s : CSQP P) : CSQP P :=
  let s := { s with q := { s.q with t0 := W.clock s.q.tick, tick := s.q.tick + 1 } }
  let xs := initXs.getD fun _ => P.zeroX
  let us := initUs.getD fun t => zeroV F (P.nu t)
  let r := if s.c.removeReg then 0 else initReg s.c.par reginit
  let s := { s with
    xs := Function.update xs 0 P.x0, us := us, feas := false
    w := { s.w with xs := Function.update s.w.xs 0 P.x0 }
    preg := r, dreg := r }
  let s := if maxiter = 0 then { s.calcEval with q := s.q.resetRho s.c } else s
  { s with q := { s.q with reached := false }, iter := 0, hist := [], acc := [] }

variable [SqrtOps F]

/-- `computeDirection(true)` on the whole state. -/
def dir (W : World F) (s : CSQP P) : Res (CSQP P) :=
  (s.q.computeDirection W.llt (s.env W)).map fun q => { s with q := q }

/-- the retry loop, csqp.cpp:256-269 (`chk = true`, `while (!max_solve_time_reached_)`) and 377-390 (`chk = false`,
`while (true)`).  `none`: still looping after `fuel` attempts; `(false, s)`: `solve` returns false. -/
def retry (W : World F) (chk : Bool) : ℕ → CSQP P → Option (Bool × CSQP P)
  | 0, _ => none
  | fuel + 1, s =>
    if chk && s.q.reached then some (true, s)
    else
      match s.dir W with
      | .ok s => some (true, s)
      | .exn s =>
        let s := s.increaseReg
        if leb s.c.par.regMax s.preg then some (false, s) else retry W chk fuel s

/-- computing the direction, csqp.cpp:253-270 and 374-391: with `remove_reg_` exceptions escape. `some (some o, s)`: `solve`
ends with `o`. -/
def direction (W : World F) (fuel : ℕ) (chk : Bool) (s : CSQP P) : Option (Option Out × CSQP P) :=
  if s.c.removeReg then
    match s.dir W with
    | .ok s => some (none, s)
    | .exn s => some (some .thrown, s)
  else
    match retry W chk fuel s with
    | none => none
    | some (true, s) => some (none, s)
    | some (false, s) => some (some (.ret false), s)

/-- csqp.cpp:244-250: `calc(true)`, and at iteration 0 the penalty reset. -/
def prepare (s : CSQP P) : CSQP P :=
  let s := s.calcEval
  if s.iter = 0 ∧ s.c.resetRho = false then { s with q := s.q.resetRho s.c } else s

/-- the rest of an iteration after the tolerance test failed, csqp.cpp:290-365. -/
def advance (s : CSQP P) : Step × CSQP P :=
  match lineSearch s.c.par.alphas s.pushFilter.setMerit with
  | (false, s) => (.brk, { s with nRej := s.nRej + 1 })
  | (true, s) =>
    let r := s.updateReg
    (if r.1 then .fin (.ret false) else .next, r.2)

/-- the iteration after the direction is there, csqp.cpp:271-365. -/
def finish (s : CSQP P) : Step × CSQP P :=
  if s.q.qpIters = 0 then (.fin (.ret false), s)
  else
    let s := s.checkKKT.callbacks
    if leb s.m.KKT s.c.tol then (.fin (.ret true), s) else s.advance

/-- one iteration of the main loop, csqp.cpp:238-366. -/
def body (W : World F) (fuel : ℕ) (s : CSQP P) : Option (Step × CSQP P) :=
  let up := s.q.timeUp (s.env W)
  let s := { s with q := { s.q with tick := s.q.tick + 1 } }
  if up then some (.brk, { s with q := { s.q with reached := true } })
  else
    match direction W fuel true s.prepare with
    | none => none
    | some (some o, s) => some (.fin o, s)
    | some (none, s) => some s.finish

/-- the main loop: `n` remaining iterations; `some (none, s)`: left without a result. -/
def iterate (W : World F) (fuel : ℕ) : ℕ → CSQP P → Option (Option Out × CSQP P)
  | 0, s => some (none, s)
  | n + 1, s =>
    match body W fuel s with
    | none => none
    | some (.fin o, s) => some (some o, s)
    | some (.brk, s) => some (none, s)
    | some (.next, s) => iterate W fuel n { s with iter := s.iter + 1 }

/-- after the main loop, csqp.cpp:368-408. -/
def extraIter (W : World F) (fuel : ℕ) (s : CSQP P) : Option (Out × CSQP P) :=
  if s.c.extra && !s.q.reached then
    match direction W fuel false s.calcEval with
    | none => none
    | some (some o, s) => some (o, s)
    | some (none, s) =>
      let s := s.checkKKT.callbacks
      some (.ret (leb s.m.KKT s.c.tol), s)
  else some (.ret false, s)

/-- `solve(init_xs, init_us, maxiter, is_feasible, reginit)`, csqp.cpp:197-409.  `none`: some retry loop is still running after
`fuel` attempts. -/
def solve (W : World F) (fuel : ℕ) (initXs : Option (Traj P)) (initUs : Option (Ctrls P)) (maxiter : ℕ) (reginit : F)
    (s : CSQP P) : Option (Out × CSQP P) :=
  match iterate W fuel maxiter (s.start W initXs initUs maxiter reginit) with
  | none => none
  | some (some o, s) => some (o, s)
  | some (none, s) => extraIter W fuel s

/-- `set_filter_size`, csqp.hpp:231-236. -/
def setFilterSize (n : ℕ) (s : CSQP P) : CSQP P :=
  { s with
    c := { s.c with filterSize := n }
    m := { s.m with gapList := s.m.gapList.resize n, conList := s.m.conList.resize n, costList := s.m.costList.resize n } }

/-- `set_rho_sparse`, csqp.hpp:239. -/
def setRhoSparse (r : F) (s : CSQP P) : CSQP P := { s with q := { s.q with rhoSparse := r } }

end CSQP
end
end Mim
