import Verif.Model.Parallel

/-!
# `SolverCSQP::solve` in a multi-threaded build with more than one thread

`/repo/src/csqp.cpp` with `CROCODDYL_WITH_MULTITHREADING` and `problem_->get_nthreads() > 1`: the same control flow as in `Model/CSQP`,
with `backwardPass_mt`, `backwardPass_without_rho_update_mt`, the parallel `update_lagrangian_parameters` and the parallel `tryStep`.
The control flow is repeated here because the program may be terminated inside `tryStep`.
-/
set_option linter.unusedSectionVars false
set_option linter.unusedSimpArgs false

namespace Mim
open Omp

/-- What a multi-threaded solve depends on: `w.sched` gives the order in which the parallel loops of the backward passes run their
iterations, `lag k` and `tr k` the schedules of the other two parallel loops at their `k`-th use, `idn` the initial value of the
private copies in a `max` reduction. -/
structure MtWorld (n : ℕ) (F : Type) where
  llt : LLT F
  clock : ℕ → F
  pass : ℕ → List ℕ
  lag : ℕ → Sched n LagEv
  tr : ℕ → Sched n CSQP.TryEv
  idn : F

/-- how a run ends: some retry loop is still running, the program was terminated, or a value was computed. -/
inductive Run (α : Type _) where
  | running
  | dead
  | val (a : α)

section
variable {F : Type} [Add F] [Sub F] [Mul F] [Div F] [Neg F] [Zero F] [One F] [FloatOps F] [SqrtOps F] {P : Problem F} {n : ℕ}

/-- one executed QP iteration after the clock check, csqp.cpp:477-494. -/
def CQP.stepMt (M : MtWorld n F) (E : QEnv P) (q : CQP P) : Option (Res (CQP P)) :=
  match q.pass M.llt E with
  | .exn q => some (.exn q)
  | .ok q =>
    match (q.forward E).updateLagMt E (M.lag q.tick) M.idn with
    | none => none
    | some q' => some (.ok { q'.updateRho E with exec := q.exec + 1 })

/-- the loop of `computeDirection`, csqp.cpp:470-513. -/
def CQP.loopMt (M : MtWorld n F) (E : QEnv P) : ℕ → CQP P → Option (Res (CQP P))
  | 0, q => some (.ok { q with why := .limit })
  | m + 1, q =>
    let up := q.timeUp E
    let q := { q with tick := q.tick + 1 }
    if up then some (.ok { q with qpIters := q.qpIters - 1, reached := true, why := .time })
    else
      match q.stepMt M E with
      | none => none
      | some (.exn q) => some (.exn q)
      | some (.ok q) =>
        if q.qpIters % E.c.interval = 0 then
          let q := q.setTol E.c
          if q.converged then some (.ok { q with why := .tol }) else CQP.loopMt M E m { q with qpIters := q.qpIters + 1 }
        else CQP.loopMt M E m { q with qpIters := q.qpIters + 1 }

/-- `computeDirection()`, csqp.cpp:454-517. -/
def CQP.computeDirectionMt (M : MtWorld n F) (E : QEnv P) (q : CQP P) : Option (Res (CQP P)) :=
  match (q.resetParams E.c).warm M.llt E with
  | .exn q => some (.exn q)
  | .ok q => CQP.loopMt M E E.c.maxQP { q with qpIters := 1, exec := 0 }

namespace CSQP

/-- what the QP solver sees. -/
def envMt (M : MtWorld n F) (s : CSQP P) : QEnv P := s.env ⟨M.llt, M.clock, some M.pass⟩

/-- `computeDirection(true)` on the whole state. -/
def dirMt (M : MtWorld n F) (s : CSQP P) : Option (Res (CSQP P)) :=
  (s.q.computeDirectionMt M (s.envMt M)).map fun r => r.map fun q => { s with q := q }

/-- the retry loops, csqp.cpp:256-269, 377-390. -/
def retryMt (M : MtWorld n F) (chk : Bool) : ℕ → CSQP P → Run (Bool × CSQP P)
  | 0, _ => .running
  | fuel + 1, s =>
    if chk && s.q.reached then .val (true, s)
    else
      match s.dirMt M with
      | none => .dead
      | some (.ok s) => .val (true, s)
      | some (.exn s) =>
        let s := s.increaseReg
        if leb s.c.par.regMax s.preg then .val (false, s) else retryMt M chk fuel s

/-- computing the direction, csqp.cpp:253-270 and 374-391. -/
def directionMt (M : MtWorld n F) (fuel : ℕ) (chk : Bool) (s : CSQP P) : Run (Option Out × CSQP P) :=
  if s.c.removeReg then
    match s.dirMt M with
    | none => .dead
    | some (.ok s) => .val (none, s)
    | some (.exn s) => .val (some .thrown, s)
  else
    match retryMt M chk fuel s with
    | .running => .running
    | .dead => .dead
    | .val (true, s) => .val (none, s)
    | .val (false, s) => .val (some (.ret false), s)

/-- the rest of an iteration after the tolerance test failed, csqp.cpp:290-365. -/
def advanceMt (M : MtWorld n F) (s : CSQP P) : Run (Step × CSQP P) :=
  match lineSearchMt M.tr s.c.par.alphas s.pushFilter.setMerit with
  | none => .dead
  | some (false, s) => .val (.brk, { s with nRej := s.nRej + 1 })
  | some (true, s) =>
    let r := s.updateReg
    .val (if r.1 then .fin (.ret false) else .next, r.2)

/-- the iteration after the direction is there, csqp.cpp:271-365. -/
def finishMt (M : MtWorld n F) (s : CSQP P) : Run (Step × CSQP P) :=
  if s.q.qpIters = 0 then .val (.fin (.ret false), s)
  else
    let s := s.checkKKT.callbacks
    if leb s.m.KKT s.c.tol then .val (.fin (.ret true), s) else s.advanceMt M

/-- one iteration of the main loop, csqp.cpp:238-366. -/
def bodyMt (M : MtWorld n F) (fuel : ℕ) (s : CSQP P) : Run (Step × CSQP P) :=
  let up := s.q.timeUp (s.envMt M)
  let s := { s with q := { s.q with tick := s.q.tick + 1 } }
  if up then .val (.brk, { s with q := { s.q with reached := true } })
  else
    match directionMt M fuel true s.prepare with
    | .running => .running
    | .dead => .dead
    | .val (some o, s) => .val (.fin o, s)
    | .val (none, s) => s.finishMt M

/-- the main loop. -/
def iterateMt (M : MtWorld n F) (fuel : ℕ) : ℕ → CSQP P → Run (Option Out × CSQP P)
  | 0, s => .val (none, s)
  | m + 1, s =>
    match bodyMt M fuel s with
    | .running => .running
    | .dead => .dead
    | .val (.fin o, s) => .val (some o, s)
    | .val (.brk, s) => .val (none, s)
    | .val (.next, s) => iterateMt M fuel m { s with iter := s.iter + 1 }

/-- after the main loop, csqp.cpp:368-408. -/
def extraIterMt (M : MtWorld n F) (fuel : ℕ) (s : CSQP P) : Run (Out × CSQP P) :=
  if s.c.extra && !s.q.reached then
    match directionMt M fuel false s.calcEval with
    | .running => .running
    | .dead => .dead
    | .val (some o, s) => .val (o, s)
    | .val (none, s) =>
      let s := s.checkKKT.callbacks
      .val (.ret (leb s.m.KKT s.c.tol), s)
  else .val (.ret false, s)

/-- `solve(init_xs, init_us, maxiter, is_feasible, reginit)`, csqp.cpp:197-409, multi-threaded. -/
def solveMt (M : MtWorld n F) (fuel : ℕ) (initXs : Option (Traj P)) (initUs : Option (Ctrls P)) (maxiter : ℕ) (reginit : F)
    (s : CSQP P) : Run (Out × CSQP P) :=
  match iterateMt M fuel maxiter (s.start ⟨M.llt, M.clock, some M.pass⟩ initXs initUs maxiter reginit) with
  | .running => .running
  | .dead => .dead
  | .val (some o, s) => .val (o, s)
  | .val (none, s) => extraIterMt M fuel s

end CSQP
end
end Mim
