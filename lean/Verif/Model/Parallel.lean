import Verif.Base.Omp
import Verif.Model.CSQP

/-!
# The OpenMP loops with reductions of SolverCSQP

`/repo/src/csqp.cpp` built with `CROCODDYL_WITH_MULTITHREADING`: the evaluation loop of `tryStep` (lines 1380-1403, sums of cost,
gaps and constraint violation) and the loop of `update_lagrangian_parameters` (lines 1212-1281, maxima of the residual norms).
`Base/Omp` gives the semantics of such loops.  The sequential builds are `CSQP.tryStep` and `CQP.updateLag`.
-/
set_option linter.unusedSectionVars false
set_option linter.unusedSimpArgs false

namespace Mim
open Omp

section
variable {F : Type} [Add F] [Sub F] [Mul F] [Div F] [Neg F] [Zero F] [One F] [FloatOps F] {P : Problem F}

namespace CSQP

/-- the elementary operations of one iteration of the evaluation loop of `tryStep`. -/
inductive TryEv
  | eval (t : ℕ)
  | cost (t : ℕ)
  | diff (t : ℕ)
  | gap (t : ℕ)
  | low (t : ℕ)
  | up (t : ℕ)
  | check (t : ℕ)
  deriving DecidableEq

/-- the node an operation works on. -/
def TryEv.node : TryEv → ℕ
  | eval t => t
  | cost t => t
  | diff t => t
  | gap t => t
  | low t => t
  | up t => t
  | check t => t

/-- iteration `t`, csqp.cpp:1385-1402. -/
def tryOps (t : ℕ) : List TryEv := [.eval t, .cost t, .diff t, .gap t, .low t, .up t, .check t]

/-- a thread's private copies of `cost_try_`, `gap_norm_try_`, `constraint_norm_try_`. -/
structure TryAcc (F : Type) where
  cost : F
  gap : F
  con : F

/-- the shared memory and the private copies. -/
structure TryMem (P : Problem F) (n : ℕ) where
  s : CSQP P
  acc : Fin n → TryAcc F

/-- one elementary operation of thread `i`:
`calc` 1388, `cost_try_ += d->cost` 1389, `diff` 1390, `gap_norm_try_ += …` 1391, the two additions to `constraint_norm_try_`
1394-1397, `if (raiseIfNaN(cost_try_)) throw` 1399-1402: the exception leaves the iteration, the program is terminated. -/
def tryEv {n : ℕ} (e : Fin n × TryEv) (m : TryMem P n) : Option (TryMem P n) :=
  let i := e.1
  let a := m.acc i
  match e.2 with
  | .eval t => some { m with s := { m.s with data := m.s.data.calcNode t (m.s.w.xs t) (m.s.w.us t) } }
  | .cost t => some { m with acc := Function.update m.acc i { a with cost := a.cost + (m.s.data.run t).cost } }
  | .diff t => some { m with s := { m.s with w := { m.s.w with
      fs := Function.update m.s.w.fs (t + 1) (P.diff (m.s.w.xs (t + 1)) (m.s.data.run t).xnext) } } }
  | .gap t => some { m with acc := Function.update m.acc i { a with gap := a.gap + norm1 (m.s.w.fs (t + 1)) } }
  | .low t => some { m with acc := Function.update m.acc i { a with
      con := a.con + norm1 (fun j => lowViol (P.lb t j) ((m.s.data.run t).g j)) } }
  | .up t => some { m with acc := Function.update m.acc i { a with
      con := a.con + norm1 (fun j => upViol (P.ub t j) ((m.s.data.run t).g j)) } }
  | .check _ => if bad a.cost then none else some m

/-- multi-threaded `tryStep(steplength)`, csqp.cpp:1342-1435, under the schedule `σ`; `none`: the program is terminated. -/
def tryStepMt {n : ℕ} (σ : Sched n TryEv) (a : F) (s : CSQP P) : Option (Res (CSQP P)) :=
  let s := { s with nTry := s.nTry + 1 }
  if ltb 1 a || ltb a 0 then some (.exn s)
  else
    match exec tryEv σ.trace ⟨{ s with w := { s.w with cost := 0, merit := 0, gap := 0, con := 0 } }.tryMove a, fun _ => ⟨0, 0, 0⟩⟩ with
    | none => none
    | some m => some (tryTerminal { m.s with w := { m.s.w with
        cost := (σ.comb 0).eval (· + ·) m.s.w.cost fun i => (m.acc i).cost
        gap := (σ.comb 1).eval (· + ·) m.s.w.gap fun i => (m.acc i).gap
        con := (σ.comb 2).eval (· + ·) m.s.w.con fun i => (m.acc i).con } })

/-- the line search, csqp.cpp:316-348, with multi-threaded trials; the `k`-th trial of the solver uses the schedule `σ k`. -/
def lineSearchMt {n : ℕ} (σ : ℕ → Sched n TryEv) : List F → CSQP P → Option (Bool × CSQP P)
  | [], s => some (false, s)
  | a :: as, s =>
    match tryStepMt (σ s.nTry) a s with
    | none => none
    | some (.exn s) => lineSearchMt σ as s
    | some (.ok s) =>
      if s.c.useFilter then
        let s := { s with m := { s.m with isWorse := s.worse } }
        if s.m.isWorse then lineSearchMt σ as s else some (true, s.accept a)
      else if ltb s.w.merit s.m.merit then some (true, s.accept a)
      else lineSearchMt σ as s

end CSQP

/-! ## update_lagrangian_parameters -/

/-- the elementary operations of one iteration of `update_lagrangian_parameters`. -/
inductive LagEv
  | zPrev (t : ℕ)
  | zRel (t : ℕ)
  | z (t : ℕ)
  | y (t : ℕ)
  | dx (t : ℕ)
  | du (t : ℕ)
  | norms (t : ℕ)
  deriving DecidableEq

def LagEv.node : LagEv → ℕ
  | zPrev t => t
  | zRel t => t
  | z t => t
  | y t => t
  | dx t => t
  | du t => t
  | norms t => t

/-- iteration `t`, csqp.cpp:1219-1280. -/
def lagOps (P : Problem F) (t : ℕ) : List LagEv :=
  if P.ng t = 0 then [.dx t, .du t] else [.zPrev t, .zRel t, .z t, .y t, .dx t, .du t, .norms t]

/-- the shared memory and the private copies of the four norms. -/
structure LagMem (P : Problem F) (n : ℕ) where
  v : CVars P
  acc : Fin n → CNorms F

/-- one elementary operation of thread `i`: lines 1228 (`z_prev_`), 1229-1232 (`z_relaxed_`; `tmp_Cdx_Cdu_[t]` is not kept in the
model, it is recomputed where it is read), 1234-1237 (`z_`), 1239 (`y_`), 1222-1223 and 1241-1242 (`dx_`, `du_`), 1244-1280 (the
private norms; the assignments of one iteration to them are one operation of the model). -/
def lagEv (E : QEnv P) (iter : ℕ) {n : ℕ} (e : Fin n × LagEv) (m : LagMem P n) : Option (LagMem P n) :=
  let v := m.v
  match e.2 with
  | .zPrev t => some { m with v := { v with zPrev := Function.update v.zPrev t (v.z t) } }
  | .zRel t => some { m with v := { v with
      zRel := Function.update v.zRel t (
        sv E.c.alpha (mv (E.d.rd t).Gx (v.dxt t) + mv (E.d.rd t).Gu (v.dut t)) + sv (1 - E.c.alpha) (v.z t)) } }
  | .z t => some { m with v := { v with
      z := Function.update v.z t fun i =>
        clampRow (P.lb t i) (P.ub t i) ((E.d.run t).g i) ((v.zRel t + cw (v.y t) (v.inv t)) i) } }
  | .y t => some { m with v := { v with y := Function.update v.y t (v.y t + cw (v.rho t) (v.zRel t - v.z t)) } }
  | .dx t => some { m with v := { v with dx := Function.update v.dx t (v.dxt t) } }
  | .du t => some { m with v := { v with du := Function.update v.du t (v.dut t) } }
  | .norms t =>
    let r := E.d.rd t
    let Cd := mv r.Gx (v.dxt t) + mv r.Gu (v.dut t)
    let duals := fun a => if E.c.heuristic then [normInf a] else [normInf (mv r.Gx.transpose a), normInf (mv r.Gu.transpose a)]
    some { m with acc := Function.update m.acc e.1 (if iter % E.c.interval = 0 then
      normStep duals Cd (v.z t) (cw (v.rho t) (v.z t - v.zPrev t)) (v.y t) (m.acc e.1) else m.acc e.1) }

/-- multi-threaded `update_lagrangian_parameters(iter)`, csqp.cpp:1196-1340, under the schedule `σ`.  `idn` is the initial value of
a private copy, the least value of the type. -/
def CQP.updateLagMt (E : QEnv P) {n : ℕ} (σ : Sched n LagEv) (idn : F) (q : CQP P) : Option (CQP P) :=
  match Omp.exec (lagEv E q.qpIters) σ.trace ⟨q.v, fun _ => ⟨idn, idn, idn, idn⟩⟩ with
  | none => none
  | some m =>
    let x := lagTerm E q.qpIters (m.v, {
      p := (σ.comb 0).eval cppMax negInf fun i => (m.acc i).p
      d := (σ.comb 1).eval cppMax negInf fun i => (m.acc i).d
      pr := (σ.comb 2).eval cppMax negInf fun i => (m.acc i).pr
      dr := (σ.comb 3).eval cppMax negInf fun i => (m.acc i).dr })
    some { q with v := x.1, n := x.2 }

end
end Mim
