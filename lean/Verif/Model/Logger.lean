import Verif.Model.SQP
import Verif.Model.CSQP
import Verif.Model.DDPSolve
import Verif.Model.Callbacks

/-!
# `CallbackLogger`, bindings/mim_solvers/__init__.py:14-54

The Python callback that records the progress of a solver in a dictionary of lists.  Reading an attribute of the solver gives a copy (the
bindings return by `copy_const_reference`, the logger copies again), so entries are values.
-/
set_option linter.unusedSectionVars false
set_option autoImplicit false

namespace Mim.Log
variable {F : Type}

/-- a recorded value. -/
inductive Val (P : Problem F)
  | ctrls (u : Ctrls P)
  | traj (x : Traj P)
  | gaps (f : ℕ → Vec F P.ndx)
  | num (a : F)
  | nat (n : ℕ)

/-- `convergence_data`: a dictionary in insertion order. -/
abbrev Dict (P : Problem F) := List (String × List (Val P))

variable {P : Problem F}

/-- the entries under a key (none if the key is missing). -/
def entries (d : Dict P) (key : String) : List (Val P) :=
  match d with
  | [] => []
  | e :: d => if e.1 = key then e.2 else entries d key

/-- `self.convergence_data[key].append(value)`. -/
def appendAt (key : String) (v : Val P) : Dict P → Dict P
  | [] => []
  | e :: d => if e.1 = key then (e.1, e.2 ++ [v]) :: d else e :: appendAt key v d

/-- `safe_append`, __init__.py:20-23. -/
def safeAppend (key : String) (v : Val P) (d : Dict P) : Dict P :=
  appendAt key v (if d.any (fun e => e.1 = key) then d else d ++ [(key, [])])

/-- the keys and the attributes of the solver recorded under them, __init__.py:25-51; `none`: `NotImplementedError`. -/
def fields (solverType : String) : Option (List (String × String)) :=
  if solverType = "CSQP" then
    some [("us", "us"), ("xs", "xs"), ("fs", "fs"), ("iter", "iter"), ("cost", "cost"), ("merit", "merit"), ("preg", "preg"),
      ("dreg", "dreg"), ("step", "stepLength"), ("gap_norm", "gap_norm"), ("constraint_norm", "constraint_norm"),
      ("qp_iter", "qp_iters"), ("KKT", "KKT")]
  else if solverType = "SQP" then
    some [("us", "us"), ("xs", "xs"), ("fs", "fs"), ("iter", "iter"), ("cost", "cost"), ("merit", "merit"), ("preg", "preg"),
      ("dreg", "dreg"), ("step", "stepLength"), ("KKT", "KKT")]
  else none

/-- how a call ends: the dictionary, and the exception if any. -/
inductive Out (P : Problem F)
  | done (d : Dict P)
  | attributeError (d : Dict P)
  | notImplemented (d : Dict P)

/-- the `safe_append` calls in order; `get` reads an attribute of the solver, `none`: it does not have it. -/
def record (get : String → Option (Val P)) : List (String × String) → Dict P → Out P
  | [], d => .done d
  | f :: fs, d =>
    match get f.2 with
    | none => .attributeError d
    | some v => record get fs (safeAppend f.1 v d)

/-- `__call__(solver, solver_type)`, __init__.py:19-54. -/
def call (solverType : String) (get : String → Option (Val P)) (d : Dict P) : Out P :=
  match fields solverType with
  | none => .notImplemented d
  | some fs => record get fs d

/-- calls of the logger with the solver in the states of the list. -/
def calls {S : Type} (solverType : String) (get : S → String → Option (Val P)) : List S → Dict P → Out P
  | [], d => .done d
  | s :: l, d =>
    match call solverType (get s) d with
    | .done d => calls solverType get l d
    | o => o

section
variable [Add F] [Sub F] [Mul F] [Div F] [Neg F] [Zero F] [One F] [FloatOps F]

/-- the attributes of a `SolverSQP`: bindings/sqp.cpp:71-117 and those of crocoddyl's `SolverAbstract`.  (Only those the logger may ask for.) -/
def attrSQP (s : SQP P) (a : String) : Option (Val P) :=
  if a = "us" then some (.ctrls s.us) else if a = "xs" then some (.traj s.xs) else if a = "fs" then some (.gaps s.fs)
  else if a = "iter" then some (.nat s.iter) else if a = "cost" then some (.num s.cost) else if a = "merit" then some (.num s.merit)
  else if a = "preg" then some (.num s.preg) else if a = "dreg" then some (.num s.dreg)
  else if a = "stepLength" then some (.num s.steplength) else if a = "KKT" then some (.num s.KKT) else none

/-- the attributes of a `SolverCSQP`: bindings/csqp.cpp:73-240. -/
def attrCSQP (s : CSQP P) (a : String) : Option (Val P) :=
  if a = "us" then some (.ctrls s.us) else if a = "xs" then some (.traj s.xs) else if a = "fs" then some (.gaps s.e.fs)
  else if a = "iter" then some (.nat s.iter) else if a = "cost" then some (.num s.e.cost) else if a = "merit" then some (.num s.m.merit)
  else if a = "preg" then some (.num s.preg) else if a = "dreg" then some (.num s.dreg)
  else if a = "stepLength" then some (.num s.steplength) else if a = "gap_norm" then some (.num s.e.gap)
  else if a = "constraint_norm" then some (.num s.e.con) else if a = "qp_iters" then some (.nat s.q.qpIters)
  else if a = "KKT" then some (.num s.m.KKT) else none

/-- the attributes of a `SolverDDP` or `SolverFDDP`: bindings/ddp.cpp:137-238, bindings/fddp.cpp:76-100: there is no `merit`. -/
def attrDDP (s : DDP P) (a : String) : Option (Val P) :=
  if a = "us" then some (.ctrls s.us) else if a = "xs" then some (.traj s.xs) else if a = "fs" then some (.gaps s.e.fs)
  else if a = "iter" then some (.nat s.iter) else if a = "cost" then some (.num s.e.cost)
  else if a = "preg" then some (.num s.preg) else if a = "dreg" then some (.num s.dreg)
  else if a = "stepLength" then some (.num s.steplength) else if a = "KKT" then some (.num s.m.KKT) else none
end
end Mim.Log

namespace Mim
section
variable {F : Type} [Add F] [Sub F] [Mul F] [Div F] [Neg F] [Zero F] [One F] [FloatOps F] {P : Problem F}

namespace SQP
/-- the states in which the callbacks of one iteration run, sqp.cpp:119-126. -/
def bodyCb (llt : LLT F) (fuel : ℕ) (s : SQP P) : List (SQP P) :=
  match retry llt fuel true s with
  | some (true, s) => [s.checkKKT]
  | _ => []

/-- … of the main loop. -/
def iterateCb (llt : LLT F) (fuel : ℕ) : ℕ → SQP P → List (SQP P)
  | 0, _ => []
  | n + 1, s => bodyCb llt fuel s ++
    match body llt fuel s with
    | some (none, s) => iterateCb llt fuel n { s with iter := s.iter + 1 }
    | _ => []

/-- … of a call of `solve`, including the extra iteration, sqp.cpp:206-213. -/
def solveCb (llt : LLT F) (fuel : ℕ) (xs : Option (Traj P)) (us : Option (Ctrls P)) (m : ℕ) (ri : F) (s : SQP P) : List (SQP P) :=
  iterateCb llt fuel m (s.start xs us ri) ++
    match iterate llt fuel m (s.start xs us ri) with
    | some (none, s) => if s.extra then bodyCb llt fuel s else []
    | _ => []
end SQP

namespace CSQP
variable [SqrtOps F]
/-- the states in which the callbacks of one iteration run, csqp.cpp:277-282. -/
def bodyCb (W : World F) (fuel : ℕ) (s : CSQP P) : List (CSQP P) :=
  if s.q.timeUp (s.env W) then []
  else
    match direction W fuel true ({ s with q := { s.q with tick := s.q.tick + 1 } }).prepare with
    | some (none, s) => if s.q.qpIters = 0 then [] else [s.checkKKT]
    | _ => []

/-- … of the main loop. -/
def iterateCb (W : World F) (fuel : ℕ) : ℕ → CSQP P → List (CSQP P)
  | 0, _ => []
  | n + 1, s => bodyCb W fuel s ++
    match body W fuel s with
    | some (.next, s) => iterateCb W fuel n { s with iter := s.iter + 1 }
    | _ => []

/-- … of the extra iteration, csqp.cpp:394-399. -/
def extraCb (W : World F) (fuel : ℕ) (s : CSQP P) : List (CSQP P) :=
  if s.c.extra && !s.q.reached then
    match direction W fuel false s.calcEval with
    | some (none, s) => [s.checkKKT]
    | _ => []
  else []

/-- … of a call of `solve`. -/
def solveCb (W : World F) (fuel : ℕ) (xs : Option (Traj P)) (us : Option (Ctrls P)) (m : ℕ) (ri : F) (s : CSQP P) : List (CSQP P) :=
  iterateCb W fuel m (s.start W xs us m ri) ++
    match iterate W fuel m (s.start W xs us m ri) with
    | some (none, s) => extraCb W fuel s
    | _ => []
end CSQP
end
end Mim
