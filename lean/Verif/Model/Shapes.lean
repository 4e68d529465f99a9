import Mathlib.Data.List.Basic

/-!
# The sizes of the working arrays of `SolverDDP`, `SolverFDDP` and `SolverSQP`

Every other file of the model indexes vectors and matrices by the node's own dimension types, so that a size error
cannot be expressed there.  Here the opposite abstraction is made: the numbers are forgotten and only the *shapes* are
kept.  A pass of a solver becomes the list of its Eigen statements; running it computes the shapes the arrays get and
fails (`none`) when two operands do not conform, when a `std::vector` is indexed outside its range, or when an array of a
wrong size is handed to Crocoddyl.  In the C++ a failure is an assertion (debug) or undefined behaviour (release).

Simplifications.  A statement that reads no array of the solver is dropped (scalars, profiler, `raiseIfNaN`), as are the
products by a scalar and the norms' values.  `noalias()` is dropped.  A plain assignment `a = e` resizes `a`, as in Eigen;
`+=` and `-=` do not.  The control flow is not followed: the histories of `Sys` run the passes in any order and stop them at
any statement, which covers the real control flow and every exception.
-/
set_option autoImplicit false

namespace Mim.Shape

/-- rows and columns; a vector has one column. -/
structure Sh where
  r : ℕ
  c : ℕ
deriving DecidableEq

/-- the dimensions of a shooting problem: states have `nx` coordinates and `ndx`-dimensional tangents, there are `T` running
nodes; node `t` has `nu t` controls and `ng t` inequality constraints (`ng T`: the terminal node). -/
structure Dims where
  nx : ℕ
  ndx : ℕ
  T : ℕ
  nu : ℕ → ℕ
  ng : ℕ → ℕ

/-- the arrays of the solvers (`include/mim_solvers/ddp.hpp`, `fddp.hpp`, `sqp.hpp`, `csqp.hpp`); an array that is not a
`std::vector` uses node 0.  `xs`, `us`, `fs` belong to `crocoddyl::SolverAbstract`. -/
inductive Arr
  | xs | us | fs
  | Vxx | Vx | Qxx | Qxu | Quu | Qx | Qu | K | k | xsTry | usTry | dx | FuTVxx | llt | Quuk | VxxTmp | FxTVxx | fTVxx
  | lagMul | fsFlat
  | fsTry | xnext
  | du | tmpX | tmpU
  | rho | invRho
  | zz | zRelaxed | zPrev | yy | tmpCdxCdu | tmpDual | tmpRhoGx | tmpRhoGu | VxxFs | tmpVx | dxtilde | dutilde
deriving DecidableEq

/-- the shapes held by a solver; `none`: there is no such element. -/
abbrev Store := Arr → ℕ → Option Sh

/-- expressions over the arrays (`ld`), the problem's data (`dat`, with its shape), products, transposes, sums (and
componentwise products, minima and maxima, which conform in the same way), `x.asDiagonal()`. -/
inductive E
  | ld (a : Arr) (t : ℕ)
  | dat (r c : ℕ)
  | mul (x y : E)
  | tr (x : E)
  | add (x y : E)
  | diag (x : E)

/-- the shape of an expression, if its operands conform. -/
def E.shape (σ : Store) : E → Option Sh
  | .ld a t => σ a t
  | .dat r c => some ⟨r, c⟩
  | .mul x y => (x.shape σ).bind fun p => (y.shape σ).bind fun q => if p.c = q.r then some ⟨p.r, q.c⟩ else none
  | .tr x => (x.shape σ).bind fun p => some ⟨p.c, p.r⟩
  | .add x y => (x.shape σ).bind fun p => (y.shape σ).bind fun q => if p = q then some p else none
  | .diag x => (x.shape σ).bind fun p => if p.c = 1 then some ⟨p.r, p.r⟩ else none

/-- statements. -/
inductive St
  /-- a constructor creates the element. -/
  | alloc (a : Arr) (t : ℕ) (r c : ℕ)
  /-- `a[t].conservativeResize(r, c)` -/
  | resize (a : Arr) (t : ℕ) (r c : ℕ)
  /-- `a[t] = e` -/
  | set (a : Arr) (t : ℕ) (e : E)
  /-- `a[t] += e`, `a[t] -= e` -/
  | upd (a : Arr) (t : ℕ) (e : E)
  /-- `e` is passed where a matrix `r × c` is required (a call of Crocoddyl, a segment of a flat vector). -/
  | use (e : E) (r c : ℕ)
  /-- only a norm of `e` is taken. -/
  | read (e : E)
  /-- `x.dot(y)`: two vectors of one size. -/
  | dot (x y : E)
  /-- `llt[t].solveInPlace(b[t])` -/
  | solveInPlace (t : ℕ) (b : Arr)
  /-- `a[t][i]` -/
  | elem (a : Arr) (t : ℕ) (i : ℕ)

/-- one element replaced. -/
def Store.put (σ : Store) (a : Arr) (t : ℕ) (s : Sh) : Store :=
  fun b u => if b = a ∧ u = t then some s else σ b u

/-- executing a statement. -/
def St.exec : St → Store → Option Store
  | .alloc a t r c, σ => some (σ.put a t ⟨r, c⟩)
  | .resize a t r c, σ => (σ a t).bind fun _ => some (σ.put a t ⟨r, c⟩)
  | .set a t e, σ => (σ a t).bind fun _ => (e.shape σ).bind fun s => some (σ.put a t s)
  | .upd a t e, σ => (σ a t).bind fun p => (e.shape σ).bind fun q => if p = q then some σ else none
  | .use e r c, σ => (e.shape σ).bind fun p => if p = ⟨r, c⟩ then some σ else none
  | .read e, σ => (e.shape σ).bind fun _ => some σ
  | .dot x y, σ => (x.shape σ).bind fun p => (y.shape σ).bind fun q => if p = q ∧ p.c = 1 then some σ else none
  | .solveInPlace t b, σ => (σ .llt t).bind fun p => (σ b t).bind fun q => if p.r = q.r then some σ else none
  | .elem a t i, σ => (σ a t).bind fun p => if i < p.r then some σ else none

/-- executing statements one after the other. -/
def run : List St → Store → Option Store
  | [], σ => some σ
  | s :: l, σ => (s.exec σ).bind (run l)

open St E Arr

/-- a loop over nodes. -/
def each (l : List ℕ) (f : ℕ → List St) : List St := l.flatMap f

section passes
variable (d : Dims)

/-- `SolverAbstract` of Crocoddyl (external): its constructor creates `xs_`, `us_`, `fs_`. -/
def ctorAbstract : List St :=
  each (List.range d.T) (fun t => [alloc xs t d.nx 1, alloc us t (d.nu t) 1, alloc fs t d.ndx 1]) ++
  [alloc xs d.T d.nx 1, alloc fs d.T d.ndx 1]

/-- `SolverDDP::allocateData`, `src/ddp.cpp:447-502`.  `xs_try_[0] = problem_->get_x0()` and `state->zero()` have `nx`
coordinates. -/
def allocateData : List St :=
  each (List.range d.T) (fun t =>
    [alloc Vxx t d.ndx d.ndx, alloc Vx t d.ndx 1, alloc Qxx t d.ndx d.ndx, alloc Qxu t d.ndx (d.nu t),
     alloc Quu t (d.nu t) (d.nu t), alloc Qx t d.ndx 1, alloc Qu t (d.nu t) 1, alloc K t (d.nu t) d.ndx,
     alloc Arr.k t (d.nu t) 1, alloc xsTry t d.nx 1, alloc usTry t (d.nu t) 1, alloc dx t d.ndx 1,
     alloc FuTVxx t (d.nu t) d.ndx, alloc llt t (d.nu t) (d.nu t), alloc Quuk t (d.nu t) 1]) ++
  [alloc Vxx d.T d.ndx d.ndx, alloc VxxTmp 0 d.ndx d.ndx, alloc Vx d.T d.ndx 1, alloc xsTry d.T d.nx 1,
   alloc FxTVxx 0 d.ndx d.ndx, alloc fTVxx 0 d.ndx 1]

/-- the constructor of `SolverDDP`, `src/ddp.cpp:17-58`. -/
def ctorDDP : List St :=
  ctorAbstract d ++ allocateData d ++ [alloc fsFlat 0 (d.ndx * (d.T + 1)) 1] ++
  each (List.range d.T) (fun t => [alloc lagMul t d.ndx 1]) ++ [alloc lagMul d.T d.ndx 1]

/-- the constructor of `SolverFDDP`, `src/fddp.cpp:26-53`; `xnext_` is default-constructed (empty). -/
def ctorFDDP : List St :=
  ctorDDP d ++ [alloc xnext 0 0 1, alloc fsFlat 0 (d.ndx * (d.T + 1)) 1] ++
  each (List.range d.T) (fun t => [alloc lagMul t d.ndx 1, alloc fsTry t d.ndx 1]) ++
  [alloc lagMul d.T d.ndx 1, alloc fsTry d.T d.ndx 1]

/-- the constructor of `SolverSQP`, `src/sqp.cpp:23-70`. -/
def ctorSQP : List St :=
  ctorDDP d ++ [alloc fsFlat 0 (d.ndx * (d.T + 1)) 1, alloc tmpX 0 d.ndx 1] ++
  each (List.range d.T) (fun t =>
    [alloc dx t d.ndx 1, alloc du t (d.nu t) 1, alloc fsTry t d.ndx 1, alloc lagMul t d.ndx 1,
     alloc tmpU t (d.nu t) 1]) ++
  [alloc lagMul d.T d.ndx 1, alloc dx d.T d.ndx 1, alloc fsTry d.T d.ndx 1]

/-- the part of the constructor of `SolverCSQP` (`src/csqp.cpp:24-144`) that creates the ADMM penalties; the other arrays of
that class are created in `Model/ShapesCSQP.lean`. -/
def ctorCSQP : List St :=
  ctorDDP d ++ each (List.range (d.T + 1)) (fun t => [alloc rho t (d.ng t) 1, alloc invRho t (d.ng t) 1])

/-- `SolverDDP::resizeData`, `src/ddp.cpp:230-251`; the first loop is `SolverAbstract::resizeData` of Crocoddyl (external).
No other class of the package overrides it. -/
def resizeData : List St :=
  each (List.range d.T) (fun t => [resize us t (d.nu t) 1]) ++
  each (List.range d.T) (fun t =>
    [resize Qxu t d.ndx (d.nu t), resize Quu t (d.nu t) (d.nu t), resize Qu t (d.nu t) 1, resize K t (d.nu t) d.ndx,
     resize Arr.k t (d.nu t) 1, resize usTry t (d.nu t) 1, resize FuTVxx t (d.nu t) d.ndx, resize Quuk t (d.nu t) 1])

/-- `setCandidate` of Crocoddyl (external) called by the user with a warm start, possibly empty: it throws on a wrong
size (a truncated run, see `Ev.rejected`), else it assigns. -/
def setWarm : List St :=
  each (List.range (d.T + 1)) (fun t => [set xs t (dat d.nx 1)]) ++
  each (List.range d.T) (fun t => [set us t (dat (d.nu t) 1)])

/-- `setCandidate(xs_try_, us_try_, …)` (`src/ddp.cpp:121`, `src/fddp.cpp:125`, `src/sqp.cpp:157`): Crocoddyl throws when
a size is wrong, outside of any `try`. -/
def setTry : List St :=
  each (List.range (d.T + 1)) (fun t => [use (ld xsTry t) d.nx 1, set xs t (ld xsTry t)]) ++
  each (List.range d.T) (fun t => [use (ld usTry t) (d.nu t) 1, set us t (ld usTry t)])

/-- the first statements of `solve`: `src/ddp.cpp:70-72` and `src/fddp.cpp:65-67`; `SolverSQP` (`src/sqp.cpp:85-89`) has the
same assignments and, in addition, `xs_[0] = x0`. -/
def start : List St := [set xsTry 0 (dat d.nx 1)] ++ setWarm d ++ [set xs 0 (dat d.nx 1), set xsTry 0 (dat d.nx 1)]

/-- `SolverDDP::calcDiff`, `src/ddp.cpp:253-263`: `problem_->calc`, `problem_->calcDiff` and `computeDynamicFeasibility`
of Crocoddyl (external), which require the sizes of `xs_`, `us_` and of the output `fs_`. -/
def calcDiff : List St :=
  each (List.range d.T) (fun t => [use (ld xs t) d.nx 1, use (ld us t) (d.nu t) 1, use (ld fs t) d.ndx 1]) ++
  [use (ld xs d.T) d.nx 1, use (ld fs d.T) d.ndx 1]

/-- `SolverDDP::computeGains`, `src/ddp.cpp:401-429`: `compute` resizes the factorisation and requires a square matrix. -/
def computeGains (t : ℕ) : List St :=
  if d.nu t = 0 then [] else
    [use (ld Quu t) (d.nu t) (d.nu t), set llt t (ld Quu t), set K t (tr (ld Qxu t)), solveInPlace t K,
     set Arr.k t (ld Qu t), solveInPlace t Arr.k]

/-- one node of `SolverDDP::backwardPass`, `src/ddp.cpp:281-346`; `feas`: the flag `is_feasible_`. -/
def backwardNode (feas : Bool) (t : ℕ) : List St :=
  [set FxTVxx 0 (mul (tr (dat d.ndx d.ndx)) (ld Vxx (t + 1))),
   set Qx t (dat d.ndx 1), upd Qx t (mul (tr (dat d.ndx d.ndx)) (ld Vx (t + 1))),
   set Qxx t (dat d.ndx d.ndx), upd Qxx t (mul (ld FxTVxx 0) (dat d.ndx d.ndx))] ++
  (if d.nu t = 0 then [] else
    [set FuTVxx t (mul (tr (dat d.ndx (d.nu t))) (ld Vxx (t + 1))),
     set Qu t (dat (d.nu t) 1), upd Qu t (mul (tr (dat d.ndx (d.nu t))) (ld Vx (t + 1))),
     set Quu t (dat (d.nu t) (d.nu t)), upd Quu t (mul (ld FuTVxx t) (dat d.ndx (d.nu t))),
     set Qxu t (dat d.ndx (d.nu t)), upd Qxu t (mul (ld FxTVxx 0) (dat d.ndx (d.nu t)))]) ++
  computeGains d t ++
  [set Vx t (ld Qx t), set Vxx t (ld Qxx t)] ++
  (if d.nu t = 0 then [] else
    [set Quuk t (mul (ld Quu t) (ld Arr.k t)), upd Vx t (mul (tr (ld K t)) (ld Qu t)),
     upd Vxx t (mul (ld Qxu t) (ld K t))]) ++
  [set VxxTmp 0 (add (ld Vxx t) (tr (ld Vxx t))), set Vxx t (ld VxxTmp 0)] ++
  (if feas then [] else [upd Vx t (mul (ld Vxx t) (ld fs t))]) ++
  [read (ld Vx t), read (ld Vxx t)]

/-- `SolverDDP::backwardPass`, `src/ddp.cpp:265-348`. -/
def backwardPass (feas : Bool) : List St :=
  [set Vxx d.T (dat d.ndx d.ndx), set Vx d.T (dat d.ndx 1)] ++
  (if feas then [] else [upd Vx d.T (mul (ld Vxx d.T) (ld fs d.T))]) ++
  each (List.range d.T).reverse (backwardNode d feas)

/-- `gap_norm_` in `computeDirection`: `src/fddp.cpp:196-201`, `src/sqp.cpp:229-234`. -/
def gapNorm : List St := each (List.range d.T) (fun t => [read (ld fs t)]) ++ [read (ld fs d.T)]

/-- `SolverDDP::forwardPass`, `src/ddp.cpp:350-399`.  `dx_` has `T` elements, so `dx_.back()` is element `T - 1`. -/
def forwardDDP : List St :=
  each (List.range d.T) (fun t =>
    [set lagMul t (add (mul (ld Vxx t) (ld dx t)) (ld Vx t)),
     use (ld xs t) d.nx 1, use (ld xsTry t) d.nx 1, use (ld dx t) d.ndx 1] ++
    (if d.nu t = 0 then [use (ld xsTry t) d.nx 1] else
      [set usTry t (ld us t), upd usTry t (ld Arr.k t), upd usTry t (mul (ld K t) (ld dx t)),
       use (ld xsTry t) d.nx 1, use (ld usTry t) (d.nu t) 1]) ++
    [set xsTry (t + 1) (dat d.nx 1), read (ld xsTry (t + 1))]) ++
  [set lagMul d.T (add (mul (ld Vxx d.T) (ld dx (d.T - 1))) (ld Vx d.T)), use (ld xsTry d.T) d.nx 1]

/-- `SolverDDP::checkKKTConditions`, `src/ddp.cpp:177-198`, and `SolverFDDP::checkKKTConditions`, `src/fddp.cpp:206-227`
(the same statements). -/
def kktDDP : List St :=
  each (List.range d.T) (fun t =>
    [read (add (add (dat d.ndx 1) (mul (tr (dat d.ndx d.ndx)) (ld lagMul (t + 1)))) (ld lagMul t)),
     read (add (dat (d.nu t) 1) (mul (tr (dat d.ndx (d.nu t))) (ld lagMul (t + 1)))),
     use (ld fsFlat 0) (d.ndx * (d.T + 1)) 1, use (ld fs t) d.ndx 1]) ++
  [use (ld fs d.T) d.ndx 1, read (add (dat d.ndx 1) (ld lagMul d.T)), read (ld fsFlat 0)]

/-- `SolverDDP::stoppingCriteria`, `src/ddp.cpp:200-213`. -/
def stopping : List St :=
  each (List.range d.T) (fun t => if d.nu t = 0 then [] else [read (ld Qu t)])

/-- `SolverDDP::expectedImprovement`, `src/ddp.cpp:215-228`. -/
def expectedDDP : List St :=
  each (List.range d.T) (fun t => if d.nu t = 0 then [] else
    [dot (ld Qu t) (ld Arr.k t), dot (ld Arr.k t) (ld Quuk t)])

/-- `SolverFDDP::expectedImprovement`, `src/fddp.cpp:229-254`; `dx_.back()` is element `T - 1`. -/
def expectedFDDP (feas : Bool) : List St :=
  if feas then [] else
    [use (ld xsTry d.T) d.nx 1, use (ld xs d.T) d.nx 1, use (ld dx (d.T - 1)) d.ndx 1,
     set fTVxx 0 (mul (ld Vxx d.T) (ld dx (d.T - 1))), dot (ld fs d.T) (ld fTVxx 0)] ++
    each (List.range d.T) (fun t =>
      [use (ld xsTry t) d.nx 1, use (ld xs t) d.nx 1, use (ld dx t) d.ndx 1,
       set fTVxx 0 (mul (ld Vxx t) (ld dx t)), dot (ld fs t) (ld fTVxx 0)])

/-- `SolverFDDP::updateExpectedImprovement`, `src/fddp.cpp:256-279`. -/
def updateExpected (feas : Bool) : List St :=
  (if feas then [] else
    [dot (ld Vx d.T) (ld fs d.T), set fTVxx 0 (mul (ld Vxx d.T) (ld fs d.T)), dot (ld fs d.T) (ld fTVxx 0)]) ++
  each (List.range d.T) (fun t =>
    (if d.nu t = 0 then [] else [dot (ld Qu t) (ld Arr.k t), dot (ld Arr.k t) (ld Quuk t)]) ++
    (if feas then [] else
      [dot (ld Vx t) (ld fs t), set fTVxx 0 (mul (ld Vxx t) (ld fs t)), dot (ld fs t) (ld fTVxx 0)]))

/-- `SolverFDDP::forwardPass`, `src/fddp.cpp:281-383`; `closed`: the branch `is_feasible_ || steplength == 1`. -/
def forwardFDDP (closed : Bool) : List St :=
  [set xnext 0 (dat d.nx 1)] ++
  each (List.range d.T) (fun t =>
    (if closed then
      [set lagMul t (add (mul (ld Vxx t) (ld dx t)) (ld Vx t)), set xsTry t (ld xnext 0)]
     else
      [set lagMul t (add (mul (ld Vxx t) (add (ld dx t) (ld fs t))) (ld Vx t)),
       use (ld xnext 0) d.nx 1, use (ld fs t) d.ndx 1, use (ld xsTry t) d.nx 1]) ++
    [use (ld xs t) d.nx 1, use (ld xsTry t) d.nx 1, use (ld dx t) d.ndx 1] ++
    (if d.nu t = 0 then [use (ld xsTry t) d.nx 1] else
      [set usTry t (add (add (ld us t) (ld Arr.k t)) (mul (ld K t) (ld dx t))),
       use (ld xsTry t) d.nx 1, use (ld usTry t) (d.nu t) 1]) ++
    [set xnext 0 (dat d.nx 1), use (ld xsTry t) d.nx 1, use (ld fsTry t) d.ndx 1, read (ld fsTry t),
     read (ld xnext 0)]) ++
  (if closed then
    [set lagMul d.T (add (mul (ld Vxx d.T) (ld dx (d.T - 1))) (ld Vx d.T)), set xsTry d.T (ld xnext 0)]
   else
    [set lagMul d.T (add (mul (ld Vxx d.T) (add (ld dx (d.T - 1)) (ld fs d.T))) (ld Vx d.T)),
     use (ld xnext 0) d.nx 1, use (ld fs d.T) d.ndx 1, use (ld xsTry d.T) d.nx 1]) ++
  [use (ld xsTry d.T) d.nx 1]

/-- `SolverSQP::forwardPass`, `src/sqp.cpp:270-305`. -/
def forwardSQP : List St :=
  each (List.range d.T) (fun t =>
    [set tmpX 0 (add (ld dx t) (ld fs t)), set lagMul t (mul (ld Vxx t) (ld tmpX 0)), upd lagMul t (ld Vx t),
     set du t (mul (ld K t) (ld dx t)), upd du t (ld Arr.k t),
     set dx (t + 1) (ld fs (t + 1)), upd dx (t + 1) (mul (dat d.ndx (d.nu t)) (ld du t)),
     upd dx (t + 1) (mul (dat d.ndx d.ndx) (ld dx t)), read (ld dx t), read (ld du t)]) ++
  [set lagMul d.T (ld Vx d.T), set tmpX 0 (add (ld dx d.T) (ld fs d.T)),
   upd lagMul d.T (mul (ld Vxx d.T) (ld tmpX 0)), read (ld dx d.T)]

/-- `SolverSQP::checkKKTConditions`, `src/sqp.cpp:244-268`. -/
def kktSQP : List St :=
  each (List.range d.T) (fun t =>
    [set tmpX 0 (dat d.ndx 1), upd tmpX 0 (mul (tr (dat d.ndx d.ndx)) (ld lagMul (t + 1))), upd tmpX 0 (ld lagMul t),
     set tmpU t (dat (d.nu t) 1), upd tmpU t (mul (tr (dat d.ndx (d.nu t))) (ld lagMul (t + 1))),
     read (ld tmpX 0), read (ld tmpU t), use (ld fsFlat 0) (d.ndx * (d.T + 1)) 1, use (ld fs t) d.ndx 1]) ++
  [use (ld fs d.T) d.ndx 1, set tmpX 0 (dat d.ndx 1), upd tmpX 0 (ld lagMul d.T), read (ld tmpX 0), read (ld fsFlat 0)]

/-- `SolverSQP::tryStep`, `src/sqp.cpp:307-372`: `us_try_[t]` is handed to the model also when `nu = 0`. -/
def trySQP : List St :=
  each (List.range d.T) (fun t =>
    [use (ld xs t) d.nx 1, use (ld dx t) d.ndx 1, use (ld xsTry t) d.nx 1] ++
    (if d.nu t = 0 then [] else [set usTry t (ld us t), upd usTry t (ld du t)]) ++
    [use (ld xsTry t) d.nx 1, use (ld usTry t) (d.nu t) 1] ++
    (if t = 0 then [] else [use (ld xsTry t) d.nx 1, use (ld fsTry (t - 1)) d.ndx 1, read (ld fsTry (t - 1))])) ++
  [use (ld xs d.T) d.nx 1, use (ld dx d.T) d.ndx 1, use (ld xsTry d.T) d.nx 1, use (ld xsTry d.T) d.nx 1,
   use (ld fsTry (d.T - 1)) d.ndx 1, read (ld fsTry (d.T - 1))]

/-- `SolverCSQP::apply_rho_update`, `src/csqp.cpp:539-582`, for bounds with `lb ≤ ub`: then one of the three branches is
taken and writes element `i` of both vectors of the node. -/
def applyRho : List St :=
  each (List.range (d.T + 1)) (fun t => each (List.range (d.ng t)) (fun i => [elem rho t i, elem invRho t i]))

end passes

/-! ## Histories of a solver and its problem -/

/-- the passes of one solve of `SolverDDP` (`src/ddp.cpp:62-160`), with the flag each reads. -/
inductive DDPPass
  | calcDiff | backward (feas : Bool) | expected | kkt | forward | accept | stopping

/-- the passes of one solve of `SolverFDDP` (`src/fddp.cpp:57-187`). -/
inductive FDDPPass
  | calcDiff | gaps | backward (feas : Bool) | updateExpected (feas : Bool) | kkt | forward (closed : Bool) | expected (feas : Bool)
  | accept | stopping

/-- the passes of one solve of `SolverSQP` (`src/sqp.cpp:75-222`).  `attempt n`: a `computeDirection` whose backward pass
throws (its first `n` statements were executed); `direction`: one that succeeds; `recalc`: whether `calcDiff` is called. -/
inductive SQPPass
  | attempt (recalc : Bool) (n : ℕ) | direction (recalc : Bool) | kkt | step (n : ℕ) | accept

def DDPPass.code (d : Dims) : DDPPass → List St
  | .calcDiff => Shape.calcDiff d
  | .backward f => backwardPass d f
  | .expected => expectedDDP d
  | .kkt => kktDDP d
  | .forward => forwardDDP d
  | .accept => setTry d
  | .stopping => Shape.stopping d

def FDDPPass.code (d : Dims) : FDDPPass → List St
  | .calcDiff => Shape.calcDiff d
  | .gaps => gapNorm d
  | .backward f => backwardPass d f
  | .updateExpected f => Shape.updateExpected d f
  | .kkt => kktDDP d
  | .forward c => forwardFDDP d c
  | .expected f => expectedFDDP d f
  | .accept => setTry d
  | .stopping => Shape.stopping d

/-- `computeDirection` of `SolverSQP` up to the end of the backward pass: `src/sqp.cpp:224-238`; `SolverSQP` sets
`is_feasible_` to false in `solve`. -/
def sqpBackward (d : Dims) (recalc : Bool) : List St :=
  (if recalc then calcDiff d else []) ++ gapNorm d ++ backwardPass d false

def SQPPass.code (d : Dims) : SQPPass → List St
  | .attempt r n => (sqpBackward d r).take n
  | .direction r => sqpBackward d r ++ forwardSQP d
  | .kkt => kktSQP d
  | .step n => (trySQP d).take n
  | .accept => setTry d

/-- the order `SolverSQP::solve` respects: no `tryStep` before a direction has been computed in this solve. -/
def SQPOrder : Bool → List SQPPass → Prop
  | _, [] => True
  | _, .direction _ :: l => SQPOrder true l
  | b, .step _ :: l => b = true ∧ SQPOrder b l
  | b, .attempt _ _ :: l => SQPOrder b l
  | b, .kkt :: l => SQPOrder b l
  | b, .accept :: l => SQPOrder b l

/-- a solver and its problem: the dimensions of the problem's models, the flag read by `problem_->is_updated()`, the
shapes of the solver's arrays. -/
structure Sys where
  dims : Dims
  updated : Bool
  σ : Store

/-- an event: the models of some nodes are replaced (`updateModel`, `updateNode`, `circularAppend` of
`crocoddyl::ShootingProblem`, which keep the horizon, `nx` and `ndx`, and raise the flag); a solve; a solve whose warm start is
refused after `n` statements. -/
inductive Ev (π : Type)
  | change (nu ng : ℕ → ℕ)
  | solve (passes : List π)
  | rejected (n : ℕ)

/-- a solve: `if (problem_->is_updated()) resizeData();` (`src/ddp.cpp:67-69`, `src/fddp.cpp:62-64`, `src/sqp.cpp:82-84`,
`src/csqp.cpp:205-207`; reading the flag clears it), then `body`. -/
def Sys.solve (s : Sys) (body : List St) : Option Sys :=
  (run ((if s.updated then resizeData s.dims else []) ++ body) s.σ).map fun σ => { s with updated := false, σ := σ }

def Sys.ev {π : Type} (code : Dims → List π → List St) (s : Sys) : Ev π → Option Sys
  | .change nu ng => some { s with dims := { s.dims with nu := nu, ng := ng }, updated := true }
  | .solve l => s.solve (start s.dims ++ code s.dims l)
  | .rejected n => s.solve ((start s.dims).take n)

def Sys.evs {π : Type} (code : Dims → List π → List St) : Sys → List (Ev π) → Option Sys
  | s, [] => some s
  | s, e :: l => (s.ev code e).bind fun s' => Sys.evs code s' l

/-- the empty memory before construction. -/
def fresh : Store := fun _ _ => none

/-- a constructed solver. -/
def construct (ctor : Dims → List St) (d : Dims) : Option Sys :=
  (run (ctor d) fresh).map fun σ => { dims := d, updated := false, σ := σ }

/-- one solve of `SolverDDP`: passes in any order, each stopped after any number of statements. -/
def codeDDP (d : Dims) (l : List (DDPPass × ℕ)) : List St := l.flatMap fun p => (p.1.code d).take p.2

/-- one solve of `SolverFDDP`. -/
def codeFDDP (d : Dims) (l : List (FDDPPass × ℕ)) : List St := l.flatMap fun p => (p.1.code d).take p.2

/-- one solve of `SolverSQP`. -/
def codeSQP (d : Dims) (l : List SQPPass) : List St := l.flatMap fun p => p.code d

end Mim.Shape
