import Verif.Model.Shapes

/-!
# The sizes of the working arrays of `SolverCSQP`

The passes of `SolverCSQP` as lists of Eigen statements on shapes (see `Model/Shapes.lean`).  Additional simplifications:
`A.diagonal().array() += c` is dropped (it fits every matrix); a triangular or self-adjoint view has the shape of its matrix;
the iterations of an OpenMP loop are executed in order (that they are independent is the subject of other properties).
-/
set_option autoImplicit false

namespace Mim.Shape
open St E Arr

section
variable (d : Dims)

/-- the constructor of `SolverCSQP`, `src/csqp.cpp:24-144`. -/
def ctorCSQPAll : List St :=
  ctorDDP d ++ [alloc fsFlat 0 (d.ndx * (d.T + 1)) 1, alloc tmpVx 0 d.ndx 1, alloc tmpX 0 d.ndx 1] ++
  each (List.range d.T) (fun t =>
    [alloc xsTry t d.nx 1, alloc usTry t (d.nu t) 1, alloc dx t d.ndx 1, alloc du t (d.nu t) 1, alloc dxtilde t d.ndx 1,
     alloc dutilde t (d.nu t) 1, alloc lagMul t d.ndx 1, alloc fsTry t d.ndx 1, alloc zz t (d.ng t) 1,
     alloc zRelaxed t (d.ng t) 1, alloc zPrev t (d.ng t) 1, alloc yy t (d.ng t) 1, alloc tmpCdxCdu t (d.ng t) 1,
     alloc tmpDual t (d.ng t) 1, alloc tmpRhoGx t (d.ng t) d.ndx, alloc tmpRhoGu t (d.ng t) (d.nu t),
     alloc tmpU t (d.nu t) 1, alloc VxxFs t d.ndx 1, alloc rho t (d.ng t) 1, alloc invRho t (d.ng t) 1]) ++
  [alloc xsTry d.T d.nx 1, alloc dx d.T d.ndx 1, alloc dxtilde d.T d.ndx 1, alloc lagMul d.T d.ndx 1,
   alloc fsTry d.T d.ndx 1, alloc zz d.T (d.ng d.T) 1, alloc zRelaxed d.T (d.ng d.T) 1, alloc zPrev d.T (d.ng d.T) 1,
   alloc yy d.T (d.ng d.T) 1, alloc tmpCdxCdu d.T (d.ng d.T) 1, alloc tmpDual d.T (d.ng d.T) 1,
   alloc tmpRhoGx d.T (d.ng d.T) d.ndx, alloc rho d.T (d.ng d.T) 1, alloc invRho d.T (d.ng d.T) 1]

/-- `SolverCSQP::calc`, `src/csqp.cpp:411-452`; `recalc`: its argument. -/
def calcC (recalc : Bool) : List St :=
  (if recalc then
    each (List.range d.T) (fun t => [use (ld xs t) d.nx 1, use (ld us t) (d.nu t) 1]) ++ [use (ld xs d.T) d.nx 1]
   else []) ++
  each (List.range d.T) (fun t =>
    [use (ld xs (t + 1)) d.nx 1, use (ld fs (t + 1)) d.ndx 1, read (ld fs (t + 1)),
     read (add (dat (d.ng t) 1) (dat (d.ng t) 1))])

/-- the loops over `z_`, `z_prev_`, `z_relaxed_`, `y_` of `SolverCSQP::reset_params`, `src/csqp.cpp:170-193`: `setZero` keeps
the sizes. -/
def resetC : List St :=
  each (List.range (d.T + 1)) (fun t => [read (ld zz t), read (ld zPrev t), read (ld zRelaxed t), read (ld yy t)])

/-- the norm of the multipliers in `SolverCSQP::solve`, `src/csqp.cpp:295-305`. -/
def mulNormC : List St := each (List.range (d.T + 1)) (fun t => [read (ld lagMul t), read (ld yy t)])

/-- the terminal node of `SolverCSQP::backwardPass`, `src/csqp.cpp:693-707`, and of `backwardPass_mt`, `src/csqp.cpp:910-924`. -/
def terminalC : List St :=
  [set Vxx d.T (dat d.ndx d.ndx), set Vx d.T (dat d.ndx 1), upd Vx d.T (ld dx d.T)] ++
  (if d.ng d.T = 0 then [] else
    [set tmpRhoGx d.T (mul (diag (ld rho d.T)) (dat (d.ng d.T) d.ndx)),
     upd Vxx d.T (mul (tr (dat (d.ng d.T) d.ndx)) (ld tmpRhoGx d.T)),
     set tmpDual d.T (add (ld yy d.T) (add (ld rho d.T) (ld zz d.T))),
     upd Vx d.T (mul (tr (dat (d.ng d.T) d.ndx)) (ld tmpDual d.T))])

/-- the constrained gradient of the state, first lines: `src/csqp.cpp:727-737`, `src/csqp.cpp:939-949`,
`src/csqp.cpp:1069-1079`, `src/csqp.cpp:1150-1156`. -/
def gradXC (t : ℕ) : List St :=
  [set Qx t (dat d.ndx 1), upd Qx t (ld dx t)] ++
  (if d.ng t = 0 then [] else
    (if 0 < t ∨ d.nu t ≠ 0 then [set tmpDual t (ld yy t), upd tmpDual t (add (ld rho t) (ld zz t))] else []) ++
    (if 0 < t then [upd Qx t (mul (tr (dat (d.ng t) d.ndx)) (ld tmpDual t))] else []))

/-- the end of a node: `src/csqp.cpp:783-799`, `src/csqp.cpp:879-895`, `src/csqp.cpp:1001-1019`. -/
def valueC (t : ℕ) : List St :=
  computeGains d t ++
  [set Vx t (ld Qx t), set Vxx t (ld Qxx t)] ++
  (if d.nu t = 0 then [] else [upd Vx t (mul (tr (ld K t)) (ld Qu t)), upd Vxx t (mul (ld Qxu t) (ld K t))]) ++
  [set VxxTmp 0 (add (ld Vxx t) (tr (ld Vxx t))), set Vxx t (ld VxxTmp 0)]

/-- one node of `SolverCSQP::backwardPass`, `src/csqp.cpp:715-800`. -/
def backwardNodeC (t : ℕ) : List St :=
  [set VxxFs t (mul (ld Vxx (t + 1)) (ld fs (t + 1))), set tmpVx 0 (add (ld VxxFs t) (ld Vx (t + 1))),
   set FxTVxx 0 (mul (tr (dat d.ndx d.ndx)) (ld Vxx (t + 1)))] ++
  gradXC d t ++
  [upd Qx t (mul (tr (dat d.ndx d.ndx)) (ld tmpVx 0)), set Qxx t (dat d.ndx d.ndx)] ++
  (if 0 < t ∧ d.ng t ≠ 0 then
    [set tmpRhoGx t (mul (diag (ld rho t)) (dat (d.ng t) d.ndx)),
     upd Qxx t (mul (tr (dat (d.ng t) d.ndx)) (ld tmpRhoGx t))] else []) ++
  [upd Qxx t (mul (ld FxTVxx 0) (dat d.ndx d.ndx))] ++
  (if d.nu t = 0 then [] else
    [set FuTVxx t (mul (tr (dat d.ndx (d.nu t))) (ld Vxx (t + 1))),
     set Qu t (add (dat (d.nu t) 1) (ld du t))] ++
    (if d.ng t = 0 then [] else [upd Qu t (mul (tr (dat (d.ng t) (d.nu t))) (ld tmpDual t))]) ++
    [upd Qu t (mul (tr (dat d.ndx (d.nu t))) (ld tmpVx 0)),
     set Quu t (dat (d.nu t) (d.nu t)), upd Quu t (mul (ld FuTVxx t) (dat d.ndx (d.nu t)))] ++
    (if d.ng t = 0 then [] else
      [set tmpRhoGu t (mul (diag (ld rho t)) (dat (d.ng t) (d.nu t))),
       upd Quu t (mul (tr (dat (d.ng t) (d.nu t))) (ld tmpRhoGu t))]) ++
    [set Qxu t (dat d.ndx (d.nu t))] ++
    (if 0 < t ∧ d.ng t ≠ 0 then [upd Qxu t (mul (tr (dat (d.ng t) d.ndx)) (ld tmpRhoGu t))] else []) ++
    [upd Qxu t (mul (ld FxTVxx 0) (dat d.ndx (d.nu t)))]) ++
  valueC d t

/-- `SolverCSQP::backwardPass`, `src/csqp.cpp:671-802`. -/
def backwardC : List St := terminalC d ++ each (List.range d.T).reverse (backwardNodeC d)

/-- one node of `SolverCSQP::backwardPass_without_constraints`, `src/csqp.cpp:840-896`. -/
def backwardNodeFree (t : ℕ) : List St :=
  [set tmpVx 0 (mul (ld Vxx (t + 1)) (ld fs (t + 1))), upd tmpVx 0 (ld Vx (t + 1)),
   set FxTVxx 0 (mul (tr (dat d.ndx d.ndx)) (ld Vxx (t + 1))),
   set Qx t (dat d.ndx 1), upd Qx t (mul (tr (dat d.ndx d.ndx)) (ld tmpVx 0)),
   set Qxx t (dat d.ndx d.ndx), upd Qxx t (mul (ld FxTVxx 0) (dat d.ndx d.ndx))] ++
  (if d.nu t = 0 then [] else
    [set FuTVxx t (mul (tr (dat d.ndx (d.nu t))) (ld Vxx (t + 1))),
     set Qu t (dat (d.nu t) 1), upd Qu t (mul (tr (dat d.ndx (d.nu t))) (ld tmpVx 0)),
     set Quu t (dat (d.nu t) (d.nu t)), upd Quu t (mul (ld FuTVxx t) (dat d.ndx (d.nu t))),
     set Qxu t (dat d.ndx (d.nu t)), upd Qxu t (mul (ld FxTVxx 0) (dat d.ndx (d.nu t)))]) ++
  valueC d t

/-- `SolverCSQP::backwardPass_without_constraints`, `src/csqp.cpp:804-898`. -/
def backwardFree : List St :=
  [set Vxx d.T (dat d.ndx d.ndx), set Vx d.T (dat d.ndx 1)] ++ each (List.range d.T).reverse (backwardNodeFree d)

/-- `SolverCSQP::forwardPass_without_constraints`, `src/csqp.cpp:649-669`. -/
def forwardFree : List St :=
  each (List.range d.T) (fun t =>
    [set du t (ld Arr.k t), upd du t (mul (ld K t) (ld dx t)),
     set dx (t + 1) (ld fs (t + 1)), upd dx (t + 1) (mul (dat d.ndx d.ndx) (ld dx t)),
     upd dx (t + 1) (mul (dat d.ndx (d.nu t)) (ld du t))])

/-- `SolverCSQP::forwardPass`, `src/csqp.cpp:630-647`. -/
def forwardC : List St :=
  each (List.range d.T) (fun t =>
    [set dutilde t (ld Arr.k t), upd dutilde t (mul (ld K t) (ld dxtilde t)),
     set dxtilde (t + 1) (ld fs (t + 1)), upd dxtilde (t + 1) (mul (dat d.ndx d.ndx) (ld dxtilde t)),
     upd dxtilde (t + 1) (mul (dat d.ndx (d.nu t)) (ld dutilde t))])

/-- one iteration of the parallel loop of `SolverCSQP::backwardPass_mt`, `src/csqp.cpp:932-979`. -/
def parNodeC (t : ℕ) : List St :=
  gradXC d t ++ [set Qxx t (dat d.ndx d.ndx)] ++
  (if 0 < t ∧ d.ng t ≠ 0 then
    [set tmpRhoGx t (mul (diag (ld rho t)) (dat (d.ng t) d.ndx)),
     upd Qxx t (mul (tr (dat (d.ng t) d.ndx)) (ld tmpRhoGx t))] else []) ++
  (if d.nu t = 0 then [] else
    [set Qu t (add (dat (d.nu t) 1) (ld du t))] ++
    (if d.ng t = 0 then [] else [upd Qu t (mul (tr (dat (d.ng t) (d.nu t))) (ld tmpDual t))]) ++
    [set Quu t (dat (d.nu t) (d.nu t))] ++
    (if d.ng t = 0 then [] else
      [set tmpRhoGu t (mul (diag (ld rho t)) (dat (d.ng t) (d.nu t))),
       upd Quu t (mul (tr (dat (d.ng t) (d.nu t))) (ld tmpRhoGu t))]) ++
    [set Qxu t (dat d.ndx (d.nu t))] ++
    (if 0 < t ∧ d.ng t ≠ 0 then [upd Qxu t (mul (tr (dat (d.ng t) d.ndx)) (ld tmpRhoGu t))] else []))

/-- one iteration of the sequential loop of `SolverCSQP::backwardPass_mt`, `src/csqp.cpp:982-1020`: the scratch matrix
`FuTVxx_p_[0]` is used for every node and takes the size of each. -/
def seqNodeC (t : ℕ) : List St :=
  [set FxTVxx 0 (mul (tr (dat d.ndx d.ndx)) (ld Vxx (t + 1))), upd Qxx t (mul (ld FxTVxx 0) (dat d.ndx d.ndx)),
   set VxxFs t (mul (ld Vxx (t + 1)) (ld fs (t + 1))), set tmpVx 0 (add (ld VxxFs t) (ld Vx (t + 1))),
   upd Qx t (mul (tr (dat d.ndx d.ndx)) (ld tmpVx 0))] ++
  (if d.nu t = 0 then [] else
    [set FuTVxx 0 (mul (tr (dat d.ndx (d.nu t))) (ld Vxx (t + 1))),
     upd Quu t (mul (ld FuTVxx 0) (dat d.ndx (d.nu t))),
     upd Qu t (mul (tr (dat d.ndx (d.nu t))) (ld tmpVx 0)),
     upd Qxu t (mul (ld FxTVxx 0) (dat d.ndx (d.nu t)))]) ++
  valueC d t

/-- `SolverCSQP::backwardPass_mt`, `src/csqp.cpp:900-1023`. -/
def backwardMtC : List St :=
  terminalC d ++ each (List.range d.T).reverse (parNodeC d) ++ each (List.range d.T).reverse (seqNodeC d)

/-- the terminal node of the passes that keep the penalties: `src/csqp.cpp:1045-1052`, `src/csqp.cpp:1132-1138`. -/
def terminalKeepC : List St :=
  [set Vx d.T (dat d.ndx 1), upd Vx d.T (ld dx d.T)] ++
  (if d.ng d.T = 0 then [] else
    [set tmpDual d.T (ld yy d.T), upd tmpDual d.T (add (ld rho d.T) (ld zz d.T)),
     upd Vx d.T (mul (tr (dat (d.ng d.T) d.ndx)) (ld tmpDual d.T))])

/-- `SolverCSQP::backwardPass_without_rho_update`, `src/csqp.cpp:1025-1108`: `k_ = Qu_` and the triangular solve are executed
also for a node without controls. -/
def backwardKeepC : List St :=
  terminalKeepC d ++
  each (List.range d.T).reverse (fun t =>
    [set tmpVx 0 (add (ld VxxFs t) (ld Vx (t + 1)))] ++ gradXC d t ++
    [upd Qx t (mul (tr (dat d.ndx d.ndx)) (ld tmpVx 0))] ++
    (if d.nu t = 0 then [] else
      [set Qu t (dat (d.nu t) 1), upd Qu t (ld du t)] ++
      (if d.ng t = 0 then [] else [upd Qu t (mul (tr (dat (d.ng t) (d.nu t))) (ld tmpDual t))]) ++
      [upd Qu t (mul (tr (dat d.ndx (d.nu t))) (ld tmpVx 0))]) ++
    [set Arr.k t (ld Qu t), solveInPlace t Arr.k, set Vx t (ld Qx t)] ++
    (if d.nu t = 0 then [] else [upd Vx t (mul (tr (ld K t)) (ld Qu t))]))

/-- `SolverCSQP::backwardPass_without_rho_update_mt`, `src/csqp.cpp:1110-1194`. -/
def backwardKeepMtC : List St :=
  terminalKeepC d ++
  each (List.range d.T) (fun t =>
    gradXC d t ++
    (if d.nu t = 0 then [] else
      [set Qu t (add (dat (d.nu t) 1) (ld du t))] ++
      (if d.ng t = 0 then [] else [upd Qu t (mul (tr (dat (d.ng t) (d.nu t))) (ld tmpDual t))]))) ++
  each (List.range d.T).reverse (fun t =>
    [set tmpVx 0 (add (ld VxxFs t) (ld Vx (t + 1))), upd Qx t (mul (tr (dat d.ndx d.ndx)) (ld tmpVx 0)),
     set Vx t (ld Qx t)] ++
    (if d.nu t = 0 then [] else
      [upd Qu t (mul (tr (dat d.ndx (d.nu t))) (ld tmpVx 0)), upd Vx t (mul (tr (ld K t)) (ld Qu t))])) ++
  each (List.range d.T) (fun t => [set Arr.k t (ld Qu t), solveInPlace t Arr.k])

/-- the ADMM step of one constrained node in `SolverCSQP::update_lagrangian_parameters`, `src/csqp.cpp:1228-1239` and, at the
terminal node (`gu = false`: no controls), `src/csqp.cpp:1291-1301`. -/
def admmC (t : ℕ) (gu : Bool) : List St :=
  [set zPrev t (ld zz t), set tmpCdxCdu t (mul (dat (d.ng t) d.ndx) (ld dxtilde t))] ++
  (if gu then [upd tmpCdxCdu t (mul (dat (d.ng t) (d.nu t)) (ld dutilde t))] else []) ++
  [set zRelaxed t (ld tmpCdxCdu t), upd zRelaxed t (ld zz t),
   set tmpDual t (add (ld yy t) (ld invRho t)), set zz t (add (ld zRelaxed t) (ld tmpDual t)),
   set zz t (add (add (ld zz t) (dat (d.ng t) 1)) (dat (d.ng t) 1)),
   upd yy t (add (ld rho t) (add (ld zRelaxed t) (ld zz t)))]

/-- the residuals of one node, `src/csqp.cpp:1244-1280` and, at the terminal node, `src/csqp.cpp:1303-1337`; `heur`:
`update_rho_with_heuristic_`. -/
def residC (t : ℕ) (gu heur : Bool) : List St :=
  [set tmpDual t (add (ld rho t) (add (ld zz t) (ld zPrev t)))] ++
  (if heur then [read (ld tmpDual t)] else
    [read (mul (tr (dat (d.ng t) d.ndx)) (ld tmpDual t))] ++
    (if gu then [read (mul (tr (dat (d.ng t) (d.nu t))) (ld tmpDual t))] else [])) ++
  [read (add (ld tmpCdxCdu t) (ld zz t)), read (ld tmpCdxCdu t), read (ld zz t)] ++
  (if heur then [read (ld yy t)] else
    [read (mul (tr (dat (d.ng t) d.ndx)) (ld yy t))] ++
    (if gu then [read (mul (tr (dat (d.ng t) (d.nu t))) (ld yy t))] else []))

/-- `SolverCSQP::update_lagrangian_parameters`, `src/csqp.cpp:1196-1340`; `upd`: the iteration updates the penalty. -/
def lagrangianC (upd heur : Bool) : List St :=
  each (List.range d.T) (fun t =>
    if d.ng t = 0 then [set dx t (ld dxtilde t), set du t (ld dutilde t)] else
      admmC d t true ++ [set dx t (ld dxtilde t), set du t (ld dutilde t)] ++
      (if upd then residC d t true heur else [])) ++
  [set dx d.T (ld dxtilde d.T)] ++
  (if d.ng d.T = 0 then [] else admmC d d.T false ++ (if upd then residC d d.T false heur else []))

/-- `SolverCSQP::checkKKTConditions`, `src/csqp.cpp:584-628`. -/
def kktC : List St :=
  each (List.range (d.T + 1)) (fun t => [set lagMul t (ld Vx t), upd lagMul t (mul (ld Vxx t) (ld dxtilde t))]) ++
  each (List.range d.T) (fun t =>
    [set tmpX 0 (dat d.ndx 1), upd tmpX 0 (mul (tr (dat d.ndx d.ndx)) (ld lagMul (t + 1))), upd tmpX 0 (ld lagMul t)] ++
    (if 0 < t then [upd tmpX 0 (mul (tr (dat (d.ng t) d.ndx)) (ld yy t))] else []) ++
    [read (ld tmpX 0), set tmpU t (dat (d.nu t) 1), upd tmpU t (mul (tr (dat d.ndx (d.nu t))) (ld lagMul (t + 1))),
     upd tmpU t (mul (tr (dat (d.ng t) (d.nu t))) (ld yy t)), read (ld tmpU t),
     use (ld fsFlat 0) (d.ndx * (d.T + 1)) 1, use (ld fs t) d.ndx 1, read (ld dxtilde t), read (ld dutilde t)]) ++
  [use (ld fs d.T) d.ndx 1, set tmpX 0 (dat d.ndx 1), upd tmpX 0 (ld lagMul d.T),
   upd tmpX 0 (mul (tr (dat (d.ng d.T) d.ndx)) (ld yy d.T)), read (ld tmpX 0), read (ld fsFlat 0), read (ld dxtilde d.T)]

/-- `SolverCSQP::tryStep`, `src/csqp.cpp:1342-1435`. -/
def tryC : List St :=
  each (List.range d.T) (fun t =>
    [use (ld xs t) d.nx 1, use (ld dx t) d.ndx 1, use (ld xsTry t) d.nx 1] ++
    (if d.nu t = 0 then [] else [set usTry t (add (ld us t) (ld du t))])) ++
  [use (ld xs d.T) d.nx 1, use (ld dx d.T) d.ndx 1, use (ld xsTry d.T) d.nx 1] ++
  each (List.range d.T) (fun t =>
    [use (ld xsTry t) d.nx 1, use (ld usTry t) (d.nu t) 1, use (ld xsTry (t + 1)) d.nx 1, use (ld fsTry (t + 1)) d.ndx 1,
     read (ld fsTry (t + 1))]) ++
  [use (ld xsTry d.T) d.nx 1]

end

/-- the passes of one solve of `SolverCSQP` (`src/csqp.cpp:195-409` and `computeDirection`, `src/csqp.cpp:454-517`), with the
flags each reads. -/
inductive CPass
  | calcPass (recalc : Bool) | applyRho | reset | backwardFree | forwardFree | backward | backwardMt | backwardKeep | backwardKeepMt
  | forward | lagrangian (upd heur : Bool) | kkt | mulNorm | try_ | accept

def CPass.code (d : Dims) : CPass → List St
  | .calcPass r => calcC d r
  | .applyRho => Shape.applyRho d
  | .reset => resetC d
  | .backwardFree => Shape.backwardFree d
  | .forwardFree => Shape.forwardFree d
  | .backward => backwardC d
  | .backwardMt => backwardMtC d
  | .backwardKeep => backwardKeepC d
  | .backwardKeepMt => backwardKeepMtC d
  | .forward => forwardC d
  | .lagrangian u h => lagrangianC d u h
  | .kkt => kktC d
  | .mulNorm => mulNormC d
  | .try_ => tryC d
  | .accept => setTry d

/-- one solve of `SolverCSQP`: passes in any order, each stopped after any number of statements. -/
def codeCSQP (d : Dims) (l : List (CPass × ℕ)) : List St := l.flatMap fun p => (p.1.code d).take p.2

end Mim.Shape
