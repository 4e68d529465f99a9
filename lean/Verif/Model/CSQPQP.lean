import Verif.Model.SQP

/-!
# SolverCSQP, the QP level (/repo/src/csqp.cpp:170-193, 454-582, 630-1340)

ADMM on the constrained quadratic model: penalty handling, the five backward passes, the forward passes, the multiplier
update and `computeDirection`.

Simplifications common to all definitions: profilers and printing are dropped; the members `tmp_*`, `FxTVxx_p_`, `FuTVxx_p_`,
`Vxx_tmp_` are written before they are read in every function and are local values here; `.noalias()` products are plain
products.
-/
set_option linter.unusedSectionVars false
set_option linter.unusedSimpArgs false

namespace Mim

/-- `std::sqrt`, no laws attached. -/
class SqrtOps (F : Type) where
  sqrt : F → F

/-- Configuration: members no function called by `solve` writes (csqp.hpp:250-357). `maxTime` is `max_solve_time_`. -/
structure CConf (F : Type) where
  par : Params F
  tol : F
  muDyn : F
  muCon : F
  lagCoef : F
  sigma : F
  alpha : F
  maxQP : ℕ
  rhoBase : F
  rhoMin : F
  rhoMax : F
  interval : ℕ
  adaptTol : F
  epsAbs : F
  epsRel : F
  eqGuess : Bool
  useFilter : Bool
  filterSize : ℕ
  extra : Bool
  removeReg : Bool
  resetY : Bool
  resetRho : Bool
  heuristic : Bool
  ncb : ℕ
  maxTime : F

/-- The ADMM variables: `dx_ du_ dxtilde_ dutilde_ z_ z_prev_ z_relaxed_ y_ rho_vec_ inv_rho_vec_` (csqp.hpp:274-291).
Index `P.T` is `.back()`. -/
structure CVars {F : Type} (P : Problem F) where
  dx : ℕ → Vec F P.ndx
  du : (t : ℕ) → Vec F (P.nu t)
  dxt : ℕ → Vec F P.ndx
  dut : (t : ℕ) → Vec F (P.nu t)
  z : (t : ℕ) → Vec F (P.ng t)
  zPrev : (t : ℕ) → Vec F (P.ng t)
  zRel : (t : ℕ) → Vec F (P.ng t)
  y : (t : ℕ) → Vec F (P.ng t)
  rho : (t : ℕ) → Vec F (P.ng t)
  inv : (t : ℕ) → Vec F (P.ng t)

/-- `norm_primal_ norm_dual_ norm_primal_rel_ norm_dual_rel_`. -/
structure CNorms (F : Type) where
  p : F
  d : F
  pr : F
  dr : F

/-- arrays written by the backward passes: those of `SolverDDP` and `Vxx_fs_`. -/
structure CBP {F : Type} (P : Problem F) where
  bp : BP P
  vfs : ℕ → Vec F P.ndx

/-- why the loop of `computeDirection` ended (ghost). -/
inductive QStop | limit | time | tol
  deriving DecidableEq

/-- State of the QP solver.  `tick` counts the clock readings made so far, `t0` is `start_time_`, `reached` is
`max_solve_time_reached_`.  Ghosts: `exec` counts the executed iterations of the current `computeDirection`, `why` says how
its loop ended. -/
structure CQP {F : Type} (P : Problem F) where
  b : CBP P
  v : CVars P
  n : CNorms F
  tolP : F
  tolD : F
  rhoSparse : F
  rhoEst : F
  qpIters : ℕ
  tick : ℕ
  t0 : F
  reached : Bool
  exec : ℕ
  why : QStop

/-- What the QP solver reads and does not write: configuration, the problem's datas, gaps, regularization, the clock, and for
multi-threaded builds with more than one thread the order in which each parallel loop runs its iterations (indexed by the
clock reading, hence arbitrary for each pass); `none` is single-threaded. -/
structure QEnv {F : Type} (P : Problem F) where
  c : CConf F
  d : Data P
  fs : ℕ → Vec F P.ndx
  preg : F
  dreg : F
  clock : ℕ → F
  sched : Option (ℕ → List ℕ)

section
variable {F : Type} [Add F] [Sub F] [Mul F] [Div F] [Neg F] [Zero F] [One F] [FloatOps F]

/-! ## rows: bounds and penalties -/

/-- one row of the projection `z.cwiseMax(lb - g).cwiseMin(ub - g)`, csqp.cpp:1237, 1298-1300.  An infinite bound leaves the
value alone (true for every finite `g`). -/
def clampRow (lb ub : Option F) (g v : F) : F :=
  let v := match lb with
    | none => v
    | some l => cppMax v (l - g)
  match ub with
  | none => v
  | some u => cppMin v (u - g)

/-- one row of `apply_rho_update`, csqp.cpp:550-560 and 566-579: new `(rho, inv_rho)`; rows with crossed bounds keep their
value.  `abs` is read as the floating point absolute value. -/
def rhoRow (rhoMin r : F) (lb ub : Option F) (old : F × F) : F × F :=
  match lb, ub with
  | none, none => (rhoMin, 1 / rhoMin)
  | some l, some u =>
    if leb (absf (l - u)) (lit (1 / 10 ^ 6)) then (lit (10 ^ 3) * r, 1 / (lit (10 ^ 3) * r))
    else if ltb l u then (r, 1 / r)
    else old
  | _, _ => (r, 1 / r)

variable {P : Problem F}

/-- `apply_rho_update(r)`, csqp.cpp:539-582: all rows of all nodes `t ≤ T`. -/
def applyRho (c : CConf F) (r : F) (v : CVars P) : CVars P :=
  { v with
    rho := fun t => if t ≤ P.T then fun i => (rhoRow c.rhoMin r (P.lb t i) (P.ub t i) (v.rho t i, v.inv t i)).1 else v.rho t
    inv := fun t => if t ≤ P.T then fun i => (rhoRow c.rhoMin r (P.lb t i) (P.ub t i) (v.rho t i, v.inv t i)).2 else v.inv t }

/-- `reset_rho_vec()`, csqp.cpp:534-537. -/
def CQP.resetRho (c : CConf F) (q : CQP P) : CQP P :=
  { q with rhoSparse := c.rhoBase, v := applyRho c c.rhoBase q.v }

/-- `reset_params()`, csqp.cpp:170-193. -/
def CQP.resetParams (c : CConf F) (q : CQP P) : CQP P :=
  let q := if c.resetRho then q.resetRho c else q
  { q with v := { q.v with
    z := fun t => if t ≤ P.T then zeroV F (P.ng t) else q.v.z t
    zPrev := fun t => if t ≤ P.T then zeroV F (P.ng t) else q.v.zPrev t
    zRel := fun t => if t ≤ P.T then zeroV F (P.ng t) else q.v.zRel t
    y := fun t => if c.resetY ∧ t ≤ P.T then zeroV F (P.ng t) else q.v.y t } }

/-! ## backward passes -/

/-- `y - rho .* z`, csqp.cpp:731-732 (`tmp_dual_cwise_[t]`). -/
def dualShift (v : CVars P) (t : ℕ) : Vec F (P.ng t) := v.y t - cw (v.rho t) (v.z t)

/-- the part of `Qx_[t]` that does not depend on the next stage, csqp.cpp:727-737 = 939-949 = 1069-1079 = 1150-1156. -/
def locQx (E : QEnv P) (v : CVars P) (t : ℕ) : Vec F P.ndx :=
  let q := (E.d.rd t).Lx - sv E.c.sigma (v.dx t)
  if P.ng t ≠ 0 ∧ 0 < t then q + mv (E.d.rd t).Gx.transpose (dualShift v t) else q

/-- the same for `Qxx_[t]`, csqp.cpp:743-748 = 951-956. -/
def locQxx (E : QEnv P) (v : CVars P) (t : ℕ) : Mat F P.ndx P.ndx :=
  let q := addDiag (E.d.rd t).Lxx E.c.sigma
  if 0 < t ∧ P.ng t ≠ 0 then q + mm (E.d.rd t).Gx.transpose (diagMul (v.rho t) (E.d.rd t).Gx) else q

/-- the same for `Qu_[t]`, csqp.cpp:755-758 = 959-962 = 1086-1090 = 1159-1162. -/
def locQu (E : QEnv P) (v : CVars P) (t : ℕ) : Vec F (P.nu t) :=
  let q := (E.d.rd t).Lu - sv E.c.sigma (v.du t)
  if P.ng t ≠ 0 then q + mv (E.d.rd t).Gu.transpose (dualShift v t) else q

/-- the same for `Qxu_[t]`, csqp.cpp:776-779 = 974-977. -/
def locQxu (E : QEnv P) (v : CVars P) (t : ℕ) : Mat F P.ndx (P.nu t) :=
  if 0 < t ∧ P.ng t ≠ 0 then
    (E.d.rd t).Lxu + mm (E.d.rd t).Gx.transpose (diagMul (v.rho t) (E.d.rd t).Gu) else (E.d.rd t).Lxu

/-- `Gu' diag(rho) Gu`, csqp.cpp:767-768 = 967-968. -/
def rhoGuGu (E : QEnv P) (v : CVars P) (t : ℕ) : Mat F (P.nu t) (P.nu t) :=
  mm (E.d.rd t).Gu.transpose (diagMul (v.rho t) (E.d.rd t).Gu)

/-- `if (!isnan(r)) A.diagonal().array() += r`. -/
def regDiag {n : ℕ} (r : F) (A : Mat F n n) : Mat F n n := if isnan r then A else addDiag A r

/-- terminal `Vx_`, csqp.cpp:695-704 = 912-921 = 1045-1052 = 1132-1138. -/
def terVx (E : QEnv P) (v : CVars P) : Vec F P.ndx :=
  let q := E.d.td.Lx - sv E.c.sigma (v.dx P.T)
  if P.ng P.T ≠ 0 then q + mv E.d.td.Gx.transpose (dualShift v P.T) else q

/-- terminal `Vxx_`, csqp.cpp:693-707 = 910-924. -/
def terVxx (E : QEnv P) (v : CVars P) : Mat F P.ndx P.ndx :=
  let q := addDiag E.d.td.Lxx E.c.sigma
  let q := if P.ng P.T ≠ 0 then q + mm E.d.td.Gx.transpose (diagMul (v.rho P.T) E.d.td.Gx) else q
  regDiag E.preg q

/-- The Q-terms of one stage as functions of `tmp_Vx_` and of the next stage's `Vxx_`: what distinguishes `backwardPass` from
`backwardPass_without_constraints`, whose texts agree otherwise. -/
structure QTerms (F : Type) (n m : ℕ) where
  Qx : Vec F n → Vec F n
  Qxx : Mat F n n → Mat F n n
  Qu : Vec F n → Vec F m
  Quu : Mat F n n → Mat F m m
  Qxu : Mat F n n → Mat F n m

/-- the Q-terms of `backwardPass`, csqp.cpp:725-782. -/
def fullTerms (E : QEnv P) (v : CVars P) (t : ℕ) : QTerms F P.ndx (P.nu t) where
  Qx w := locQx E v t + mv (E.d.rd t).Fx.transpose w
  Qxx V := locQxx E v t + mm (mm (E.d.rd t).Fx.transpose V) (E.d.rd t).Fx
  Qu w := locQu E v t + mv (E.d.rd t).Fu.transpose w
  Quu V :=
    let q := addDiag (E.d.rd t).Luu E.c.sigma
    let q := q + mm (mm (E.d.rd t).Fu.transpose V) (E.d.rd t).Fu
    let q := if P.ng t ≠ 0 then q + rhoGuGu E v t else q
    regDiag E.dreg q
  Qxu V := locQxu E v t + mm (mm (E.d.rd t).Fx.transpose V) (E.d.rd t).Fu

/-- the Q-terms of `backwardPass_without_constraints`, csqp.cpp:848-877. -/
def plainTerms (E : QEnv P) (t : ℕ) : QTerms F P.ndx (P.nu t) where
  Qx w := (E.d.rd t).Lx + mv (E.d.rd t).Fx.transpose w
  Qxx V := (E.d.rd t).Lxx + mm (mm (E.d.rd t).Fx.transpose V) (E.d.rd t).Fx
  Qu w := (E.d.rd t).Lu + mv (E.d.rd t).Fu.transpose w
  Quu V := regDiag E.dreg ((E.d.rd t).Luu + mm (mm (E.d.rd t).Fu.transpose V) (E.d.rd t).Fu)
  Qxu V := (E.d.rd t).Lxu + mm (mm (E.d.rd t).Fx.transpose V) (E.d.rd t).Fu

/-- Q-terms of stage `t` written to the arrays. -/
def stageQ {t : ℕ} (q : QTerms F P.ndx (P.nu t)) (w : Vec F P.ndx) (V : Mat F P.ndx P.ndx) (b : BP P) : BP P :=
  let b := { b with Qx := Function.update b.Qx t (q.Qx w), Qxx := Function.update b.Qxx t (q.Qxx V) }
  if P.nu t ≠ 0 then
    { b with Qu := Function.update b.Qu t (q.Qu w), Quu := Function.update b.Quu t (q.Quu V)
             Qxu := Function.update b.Qxu t (q.Qxu V) }
  else b

/-- value function of stage `t` after `computeGains(t)`, csqp.cpp:784-799 = 881-895. -/
def stageV (preg : F) (sym : Mat F P.ndx P.ndx → Mat F P.ndx P.ndx) (t : ℕ) (b : BP P) : BP P :=
  let Vx := if P.nu t ≠ 0 then b.Qx t - mv (b.K t).transpose (b.Qu t) else b.Qx t
  let Vxx := if P.nu t ≠ 0 then b.Qxx t - mm (b.Qxu t) (b.K t) else b.Qxx t
  { b with Vx := Function.update b.Vx t Vx, Vxx := Function.update b.Vxx t (regDiag preg (sym Vxx)) }

/-- one stage of `backwardPass`, csqp.cpp:715-800. -/
def fullStage (llt : LLT F) (E : QEnv P) (v : CVars P) (t : ℕ) (B : CBP P) : Res (CBP P) :=
  let vfs := mv (B.bp.Vxx (t + 1)) (E.fs (t + 1))
  let b := stageQ (fullTerms E v t) (vfs + B.bp.Vx (t + 1)) (B.bp.Vxx (t + 1)) B.bp
  ((computeGains llt t b).thenDo (stageV E.preg symm t)).map fun b => ⟨b, Function.update B.vfs t vfs⟩

/-- `backwardPass()`, csqp.cpp:671-802. -/
def fullPass (llt : LLT F) (E : QEnv P) (v : CVars P) (B : CBP P) : Res (CBP P) :=
  forDownR P.T (fullStage llt E v)
    { B with bp := { B.bp with Vxx := Function.update B.bp.Vxx P.T (terVxx E v), Vx := Function.update B.bp.Vx P.T (terVx E v) } }

/-- one stage of `backwardPass_without_constraints`, csqp.cpp:840-896. -/
def plainStage (llt : LLT F) (E : QEnv P) (t : ℕ) (B : CBP P) : Res (CBP P) :=
  let w := mv (B.bp.Vxx (t + 1)) (E.fs (t + 1)) + B.bp.Vx (t + 1)
  let b := stageQ (plainTerms E t) w (B.bp.Vxx (t + 1)) B.bp
  ((computeGains llt t b).thenDo (stageV E.preg symm t)).map fun b => { B with bp := b }

/-- `backwardPass_without_constraints()`, csqp.cpp:804-898. -/
def plainPass (llt : LLT F) (E : QEnv P) (B : CBP P) : Res (CBP P) :=
  forDownR P.T (plainStage llt E)
    { B with bp := { B.bp with
        Vxx := Function.update B.bp.Vxx P.T (regDiag E.preg E.d.td.Lxx)
        Vx := Function.update B.bp.Vx P.T E.d.td.Lx } }

/-- one stage of `backwardPass_without_rho_update`, csqp.cpp:1061-1106: only `Qx`, `Qu`, `k`, `Vx` are recomputed. -/
def fastStage (E : QEnv P) (v : CVars P) (t : ℕ) (B : CBP P) : CBP P :=
  let w := B.vfs t + B.bp.Vx (t + 1)
  let b := B.bp
  let b := { b with Qx := Function.update b.Qx t (locQx E v t + mv (E.d.rd t).Fx.transpose w) }
  let b := if P.nu t ≠ 0 then
      { b with Qu := Function.update b.Qu t (locQu E v t + mv (E.d.rd t).Fu.transpose w) } else b
  let b := { b with k := Function.update b.k t (b.llt t (b.Qu t)) }
  let Vx := if P.nu t ≠ 0 then b.Qx t - mv (b.K t).transpose (b.Qu t) else b.Qx t
  { B with bp := { b with Vx := Function.update b.Vx t Vx } }

/-- `backwardPass_without_rho_update()`, csqp.cpp:1025-1108. -/
def fastPass (E : QEnv P) (v : CVars P) (B : CBP P) : CBP P :=
  forDown P.T (fastStage E v) { B with bp := { B.bp with Vx := Function.update B.bp.Vx P.T (terVx E v) } }

/-! ### multi-threaded variants -/

/-- a parallel loop whose iterations are executed in the order `l`. -/
def forList {S : Type _} (l : List ℕ) (f : ℕ → S → S) (s : S) : S := l.foldl (fun s t => f t s) s

/-- body of the parallel loop of `backwardPass_mt`, csqp.cpp:933-979. -/
def mtInit (E : QEnv P) (v : CVars P) (t : ℕ) (b : BP P) : BP P :=
  let b := { b with Qx := Function.update b.Qx t (locQx E v t), Qxx := Function.update b.Qxx t (locQxx E v t) }
  if P.nu t ≠ 0 then
    let q := addDiag (E.d.rd t).Luu E.c.sigma
    let q := if P.ng t ≠ 0 then q + rhoGuGu E v t else q
    { b with
      Qu := Function.update b.Qu t (locQu E v t)
      Quu := Function.update b.Quu t (regDiag E.dreg q)
      Qxu := Function.update b.Qxu t (locQxu E v t) }
  else b

/-- symmetrisation through the upper triangle, csqp.cpp:1012-1015. -/
def symmUpper {n : ℕ} (A : Mat F n n) : Mat F n n :=
  Matrix.of fun i j => if i ≤ j then symm A i j else symm A j i

/-- one stage of the sequential sweep of `backwardPass_mt`, csqp.cpp:982-1020. -/
def mtStage (llt : LLT F) (E : QEnv P) (t : ℕ) (B : CBP P) : Res (CBP P) :=
  let r := E.d.rd t
  let b := B.bp
  let Vxxp := b.Vxx (t + 1)
  let FxTVxx := mm r.Fx.transpose Vxxp
  let b := { b with Qxx := Function.update b.Qxx t (b.Qxx t + mm FxTVxx r.Fx) }
  let vfs := mv Vxxp (E.fs (t + 1))
  let w := vfs + b.Vx (t + 1)
  let b := { b with Qx := Function.update b.Qx t (b.Qx t + mv r.Fx.transpose w) }
  let b := if P.nu t ≠ 0 then
      { b with
        Quu := Function.update b.Quu t (b.Quu t + mm (mm r.Fu.transpose Vxxp) r.Fu)
        Qu := Function.update b.Qu t (b.Qu t + mv r.Fu.transpose w)
        Qxu := Function.update b.Qxu t (b.Qxu t + mm FxTVxx r.Fu) }
    else b
  ((computeGains llt t b).thenDo (stageV E.preg symmUpper t)).map fun b => ⟨b, Function.update B.vfs t vfs⟩

/-- `backwardPass_mt()`, csqp.cpp:900-1023, with the parallel loop executed in the order `l`. -/
def fullPassMt (l : List ℕ) (llt : LLT F) (E : QEnv P) (v : CVars P) (B : CBP P) : Res (CBP P) :=
  let B := { B with bp := { B.bp with
    Vxx := Function.update B.bp.Vxx P.T (terVxx E v), Vx := Function.update B.bp.Vx P.T (terVx E v) } }
  forDownR P.T (mtStage llt E) { B with bp := forList l (mtInit E v) B.bp }

/-- body of the first parallel loop of `backwardPass_without_rho_update_mt`, csqp.cpp:1144-1164. -/
def mtFastInit (E : QEnv P) (v : CVars P) (t : ℕ) (b : BP P) : BP P :=
  let b := { b with Qx := Function.update b.Qx t (locQx E v t) }
  if P.nu t ≠ 0 then { b with Qu := Function.update b.Qu t (locQu E v t) } else b

/-- the sequential sweep, csqp.cpp:1168-1181. -/
def mtFastStage (E : QEnv P) (vfs : ℕ → Vec F P.ndx) (t : ℕ) (b : BP P) : BP P :=
  let w := vfs t + b.Vx (t + 1)
  let b := { b with Qx := Function.update b.Qx t (b.Qx t + mv (E.d.rd t).Fx.transpose w) }
  let b := { b with Vx := Function.update b.Vx t (b.Qx t) }
  if P.nu t ≠ 0 then
    let b := { b with Qu := Function.update b.Qu t (b.Qu t + mv (E.d.rd t).Fu.transpose w) }
    { b with Vx := Function.update b.Vx t (b.Vx t - mv (b.K t).transpose (b.Qu t)) }
  else b

/-- body of the second parallel loop, csqp.cpp:1188-1191. -/
def mtSolve (t : ℕ) (b : BP P) : BP P := { b with k := Function.update b.k t (b.llt t (b.Qu t)) }

/-- `backwardPass_without_rho_update_mt()`, csqp.cpp:1110-1194, with both parallel loops executed in the orders `l`, `l'`. -/
def fastPassMt (l l' : List ℕ) (E : QEnv P) (v : CVars P) (B : CBP P) : CBP P :=
  let b := { B.bp with Vx := Function.update B.bp.Vx P.T (terVx E v) }
  { B with bp := forList l' mtSolve (forDown P.T (mtFastStage E B.vfs) (forList l (mtFastInit E v) b)) }

/-! ## forward passes -/

/-- `dutilde`, `dxtilde` of one node, csqp.cpp:638-645. -/
def fwdStage (E : QEnv P) (b : BP P) (t : ℕ) (x : (ℕ → Vec F P.ndx) × ((t : ℕ) → Vec F (P.nu t))) :
    (ℕ → Vec F P.ndx) × ((t : ℕ) → Vec F (P.nu t)) :=
  let du := -(b.k t) - mv (b.K t) (x.1 t)
  let dxn := E.fs (t + 1) + mv (E.d.rd t).Fx (x.1 t) + mv (E.d.rd t).Fu du
  (Function.update x.1 (t + 1) dxn, Function.update x.2 t du)

/-- the loop shared by `forwardPass` and `forwardPass_without_constraints`. -/
def fwdLoop (E : QEnv P) (b : BP P) (x : (ℕ → Vec F P.ndx) × ((t : ℕ) → Vec F (P.nu t))) :
    (ℕ → Vec F P.ndx) × ((t : ℕ) → Vec F (P.nu t)) :=
  forUp P.T (fwdStage E b) x

/-- `forwardPass()`, csqp.cpp:630-647. -/
def CQP.forward (E : QEnv P) (q : CQP P) : CQP P :=
  let x := fwdLoop E q.b.bp (q.v.dxt, q.v.dut)
  { q with v := { q.v with dxt := x.1, dut := x.2 } }

/-- `forwardPass_without_constraints()`, csqp.cpp:649-669. -/
def CQP.forwardPlain (E : QEnv P) (q : CQP P) : CQP P :=
  let x := fwdLoop E q.b.bp (q.v.dx, q.v.du)
  { q with v := { q.v with dx := x.1, du := x.2 } }

/-! ## multipliers -/

/-- residual norms of one node, csqp.cpp:1244-1280 and 1303-1337; `Cd` is `tmp_Cdx_Cdu_`, `w` is `rho .* (z - z_prev)`;
`duals a` lists the vectors whose norms measure the dual vector `a` (`Gx' a` and `Gu' a`, or `a` itself with the heuristic). -/
def normStep {m : ℕ} (duals : Vec F m → List F) (Cd z w y : Vec F m) (n : CNorms F) : CNorms F where
  d := (duals w).foldl cppMax n.d
  p := cppMax n.p (normInf (Cd - z))
  pr := cppMax (cppMax n.pr (normInf Cd)) (normInf z)
  dr := (duals y).foldl cppMax n.dr

/-- new `(z_relaxed, z, y)` of one node, csqp.cpp:1228-1239 and 1291-1301. -/
def admmNode (alpha : F) {m : ℕ} (lb ub : Fin m → Option F) (g Cd z y rho inv : Vec F m) : Vec F m × Vec F m × Vec F m :=
  let zr := sv alpha Cd + sv (1 - alpha) z
  let v := zr + cw y inv
  let z' := fun i => clampRow (lb i) (ub i) (g i) (v i)
  (zr, z', y + cw rho (zr - z'))

/-- one node of `update_lagrangian_parameters`, csqp.cpp:1216-1281. -/
def lagStage (E : QEnv P) (iter : ℕ) (t : ℕ) (s : CVars P × CNorms F) : CVars P × CNorms F :=
  let (v, n) := s
  if P.ng t = 0 then
    ({ v with dx := Function.update v.dx t (v.dxt t), du := Function.update v.du t (v.dut t) }, n)
  else
    let r := E.d.rd t
    let Cd := mv r.Gx (v.dxt t) + mv r.Gu (v.dut t)
    let x := admmNode E.c.alpha (P.lb t) (P.ub t) (E.d.run t).g Cd (v.z t) (v.y t) (v.rho t) (v.inv t)
    let w := cw (v.rho t) (x.2.1 - v.z t)
    let duals := fun a => if E.c.heuristic then [normInf a] else [normInf (mv r.Gx.transpose a), normInf (mv r.Gu.transpose a)]
    ({ v with
        zPrev := Function.update v.zPrev t (v.z t)
        zRel := Function.update v.zRel t x.1
        z := Function.update v.z t x.2.1
        y := Function.update v.y t x.2.2
        dx := Function.update v.dx t (v.dxt t)
        du := Function.update v.du t (v.dut t) },
     if iter % E.c.interval = 0 then normStep duals Cd x.2.1 w x.2.2 n else n)

/-- the terminal node, csqp.cpp:1283-1338. -/
def lagTerm (E : QEnv P) (iter : ℕ) (s : CVars P × CNorms F) : CVars P × CNorms F :=
  let (v, n) := s
  let v := { v with dx := Function.update v.dx P.T (v.dxt P.T) }
  if P.ng P.T ≠ 0 then
    let Cd := mv E.d.td.Gx (v.dxt P.T)
    let x := admmNode E.c.alpha (P.lb P.T) (P.ub P.T) E.d.ter.g Cd (v.z P.T) (v.y P.T) (v.rho P.T) (v.inv P.T)
    let w := cw (v.rho P.T) (x.2.1 - v.z P.T)
    let duals := fun a => if E.c.heuristic then [normInf a] else [normInf (mv E.d.td.Gx.transpose a)]
    ({ v with
        zPrev := Function.update v.zPrev P.T (v.z P.T)
        zRel := Function.update v.zRel P.T x.1
        z := Function.update v.z P.T x.2.1
        y := Function.update v.y P.T x.2.2 },
     if iter % E.c.interval = 0 then normStep duals Cd x.2.1 w x.2.2 n else n)
  else (v, n)

/-- `update_lagrangian_parameters(iter)`, csqp.cpp:1196-1340 (sequential order; see `Props/Parallel` for the reductions). -/
def CQP.updateLag (E : QEnv P) (q : CQP P) : CQP P :=
  let x := lagTerm E q.qpIters (forUp P.T (lagStage E q.qpIters) (q.v, ⟨negInf, negInf, negInf, negInf⟩))
  { q with v := x.1, n := x.2 }

variable [SqrtOps F]

/-- `rho_estimate_sparse_`, csqp.cpp:520-523. -/
def rhoEstimate (c : CConf F) (n : CNorms F) (r : F) : F :=
  let scale := SqrtOps.sqrt ((n.p * n.dr) / (n.d * n.pr))
  cppMin (cppMax (scale * r) c.rhoMin) c.rhoMax

/-- `update_rho_vec(iter)`, csqp.cpp:519-532. -/
def CQP.updateRho (E : QEnv P) (q : CQP P) : CQP P :=
  let est := rhoEstimate E.c q.n q.rhoSparse
  let q := { q with rhoEst := est }
  if q.qpIters % E.c.interval = 0 then
    if ltb (q.rhoSparse * E.c.adaptTol) est || ltb est (q.rhoSparse / E.c.adaptTol) then
      { q with rhoSparse := est, v := applyRho E.c est q.v }
    else q
  else q

/-! ## computeDirection -/

/-- does this QP iteration run the full backward pass? csqp.cpp:477. -/
def isFull (interval iter : ℕ) : Bool := iter % interval == 1 || interval == 1

/-- the backward pass of one QP iteration, csqp.cpp:477-491. -/
def CQP.pass (llt : LLT F) (E : QEnv P) (q : CQP P) : Res (CQP P) :=
  if isFull E.c.interval q.qpIters then
    (match E.sched with
      | none => fullPass llt E q.v q.b
      | some l => fullPassMt (l q.tick) llt E q.v q.b).map fun b => { q with b := b }
  else
    .ok { q with b := match E.sched with
      | none => fastPass E q.v q.b
      | some l => fastPassMt (l q.tick) (l q.tick) E q.v q.b }

/-- the tolerances, csqp.cpp:501-507. -/
def CQP.setTol (c : CConf F) (q : CQP P) : CQP P :=
  if leb (absf c.epsRel) (lit (1 / 2 ^ 52)) then { q with tolP := c.epsAbs, tolD := c.epsAbs }
  else { q with tolP := c.epsAbs + c.epsRel * q.n.pr, tolD := c.epsAbs + c.epsRel * q.n.dr }

/-- the test at csqp.cpp:508-509. -/
def CQP.converged (q : CQP P) : Bool := leb q.n.p q.tolP && leb q.n.d q.tolD

/-- `take_time() - start_time_ >= max_solve_time_` (csqp.cpp:239, 471); the reading is `clock tick`. -/
def CQP.timeUp (E : QEnv P) (q : CQP P) : Bool := leb E.c.maxTime (E.clock q.tick - q.t0)

/-- one executed QP iteration after the clock check, csqp.cpp:477-494. -/
def CQP.step (llt : LLT F) (E : QEnv P) (q : CQP P) : Res (CQP P) :=
  (q.pass llt E).thenDo fun q => { ((q.forward E).updateLag E).updateRho E with exec := q.exec + 1 }

/-- the loop of `computeDirection`, csqp.cpp:470-513, with at most `n` more iterations. -/
def CQP.loop (llt : LLT F) (E : QEnv P) : ℕ → CQP P → Res (CQP P)
  | 0, q => .ok { q with why := .limit }
  | n + 1, q =>
    let up := q.timeUp E
    let q := { q with tick := q.tick + 1 }
    if up then .ok { q with qpIters := q.qpIters - 1, reached := true, why := .time }
    else
      (q.step llt E).bind fun q =>
        if q.qpIters % E.c.interval = 0 then
          let q := q.setTol E.c
          if q.converged then .ok { q with why := .tol } else CQP.loop llt E n { q with qpIters := q.qpIters + 1 }
        else CQP.loop llt E n { q with qpIters := q.qpIters + 1 }

/-- the warm start, csqp.cpp:461-464. -/
def CQP.warm (llt : LLT F) (E : QEnv P) (q : CQP P) : Res (CQP P) :=
  if E.c.eqGuess then ((plainPass llt E q.b).map fun b => { q with b := b }).thenDo (CQP.forwardPlain E) else .ok q

/-- `computeDirection()`, csqp.cpp:454-517. `max_qp_iters_ + 1` is assumed not to overflow. -/
def CQP.computeDirection (llt : LLT F) (E : QEnv P) (q : CQP P) : Res (CQP P) :=
  ((q.resetParams E.c).warm llt E).bind fun q => CQP.loop llt E E.c.maxQP { q with qpIters := 1, exec := 0 }

end
end Mim
