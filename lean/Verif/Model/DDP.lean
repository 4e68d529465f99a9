import Verif.Model.Crocoddyl

/-!
# SolverDDP (/repo/src/ddp.cpp, /repo/include/mim_solvers/ddp.hpp)

The functions shared with the derived solvers (regularization, backward pass, gains) and DDP's own solve loop.
-/
set_option linter.unusedSectionVars false
set_option linter.unusedSimpArgs false

namespace Mim

/-- Parameters of `SolverDDP` (members initialised at ddp.cpp:23-45) and of Crocoddyl's `SolverAbstract`
(`th_acceptstep_`). -/
structure Params (F : Type) where
  regInc : F
  regDec : F
  regMin : F
  regMax : F
  thGrad : F
  thStepDec : F
  thStepInc : F
  thAccept : F
  alphas : List F
  deriving DecidableEq

/-- `Eigen::LLT`: `none` is `info() != Success`; `some s` is a successful factorisation with its solve function. -/
abbrev LLT (F : Type) := (n : ℕ) → Mat F n n → Option (Vec F n → Vec F n)

/-- Arrays written by the backward pass (ddp.cpp:447-509 `allocateData`).  `llt t` is `Quu_llt_[t].solve`. -/
structure BP {F : Type} (P : Problem F) where
  Vxx : ℕ → Mat F P.ndx P.ndx
  Vx : ℕ → Vec F P.ndx
  Qxx : ℕ → Mat F P.ndx P.ndx
  Qxu : (t : ℕ) → Mat F P.ndx (P.nu t)
  Quu : (t : ℕ) → Mat F (P.nu t) (P.nu t)
  Qx : ℕ → Vec F P.ndx
  Qu : (t : ℕ) → Vec F (P.nu t)
  K : (t : ℕ) → Mat F (P.nu t) P.ndx
  k : (t : ℕ) → Vec F (P.nu t)
  Quuk : (t : ℕ) → Vec F (P.nu t)
  llt : (t : ℕ) → Vec F (P.nu t) → Vec F (P.nu t)

section
variable {F : Type} [Add F] [Sub F] [Mul F] [Div F] [Neg F] [Zero F] [One F] [FloatOps F]

/-- the default step lengths `1/2^n`, `n < 10` (ddp.cpp:35-39, sqp.cpp:60-64, csqp.cpp:157-161). -/
def defaultAlphas : List F := (List.range 10).map fun n => lit (1 / 2 ^ n)

/-- the adjustment of `th_stepinc_` to the smallest step length, ddp.cpp:40-45 = sqp.cpp:65-70: `th_stepinc_` is raised to
the last step length if it is smaller. -/
def adjustStepInc (th : F) (alphas : List F) : F :=
  match alphas.getLast? with
  | some a => if ltb th a then a else th
  | none => th

/-- The parameters after construction of `SolverDDP` (ddp.cpp:23-45) and of any solver derived from it
(sqp.cpp:60-70 assigns the same step lengths again).  `th_acceptstep_ = 0.1` is Crocoddyl's default. -/
def Params.default : Params F where
  regInc := lit 10
  regDec := lit 10
  regMin := lit (1 / 10 ^ 9)
  regMax := lit (10 ^ 9)
  thGrad := lit (1 / 10 ^ 12)
  thStepDec := lit (1 / 2)
  thStepInc := adjustStepInc (lit (1 / 100)) defaultAlphas
  thAccept := lit (1 / 10)
  alphas := defaultAlphas

/-- `increaseRegularization`, ddp.cpp:431-437, as a function of `preg_` (the new `dreg_` is the same value). -/
def incReg (p : Params F) (preg : F) : F :=
  let r := preg * p.regInc
  if ltb p.regMax r then p.regMax else r

/-- `decreaseRegularization`, ddp.cpp:439-445. -/
def decReg (p : Params F) (preg : F) : F :=
  let r := preg / p.regDec
  if ltb r p.regMin then p.regMin else r

/-- initial regularization, ddp.cpp:74-80 = sqp.cpp:90-96 = csqp.cpp:220-226; NaN is the default value of the argument `regInit`. -/
def initReg (p : Params F) (reginit : F) : F :=
  if isnan reginit then p.regMin else reginit

/-- `0.5 * (A + A.transpose())`, ddp.cpp:328-329. -/
def symm {n : ℕ} (A : Mat F n n) : Mat F n n := sm (lit (1/2)) (A + A.transpose)

/-- `LLT::solveInPlace` on a matrix right-hand side: column by column. -/
def solveCols {m n : ℕ} (s : Vec F m → Vec F m) (B : Mat F m n) : Mat F m n :=
  Matrix.of fun i j => s (fun i' => B i' j) i

variable {P : Problem F}

/-- the arrays after `allocateData`, ddp.cpp:447-509 (all zero; the LLT objects hold no factorisation yet). -/
def BP.zero (P : Problem F) : BP P where
  Vxx _ := Matrix.of fun _ _ => 0
  Vx _ _ := 0
  Qxx _ := Matrix.of fun _ _ => 0
  Qxu _ := Matrix.of fun _ _ => 0
  Quu _ := Matrix.of fun _ _ => 0
  Qx _ _ := 0
  Qu _ _ := 0
  K _ := Matrix.of fun _ _ => 0
  k _ _ := 0
  Quuk _ _ := 0
  llt _ v := v

/-- `computeGains(t)`, ddp.cpp:401-429. -/
def computeGains (llt : LLT F) (t : ℕ) (b : BP P) : Res (BP P) :=
  if 0 < P.nu t then
    match llt (P.nu t) (b.Quu t) with
    | none => .exn b
    | some s =>
      .ok { b with
        llt := Function.update b.llt t s
        K := Function.update b.K t (solveCols s (b.Qxu t).transpose)
        k := Function.update b.k t (s (b.Qu t)) }
  else .ok b

/-- The two NaN screens at the end of a backward stage, ddp.cpp:339-344.  `lpNorm<Infinity>` of a matrix is the norm
of its coefficients; only its screening by `raiseIfNaN` matters, it is taken row-wise. -/
def badStage {n : ℕ} (vx : Vec F n) (vxx : Mat F n n) : Bool :=
  bad (normInf vx) || bad (normInf fun i => normInf (vxx i))

/-- Lines 286-313 of ddp.cpp: the Q-terms of stage `t` (before `computeGains`). -/
def qTerms (d : Data P) (dreg : F) (t : ℕ) (b : BP P) : BP P :=
  let r := d.rd t
  let Vxxp := b.Vxx (t + 1)
  let Vxp := b.Vx (t + 1)
  let FxTVxx := mm r.Fx.transpose Vxxp
  let b := { b with
    Qx := Function.update b.Qx t (r.Lx + mv r.Fx.transpose Vxp)
    Qxx := Function.update b.Qxx t (r.Lxx + mm FxTVxx r.Fx) }
  if P.nu t ≠ 0 then
    let FuTVxx := mm r.Fu.transpose Vxxp
    let Quu := r.Luu + mm FuTVxx r.Fu
    { b with
      Qu := Function.update b.Qu t (r.Lu + mv r.Fu.transpose Vxp)
      Quu := Function.update b.Quu t (if isnan dreg then Quu else addDiag Quu dreg)
      Qxu := Function.update b.Qxu t (r.Lxu + mm FxTVxx r.Fu) }
  else b

/-- Lines 317-338 of ddp.cpp: the value function of stage `t` (after `computeGains`). -/
def vTerms (fs : ℕ → Vec F P.ndx) (feas : Bool) (preg : F) (t : ℕ) (b : BP P) : BP P :=
  let Vx := b.Qx t
  let Vxx := b.Qxx t
  let Quuk := if P.nu t ≠ 0 then Function.update b.Quuk t (mv (b.Quu t) (b.k t)) else b.Quuk
  let Vx := if P.nu t ≠ 0 then Vx - mv (b.K t).transpose (b.Qu t) else Vx
  let Vxx := if P.nu t ≠ 0 then Vxx - mm (b.Qxu t) (b.K t) else Vxx
  let Vxx := symm Vxx
  let Vxx := if isnan preg then Vxx else addDiag Vxx preg
  let Vx := if feas then Vx else Vx + mv Vxx (fs t)
  { b with Quuk := Quuk, Vx := Function.update b.Vx t Vx, Vxx := Function.update b.Vxx t Vxx }

/-- one iteration of the loop of `backwardPass`, ddp.cpp:279-345. -/
def backwardStage (llt : LLT F) (d : Data P) (fs : ℕ → Vec F P.ndx) (feas : Bool) (preg dreg : F)
    (t : ℕ) (b : BP P) : Res (BP P) :=
  (computeGains llt t (qTerms d dreg t b)).bind fun b =>
    let b := vTerms fs feas preg t b
    if badStage (b.Vx t) (b.Vxx t) then .exn b else .ok b

/-- terminal initialisation of `backwardPass`, ddp.cpp:267-277. -/
def backwardInit (d : Data P) (fs : ℕ → Vec F P.ndx) (feas : Bool) (preg : F) (b : BP P) : BP P :=
  let Vxx := if isnan preg then d.td.Lxx else addDiag d.td.Lxx preg
  let Vx := if feas then d.td.Lx else d.td.Lx + mv Vxx (fs P.T)
  { b with Vxx := Function.update b.Vxx P.T Vxx, Vx := Function.update b.Vx P.T Vx }

/-- `backwardPass()`, ddp.cpp:265-348. -/
def backwardPass (llt : LLT F) (d : Data P) (fs : ℕ → Vec F P.ndx) (feas : Bool) (preg dreg : F)
    (b : BP P) : Res (BP P) :=
  forDownR P.T (backwardStage llt d fs feas preg dreg) (backwardInit d fs feas preg b)

end
end Mim
