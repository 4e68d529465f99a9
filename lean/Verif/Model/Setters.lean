import Verif.Model.DDPSolve

/-!
# Parameter setters of SolverDDP and SolverFDDP (/repo/src/ddp.cpp:547-639, /repo/src/fddp.cpp:387-393)

A setter runs on the parameters and either returns (`Res.ok`) or throws (`Res.exn`, with the parameters as they are at the
`throw`).  `SolverSQP` and `SolverCSQP` inherit them unchanged.
-/
set_option linter.unusedSectionVars false
set_option linter.unusedSimpArgs false

namespace Mim

variable {F : Type} [Add F] [Sub F] [Mul F] [Div F] [Neg F] [Zero F] [One F] [FloatOps F]

/-- `set_reg_incfactor`, ddp.cpp:547-553. -/
def setRegIncfactor (v : F) (p : Params F) : Res (Params F) :=
  if leb v 1 then .exn p else .ok { p with regInc := v }

/-- `set_reg_decfactor`, ddp.cpp:555-561. -/
def setRegDecfactor (v : F) (p : Params F) : Res (Params F) :=
  if leb v 1 then .exn p else .ok { p with regDec := v }

/-- `set_regfactor`, ddp.cpp:563-569: its own test, then the two setters. -/
def setRegfactor (v : F) (p : Params F) : Res (Params F) :=
  if leb v 1 then .exn p else (setRegIncfactor v p).bind (setRegDecfactor v)

/-- `set_reg_min`, ddp.cpp:571-576 and the identical deprecated `set_regmin`, ddp.cpp:578-583. -/
def setRegMin (v : F) (p : Params F) : Res (Params F) :=
  if ltb v 0 then .exn p else .ok { p with regMin := v }

/-- `set_reg_max`, ddp.cpp:585-590 and the identical deprecated `set_regmax`, ddp.cpp:592-597. -/
def setRegMax (v : F) (p : Params F) : Res (Params F) :=
  if ltb v 0 then .exn p else .ok { p with regMax := v }

/-- `set_th_stepdec`, ddp.cpp:618-624. -/
def setThStepDec (v : F) (p : Params F) : Res (Params F) :=
  if leb v 0 || ltb 1 v then .exn p else .ok { p with thStepDec := v }

/-- `set_th_stepinc`, ddp.cpp:626-632. -/
def setThStepInc (v : F) (p : Params F) : Res (Params F) :=
  if leb v 0 || ltb 1 v then .exn p else .ok { p with thStepInc := v }

/-- `set_th_grad`, ddp.cpp:634-639. -/
def setThGrad (v : F) (p : Params F) : Res (Params F) :=
  if ltb v 0 then .exn p else .ok { p with thGrad := v }

/-- the loop of `set_alphas`, ddp.cpp:604-615, from the entry after `prev` on: does it finish without throwing? -/
def alphasLoop : F → List F → Bool
  | _, [] => true
  | prev, a :: rest => if leb a 0 then false else if leb prev a then false else alphasLoop a rest

/-- `set_alphas`, ddp.cpp:599-616.  `none`: the list is empty and `alphas[0]` is undefined behaviour.  The warning printed
when the first entry is not 1 has no effect on the solver and is left out. -/
def setAlphas (l : List F) (p : Params F) : Option (Res (Params F)) :=
  match l with
  | [] => none
  | a :: rest => some (if alphasLoop a rest then .ok { p with alphas := a :: rest } else .exn p)

/-- `SolverFDDP::set_th_acceptnegstep`, fddp.cpp:387-393. -/
def setThAcceptNegStep (v : F) (c : DConf F) : Res (DConf F) :=
  if ltb v 0 then .exn c else .ok { c with thNeg := v }

/-- A call of one of the setters with a scalar argument (the deprecated names `set_regmin`, `set_regmax` run the same code). -/
inductive Setter | regIncfactor | regDecfactor | regfactor | regMin | regMax | thStepDec | thStepInc | thGrad
  deriving DecidableEq

/-- run a scalar setter. -/
def Setter.run (k : Setter) (v : F) (p : Params F) : Res (Params F) :=
  match k with
  | .regIncfactor => setRegIncfactor v p
  | .regDecfactor => setRegDecfactor v p
  | .regfactor => setRegfactor v p
  | .regMin => setRegMin v p
  | .regMax => setRegMax v p
  | .thStepDec => setThStepDec v p
  | .thStepInc => setThStepInc v p
  | .thGrad => setThGrad v p

/-- one call a user can make: a scalar setter or `set_alphas`. -/
inductive Call (F : Type) | scalar (k : Setter) (v : F) | alphas (l : List F)

/-- Run one call; the caller catches the exception.  `none` is undefined behaviour. -/
def Call.run (p : Params F) : Call F → Option (Params F)
  | .scalar k v => some (k.run v p).st
  | .alphas l => (setAlphas l p).map Res.st

/-- A history of calls. -/
def runCalls : List (Call F) → Params F → Option (Params F)
  | [], p => some p
  | c :: cs, p => (c.run p).bind (runCalls cs)

end Mim
