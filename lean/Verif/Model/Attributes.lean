import Verif.Model.Setters
import Verif.Model.SQP
import Verif.Model.CSQP
import Verif.Model.ProxQP

/-!
# Reading and writing the settings of the solvers between solves

The getters and setters of /repo/include/mim_solvers/{ddp,fddp,sqp,csqp,csqp_proxqp}.hpp, as exposed by /repo/bindings/*.cpp.
A write either returns (`Res.ok`), throws (`Res.exn`) or is undefined behaviour (`none`, only `set_alphas` of an empty list).
A value of the wrong type is rejected before the setter runs (a compile error in C++, an `ArgumentError` in Python).
Simplifications: `set_max_qp_iters` takes an `int` and stores a `size_t`, here only non-negative arguments; `set_adaptive_rho_tolerance`
(its argument is a `size_t` although the member is a `double`) and the ProxSuite settings are left out.
-/
set_option autoImplicit false
set_option linter.unusedSectionVars false
set_option linter.unusedSimpArgs false

namespace Mim

/-- a value a user reads or writes. -/
inductive SVal (F : Type) where
  | num (v : F)
  | flag (b : Bool)
  | nat (n : ℕ)
  | list (l : List F)

/-- what a user does with a solver: write a setting (catching the exception), or solve. -/
inductive SOp (A V Arg : Type) where
  | write (a : A) (v : V)
  | solve (x : Arg)

/-- a history of such calls.  `none`: undefined behaviour, or a solve that has not returned. -/
def runOps {A V Arg S : Type} (set : A → V → S → Option (Res S)) (solve : Arg → S → Option S) : List (SOp A V Arg) → S → Option S
  | [], s => some s
  | .write a v :: l, s => (set a v s).bind fun r => runOps set solve l r.st
  | .solve x :: l, s => (solve x s).bind fun s' => runOps set solve l s'

section
variable {F : Type} [Add F] [Sub F] [Mul F] [Div F] [Neg F] [Zero F] [One F] [FloatOps F] {P : Problem F}

/-- the settings of `SolverDDP` all solvers share, bindings/ddp.cpp:194-227. -/
inductive BAttr | regInc | regDec | regMin | regMax | thStepDec | thStepInc | thGrad | alphas
  deriving DecidableEq

/-- the getters, ddp.cpp:504-524. -/
def BAttr.get (a : BAttr) (p : Params F) : SVal F :=
  match a with
  | .regInc => .num p.regInc
  | .regDec => .num p.regDec
  | .regMin => .num p.regMin
  | .regMax => .num p.regMax
  | .thStepDec => .num p.thStepDec
  | .thStepInc => .num p.thStepInc
  | .thGrad => .num p.thGrad
  | .alphas => .list p.alphas

/-- the setters, ddp.cpp:547-639. -/
def BAttr.set (a : BAttr) (v : SVal F) (p : Params F) : Option (Res (Params F)) :=
  match a, v with
  | .regInc, .num v => some (setRegIncfactor v p)
  | .regDec, .num v => some (setRegDecfactor v p)
  | .regMin, .num v => some (setRegMin v p)
  | .regMax, .num v => some (setRegMax v p)
  | .thStepDec, .num v => some (setThStepDec v p)
  | .thStepInc, .num v => some (setThStepInc v p)
  | .thGrad, .num v => some (setThGrad v p)
  | .alphas, .list l => setAlphas l p
  | _, _ => some (.exn p)

/-- the settings of `SolverSQP`, bindings/sqp.cpp. -/
inductive QAttr | base (b : BAttr) | tol | mu | useFilter | extra | filterSize
  deriving DecidableEq

/-- the getters, sqp.hpp:122-133. -/
def QAttr.get (a : QAttr) (s : SQP P) : SVal F :=
  match a with
  | .base b => b.get s.par
  | .tol => .num s.tol
  | .mu => .num s.mu
  | .useFilter => .flag s.useFilter
  | .extra => .flag s.extra
  | .filterSize => .nat s.filterSize

/-- the setters, sqp.hpp:135-147. -/
def QAttr.set (a : QAttr) (v : SVal F) (s : SQP P) : Option (Res (SQP P)) :=
  match a, v with
  | .base b, v => (b.set v s.par).map (Res.map fun p => { s with par := p })
  | .tol, .num v => some (.ok { s with tol := v })
  | .mu, .num v => some (.ok { s with mu := v })
  | .useFilter, .flag v => some (.ok { s with useFilter := v })
  | .extra, .flag v => some (.ok { s with extra := v })
  | .filterSize, .nat n => some (.ok (s.setFilterSize n))
  | _, _ => some (.exn s)

/-- the settings of `SolverDDP`, bindings/ddp.cpp:194-237. -/
inductive DAttr | base (b : BAttr) | tol
  deriving DecidableEq

/-- the getters, ddp.cpp:504-524, ddp.hpp:360. -/
def DAttr.get (a : DAttr) (s : DDP P) : SVal F :=
  match a with
  | .base b => b.get s.c.par
  | .tol => .num s.c.tol

/-- the setters, ddp.cpp:547-639, ddp.hpp:358. -/
def DAttr.set (a : DAttr) (v : SVal F) (s : DDP P) : Option (Res (DDP P)) :=
  match a, v with
  | .base b, v => (b.set v s.c.par).map (Res.map fun p => { s with c := { s.c with par := p } })
  | .tol, .num v => some (.ok { s with c := { s.c with tol := v } })
  | _, _ => some (.exn s)

/-- `SolverFDDP::set_filter_size`, fddp.hpp:137-141. -/
def DDP.setFilterSize (n : ℕ) (s : DDP P) : DDP P :=
  { s with c := { s.c with filterSize := n }
           m := { s.m with gapList := s.m.gapList.resize n, costList := s.m.costList.resize n } }

/-- the settings of `SolverFDDP`, bindings/fddp.cpp:84-100. -/
inductive FAttr | base (b : BAttr) | tol | thNeg | useFilter | filterSize
  deriving DecidableEq

/-- the getters, fddp.hpp:116,130-133. -/
def FAttr.get (a : FAttr) (s : DDP P) : SVal F :=
  match a with
  | .base b => b.get s.c.par
  | .tol => .num s.c.tol
  | .thNeg => .num s.c.thNeg
  | .useFilter => .flag s.c.useFilter
  | .filterSize => .nat s.c.filterSize

/-- the setters, fddp.cpp:387-393, fddp.hpp:128-141. -/
def FAttr.set (a : FAttr) (v : SVal F) (s : DDP P) : Option (Res (DDP P)) :=
  match a, v with
  | .base b, v => (b.set v s.c.par).map (Res.map fun p => { s with c := { s.c with par := p } })
  | .tol, .num v => some (.ok { s with c := { s.c with tol := v } })
  | .thNeg, .num v => some ((setThAcceptNegStep v s.c).map fun c => { s with c := c })
  | .useFilter, .flag v => some (.ok { s with c := { s.c with useFilter := v } })
  | .filterSize, .nat n => some (.ok (s.setFilterSize n))
  | _, _ => some (.exn s)

/-- the settings of `SolverCSQP`, bindings/csqp.cpp:99-240. -/
inductive CAttr
  | base (b : BAttr) | tol | muDyn | muCon | lagCoef | sigma | alpha | epsAbs | epsRel | maxTime
  | eqGuess | useFilter | extra | resetY | resetRho | heuristic | removeReg | maxQP | interval | filterSize
  deriving DecidableEq

/-- the getters, csqp.hpp:154-195. -/
def CAttr.get (a : CAttr) (s : CSQP P) : SVal F :=
  match a with
  | .base b => b.get s.c.par
  | .tol => .num s.c.tol
  | .muDyn => .num s.c.muDyn
  | .muCon => .num s.c.muCon
  | .lagCoef => .num s.c.lagCoef
  | .sigma => .num s.c.sigma
  | .alpha => .num s.c.alpha
  | .epsAbs => .num s.c.epsAbs
  | .epsRel => .num s.c.epsRel
  | .maxTime => .num s.c.maxTime
  | .eqGuess => .flag s.c.eqGuess
  | .useFilter => .flag s.c.useFilter
  | .extra => .flag s.c.extra
  | .resetY => .flag s.c.resetY
  | .resetRho => .flag s.c.resetRho
  | .heuristic => .flag s.c.heuristic
  | .removeReg => .flag s.c.removeReg
  | .maxQP => .nat s.c.maxQP
  | .interval => .nat s.c.interval
  | .filterSize => .nat s.c.filterSize

/-- the setters, csqp.hpp:203-248, and the public members of bindings/csqp.cpp:99-110. -/
def CAttr.set (a : CAttr) (v : SVal F) (s : CSQP P) : Option (Res (CSQP P)) :=
  match a, v with
  | .base b, v => (b.set v s.c.par).map (Res.map fun p => { s with c := { s.c with par := p } })
  | .tol, .num v => some (.ok { s with c := { s.c with tol := v } })
  | .muDyn, .num v => some (.ok { s with c := { s.c with muDyn := v } })
  | .muCon, .num v => some (.ok { s with c := { s.c with muCon := v } })
  | .lagCoef, .num v => some (.ok { s with c := { s.c with lagCoef := v } })
  | .sigma, .num v => some (.ok { s with c := { s.c with sigma := v } })
  | .alpha, .num v => some (.ok { s with c := { s.c with alpha := v } })
  | .epsAbs, .num v => some (.ok { s with c := { s.c with epsAbs := v } })
  | .epsRel, .num v => some (.ok { s with c := { s.c with epsRel := v } })
  | .maxTime, .num v => some (.ok { s with c := { s.c with maxTime := v } })
  | .eqGuess, .flag v => some (.ok { s with c := { s.c with eqGuess := v } })
  | .useFilter, .flag v => some (.ok { s with c := { s.c with useFilter := v } })
  | .extra, .flag v => some (.ok { s with c := { s.c with extra := v } })
  | .resetY, .flag v => some (.ok { s with c := { s.c with resetY := v } })
  | .resetRho, .flag v => some (.ok { s with c := { s.c with resetRho := v } })
  | .heuristic, .flag v => some (.ok { s with c := { s.c with heuristic := v } })
  | .removeReg, .flag v => some (.ok { s with c := { s.c with removeReg := v } })
  | .maxQP, .nat n => some (.ok { s with c := { s.c with maxQP := n } })
  | .interval, .nat n => some (.ok { s with c := { s.c with interval := n } })
  | .filterSize, .nat n => some (.ok (s.setFilterSize n))
  | _, _ => some (.exn s)

/-- the settings of `SolverPROXQP`, csqp_proxqp.hpp:159-173. -/
inductive PAttr | base (b : BAttr) | tol | muDyn | muCon | useFilter | filterSize
  deriving DecidableEq

/-- the getters, csqp_proxqp.hpp:135-153. -/
def PAttr.get (a : PAttr) (s : PROX P) : SVal F :=
  match a with
  | .base b => b.get s.c.par
  | .tol => .num s.c.tol
  | .muDyn => .num s.c.muDyn
  | .muCon => .num s.c.muCon
  | .useFilter => .flag s.c.useFilter
  | .filterSize => .nat s.c.filterSize

/-- the setters, csqp_proxqp.hpp:159-173. -/
def PAttr.set (a : PAttr) (v : SVal F) (s : PROX P) : Option (Res (PROX P)) :=
  match a, v with
  | .base b, v => (b.set v s.c.par).map (Res.map fun p => { s with c := { s.c with par := p } })
  | .tol, .num v => some (.ok { s with c := { s.c with tol := v } })
  | .muDyn, .num v => some (.ok { s with c := { s.c with muDyn := v } })
  | .muCon, .num v => some (.ok { s with c := { s.c with muCon := v } })
  | .useFilter, .flag v => some (.ok { s with c := { s.c with useFilter := v } })
  | .filterSize, .nat n => some (.ok (s.setFilterSize n))
  | _, _ => some (.exn s)

end
end Mim
