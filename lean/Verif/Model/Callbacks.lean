import Verif.Base.Scalar

/-!
# src/utils/callbacks.cpp: CallbackVerbose

`std::cout` is modelled with its formatting state, because the manipulators `scientific`, `fixed`, `setprecision` are sticky.  How a
`double` is written is a parameter `fmt : Style → ℕ → F → List Char`.  A `static_cast` to a class the object is not an instance of is
undefined behaviour, the result `ub`.
-/
set_option linter.unusedSectionVars false
set_option linter.unusedSimpArgs false

namespace Mim.Cb

abbrev Str := List Char

/-- `std::string(n, ' ')`. -/
def spaces (n : ℕ) : Str := List.replicate n ' '

/-- The lambda `center_string`, callbacks.cpp:34-48.  `int` arithmetic without overflow; `/` and `%` truncate towards zero. -/
def centerString (str : Str) (width : ℤ) (rightPadding : Bool := true) : Str :=
  let size : ℤ := width - str.length
  let left : ℤ := if 0 < size then size.tdiv 2 else 0
  let right : ℤ := if size.tmod 2 ≠ 0 then left + 1 else left
  if rightPadding then spaces left.toNat ++ str ++ spaces right.toNat else spaces left.toNat ++ str

/-- `separator_`, `separator_short_`, callbacks.cpp:20. -/
def sep : Str := [' ', ' ']
def sepShort : Str := [' ']

/-- The state of a `CallbackVerbose`: `precision_`, `header_`, callbacks.hpp:59-62. -/
structure Verbose where
  precision : ℤ
  header : Str
  deriving DecidableEq

/-- `set_precision`, callbacks.cpp:28-31; `none`: an exception is thrown (the object is unchanged). -/
def setPrecision (p : ℤ) (v : Verbose) : Option Verbose := if p < 0 then none else some { v with precision := p }

/-- The constructor, callbacks.cpp:19-22 (`none`: it throws).  The default argument is 3, callbacks.hpp:49. -/
def Verbose.new (p : ℤ := 3) : Option Verbose := setPrecision p ⟨0, []⟩

/-- `update_header`, callbacks.cpp:33-72.  `(true, v)`: it throws, having cleared the header. -/
def updateHeader (solverType : String) (v : Verbose) : Bool × Verbose :=
  let w := 6 + v.precision
  let h := "iter".toList ++ sep
  if solverType = "CSQP" then
    (false, { v with
      header := h ++ centerString "merit".toList w ++ sep ++ centerString "cost".toList w ++ sep ++ centerString "||gaps||".toList w ++ sep
        ++ centerString "||Constraint||".toList w ++ sep ++ centerString "||(dx,du)||".toList w ++ sep ++ centerString "step".toList w ++ sep
        ++ centerString "KKT criteria".toList w ++ sep ++ centerString "QP iters".toList w })
  else if solverType = "SQP" then
    (false, { v with
      header := h ++ centerString "merit".toList w ++ sep ++ centerString "cost".toList w ++ sep ++ centerString "||gaps||".toList w ++ sep
        ++ centerString "step".toList w ++ sep ++ centerString "KKT criteria".toList w ++ sep })
  else (true, { v with header := h })

/-- the floating-point notation of an output stream. -/
inductive Style | general | scientific | fixed
  deriving DecidableEq

/-- `std::cout`: the characters written so far and the formatting state. -/
structure OStream where
  out : Str
  style : Style
  prec : ℕ
  width : ℕ
  deriving DecidableEq

/-- one `<<`. -/
inductive Ins (F : Type)
  | setw (n : ℕ)
  | style (s : Style)
  | setprecision (p : ℕ)
  | str (s : Str)
  | nat (n : ℕ)
  | num (x : F)

/-- right-adjusted in the field width, which is then reset to 0 (C++ standard, formatted output). -/
def OStream.put (o : OStream) (s : Str) : OStream := { o with out := o.out ++ spaces (o.width - s.length) ++ s, width := 0 }

/-- one insertion. -/
def OStream.ins {F : Type} (fmt : Style → ℕ → F → Str) (o : OStream) : Ins F → OStream
  | .setw n => { o with width := n }
  | .style s => { o with style := s }
  | .setprecision p => { o with prec := p }
  | .str s => o.put s
  | .nat n => o.put (Nat.toDigits 10 n)
  | .num x => o.put (fmt o.style o.prec x)

def OStream.run {F : Type} (fmt : Style → ℕ → F → Str) (o : OStream) (l : List (Ins F)) : OStream := l.foldl (OStream.ins fmt) o

/-- what the callback reads from the solver through its getters. -/
structure View (F : Type) where
  iter : ℕ
  merit : F
  cost : F
  gap : F
  con : F
  xgrad : F
  ugrad : F
  step : F
  KKT : F
  tol : F
  qpIters : F

/-- the solver classes that derive from SolverDDP. -/
inductive Dyn | ddp | fddp | sqp | csqp | proxqp
  deriving DecidableEq

/-- the string a solver passes to its callbacks: ddp.cpp:149, fddp.cpp:180, sqp.cpp:125,211, csqp.cpp:281,398 (SolverPROXQP does not
call the callback objects). -/
def Dyn.passes : Dyn → String
  | .ddp => "SQP"
  | .fddp => "SQP"
  | .sqp => "SQP"
  | .csqp => "CSQP"
  | .proxqp => "PROXQP"

section
variable {F : Type} [Add F] [Sub F] [Mul F] [Div F] [Neg F] [Zero F] [One F] [FloatOps F]

/-- the row printed for a SolverCSQP, callbacks.cpp:87-133. -/
def rowCSQP (p : ℕ) (v : View F) : List (Ins F) :=
  let sci : List (Ins F) := [.style .scientific, .setprecision p]
  let fix : List (Ins F) := [.style .fixed, .setprecision p]
  let s : Ins F := .str sep
  if ltb v.KKT v.tol then
    sci ++ [.num v.merit, s] ++ sci ++ [.num v.cost, s] ++ sci ++ [.num v.gap, s, s] ++ sci ++ [.num v.con, s]
      ++ sci ++ [.str "       ---- ".toList, s] ++ fix ++ [.str "     ---- ".toList, s, s]
      ++ sci ++ [.num v.KKT, s, .str sepShort] ++ [.style .fixed, .setprecision 0, .str "    -----".toList, s]
  else
    sci ++ [.num v.merit, s] ++ sci ++ [.num v.cost, s] ++ sci ++ [.num v.gap, s, s] ++ sci ++ [.num v.con, s, s, s]
      ++ sci ++ [.num ((v.xgrad + v.ugrad) / lit 2), s, s, s] ++ fix ++ [.num v.step, s, s]
      ++ sci ++ [.num v.KKT, s, s, .str sepShort] ++ [.style .fixed, .setprecision 0, .str sepShort, .num v.qpIters, s]

/-- the row printed for a SolverSQP, callbacks.cpp:134-163. -/
def rowSQP (p : ℕ) (v : View F) : List (Ins F) :=
  let sci : List (Ins F) := [.style .scientific, .setprecision p]
  let s : Ins F := .str sep
  if ltb v.KKT v.tol then
    sci ++ [.num v.merit, s] ++ sci ++ [.num v.cost, s] ++ sci ++ [.num v.gap, s, s]
      ++ sci ++ [.str "     ---- ".toList, s, s] ++ sci ++ [.num v.KKT, s, s]
  else
    sci ++ [.num v.merit, s] ++ sci ++ [.num v.cost, s] ++ sci ++ [.num v.gap, s, s]
      ++ sci ++ [.num v.step, s] ++ sci ++ [.num v.KKT, s, s, .str sepShort]

/-- how a call of the callback ends. -/
inductive Out
  | done (o : OStream) (v : Verbose)
  | thrown (o : OStream) (v : Verbose)
  | ub
  deriving DecidableEq

/-- `operator()(solver)` without a solver type, callbacks.cpp:74-77. -/
def callUntyped (o : OStream) (c : Verbose) : Out := .thrown o c

/-- `operator()(solver, solver_type)`, callbacks.cpp:79-167, on an object of dynamic type `dyn`. -/
def call (fmt : Style → ℕ → F → Str) (dyn : Dyn) (solverType : String) (v : View F) (o : OStream) (c : Verbose) : Out :=
  let r := if v.iter % 10 = 0 then updateHeader solverType c else (false, c)
  if r.1 then .thrown o r.2
  else
    let o := if v.iter % 10 = 0 then o.run fmt [.str r.2.header, .str ['\n']] else o
    let o := o.run fmt [.setw 4, .nat v.iter, .str sep]
    if solverType = "CSQP" then
      if dyn = .csqp then .done (o.run fmt (rowCSQP r.2.precision.toNat v ++ [.str ['\n']])) r.2 else .ub
    else if solverType = "SQP" then
      if dyn = .sqp then .done (o.run fmt (rowSQP r.2.precision.toNat v ++ [.str ['\n']])) r.2 else .ub
    else .done (o.run fmt [.str ['\n']]) r.2

end
end Mim.Cb
