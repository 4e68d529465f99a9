import Verif.Base.Scalar

/-!
# Numbers with IEEE special values

`Dbl K` is a linear ordered field extended by `+inf`, `-inf` and NaN with the IEEE-754 rules for special values, but
without rounding, overflow and signed zeros (`x / 0` is `+inf`, `-inf` or NaN according to the sign of `x`).  It is used
where a property is about NaN or infinity.  `IEEE F` collects the facts about comparisons that those properties need;
they hold for C++ doubles, for `Dbl K` and (trivially) for exact arithmetic.
-/
set_option linter.unusedSectionVars false
set_option linter.unusedSimpArgs false

namespace Mim

/-- Facts about comparisons, NaN and `raiseIfNaN` of IEEE-754 doubles. -/
class IEEE (F : Type) [FloatOps F] : Prop where
  leb_nan_left : ∀ a b : F, isnan a = true → leb a b = false
  leb_nan_right : ∀ a b : F, isnan b = true → leb a b = false
  ltb_nan_left : ∀ a b : F, isnan a = true → ltb a b = false
  ltb_nan_right : ∀ a b : F, isnan b = true → ltb a b = false
  leb_not_ltb : ∀ a b : F, isnan a = false → isnan b = false → leb a b = !ltb b a
  bad_nan : ∀ a : F, isnan a = true → bad a = true
  ltb_irrefl : ∀ a : F, ltb a a = false

inductive Dbl (K : Type) where
  | fin (x : K)
  | pinf
  | ninf
  | nan
  deriving DecidableEq, Repr

namespace Dbl
variable {K : Type} [Field K] [LinearOrder K] [IsStrictOrderedRing K]

def neg : Dbl K → Dbl K
  | fin x => fin (-x)
  | pinf => ninf
  | ninf => pinf
  | nan => nan

def add : Dbl K → Dbl K → Dbl K
  | fin x, fin y => fin (x + y)
  | nan, _ => nan
  | _, nan => nan
  | pinf, ninf => nan
  | ninf, pinf => nan
  | pinf, _ => pinf
  | _, pinf => pinf
  | ninf, _ => ninf
  | _, ninf => ninf

/-- an infinity with the sign of `x`, NaN for zero. -/
def infOf (x : K) : Dbl K := if 0 < x then pinf else if x < 0 then ninf else nan

def mul : Dbl K → Dbl K → Dbl K
  | fin x, fin y => fin (x * y)
  | nan, _ => nan
  | _, nan => nan
  | pinf, fin y => infOf y
  | ninf, fin y => infOf (-y)
  | fin x, pinf => infOf x
  | fin x, ninf => infOf (-x)
  | pinf, pinf => pinf
  | ninf, ninf => pinf
  | pinf, ninf => ninf
  | ninf, pinf => ninf

def div : Dbl K → Dbl K → Dbl K
  | nan, _ => nan
  | _, nan => nan
  | fin x, fin y => if y = 0 then infOf x else fin (x / y)
  | fin _, pinf => fin 0
  | fin _, ninf => fin 0
  | pinf, fin y => if y < 0 then ninf else pinf
  | ninf, fin y => if y < 0 then pinf else ninf
  | pinf, pinf => nan
  | pinf, ninf => nan
  | ninf, pinf => nan
  | ninf, ninf => nan

def lt : Dbl K → Dbl K → Bool
  | fin x, fin y => decide (x < y)
  | nan, _ => false
  | _, nan => false
  | ninf, ninf => false
  | ninf, _ => true
  | _, ninf => false
  | pinf, _ => false
  | _, pinf => true

def le : Dbl K → Dbl K → Bool
  | fin x, fin y => decide (x ≤ y)
  | nan, _ => false
  | _, nan => false
  | ninf, _ => true
  | _, pinf => true
  | _, ninf => false
  | pinf, _ => false

def eq : Dbl K → Dbl K → Bool
  | fin x, fin y => decide (x = y)
  | pinf, pinf => true
  | ninf, ninf => true
  | _, _ => false

def isNan : Dbl K → Bool
  | nan => true
  | _ => false

/-- `raiseIfNaN`: NaN, infinite or `>= 1e30`. -/
def isBad : Dbl K → Bool
  | fin x => decide ((10 : K) ^ 30 ≤ x)
  | _ => true

def abs : Dbl K → Dbl K
  | fin x => fin |x|
  | pinf => pinf
  | ninf => pinf
  | nan => nan

instance : Add (Dbl K) := ⟨add⟩
instance : Neg (Dbl K) := ⟨neg⟩
instance : Sub (Dbl K) := ⟨fun a b => add a (neg b)⟩
instance : Mul (Dbl K) := ⟨mul⟩
instance : Div (Dbl K) := ⟨div⟩
instance : Zero (Dbl K) := ⟨fin 0⟩
instance : One (Dbl K) := ⟨fin 1⟩

/-- Reductions run from left to right.  The infinity norm of a vector with NaN entries is not specified by Eigen; here
the running maximum of `std::max` is used. -/
instance : FloatOps (Dbl K) where
  ltb := lt
  leb := le
  eqb := eq
  isnan := isNan
  bad := isBad
  absf := abs
  lit q := fin (q : K)
  sum v := (List.ofFn v).foldl add (fin 0)
  normInf v := (List.ofFn v).foldl (fun m x => if lt m (abs x) then abs x else m) (fin 0)
  negInf := ninf

instance : IEEE (Dbl K) where
  leb_nan_left a b h := by
    cases a <;> first | (cases b <;> rfl) | (simp [isnan, isNan] at h)
  leb_nan_right a b h := by
    cases b <;> first | (cases a <;> rfl) | (simp [isnan, isNan] at h)
  ltb_nan_left a b h := by
    cases a <;> first | (cases b <;> rfl) | (simp [isnan, isNan] at h)
  ltb_nan_right a b h := by
    cases b <;> first | (cases a <;> rfl) | (simp [isnan, isNan] at h)
  leb_not_ltb a b ha hb := by
    cases a <;> cases b <;>
      first
      | rfl
      | exact Bool.noConfusion (show true = false from ha)
      | exact Bool.noConfusion (show true = false from hb)
      | (change decide _ = !decide _
         simp only [← decide_not, not_lt])
  bad_nan a h := by
    cases a <;> first | rfl | (simp [isnan, isNan] at h)
  ltb_irrefl a := by
    cases a <;> first | rfl | exact decide_eq_false (lt_irrefl _)

end Dbl

instance {K : Type} [Field K] [LinearOrder K] [IsStrictOrderedRing K] : IEEE K where
  leb_nan_left a b h := by simp at h
  leb_nan_right a b h := by simp at h
  ltb_nan_left a b h := by simp at h
  ltb_nan_right a b h := by simp at h
  leb_not_ltb a b _ _ := by simp [← decide_not]
  bad_nan a h := by simp at h
  ltb_irrefl a := by simp

end Mim
