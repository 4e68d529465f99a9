import Mathlib.Algebra.Order.Field.Basic
import Mathlib.Algebra.Order.BigOperators.Group.Finset
import Mathlib.Data.Matrix.Basic
import Mathlib.Data.Matrix.Mul
import Mathlib.Data.Rat.Cast.Order
import Mathlib.Data.Finset.Lattice.Fold
import Mathlib.Tactic.NormNum
import Mathlib.Tactic.Ring
import Mathlib.Tactic.Linarith
import Mathlib.Tactic.FieldSimp

/-!
# Scalars and Eigen-like linear algebra

The solvers compute with C++ `double`s through Eigen.  Everything is modelled over a scalar type `F` that carries
only *operations*, no laws.  A theorem about the model that does not assume `F` to be a field is therefore true for
IEEE doubles with any rounding mode and any reduction order inside Eigen.

Exact arithmetic is the instance `exactOps`: an arbitrary linear ordered field `K`.
-/

set_option linter.unusedSectionVars false
set_option linter.unusedSimpArgs false

namespace Mim

/-- The operations on `double` used by the code besides `+ - * /`, with no laws attached.

* `ltb`, `leb`, `eqb` – the C++ operators `<`, `<=`, `==` (all false on NaN);
* `isnan` – `std::isnan`;
* `bad` – crocoddyl's `raiseIfNaN(v)` = `isnan(v) || isinf(v) || v >= 1e30`
  (used in /repo/src/ddp.cpp:339-344,380-397, sqp.cpp:338,364, csqp.cpp:1392,1425, fddp.cpp:316-324);
* `absf` – `std::fabs` / Eigen's `cwiseAbs`;
* `lit` – a decimal literal of the source text;
* `sum` – Eigen's reduction `.sum()` (the order of the additions is unspecified);
* `normInf` – `lpNorm<Eigen::Infinity>()`;
* `negInf` – `-std::numeric_limits<double>::infinity()` (csqp.cpp:1201-1204). -/
class FloatOps (F : Type) where
  ltb : F → F → Bool
  leb : F → F → Bool
  eqb : F → F → Bool
  isnan : F → Bool
  bad : F → Bool
  absf : F → F
  lit : ℚ → F
  sum : {n : ℕ} → (Fin n → F) → F
  normInf : {n : ℕ} → (Fin n → F) → F
  negInf : F

export FloatOps (ltb leb eqb isnan bad absf lit normInf negInf)

section Ops
variable {F : Type} [Add F] [Sub F] [Mul F] [Div F] [Neg F] [Zero F] [One F] [FloatOps F]

/-- `std::max(a, b)`: returns `a` unless `a < b`. -/
def cppMax (a b : F) : F := if ltb a b then b else a

/-- `std::min(a, b)`: returns `a` unless `b < a`. -/
def cppMin (a b : F) : F := if ltb b a then b else a

abbrev Vec (F : Type) (n : ℕ) := Fin n → F
abbrev Mat (F : Type) (m n : ℕ) := Matrix (Fin m) (Fin n) F

/-- Eigen matrix–vector product. -/
def mv {m n : ℕ} (A : Mat F m n) (x : Vec F n) : Vec F m :=
  fun i => FloatOps.sum fun j => A i j * x j

/-- Eigen matrix–matrix product. -/
def mm {l m n : ℕ} (A : Mat F l m) (B : Mat F m n) : Mat F l n :=
  Matrix.of fun i k => FloatOps.sum fun j => A i j * B j k

/-- Eigen `a.dot(b)`. -/
def dot {n : ℕ} (x y : Vec F n) : F := FloatOps.sum fun i => x i * y i

/-- scalar times vector. -/
def sv {n : ℕ} (c : F) (x : Vec F n) : Vec F n := fun i => c * x i

/-- scalar times matrix. -/
def sm {m n : ℕ} (c : F) (A : Mat F m n) : Mat F m n := Matrix.of fun i j => c * A i j

/-- `A.diagonal().array() += c`. -/
def addDiag {n : ℕ} (A : Mat F n n) (c : F) : Mat F n n :=
  Matrix.of fun i j => if i = j then A i j + c else A i j

/-- `a.cwiseProduct(b)`. -/
def cw {n : ℕ} (x y : Vec F n) : Vec F n := fun i => x i * y i

/-- `v.asDiagonal() * A`. -/
def diagMul {m n : ℕ} (v : Vec F m) (A : Mat F m n) : Mat F m n := Matrix.of fun i j => v i * A i j

/-- `v.lpNorm<1>()`. -/
def norm1 {n : ℕ} (x : Vec F n) : F := FloatOps.sum fun i => absf (x i)

/-- `v.squaredNorm()`. -/
def sqNorm {n : ℕ} (x : Vec F n) : F := FloatOps.sum fun i => x i * x i

/-- the zero vector (`setZero()`). -/
def zeroV (F : Type) [Zero F] (n : ℕ) : Vec F n := fun _ => 0

end Ops

/-! ## Exact arithmetic -/

section Exact
variable {K : Type} [Field K] [LinearOrder K] [IsStrictOrderedRing K]

/-- `lpNorm<Infinity>` in exact arithmetic: the largest absolute value, `0` for the empty vector. -/
def exactNormInf {n : ℕ} (x : Fin n → K) : K :=
  (List.finRange n).foldl (fun m i => max m |x i|) 0

/-- Exact arithmetic: any linear ordered field.  There is no NaN; `raiseIfNaN` is `v ≥ 1e30`.
The constant `-inf` is only used as the starting value of running maxima of norms, it is represented by `-1`, a value
below every norm. -/
instance exactOps : FloatOps K where
  ltb a b := decide (a < b)
  leb a b := decide (a ≤ b)
  eqb a b := decide (a = b)
  isnan _ := false
  bad a := decide ((10 : K) ^ 30 ≤ a)
  absf a := |a|
  lit q := (q : K)
  sum v := ∑ i, v i
  normInf v := exactNormInf v
  negInf := -1

@[simp] theorem ltb_exact (a b : K) : ltb a b = decide (a < b) := rfl
@[simp] theorem leb_exact (a b : K) : leb a b = decide (a ≤ b) := rfl
@[simp] theorem eqb_exact (a b : K) : eqb a b = decide (a = b) := rfl
@[simp] theorem isnan_exact (a : K) : isnan a = false := rfl
@[simp] theorem absf_exact (a : K) : absf a = |a| := rfl
@[simp] theorem lit_exact (q : ℚ) : (lit q : K) = (q : K) := rfl
@[simp] theorem sum_exact {n : ℕ} (v : Fin n → K) : FloatOps.sum v = ∑ i, v i := rfl
@[simp] theorem normInf_exact {n : ℕ} (v : Fin n → K) : normInf v = exactNormInf v := rfl

@[simp] theorem cppMax_exact (a b : K) : cppMax a b = max a b := by
  unfold cppMax
  by_cases h : a < b
  · simp [h, max_eq_right h.le]
  · simp [h, max_eq_left (not_lt.mp h)]

@[simp] theorem cppMin_exact (a b : K) : cppMin a b = min a b := by
  unfold cppMin
  by_cases h : b < a
  · simp [h, min_eq_right h.le]
  · simp [h, min_eq_left (not_lt.mp h)]

open Matrix in
@[simp] theorem mv_exact {m n : ℕ} (A : Mat K m n) (x : Vec K n) : mv A x = A *ᵥ x := rfl
@[simp] theorem mm_exact {l m n : ℕ} (A : Mat K l m) (B : Mat K m n) : mm A B = A * B := by
  ext i k; simp [mm, Matrix.mul_apply]
open Matrix in
@[simp] theorem dot_exact {n : ℕ} (x y : Vec K n) : dot x y = x ⬝ᵥ y := rfl
@[simp] theorem sv_exact {n : ℕ} (c : K) (x : Vec K n) : sv c x = c • x := rfl
@[simp] theorem sm_exact {m n : ℕ} (c : K) (A : Mat K m n) : sm c A = c • A := rfl
open Matrix in
@[simp] theorem sqNorm_exact {n : ℕ} (x : Vec K n) : sqNorm x = x ⬝ᵥ x := rfl
@[simp] theorem zeroV_exact {n : ℕ} : zeroV K n = 0 := rfl
@[simp] theorem norm1_exact {n : ℕ} (x : Vec K n) : norm1 x = ∑ i, |x i| := rfl
@[simp] theorem cw_exact {n : ℕ} (x y : Vec K n) : cw x y = x * y := rfl
@[simp] theorem addDiag_exact {n : ℕ} (A : Mat K n n) (c : K) :
    addDiag A c = A + c • (1 : Matrix (Fin n) (Fin n) K) := by
  ext i j
  by_cases h : i = j
  · subst h; simp [addDiag]
  · simp [addDiag, h, Matrix.one_apply]
@[simp] theorem diagMul_exact {m n : ℕ} (v : Vec K m) (A : Mat K m n) :
    diagMul v A = Matrix.diagonal v * A := by
  ext i j; simp [diagMul, Matrix.diagonal_mul]

theorem foldl_max_le {ι : Type} (f : ι → K) (l : List ι) (a c : K) :
    l.foldl (fun m i => max m (f i)) a ≤ c ↔ a ≤ c ∧ ∀ i ∈ l, f i ≤ c := by
  induction l generalizing a with
  | nil => simp
  | cons x xs ih => simp [ih, and_assoc]

/-- the norm is `≤ c` iff every component is (and `0 ≤ c`). -/
theorem exactNormInf_le {n : ℕ} (x : Fin n → K) (c : K) :
    exactNormInf x ≤ c ↔ 0 ≤ c ∧ ∀ i, |x i| ≤ c := by
  unfold exactNormInf
  rw [foldl_max_le]
  simp

theorem exactNormInf_nonneg {n : ℕ} (x : Fin n → K) : 0 ≤ exactNormInf x :=
  ((exactNormInf_le x _).mp le_rfl).1

theorem exactNormInf_eq_zero {n : ℕ} (x : Fin n → K) : exactNormInf x = 0 ↔ x = 0 := by
  constructor
  · intro h
    have := ((exactNormInf_le x 0).mp h.le).2
    funext i
    exact abs_nonpos_iff.mp (this i)
  · rintro rfl
    exact le_antisymm ((exactNormInf_le _ 0).mpr ⟨le_rfl, by simp⟩) (exactNormInf_nonneg _)

end Exact
end Mim
