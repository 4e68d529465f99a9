import Verif.Model.SQP
import Verif.Spec.LQ
import Mathlib.LinearAlgebra.Matrix.NonsingularInverse

/-!
# Concrete problems used to show that hypotheses can be met, and as counterexamples

All over exact rationals with scalar state and control, so that the kernel can run the model.
-/
set_option linter.unusedSectionVars false

namespace Mim.Ex

open Classical in
/-- An exact Cholesky solver: explicit for sizes 0 and 1, so that the kernel can run the model; by matrix inversion for
larger matrices. -/
noncomputable def llt1 : LLT ℚ := fun n A =>
  match n, A with
  | 0, _ => some id
  | 1, A => if 0 < A 0 0 then some (fun b i => b i / A 0 0) else none
  | _ + 2, A => if Spec.PosDef A then some (fun b => A⁻¹.mulVec b) else none

open Matrix in
theorem llt1_exact : Spec.LLTExact llt1 := by
  have hinv : ∀ n (A : Mat ℚ n n), Spec.PosDef A → ∀ b, A *ᵥ (A⁻¹ *ᵥ b) = b := by
    intro n A hA b
    have hu : IsUnit A := by
      rw [← Matrix.mulVec_injective_iff_isUnit]
      intro x y hxy
      by_contra hne
      have h := hA (x - y) (sub_ne_zero.mpr hne)
      have hxy' : A *ᵥ x = A *ᵥ y := hxy
      rw [Matrix.mulVec_sub, hxy', sub_self, dotProduct_zero] at h
      exact lt_irrefl _ h
    rw [Matrix.mulVec_mulVec, Matrix.mul_nonsing_inv A ((Matrix.isUnit_iff_isUnit_det A).mp hu), Matrix.one_mulVec]
  have h1 : ∀ A : Mat ℚ 1 1, Spec.PosDef A ↔ 0 < A 0 0 := by
    intro A
    constructor
    · intro h
      have := h (fun _ => 1) (fun h => by simpa using congrFun h 0)
      simpa [dotProduct, Matrix.mulVec] using this
    · intro h x hx
      have hx0 : x 0 ≠ 0 := fun h0 => hx (funext fun i => by rw [Fin.fin_one_eq_zero i, h0]; rfl)
      have : x ⬝ᵥ (A *ᵥ x) = A 0 0 * (x 0 * x 0) := by
        simp [dotProduct, Matrix.mulVec]; ring
      rw [this]
      exact mul_pos h (mul_self_pos.mpr hx0)
  refine ⟨?_, ?_, ?_⟩
  · intro n A s _ h b
    match n, A, s, b, h with
    | 0, A, s, b, h => funext i; exact i.elim0
    | 1, A, s, b, h =>
      simp only [llt1] at h
      split at h
      · rename_i hp
        cases h
        funext i
        rw [Fin.fin_one_eq_zero i]
        simp [Matrix.mulVec, dotProduct]
        field_simp
      · cases h
    | n + 2, A, s, b, h =>
      simp only [llt1] at h
      split at h
      · rename_i hp
        cases h
        exact hinv _ A hp b
      · cases h
  · intro n A s _ h
    match n, A, s, h with
    | 0, A, s, h => intro x hx; exact absurd (funext fun i => i.elim0) hx
    | 1, A, s, h =>
      simp only [llt1] at h
      split at h
      · rename_i hp; exact (h1 A).mpr hp
      · cases h
    | n + 2, A, s, h =>
      simp only [llt1] at h
      split at h
      · rename_i hp; exact hp
      · cases h
  · intro n A _ h
    match n, A, h with
    | 0, A, h => exact ⟨_, rfl⟩
    | 1, A, h => exact ⟨_, by simp only [llt1]; rw [if_pos ((h1 A).mp h)]⟩
    | n + 2, A, h => exact ⟨_, by simp only [llt1]; rw [if_pos h]⟩

/-- constant 1×1 matrix. -/
def m1 (a : ℚ) : Mat ℚ 1 1 := Matrix.of fun _ _ => a

/-- A scalar problem `min Σ (q x² + r u²)/2 + qT x_T²/2`, `x⁺ = x + u`, from `x0`; no constraints. -/
def scalar (T : ℕ) (q r qT x0 : ℚ) : Problem ℚ where
  T := T
  ndx := 1
  nu _ := 1
  ng _ := 0
  X := ℚ
  integrate x d := x + d 0
  diff a b := fun _ => b - a
  zeroX := 0
  x0 := x0
  calcR _ x u := ⟨(q * x * x + r * u 0 * u 0) / 2, x + u 0, fun i => i.elim0⟩
  calcDiffR _ x u := ⟨fun _ => q * x, fun _ => r * u 0, m1 q, m1 0, m1 r, m1 1, m1 1,
    Matrix.of fun i => i.elim0, Matrix.of fun i => i.elim0⟩
  calcT x := ⟨qT * x * x / 2, fun i => i.elim0⟩
  calcDiffT x := ⟨fun _ => qT * x, m1 qT, Matrix.of fun i => i.elim0⟩
  badX _ := false
  lb _ i := i.elim0
  ub _ i := i.elim0

/-- a convex instance: horizon 2, unit weights, `x0 = 1`. -/
def lq : Problem ℚ := scalar 2 1 1 1 1

/-- a default-constructed SQP solver for `lq`. -/
def lqSolver : SQP lq := SQP.new (Data.zero lq)

/-- A problem whose trials are all rejected: one node, `x⁺ = 2` for the control `0` and `1` otherwise, terminal cost `0` at
`x = 1` and `10³⁰` elsewhere.  Derivatives as reported by the model: unit Hessians, unit dynamics Jacobians. -/
def stale : Problem ℚ where
  T := 1
  ndx := 1
  nu _ := 1
  ng _ := 0
  X := ℚ
  integrate x d := x + d 0
  diff a b := fun _ => b - a
  zeroX := 0
  x0 := 0
  calcR _ _ u := ⟨0, if u 0 = 0 then 2 else 1, fun i => i.elim0⟩
  calcDiffR _ _ _ := ⟨fun _ => 0, fun _ => 0, m1 1, m1 0, m1 1, m1 1, m1 1,
    Matrix.of fun i => i.elim0, Matrix.of fun i => i.elim0⟩
  calcT x := ⟨if x = 1 then 0 else 10 ^ 30, fun i => i.elim0⟩
  calcDiffT _ := ⟨fun _ => 0, m1 1, Matrix.of fun i => i.elim0⟩
  badX _ := false
  lb _ i := i.elim0
  ub _ i := i.elim0

/-- guess for `stale`: states `0, 1`. -/
def staleGuess : Traj stale := fun t => if t = 0 then (0 : ℚ) else (1 : ℚ)

/-- a default-constructed solver run on `stale` from that guess. -/
noncomputable def staleRun : Option (Bool × SQP stale) := SQP.solve llt1 20 (some staleGuess) none 5 0 (SQP.new (Data.zero stale))

end Mim.Ex
