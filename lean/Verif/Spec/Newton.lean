import Verif.Spec.OCP
import Verif.Base.Flat
import Mathlib.LinearAlgebra.Matrix.NonsingularInverse

/-!
# Specification: linear systems and the Newton step of the optimality conditions
-/
set_option linter.unusedSectionVars false
set_option linter.unusedSimpArgs false

namespace Mim.Spec
open Matrix

section
variable {K : Type} [Field K] [LinearOrder K] [IsStrictOrderedRing K]

/-- `v` solves the `N × N` system `M v = b`. -/
def Solves (N : ℕ) (M : FMat K) (b v : FVec K) : Prop := ∀ i, i < N → ∑ j ∈ Finset.range N, M i j * v j = b i

/-- the `N × N` matrix is nonsingular. -/
def Nonsingular (N : ℕ) (M : FMat K) : Prop := ∀ v, Solves N M (fun _ => 0) v → ∀ i, i < N → v i = 0

/-- what is assumed of an LU decomposition in exact arithmetic: it solves every nonsingular system. -/
def LUExact (lu : ℕ → FMat K → FVec K → FVec K) : Prop := ∀ N M b, Nonsingular N M → Solves N M b (lu N M b)

open Classical in
/-- some exact solver. -/
noncomputable def exactLU : ℕ → FMat K → FVec K → FVec K := fun N M b =>
  if h : ∃ v, Solves N M b v then Classical.choose h else fun _ => 0

theorem Nonsingular.solvable {N : ℕ} {M : FMat K} (h : Nonsingular N M) (b : FVec K) : ∃ v, Solves N M b v := by
  let A : Matrix (Fin N) (Fin N) K := Matrix.of fun i j => M i j
  have ext : ∀ w : Fin N → K, ∀ i : Fin N, ∑ j ∈ Finset.range N, M i j * (if h : j < N then w ⟨j, h⟩ else 0) = (A *ᵥ w) i := by
    intro w i
    rw [Finset.sum_range]
    simp [A, Matrix.mulVec, dotProduct]
  have hinj : Function.Injective A.mulVec := by
    intro x y hxy
    have hz : A *ᵥ (x - y) = 0 := by rw [Matrix.mulVec_sub]; exact sub_eq_zero.mpr hxy
    have := h (fun j => if h : j < N then (x - y) ⟨j, h⟩ else 0) (fun i hi => by
      have := ext (x - y) ⟨i, hi⟩
      rw [hz] at this; exact this)
    funext i
    have h1 := this i i.isLt
    simp only [i.isLt, dite_true, Fin.eta, Pi.sub_apply] at h1
    exact sub_eq_zero.mp h1
  have hu : IsUnit A := Matrix.mulVec_injective_iff_isUnit.mp hinj
  let w : Fin N → K := A⁻¹ *ᵥ fun i => b i
  refine ⟨fun j => if h : j < N then w ⟨j, h⟩ else 0, fun i hi => ?_⟩
  have := ext w ⟨i, hi⟩
  have hw : A *ᵥ w = fun i : Fin N => b i := by
    change A *ᵥ (A⁻¹ *ᵥ fun i : Fin N => b i) = _
    rw [Matrix.mulVec_mulVec, Matrix.mul_nonsing_inv A ((Matrix.isUnit_iff_isUnit_det A).mp hu), Matrix.one_mulVec]
  rw [hw] at this
  exact this

theorem exactLU_exact : LUExact (exactLU (K := K)) := by
  intro N M b h
  have := h.solvable b
  rw [exactLU, dif_pos this]
  exact Classical.choose_spec this

variable (P : Problem K)

/-- `(dx, du)` with multipliers `lam` is a Newton step for the optimality conditions at `xs, us`: it satisfies the linearised
initial condition and dynamics, and the gradient of the quadratic model of the Lagrangian
`Σ ℓ_t + lam_0·(x_0 - x0) + Σ lam_{t+1}·(x_{t+1} - f_t)` vanishes. -/
structure NewtonStep (xs : Traj P) (us : Ctrls P) (dx : ℕ → Vec K P.ndx) (du : (t : ℕ) → Vec K (P.nu t)) (lam : ℕ → Vec K P.ndx) :
    Prop where
  start : dx 0 = -P.diff P.x0 (xs 0)
  dyn : ∀ t, t < P.T → dx (t + 1) = (P.calcDiffR t (xs t) (us t)).Fx *ᵥ dx t + (P.calcDiffR t (xs t) (us t)).Fu *ᵥ du t -
    P.diff (P.calcR t (xs t) (us t)).xnext (xs (t + 1))
  stat_x : ∀ t, t < P.T → (P.calcDiffR t (xs t) (us t)).Lx + (P.calcDiffR t (xs t) (us t)).Lxx *ᵥ dx t +
    (P.calcDiffR t (xs t) (us t)).Lxu *ᵥ du t + lam t - (P.calcDiffR t (xs t) (us t)).Fxᵀ *ᵥ lam (t + 1) = 0
  stat_u : ∀ t, t < P.T → (P.calcDiffR t (xs t) (us t)).Lu + (P.calcDiffR t (xs t) (us t)).Lxuᵀ *ᵥ dx t +
    (P.calcDiffR t (xs t) (us t)).Luu *ᵥ du t - (P.calcDiffR t (xs t) (us t)).Fuᵀ *ᵥ lam (t + 1) = 0
  stat_T : (P.calcDiffT (xs P.T)).Lx + (P.calcDiffT (xs P.T)).Lxx *ᵥ dx P.T + lam P.T = 0

/-- The quadratic model of the cost along a step. -/
def stepModel (xs : Traj P) (us : Ctrls P) (dx : ℕ → Vec K P.ndx) (du : (t : ℕ) → Vec K (P.nu t)) : K :=
  (∑ t ∈ Finset.range P.T, ((P.calcDiffR t (xs t) (us t)).Lx ⬝ᵥ dx t + (P.calcDiffR t (xs t) (us t)).Lu ⬝ᵥ du t +
    (dx t ⬝ᵥ ((P.calcDiffR t (xs t) (us t)).Lxx *ᵥ dx t)) / 2 + dx t ⬝ᵥ ((P.calcDiffR t (xs t) (us t)).Lxu *ᵥ du t) +
    (du t ⬝ᵥ ((P.calcDiffR t (xs t) (us t)).Luu *ᵥ du t)) / 2)) +
  (P.calcDiffT (xs P.T)).Lx ⬝ᵥ dx P.T + (dx P.T ⬝ᵥ ((P.calcDiffT (xs P.T)).Lxx *ᵥ dx P.T)) / 2

/-- The step satisfies the linearised initial condition and dynamics. -/
structure LinFeasible (xs : Traj P) (us : Ctrls P) (dx : ℕ → Vec K P.ndx) (du : (t : ℕ) → Vec K (P.nu t)) : Prop where
  start : dx 0 = -P.diff P.x0 (xs 0)
  dyn : ∀ t, t < P.T → dx (t + 1) = (P.calcDiffR t (xs t) (us t)).Fx *ᵥ dx t + (P.calcDiffR t (xs t) (us t)).Fu *ᵥ du t -
    P.diff (P.calcR t (xs t) (us t)).xnext (xs (t + 1))

/-- The cost Hessians at `xs, us` are positive semidefinite in `(x, u)` and definite in `u`, and their blocks symmetric. -/
structure ConvexAt (xs : Traj P) (us : Ctrls P) : Prop where
  sym_x : ∀ t, t < P.T → (P.calcDiffR t (xs t) (us t)).Lxxᵀ = (P.calcDiffR t (xs t) (us t)).Lxx
  sym_u : ∀ t, t < P.T → (P.calcDiffR t (xs t) (us t)).Luuᵀ = (P.calcDiffR t (xs t) (us t)).Luu
  sym_T : (P.calcDiffT (xs P.T)).Lxxᵀ = (P.calcDiffT (xs P.T)).Lxx
  psd : ∀ t, t < P.T → ∀ (x : Vec K P.ndx) (u : Vec K (P.nu t)), 0 ≤ x ⬝ᵥ ((P.calcDiffR t (xs t) (us t)).Lxx *ᵥ x) +
    2 * (x ⬝ᵥ ((P.calcDiffR t (xs t) (us t)).Lxu *ᵥ u)) + u ⬝ᵥ ((P.calcDiffR t (xs t) (us t)).Luu *ᵥ u)
  pd : ∀ t, t < P.T → ∀ u : Vec K (P.nu t), u ≠ 0 → 0 < u ⬝ᵥ ((P.calcDiffR t (xs t) (us t)).Luu *ᵥ u)
  psdT : ∀ x : Vec K P.ndx, 0 ≤ x ⬝ᵥ ((P.calcDiffT (xs P.T)).Lxx *ᵥ x)

end
end Mim.Spec

namespace Mim.Spec
open Matrix
variable {K : Type} [Field K] [LinearOrder K] [IsStrictOrderedRing K] (P : Problem K)

/-- squared violation of the optimality conditions at `xs, us` with the multipliers of `NewtonStep`: stationarity, initial
condition and shooting gaps. -/
def optError (xs : Traj P) (us : Ctrls P) (lam : ℕ → Vec K P.ndx) : K :=
  (∑ t ∈ Finset.range P.T, ((∑ i, (((P.calcDiffR t (xs t) (us t)).Lx + lam t - (P.calcDiffR t (xs t) (us t)).Fxᵀ *ᵥ lam (t + 1)) i) ^ 2) +
    (∑ i, (((P.calcDiffR t (xs t) (us t)).Lu - (P.calcDiffR t (xs t) (us t)).Fuᵀ *ᵥ lam (t + 1)) i) ^ 2) +
    ∑ i, (P.diff (P.calcR t (xs t) (us t)).xnext (xs (t + 1)) i) ^ 2)) +
  (∑ i, (((P.calcDiffT (xs P.T)).Lx + lam P.T) i) ^ 2) + ∑ i, (P.diff P.x0 (xs 0) i) ^ 2

end Mim.Spec
