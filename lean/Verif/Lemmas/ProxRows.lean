import Verif.Lemmas.ProxSystem
import Verif.Spec.Stacked
import Mathlib.Tactic.LinearCombination

/-!
# Products with the matrices of SolverPROXQP, node by node
-/
set_option linter.unusedSectionVars false
set_option linter.unusedSimpArgs false

namespace Mim
open Spec Matrix

section
variable {K : Type} [Field K] [LinearOrder K] [IsStrictOrderedRing K] {P : Problem K}

namespace PROX
variable {d : Data P} {fs : ℕ → Vec K P.ndx} {M : FMat K} {m : PQP K}

/-- a sum over all variables. -/
theorem sum_nVars (f : ℕ → K) : ∑ j ∈ Finset.range P.nVars, f j =
    (∑ k ∈ Finset.range P.T, ∑ i : Fin P.ndx, f (k * P.ndx + i)) +
    ∑ t ∈ Finset.range P.T, ∑ i : Fin (P.nu t), f (P.nEq + offs P.nu t + i) := by
  unfold Problem.nVars
  rw [Finset.sum_range_add]
  conv_lhs => enter [1, 1]; unfold Problem.nEq
  rw [sum_blk, sum_offs]
  simp only [Nat.add_assoc]

theorem single {T t : ℕ} {f : ℕ → K} {v : K} (ht : t < T) (h1 : f t = v) (h0 : ∀ t', t' < T → t' ≠ t → f t' = 0) :
    ∑ t' ∈ Finset.range T, f t' = v := by
  rw [Finset.sum_eq_single t]
  · exact h1
  · intro t' ht' hne; exact h0 t' (Finset.mem_range.mp ht') hne
  · intro hn; exact absurd (Finset.mem_range.mpr ht) hn

theorem none' {T : ℕ} {f : ℕ → K} (h0 : ∀ t', t' < T → f t' = 0) : ∑ t' ∈ Finset.range T, f t' = 0 :=
  Finset.sum_eq_zero fun t' ht' => h0 t' (Finset.mem_range.mp ht')

theorem zero_sum {n : ℕ} {f g : Fin n → K} (h : ∀ j, f j = 0) : ∑ j, f j * g j = 0 :=
  Finset.sum_eq_zero fun j _ => by rw [h j, zero_mul]

/-! ### `P` -/

theorem rowP_x (h : EntP d M) (z : FVec K) {t : ℕ} (h0 : 0 < t) (ht : t < P.T) (i : Fin P.ndx) :
    prod P.nVars M z ((t - 1) * P.ndx + i) = ((d.rd t).Lxx *ᵥ stX P z t + (d.rd t).Lxu *ᵥ stU P z t) i := by
  obtain ⟨k, rfl⟩ : ∃ k, t = k + 1 := ⟨t - 1, by omega⟩
  rw [Nat.add_sub_cancel]
  unfold prod
  rw [sum_nVars, Pi.add_apply]
  congr 1
  · refine single (t := k) (by omega) ?_ fun t' ht' hne => zero_sum fun j => h.xx0 k t' i j (by omega) ht' (Ne.symm hne)
    simp only [mulVec, dotProduct, stX]
    exact Finset.sum_congr rfl fun j _ => by rw [h.exx k i j ht]
  · refine single (t := k + 1) ht ?_ fun t' ht' hne => zero_sum fun j => h.xu0 k t' i j (by omega) ht' hne
    simp only [mulVec, dotProduct, stU]
    exact Finset.sum_congr rfl fun j _ => by rw [h.exu k i j ht]; rfl

theorem rowP_T (h : EntP d M) (z : FVec K) (hT : 0 < P.T) (i : Fin P.ndx) :
    prod P.nVars M z ((P.T - 1) * P.ndx + i) = (d.td.Lxx *ᵥ stX P z P.T) i := by
  obtain ⟨k, hk⟩ : ∃ k, P.T = k + 1 := ⟨P.T - 1, by omega⟩
  have e : P.T - 1 = k := by omega
  have e2 : stX P z P.T = stX P z (k + 1) := by rw [hk]
  rw [e, e2]
  unfold prod
  rw [sum_nVars]
  rw [none' (T := P.T) (f := fun t => ∑ j : Fin (P.nu t), _) fun t' ht' => zero_sum fun j => h.xu0 k t' i j (by omega) ht' (by omega), add_zero]
  refine single (t := k) (by omega) ?_ fun t' ht' hne => zero_sum fun j => h.xx0 k t' i j (by omega) ht' (Ne.symm hne)
  simp only [mulVec, dotProduct, stX]
  exact Finset.sum_congr rfl fun j _ => by rw [h.exxT k i j hk.symm]

theorem rowP_u (h : EntP d M) (z : FVec K) {t : ℕ} (ht : t < P.T) (i : Fin (P.nu t)) :
    prod P.nVars M z (P.nEq + offs P.nu t + i) = ((d.rd t).Lxuᵀ *ᵥ stX P z t + (d.rd t).Luu *ᵥ stU P z t) i := by
  unfold prod
  rw [sum_nVars, Pi.add_apply]
  congr 1
  · cases t with
    | zero =>
      rw [none' (T := P.T) fun t' ht' => zero_sum fun j => h.ux0 t' 0 j i ht' ht (by omega)]
      simp [stX]
    | succ k =>
      refine single (t := k) (by omega) ?_ fun t' ht' hne => zero_sum fun j => h.ux0 t' (k + 1) j i ht' ht (by omega)
      simp only [mulVec, dotProduct, stX, transpose_apply]
      exact Finset.sum_congr rfl fun j _ => by rw [h.eux k j i ht]
  · refine single (t := t) ht ?_ fun t' ht' hne => zero_sum fun j => h.uu0 t t' i j ht ht' (Ne.symm hne)
    simp only [mulVec, dotProduct, stU]
    exact Finset.sum_congr rfl fun j _ => by rw [h.euu t i j ht]; rfl

/-! ### `A` -/

theorem rowA (h : PartA d P.T M) (z : FVec K) {t : ℕ} (ht : t < P.T) (i : Fin P.ndx) :
    prod P.nVars M z (t * P.ndx + i) = (stX P z (t + 1) - (d.rd t).Fx *ᵥ stX P z t - (d.rd t).Fu *ᵥ stU P z t) i := by
  have e2 : ∑ t' ∈ Finset.range P.T, ∑ j : Fin (P.nu t'), M (t * P.ndx + i) (P.nEq + offs P.nu t' + j) * z (P.nEq + offs P.nu t' + j) =
      -((d.rd t).Fu *ᵥ stU P z t) i := by
    refine single (t := t) ht ?_ fun t' ht' hne => zero_sum fun j => h.u0 t t' i j ht ht' (Ne.symm hne)
    simp only [mulVec, dotProduct, stU, ← Finset.sum_neg_distrib]
    exact Finset.sum_congr rfl fun j _ => by rw [h.efu t i j ht, neg_mul]; rfl
  have hdiag : ∑ j : Fin P.ndx, M (t * P.ndx + i) (t * P.ndx + j) * z (t * P.ndx + j) = z (t * P.ndx + i) := by
    rw [Finset.sum_eq_single i]
    · rw [h.eid t i i ht, if_pos rfl, one_mul]
    · intro j _ hne; rw [h.eid t i j ht, if_neg (Ne.symm hne), zero_mul]
    · intro hn; exact absurd (Finset.mem_univ _) hn
  have e1 : ∑ t' ∈ Finset.range P.T, ∑ j : Fin P.ndx, M (t * P.ndx + i) (t' * P.ndx + j) * z (t' * P.ndx + j) =
      z (t * P.ndx + i) - ((d.rd t).Fx *ᵥ stX P z t) i := by
    cases t with
    | zero =>
      rw [single (t := 0) ht hdiag fun t' ht' hne => zero_sum fun j => h.x0 0 t' i j ht ht' (Ne.symm hne) (by omega)]
      simp [stX]
    | succ k =>
      rw [Finset.sum_eq_add (k + 1) k (by omega)]
      · rw [hdiag, sub_eq_add_neg]
        congr 1
        simp only [mulVec, dotProduct, stX, ← Finset.sum_neg_distrib]
        exact Finset.sum_congr rfl fun j _ => by rw [h.efx k i j ht, neg_mul]
      · intro t' ht' hne
        rw [Finset.mem_range] at ht'
        exact zero_sum fun j => h.x0 (k + 1) t' i j ht ht' (Ne.symm hne.1) (by omega)
      · intro hn; exact absurd (Finset.mem_range.mpr (by omega)) hn
      · intro hn; exact absurd (Finset.mem_range.mpr (by omega)) hn
  unfold prod
  rw [sum_nVars, e1, e2]
  simp only [Pi.sub_apply, stX]
  ring

/-- the column of `dx_t` in `A`. -/
theorem colA_x (h : PartA d P.T M) (y : FVec K) {t : ℕ} (h0 : 0 < t) (ht : t < P.T) (j : Fin P.ndx) :
    prodT P.nEq M y ((t - 1) * P.ndx + j) = (-stLam P y t + (d.rd t).Fxᵀ *ᵥ stLam P y (t + 1)) j := by
  obtain ⟨k, rfl⟩ : ∃ k, t = k + 1 := ⟨t - 1, by omega⟩
  rw [Nat.add_sub_cancel]
  unfold prodT
  rw [show P.nEq = P.T * P.ndx from rfl, sum_blk, Finset.sum_eq_add k (k + 1) (by omega)]
  · rw [Pi.add_apply]
    congr 1
    · rw [Finset.sum_eq_single j]
      · rw [h.eid k j j (by omega), if_pos rfl, one_mul]; simp [stLam]
      · intro i _ hne; rw [h.eid k i j (by omega), if_neg hne, zero_mul]
      · intro hn; exact absurd (Finset.mem_univ _) hn
    · simp only [mulVec, dotProduct, stLam, transpose_apply]
      exact Finset.sum_congr rfl fun i _ => by rw [h.efx k i j ht]; ring
  · intro t' ht' hne
    rw [Finset.mem_range] at ht'
    exact zero_sum fun i => h.x0 t' k i j ht' (by omega) hne.1 hne.2
  · intro hn; exact absurd (Finset.mem_range.mpr (by omega)) hn
  · intro hn; exact absurd (Finset.mem_range.mpr (by omega)) hn

theorem colA_T (h : PartA d P.T M) (y : FVec K) (hT : 0 < P.T) (j : Fin P.ndx) :
    prodT P.nEq M y ((P.T - 1) * P.ndx + j) = -stLam P y P.T j := by
  obtain ⟨k, hk⟩ : ∃ k, P.T = k + 1 := ⟨P.T - 1, by omega⟩
  have e : P.T - 1 = k := by omega
  have e2 : stLam P y P.T = stLam P y (k + 1) := by rw [hk]
  rw [e, e2]
  unfold prodT
  rw [show P.nEq = P.T * P.ndx from rfl, sum_blk]
  refine single (t := k) (by omega) ?_ fun t' ht' hne => zero_sum fun i => h.x0 t' k i j ht' (by omega) hne (by omega)
  rw [Finset.sum_eq_single j]
  · rw [h.eid k j j (by omega), if_pos rfl, one_mul]; simp [stLam]
  · intro i _ hne; rw [h.eid k i j (by omega), if_neg hne, zero_mul]
  · intro hn; exact absurd (Finset.mem_univ _) hn

theorem colA_u (h : PartA d P.T M) (y : FVec K) {t : ℕ} (ht : t < P.T) (j : Fin (P.nu t)) :
    prodT P.nEq M y (P.nEq + offs P.nu t + j) = ((d.rd t).Fuᵀ *ᵥ stLam P y (t + 1)) j := by
  unfold prodT
  conv_lhs => enter [1, 1]; unfold Problem.nEq
  rw [sum_blk]
  refine single (t := t) ht ?_ fun t' ht' hne => zero_sum fun i => h.u0 t' t i j ht' ht hne
  simp only [mulVec, dotProduct, stLam, transpose_apply]
  exact Finset.sum_congr rfl fun i _ => by rw [h.efu t i j ht]; ring

/-! ### `C` -/

theorem rowC (h : EntC d M) (z : FVec K) {t : ℕ} (ht : t < P.T) (i : Fin (P.ng t)) :
    prod P.nVars M z (offs P.ng t + i) = conLin d t (stX P z t) (stU P z t) i := by
  unfold prod conLin
  rw [sum_nVars, Pi.add_apply]
  congr 1
  · cases t with
    | zero =>
      rw [none' (T := P.T) fun t' ht' => zero_sum fun j => h.x0 0 t' i j ht.le ht' (by omega)]
      simp [stX]
    | succ k =>
      refine single (t := k) (by omega) ?_ fun t' ht' hne => zero_sum fun j => h.x0 (k + 1) t' i j ht.le ht' (by omega)
      simp only [mulVec, dotProduct, stX]
      exact Finset.sum_congr rfl fun j _ => by rw [h.ex k i j ht]
  · refine single (t := t) ht ?_ fun t' ht' hne => zero_sum fun j => h.u0 t t' i j ht.le ht' (Ne.symm hne)
    simp only [mulVec, dotProduct, stU]
    exact Finset.sum_congr rfl fun j _ => by rw [h.eu t i j ht]; rfl

theorem rowC_T (h : EntC d M) (z : FVec K) (hT : 0 < P.T) (i : Fin (P.ng P.T)) :
    prod P.nVars M z (offs P.ng P.T + i) = (d.td.Gx *ᵥ stX P z P.T) i := by
  obtain ⟨k, hk⟩ : ∃ k, P.T = k + 1 := ⟨P.T - 1, by omega⟩
  have e2 : stX P z P.T = stX P z (k + 1) := by rw [hk]
  unfold prod
  rw [e2, sum_nVars,
    none' (T := P.T) (f := fun t => ∑ j : Fin (P.nu t), _) fun t' ht' => zero_sum fun j => h.u0 P.T t' i j le_rfl ht' (by omega), add_zero]
  refine single (t := k) (by omega) ?_ fun t' ht' hne => zero_sum fun j => h.x0 P.T t' i j le_rfl ht' (by omega)
  simp only [mulVec, dotProduct, stX]
  exact Finset.sum_congr rfl fun j _ => by rw [h.exT k i j hk.symm]

theorem colC_x (h : EntC d M) (z : FVec K) {t : ℕ} (h0 : 0 < t) (ht : t < P.T) (j : Fin P.ndx) :
    prodT P.nIn M z ((t - 1) * P.ndx + j) = ((d.rd t).Gxᵀ *ᵥ stY P z t) j := by
  obtain ⟨k, rfl⟩ : ∃ k, t = k + 1 := ⟨t - 1, by omega⟩
  rw [Nat.add_sub_cancel]
  unfold prodT Problem.nIn
  rw [sum_offs]
  refine single (t := k + 1) (by omega) ?_ fun t' ht' hne => zero_sum fun i => h.x0 t' k i j (by omega) (by omega) hne
  simp only [mulVec, dotProduct, stY, transpose_apply]
  exact Finset.sum_congr rfl fun i _ => by rw [h.ex k i j ht]

theorem colC_T (h : EntC d M) (z : FVec K) (hT : 0 < P.T) (j : Fin P.ndx) :
    prodT P.nIn M z ((P.T - 1) * P.ndx + j) = (d.td.Gxᵀ *ᵥ stY P z P.T) j := by
  unfold prodT Problem.nIn
  rw [sum_offs]
  refine single (t := P.T) (by omega) ?_ fun t' ht' hne => zero_sum fun i => h.x0 t' (P.T - 1) i j (by omega) (by omega) (by omega)
  simp only [mulVec, dotProduct, stY, transpose_apply]
  exact Finset.sum_congr rfl fun i _ => by rw [h.exT (P.T - 1) i j (by omega)]

theorem colC_u (h : EntC d M) (z : FVec K) {t : ℕ} (ht : t < P.T) (j : Fin (P.nu t)) :
    prodT P.nIn M z (P.nEq + offs P.nu t + j) = ((d.rd t).Guᵀ *ᵥ stY P z t) j := by
  unfold prodT Problem.nIn
  rw [sum_offs]
  refine single (t := t) (by omega) ?_ fun t' ht' hne => zero_sum fun i => h.u0 t' t i j (by omega) ht hne
  simp only [mulVec, dotProduct, stY, transpose_apply]
  exact Finset.sum_congr rfl fun i _ => by rw [h.eu t i j ht]

end PROX
end
end Mim
