import Verif.Spec.Policy
import Verif.Lemmas.Riccati
import Mathlib.Algebra.BigOperators.Intervals

/-!
# A Riccati recursion yields the optimal policy and its value function
-/
set_option linter.unusedSectionVars false
set_option linter.unusedSimpArgs false

namespace Mim
open Matrix Spec
variable {K : Type} [Field K] [LinearOrder K] [IsStrictOrderedRing K] {T n : ℕ} {m : ℕ → ℕ}

namespace Riccati
variable {Q : LQ K T n m} {V : ℕ → Mat K n n} {v : ℕ → Vec K n} {G : (t : ℕ) → Mat K (m t) n}
    {k : (t : ℕ) → Vec K (m t)} {Quu : (t : ℕ) → Mat K (m t) (m t)}

/-- completing the square from node `s` on. -/
theorem costFrom_sq (h : Riccati Q V v G k Quu) {s : ℕ} (hs : s ≤ T) {x : ℕ → Vec K n} {u : (t : ℕ) → Vec K (m t)} (hd : Q.DynFrom s x u) :
    Q.costFrom s x u = (x s ⬝ᵥ (V s *ᵥ x s)) / 2 + v s ⬝ᵥ x s + ∑ t ∈ Finset.Ico s T, offset Q V v k Quu t +
      ∑ t ∈ Finset.Ico s T, ((u t + G t *ᵥ x t + k t) ⬝ᵥ (Quu t *ᵥ (u t + G t *ᵥ x t + k t))) / 2 := by
  have key : ∀ j, s ≤ j → j ≤ T → ∑ t ∈ Finset.Ico s j, Q.stageCost t (x t) (u t) +
      ((x j ⬝ᵥ (V j *ᵥ x j)) / 2 + v j ⬝ᵥ x j) =
      (x s ⬝ᵥ (V s *ᵥ x s)) / 2 + v s ⬝ᵥ x s + ∑ t ∈ Finset.Ico s j, offset Q V v k Quu t +
      ∑ t ∈ Finset.Ico s j, ((u t + G t *ᵥ x t + k t) ⬝ᵥ (Quu t *ᵥ (u t + G t *ᵥ x t + k t))) / 2 := by
    intro j hj
    induction j, hj using Nat.le_induction with
    | base => intro _; simp
    | succ j hj ih =>
      intro hT
      have e := h.stage_sq hT (x j) (u j)
      simp only [] at e
      rw [← hd j hj hT] at e
      have ih' := ih (by omega)
      rw [Finset.sum_Ico_succ_top hj, Finset.sum_Ico_succ_top hj, Finset.sum_Ico_succ_top hj]
      linarith
  have e := key T hs le_rfl
  rw [h.VT, h.vT] at e
  unfold LQ.costFrom
  rw [← e]; ring

theorem isValue (h : Riccati Q V v G k Quu) : Q.IsValue G k V v := by
  intro s hs
  refine ⟨∑ t ∈ Finset.Ico s T, offset Q V v k Quu t, fun x u hd hu => ?_⟩
  rw [h.costFrom_sq hs hd]
  have hz : ∑ t ∈ Finset.Ico s T, ((u t + G t *ᵥ x t + k t) ⬝ᵥ (Quu t *ᵥ (u t + G t *ᵥ x t + k t))) / 2 = 0 :=
    Finset.sum_eq_zero fun t ht => by
      obtain ⟨h1, h2⟩ := Finset.mem_Ico.mp ht
      have : u t + G t *ᵥ x t + k t = 0 := by rw [hu t h1 h2]; abel
      rw [this]; simp
  rw [hz, add_zero]

theorem optimalPolicy (h : Riccati Q V v G k Quu) (hpd : ∀ t, t < T → PosDef (Quu t)) : Q.OptimalPolicy G k := by
  intro s hs x u x' u' hd hd' h0 hu
  have hz : ∀ t, s ≤ t → t < T → u t + G t *ᵥ x t + k t = 0 := fun t h1 h2 => by rw [hu t h1 h2]; abel
  have hsum : ∑ t ∈ Finset.Ico s T, ((u t + G t *ᵥ x t + k t) ⬝ᵥ (Quu t *ᵥ (u t + G t *ᵥ x t + k t))) / 2 = 0 :=
    Finset.sum_eq_zero fun t ht => by rw [hz t (Finset.mem_Ico.mp ht).1 (Finset.mem_Ico.mp ht).2]; simp
  have hnn : ∀ t ∈ Finset.Ico s T, 0 ≤ ((u' t + G t *ᵥ x' t + k t) ⬝ᵥ (Quu t *ᵥ (u' t + G t *ᵥ x' t + k t))) / 2 := by
    intro t ht
    by_cases e : u' t + G t *ᵥ x' t + k t = 0
    · rw [e]; simp
    · have := hpd t (Finset.mem_Ico.mp ht).2 _ e
      linarith
  have c1 := h.costFrom_sq hs hd
  have c2 := h.costFrom_sq hs hd'
  rw [hsum] at c1
  rw [h0] at c2
  refine ⟨?_, fun e => ?_⟩
  · have := Finset.sum_nonneg hnn
    rw [c1, c2]; linarith
  · rw [c1, c2] at e
    have hsum' : ∑ t ∈ Finset.Ico s T, ((u' t + G t *ᵥ x' t + k t) ⬝ᵥ (Quu t *ᵥ (u' t + G t *ᵥ x' t + k t))) / 2 = 0 := by
      linarith
    have hall := (Finset.sum_eq_zero_iff_of_nonneg hnn).mp hsum'
    have hu' : ∀ t, s ≤ t → t < T → u' t = -(G t *ᵥ x' t) - k t := by
      intro t h1 h2
      have h3 := hall t (Finset.mem_Ico.mpr ⟨h1, h2⟩)
      by_contra hne
      have hne' : u' t + G t *ᵥ x' t + k t ≠ 0 := by
        intro h4
        apply hne
        have : u' t = u' t + G t *ᵥ x' t + k t - G t *ᵥ x' t - k t := by abel
        rw [this, h4]; abel
      have := hpd t h2 _ hne'
      linarith
    have hx : ∀ t, s ≤ t → t ≤ T → x' t = x t := by
      intro t ht
      induction t, ht using Nat.le_induction with
      | base => intro _; exact h0
      | succ t ht ih =>
        intro hT
        have hxt := ih (by omega)
        rw [hd t ht hT, hd' t ht hT, hu t ht hT, hu' t ht hT, hxt]
    exact ⟨fun t h1 h2 => by rw [hu t h1 h2, hu' t h1 h2, hx t h1 h2.le], hx⟩

end Riccati
end Mim
