import Verif.Spec.Newton
import Verif.Lemmas.Riccati
import Mathlib.Tactic.Linarith
import Mathlib.Tactic.LinearCombination

/-!
# Newton steps of convex problems: uniqueness and optimality
-/
set_option linter.unusedSectionVars false
set_option linter.unusedSimpArgs false

namespace Mim
open Matrix Spec

variable {K : Type} [Field K] [LinearOrder K] [IsStrictOrderedRing K]

/-- the multiplier terms telescope along homogeneous linear dynamics. -/
theorem telescope {T n : ℕ} {m : ℕ → ℕ} (A : ℕ → Mat K n n) (B : (t : ℕ) → Mat K n (m t)) (x : ℕ → Vec K n)
    (u : (t : ℕ) → Vec K (m t)) (lam : ℕ → Vec K n) (h0 : x 0 = 0) (hd : ∀ t, t < T → x (t + 1) = A t *ᵥ x t + B t *ᵥ u t) :
    (∑ t ∈ Finset.range T, (x t ⬝ᵥ (lam t - (A t)ᵀ *ᵥ lam (t + 1)) + u t ⬝ᵥ (-((B t)ᵀ *ᵥ lam (t + 1))))) + x T ⬝ᵥ lam T = 0 := by
  have h : ∀ k, k ≤ T → (∑ t ∈ Finset.range k, (x t ⬝ᵥ (lam t - (A t)ᵀ *ᵥ lam (t + 1)) + u t ⬝ᵥ (-((B t)ᵀ *ᵥ lam (t + 1))))) +
      x k ⬝ᵥ lam k = 0 := by
    intro k hk
    induction k with
    | zero => simp [h0]
    | succ k ih =>
      rw [Finset.sum_range_succ, hd k hk]
      have := ih (by omega)
      have e1 : x k ⬝ᵥ ((A k)ᵀ *ᵥ lam (k + 1)) = (A k *ᵥ x k) ⬝ᵥ lam (k + 1) := by
        rw [dot_mulVec_comm, Matrix.transpose_transpose]
      have e2 : u k ⬝ᵥ ((B k)ᵀ *ᵥ lam (k + 1)) = (B k *ᵥ u k) ⬝ᵥ lam (k + 1) := by
        rw [dot_mulVec_comm, Matrix.transpose_transpose]
      rw [dotProduct_sub, dotProduct_neg, add_dotProduct, e1, e2]
      linarith
  exact h T le_rfl

/-- the only solution of the homogeneous optimality system of a convex problem is zero. -/
theorem hom_zero {P : Problem K} {xs : Traj P} {us : Ctrls P} (hc : ConvexAt P xs us) {x : ℕ → Vec K P.ndx}
    {u : (t : ℕ) → Vec K (P.nu t)} {lam : ℕ → Vec K P.ndx} (h0 : x 0 = 0)
    (hd : ∀ t, t < P.T → x (t + 1) = (P.calcDiffR t (xs t) (us t)).Fx *ᵥ x t + (P.calcDiffR t (xs t) (us t)).Fu *ᵥ u t)
    (hx : ∀ t, t < P.T → (P.calcDiffR t (xs t) (us t)).Lxx *ᵥ x t + (P.calcDiffR t (xs t) (us t)).Lxu *ᵥ u t + lam t -
      (P.calcDiffR t (xs t) (us t)).Fxᵀ *ᵥ lam (t + 1) = 0)
    (hu : ∀ t, t < P.T → (P.calcDiffR t (xs t) (us t)).Lxuᵀ *ᵥ x t + (P.calcDiffR t (xs t) (us t)).Luu *ᵥ u t -
      (P.calcDiffR t (xs t) (us t)).Fuᵀ *ᵥ lam (t + 1) = 0)
    (hT : (P.calcDiffT (xs P.T)).Lxx *ᵥ x P.T + lam P.T = 0) :
    (∀ t, t ≤ P.T → x t = 0) ∧ (∀ t, t < P.T → u t = 0) ∧ ∀ t, t ≤ P.T → lam t = 0 := by
  have tel := telescope (fun t => (P.calcDiffR t (xs t) (us t)).Fx) (fun t => (P.calcDiffR t (xs t) (us t)).Fu) x u lam h0 hd
  have hq : ∀ t, t < P.T → x t ⬝ᵥ (lam t - (P.calcDiffR t (xs t) (us t)).Fxᵀ *ᵥ lam (t + 1)) +
      u t ⬝ᵥ (-((P.calcDiffR t (xs t) (us t)).Fuᵀ *ᵥ lam (t + 1))) =
      -(x t ⬝ᵥ ((P.calcDiffR t (xs t) (us t)).Lxx *ᵥ x t) + 2 * (x t ⬝ᵥ ((P.calcDiffR t (xs t) (us t)).Lxu *ᵥ u t)) +
        u t ⬝ᵥ ((P.calcDiffR t (xs t) (us t)).Luu *ᵥ u t)) := by
    intro t ht
    have e1 : lam t - (P.calcDiffR t (xs t) (us t)).Fxᵀ *ᵥ lam (t + 1) =
        -((P.calcDiffR t (xs t) (us t)).Lxx *ᵥ x t + (P.calcDiffR t (xs t) (us t)).Lxu *ᵥ u t) := by
      have := hx t ht
      linear_combination (exp := 1) this
    have e2 : -((P.calcDiffR t (xs t) (us t)).Fuᵀ *ᵥ lam (t + 1)) =
        -((P.calcDiffR t (xs t) (us t)).Lxuᵀ *ᵥ x t + (P.calcDiffR t (xs t) (us t)).Luu *ᵥ u t) := by
      have := hu t ht
      linear_combination (exp := 1) this
    have e3 : u t ⬝ᵥ ((P.calcDiffR t (xs t) (us t)).Lxuᵀ *ᵥ x t) = x t ⬝ᵥ ((P.calcDiffR t (xs t) (us t)).Lxu *ᵥ u t) := by
      rw [dot_mulVec_comm, Matrix.transpose_transpose, dotProduct_comm]
    rw [e1, e2, dotProduct_neg, dotProduct_neg, dotProduct_add, dotProduct_add, e3]
    ring
  have hlT : lam P.T = -((P.calcDiffT (xs P.T)).Lxx *ᵥ x P.T) := by linear_combination (exp := 1) hT
  have tel2 := tel
  rw [Finset.sum_congr rfl (fun t ht => hq t (Finset.mem_range.mp ht)), Finset.sum_neg_distrib, hlT, dotProduct_neg] at tel2
  have hpos := hc.psdT (x P.T)
  have hsum : ∑ t ∈ Finset.range P.T, (x t ⬝ᵥ ((P.calcDiffR t (xs t) (us t)).Lxx *ᵥ x t) +
      2 * (x t ⬝ᵥ ((P.calcDiffR t (xs t) (us t)).Lxu *ᵥ u t)) + u t ⬝ᵥ ((P.calcDiffR t (xs t) (us t)).Luu *ᵥ u t)) = 0 := by
    have hge := Finset.sum_nonneg (s := Finset.range P.T) (fun t ht => hc.psd t (Finset.mem_range.mp ht) (x t) (u t))
    linarith
  have hz := (Finset.sum_eq_zero_iff_of_nonneg (fun t ht => hc.psd t (Finset.mem_range.mp ht) (x t) (u t))).mp hsum
  have huz : ∀ t, t < P.T → x t = 0 → u t = 0 := by
    intro t ht h
    by_contra hne
    have h1 := hz t (Finset.mem_range.mpr ht)
    have h2 := hc.pd t ht (u t) hne
    rw [h, zero_dotProduct, zero_dotProduct] at h1
    linarith
  have hxz : ∀ t, t ≤ P.T → x t = 0 := by
    intro t
    induction t with
    | zero => exact fun _ => h0
    | succ t ih =>
      intro ht
      have := ih (by omega)
      rw [hd t ht, this, huz t ht this, Matrix.mulVec_zero, Matrix.mulVec_zero, add_zero]
  refine ⟨hxz, fun t ht => huz t ht (hxz t (by omega)), ?_⟩
  have hl : ∀ k, k ≤ P.T → lam (P.T - k) = 0 := by
    intro k
    induction k with
    | zero => intro _; rw [Nat.sub_zero, hlT, hxz P.T le_rfl, Matrix.mulVec_zero, neg_zero]
    | succ k ih =>
      intro hk
      have h1 := hx (P.T - (k + 1)) (by omega)
      rw [show P.T - (k + 1) + 1 = P.T - k by omega, ih (by omega), hxz _ (by omega), huz _ (by omega) (hxz _ (by omega))] at h1
      simpa using h1
  intro t ht
  have := hl (P.T - t) (by omega)
  rwa [show P.T - (P.T - t) = t by omega] at this

/-- the Newton step of a convex problem is unique. -/
theorem NewtonStep_unique {P : Problem K} {xs : Traj P} {us : Ctrls P} (hc : ConvexAt P xs us) {dx dx' : ℕ → Vec K P.ndx}
    {du du' : (t : ℕ) → Vec K (P.nu t)} {lam lam' : ℕ → Vec K P.ndx} (h : NewtonStep P xs us dx du lam)
    (h' : NewtonStep P xs us dx' du' lam') :
    (∀ t, t ≤ P.T → dx' t = dx t) ∧ (∀ t, t < P.T → du' t = du t) ∧ ∀ t, t ≤ P.T → lam' t = lam t := by
  have := hom_zero hc (x := fun t => dx' t - dx t) (u := fun t => du' t - du t) (lam := fun t => lam' t - lam t)
    (by simp only [h.start, h'.start, sub_self])
    (fun t ht => by
      simp only [Matrix.mulVec_sub]
      linear_combination (exp := 1) h'.dyn t ht - h.dyn t ht)
    (fun t ht => by
      simp only [Matrix.mulVec_sub]
      linear_combination (exp := 1) h'.stat_x t ht - h.stat_x t ht)
    (fun t ht => by
      simp only [Matrix.mulVec_sub]
      linear_combination (exp := 1) h'.stat_u t ht - h.stat_u t ht)
    (by
      simp only [Matrix.mulVec_sub]
      linear_combination (exp := 1) h'.stat_T - h.stat_T)
  exact ⟨fun t ht => sub_eq_zero.mp (this.1 t ht), fun t ht => sub_eq_zero.mp (this.2.1 t ht),
    fun t ht => sub_eq_zero.mp (this.2.2 t ht)⟩

/-- the Newton step of a convex problem minimises the quadratic model among the steps satisfying the linearised dynamics. -/
theorem NewtonStep_minimal {P : Problem K} {xs : Traj P} {us : Ctrls P} (hc : ConvexAt P xs us) {dx dx' : ℕ → Vec K P.ndx}
    {du du' : (t : ℕ) → Vec K (P.nu t)} {lam : ℕ → Vec K P.ndx} (h : NewtonStep P xs us dx du lam)
    (h' : LinFeasible P xs us dx' du') : stepModel P xs us dx du ≤ stepModel P xs us dx' du' := by
  have tel := telescope (fun t => (P.calcDiffR t (xs t) (us t)).Fx) (fun t => (P.calcDiffR t (xs t) (us t)).Fu)
    (fun t => dx' t - dx t) (fun t => du' t - du t) lam (T := P.T) (by simp only [h.start, h'.start, sub_self])
    (fun t ht => by
      simp only [Matrix.mulVec_sub]
      linear_combination (exp := 1) h'.dyn t ht - h.dyn t ht)
  have hst : ∀ t, t < P.T →
      ((P.calcDiffR t (xs t) (us t)).Lx ⬝ᵥ dx t + (P.calcDiffR t (xs t) (us t)).Lu ⬝ᵥ du t +
        (dx t ⬝ᵥ ((P.calcDiffR t (xs t) (us t)).Lxx *ᵥ dx t)) / 2 + dx t ⬝ᵥ ((P.calcDiffR t (xs t) (us t)).Lxu *ᵥ du t) +
        (du t ⬝ᵥ ((P.calcDiffR t (xs t) (us t)).Luu *ᵥ du t)) / 2) -
      ((dx' t - dx t) ⬝ᵥ (lam t - (P.calcDiffR t (xs t) (us t)).Fxᵀ *ᵥ lam (t + 1)) +
        (du' t - du t) ⬝ᵥ (-((P.calcDiffR t (xs t) (us t)).Fuᵀ *ᵥ lam (t + 1)))) ≤
      ((P.calcDiffR t (xs t) (us t)).Lx ⬝ᵥ dx' t + (P.calcDiffR t (xs t) (us t)).Lu ⬝ᵥ du' t +
        (dx' t ⬝ᵥ ((P.calcDiffR t (xs t) (us t)).Lxx *ᵥ dx' t)) / 2 + dx' t ⬝ᵥ ((P.calcDiffR t (xs t) (us t)).Lxu *ᵥ du' t) +
        (du' t ⬝ᵥ ((P.calcDiffR t (xs t) (us t)).Luu *ᵥ du' t)) / 2) := by
    intro t ht
    have e1 : lam t - (P.calcDiffR t (xs t) (us t)).Fxᵀ *ᵥ lam (t + 1) =
        -((P.calcDiffR t (xs t) (us t)).Lx + (P.calcDiffR t (xs t) (us t)).Lxx *ᵥ dx t + (P.calcDiffR t (xs t) (us t)).Lxu *ᵥ du t) := by
      linear_combination (exp := 1) h.stat_x t ht
    have e2 : -((P.calcDiffR t (xs t) (us t)).Fuᵀ *ᵥ lam (t + 1)) =
        -((P.calcDiffR t (xs t) (us t)).Lu + (P.calcDiffR t (xs t) (us t)).Lxuᵀ *ᵥ dx t + (P.calcDiffR t (xs t) (us t)).Luu *ᵥ du t) := by
      linear_combination (exp := 1) h.stat_u t ht
    have hpsd := hc.psd t ht (dx' t - dx t) (du' t - du t)
    have sx := hc.sym_x t ht
    have su := hc.sym_u t ht
    rw [e1, e2]
    generalize P.calcDiffR t (xs t) (us t) = r at *
    have s1 : dx t ⬝ᵥ (r.Lxx *ᵥ dx' t) = dx' t ⬝ᵥ (r.Lxx *ᵥ dx t) := by
      rw [dot_mulVec_comm, sx, dotProduct_comm]
    have s2 : du t ⬝ᵥ (r.Luu *ᵥ du' t) = du' t ⬝ᵥ (r.Luu *ᵥ du t) := by
      rw [dot_mulVec_comm, su, dotProduct_comm]
    have s3 : ∀ (a : Vec K (P.nu t)) (b : Vec K P.ndx), a ⬝ᵥ (r.Lxuᵀ *ᵥ b) = b ⬝ᵥ (r.Lxu *ᵥ a) := fun a b => by
      rw [dot_mulVec_comm, Matrix.transpose_transpose, dotProduct_comm]
    have c1 : ∀ a, a ⬝ᵥ r.Lx = r.Lx ⬝ᵥ a := fun a => dotProduct_comm _ _
    have c2 : ∀ a, a ⬝ᵥ r.Lu = r.Lu ⬝ᵥ a := fun a => dotProduct_comm _ _
    simp only [dotProduct_neg, dotProduct_add, sub_dotProduct, Matrix.mulVec_sub, dotProduct_sub, s3, c1, c2, s1, s2] at hpsd ⊢
    linarith
  have hTt : (P.calcDiffT (xs P.T)).Lx ⬝ᵥ dx P.T + (dx P.T ⬝ᵥ ((P.calcDiffT (xs P.T)).Lxx *ᵥ dx P.T)) / 2 -
      (dx' P.T - dx P.T) ⬝ᵥ lam P.T ≤
      (P.calcDiffT (xs P.T)).Lx ⬝ᵥ dx' P.T + (dx' P.T ⬝ᵥ ((P.calcDiffT (xs P.T)).Lxx *ᵥ dx' P.T)) / 2 := by
    have e1 : lam P.T = -((P.calcDiffT (xs P.T)).Lx + (P.calcDiffT (xs P.T)).Lxx *ᵥ dx P.T) := by
      linear_combination (exp := 1) h.stat_T
    have hpsd := hc.psdT (dx' P.T - dx P.T)
    have s1 : dx P.T ⬝ᵥ ((P.calcDiffT (xs P.T)).Lxx *ᵥ dx' P.T) = dx' P.T ⬝ᵥ ((P.calcDiffT (xs P.T)).Lxx *ᵥ dx P.T) := by
      rw [dot_mulVec_comm, hc.sym_T, dotProduct_comm]
    have c1 : ∀ a, a ⬝ᵥ (P.calcDiffT (xs P.T)).Lx = (P.calcDiffT (xs P.T)).Lx ⬝ᵥ a := fun a => dotProduct_comm _ _
    rw [e1]
    simp only [dotProduct_neg, dotProduct_add, sub_dotProduct, Matrix.mulVec_sub, dotProduct_sub, c1, s1] at hpsd ⊢
    linarith
  have hsum := Finset.sum_le_sum (s := Finset.range P.T) (fun t ht => hst t (Finset.mem_range.mp ht))
  rw [Finset.sum_sub_distrib] at hsum
  unfold stepModel
  linarith

end Mim
