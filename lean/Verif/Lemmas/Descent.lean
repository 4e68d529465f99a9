import Verif.Spec.Descent
import Verif.Spec.Curvature
import Verif.Lemmas.ConvexLQ

/-!
# Small steps along a direction that satisfies the linearised dynamics
-/
set_option linter.unusedSectionVars false
set_option linter.unusedSimpArgs false
set_option autoImplicit false

namespace Mim
open Matrix Spec
variable {K : Type} [Field K] [LinearOrder K] [IsStrictOrderedRing K]

namespace Spec

theorem Small.mono {p q : K → Prop} (h : Small p) (hpq : ∀ a, 0 < a → p a → q a) : Small q := by
  obtain ⟨δ, h1, h2⟩ := h
  exact ⟨δ, h1, fun a h3 h4 => hpq a h3 (h2 a h3 h4)⟩

theorem Small.and {p q : K → Prop} (h : Small p) (h' : Small q) : Small fun a => p a ∧ q a := by
  obtain ⟨δ, h1, h2⟩ := h
  obtain ⟨δ', h1', h2'⟩ := h'
  exact ⟨min δ δ', lt_min h1 h1', fun a h3 h4 => ⟨h2 a h3 (h4.trans (min_le_left _ _)), h2' a h3 (h4.trans (min_le_right _ _))⟩⟩

theorem Small.le {c : K} (hc : 0 < c) : Small fun a => a ≤ c := ⟨c, hc, fun _ _ h => h⟩

theorem Small.triv : Small fun _ : K => True := ⟨1, one_pos, fun _ _ _ => trivial⟩

theorem Small.range {p : ℕ → K → Prop} (n : ℕ) (h : ∀ t, t < n → Small (p t)) : Small fun a => ∀ t, t < n → p t a := by
  induction n with
  | zero => exact Small.triv.mono fun a _ _ t ht => absurd ht (by omega)
  | succ n ih =>
    refine ((ih fun t ht => h t (by omega)).and (h n (by omega))).mono fun a _ hp t ht => ?_
    rcases Nat.lt_succ_iff_lt_or_eq.mp ht with k | rfl
    · exact hp.1 t k
    · exact hp.2

theorem Small.fin {n : ℕ} {p : Fin n → K → Prop} (h : ∀ i, Small (p i)) : Small fun a => ∀ i, p i a := by
  have := Small.range (p := fun t a => ∀ ht : t < n, p ⟨t, ht⟩ a) n fun t ht => (h ⟨t, ht⟩).mono fun a _ hp _ => hp
  exact this.mono fun a _ hp i => hp i i.2 i.2

theorem Small.list {α : Type} {p : α → K → Prop} (l : List α) (h : ∀ x ∈ l, Small (p x)) : Small fun a => ∀ x ∈ l, p x a := by
  induction l with
  | nil => exact Small.triv.mono fun a _ _ x hx => absurd hx (by simp)
  | cons y l ih =>
    refine ((h y (by simp)).and (ih fun x hx => h x (by simp [hx]))).mono fun a _ hp x hx => ?_
    rcases List.mem_cons.mp hx with rfl | k
    · exact hp.1
    · exact hp.2 x k

theorem Deriv0.add {f g : K → K} {f0 g0 c d : K} (hf : Deriv0 f f0 c) (hg : Deriv0 g g0 d) : Deriv0 (fun a => f a + g a) (f0 + g0) (c + d) := by
  intro ε hε
  refine ((hf (ε / 2) (by positivity)).and (hg (ε / 2) (by positivity))).mono fun a ha h => ?_
  have := abs_add_le (f a - f0 - a * c) (g a - g0 - a * d)
  rw [show f a + g a - (f0 + g0) - a * (c + d) = (f a - f0 - a * c) + (g a - g0 - a * d) by ring]
  have e : ε * a = ε / 2 * a + ε / 2 * a := by ring
  linarith [h.1, h.2]

theorem Deriv0.const (c : K) : Deriv0 (fun _ => c) c 0 := fun ε hε => Small.triv.mono fun a ha _ => by
  simp only [sub_self, mul_zero, abs_zero]
  exact (mul_pos hε ha).le

theorem Deriv0.sum (n : ℕ) {f : ℕ → K → K} {f0 c : ℕ → K} (h : ∀ t, t < n → Deriv0 (f t) (f0 t) (c t)) :
    Deriv0 (fun a => ∑ t ∈ Finset.range n, f t a) (∑ t ∈ Finset.range n, f0 t) (∑ t ∈ Finset.range n, c t) := by
  induction n with
  | zero => simpa using Deriv0.const (0 : K)
  | succ n ih =>
    simp only [Finset.sum_range_succ]
    exact (ih fun t ht => h t (by omega)).add (h n (by omega))

/-- quadratic remainder. -/
theorem Deriv0.of_sq {f : K → K} {f0 c : K} (C : K) (h : ∀ a, 0 < a → a ≤ 1 → |f a - f0 - a * c| ≤ C * (a * a)) : Deriv0 f f0 c := by
  intro ε hε
  have hC : 0 < |C| + 1 := by positivity
  refine (((Small.le (c := ε / (|C| + 1)) (by positivity)).and (Small.le (c := (1 : K)) one_pos))).mono fun a ha h' => ?_
  refine (h a ha h'.2).trans ?_
  have h1 : a * (|C| + 1) ≤ ε := (le_div_iff₀ hC).mp h'.1
  have h2 : C ≤ |C| + 1 := (le_abs_self C).trans (by linarith)
  calc C * (a * a) ≤ (|C| + 1) * (a * a) := mul_le_mul_of_nonneg_right h2 (by positivity)
    _ = a * (|C| + 1) * a := by ring
    _ ≤ ε * a := mul_le_mul_of_nonneg_right h1 ha.le

theorem Deriv0.lim {f : K → K} {f0 c : K} (h : Deriv0 f f0 c) {b : K} (hb : f0 < b) : Small fun a => f a < b := by
  have hd : 0 < b - f0 := by linarith
  have hC : 0 < |c| + 1 := by positivity
  refine ((h 1 one_pos).and (Small.le (c := (b - f0) / (2 * (|c| + 1))) (by positivity))).mono fun a ha k => ?_
  have h1 : a * (2 * (|c| + 1)) ≤ b - f0 := (le_div_iff₀ (by positivity)).mp k.2
  have h2 := (abs_le.mp k.1).2
  have h3 : a * c ≤ a * |c| := mul_le_mul_of_nonneg_left (le_abs_self c) ha.le
  have h4 : 0 ≤ a * |c| := by positivity
  nlinarith

theorem Deriv0.desc {f : K → K} {f0 c : K} (h : Deriv0 f f0 c) (hc : c < 0) : Small fun a => f a < f0 := by
  refine (h (-c / 2) (by linarith)).mono fun a ha k => ?_
  have h2 := (abs_le.mp k).2
  nlinarith

end Spec

namespace Spec.LQ
variable {T n : ℕ} {m : ℕ → ℕ} {Q : LQ K T n m}

/-- the linear part of the cost at a solution of the optimality conditions. -/
theorem KKT.linear {x : ℕ → Vec K n} {u : (t : ℕ) → Vec K (m t)} {lam : ℕ → Vec K n} (h : Q.KKT x u lam) (h0 : x 0 = 0) :
    ∑ t ∈ Finset.range T, (Q.gx t ⬝ᵥ x t + Q.gu t ⬝ᵥ u t) + Q.gT ⬝ᵥ x T =
      -Q.curv x u + ∑ t ∈ Finset.range T, lam (t + 1) ⬝ᵥ Q.c (t + 1) := by
  have key : ∀ k, k ≤ T → ∑ t ∈ Finset.range k, (Q.gx t ⬝ᵥ x t + Q.gu t ⬝ᵥ u t) + lam k ⬝ᵥ x k =
      -(∑ t ∈ Finset.range k, (x t ⬝ᵥ (Q.Hxx t *ᵥ x t) + 2 * (x t ⬝ᵥ (Q.Hxu t *ᵥ u t)) + u t ⬝ᵥ (Q.Huu t *ᵥ u t))) +
      ∑ t ∈ Finset.range k, lam (t + 1) ⬝ᵥ Q.c (t + 1) := by
    intro k
    induction k with
    | zero => intro _; simp [h0]
    | succ k ih =>
      intro hk
      have ih := ih (by omega)
      simp only [Finset.sum_range_succ]
      have e1 := congrArg (· ⬝ᵥ x k) (h.stat_x k (by omega))
      have e2 := congrArg (· ⬝ᵥ u k) (h.stat_u k (by omega))
      have e3 := congrArg (lam (k + 1) ⬝ᵥ ·) (h.dyn k (by omega))
      simp only [add_dotProduct, dotProduct_add, zero_dotProduct] at e1 e2 e3
      have t1 : ((Q.A k)ᵀ *ᵥ lam (k + 1)) ⬝ᵥ x k = lam (k + 1) ⬝ᵥ (Q.A k *ᵥ x k) := by
        rw [Matrix.mulVec_transpose, ← Matrix.dotProduct_mulVec]
      have t2 : ((Q.B k)ᵀ *ᵥ lam (k + 1)) ⬝ᵥ u k = lam (k + 1) ⬝ᵥ (Q.B k *ᵥ u k) := by
        rw [Matrix.mulVec_transpose, ← Matrix.dotProduct_mulVec]
      have t3 : ((Q.Hxu k)ᵀ *ᵥ x k) ⬝ᵥ u k = x k ⬝ᵥ (Q.Hxu k *ᵥ u k) := by
        rw [Matrix.mulVec_transpose, ← Matrix.dotProduct_mulVec]
      have t4 := dotProduct_comm (Q.Hxx k *ᵥ x k) (x k)
      have t5 := dotProduct_comm (Q.Hxu k *ᵥ u k) (x k)
      have t6 := dotProduct_comm (Q.Huu k *ᵥ u k) (u k)
      rw [t1, t4, t5] at e1
      rw [t2, t3, t6] at e2
      linarith
  have h1 := key T le_rfl
  have e := congrArg (· ⬝ᵥ x T) h.stat_T
  simp only [add_dotProduct] at e
  rw [dotProduct_comm (Q.HT *ᵥ x T)] at e
  unfold curv
  linarith

end Spec.LQ

namespace Spec
variable {P : Problem K} {xs : Traj P} {us : Ctrls P} {dx : ℕ → Vec K P.ndx} {du : (t : ℕ) → Vec K (P.nu t)}

theorem TrueDerivs.partialCost (h : TrueDerivs P xs us) {n : ℕ} (hn : n ≤ P.T) :
    Deriv0 (fun a => sumUp n (nodeCost P (stepX P xs dx a) (stepU P us du a))) (sumUp n (nodeCost P xs us))
      (∑ t ∈ Finset.range n, ((P.calcDiffR t (xs t) (us t)).Lx ⬝ᵥ dx t + (P.calcDiffR t (xs t) (us t)).Lu ⬝ᵥ du t)) := by
  simp only [sumUp_exact]
  exact Deriv0.sum n fun t ht => h.cost t (by omega) (dx t) (du t)

theorem TrueDerivs.trajCost (h : TrueDerivs P xs us) :
    Deriv0 (fun a => trajCost P (stepX P xs dx a) (stepU P us du a)) (Spec.trajCost P xs us) (slope P xs us dx du) :=
  (h.partialCost le_rfl).add (h.term (dx P.T))

/-- small steps do not blow up. -/
theorem TrueDerivs.noBlowUp (h : TrueDerivs P xs us) (hb : ¬ CostBlowsUp P xs us) :
    Small fun a => ¬ CostBlowsUp P (stepX P xs dx a) (stepU P us du a) := by
  have hbad : ∀ x : K, bad x = true ↔ (10 : K) ^ 30 ≤ x := by intro x; simp [bad, exactOps]
  unfold CostBlowsUp at hb
  simp only [hbad, not_or, not_exists, not_and, not_le] at hb
  refine ((Small.range P.T fun t ht => (h.partialCost (dx := dx) (du := du) (n := t + 1) ht).lim (hb.1 t ht)).and
    ((h.trajCost (dx := dx) (du := du)).lim hb.2)).mono fun a _ k => ?_
  unfold CostBlowsUp
  simp only [hbad, not_or, not_exists, not_and, not_le]
  exact k

/-- the gaps of a small step: reduced in proportion to the step length, to first order. -/
theorem TrueDerivs.gapNorm (h : TrueDerivs P xs us)
    (hlin : ∀ t, t < P.T → dx (t + 1) = (P.calcDiffR t (xs t) (us t)).Fx *ᵥ dx t + (P.calcDiffR t (xs t) (us t)).Fu *ᵥ du t + shootGap P xs us t)
    {ε : K} (hε : 0 < ε) :
    Small fun a => shootGapNorm P (stepX P xs dx a) (stepU P us du a) ≤ (1 - a) * shootGapNorm P xs us + ε * a := by
  have hN : 0 < (P.T : K) * P.ndx + 1 := by positivity
  have h1 : ∀ t, t < P.T → Small fun a => ∀ i, |shootGap P (stepX P xs dx a) (stepU P us du a) t i - (1 - a) * shootGap P xs us t i| ≤
      ε / ((P.T : K) * P.ndx + 1) * a := by
    intro t ht
    refine Small.fin fun i => (h.gap t ht (dx t) (dx (t + 1)) (du t) i (ε / ((P.T : K) * P.ndx + 1)) (by positivity)).mono fun a ha k => ?_
    have e : ((P.calcDiffR t (xs t) (us t)).Fx *ᵥ dx t + (P.calcDiffR t (xs t) (us t)).Fu *ᵥ du t - dx (t + 1)) i = -shootGap P xs us t i := by
      rw [hlin t ht]; simp only [Pi.add_apply, Pi.sub_apply]; ring
    rw [e] at k
    refine le_trans (le_of_eq ?_) k
    congr 1
    change _ = shootGap P (stepX P xs dx a) (stepU P us du a) t i - shootGap P xs us t i - a * -shootGap P xs us t i
    ring
  refine ((Small.range P.T h1).and (Small.le (c := (1 : K)) one_pos)).mono fun a ha k => ?_
  obtain ⟨k, ha1⟩ := k
  unfold shootGapNorm
  rw [sumUp_exact, sumUp_exact, Finset.mul_sum]
  have hs : ∀ t ∈ Finset.range P.T, norm1 (shootGap P (stepX P xs dx a) (stepU P us du a) t) ≤
      (1 - a) * norm1 (shootGap P xs us t) + P.ndx * (ε / ((P.T : K) * P.ndx + 1) * a) := by
    intro t ht
    rw [norm1_exact, norm1_exact, Finset.mul_sum]
    have : ∀ i ∈ (Finset.univ : Finset (Fin P.ndx)), |shootGap P (stepX P xs dx a) (stepU P us du a) t i| ≤
        (1 - a) * |shootGap P xs us t i| + ε / ((P.T : K) * P.ndx + 1) * a := by
      intro i _
      have k1 := k t (Finset.mem_range.mp ht) i
      have k2 := abs_add_le (shootGap P (stepX P xs dx a) (stepU P us du a) t i - (1 - a) * shootGap P xs us t i) ((1 - a) * shootGap P xs us t i)
      rw [sub_add_cancel, abs_mul, abs_of_nonneg (sub_nonneg.mpr ha1)] at k2
      linarith
    refine (Finset.sum_le_sum this).trans (le_of_eq ?_)
    rw [Finset.sum_add_distrib, Finset.sum_const, Finset.card_univ, Fintype.card_fin, nsmul_eq_mul]
  refine (Finset.sum_le_sum hs).trans ?_
  rw [Finset.sum_add_distrib, Finset.sum_const, Finset.card_range, nsmul_eq_mul]
  have e : (P.T : K) * ((P.ndx : K) * (ε / ((P.T : K) * P.ndx + 1) * a)) = ((P.T : K) * P.ndx) / ((P.T : K) * P.ndx + 1) * (ε * a) := by
    field_simp
  have e2 : ((P.T : K) * P.ndx) / ((P.T : K) * P.ndx + 1) ≤ 1 := (div_le_one hN).mpr (by linarith)
  have e3 : 0 ≤ ε * a := by positivity
  have := mul_le_mul_of_nonneg_right e2 e3
  linarith

theorem shootGapNorm_nonneg (P : Problem K) (xs : Traj P) (us : Ctrls P) : 0 ≤ shootGapNorm P xs us := by
  unfold shootGapNorm
  rw [sumUp_exact]
  exact Finset.sum_nonneg fun t _ => by rw [norm1_exact]; exact Finset.sum_nonneg fun _ _ => abs_nonneg _

theorem shootGap_of_norm {xs : Traj P} {us : Ctrls P} (h0 : shootGapNorm P xs us = 0) : ∀ t, t < P.T → shootGap P xs us t = 0 := by
  unfold shootGapNorm at h0
  rw [sumUp_exact] at h0
  intro t ht
  have hnn : ∀ t ∈ Finset.range P.T, 0 ≤ norm1 (shootGap P xs us t) := fun t _ => by
    rw [norm1_exact]; exact Finset.sum_nonneg fun _ _ => abs_nonneg _
  have := (Finset.sum_eq_zero_iff_of_nonneg hnn).mp h0 t (Finset.mem_range.mpr ht)
  rw [norm1_exact, Finset.sum_eq_zero_iff_of_nonneg (fun _ _ => abs_nonneg _)] at this
  exact funext fun i => abs_eq_zero.mp (this i (Finset.mem_univ i))

/-- the gap norm tends to that of the trajectory. -/
theorem TrueDerivs.gapLim (h : TrueDerivs P xs us)
    (hlin : ∀ t, t < P.T → dx (t + 1) = (P.calcDiffR t (xs t) (us t)).Fx *ᵥ dx t + (P.calcDiffR t (xs t) (us t)).Fu *ᵥ du t + shootGap P xs us t)
    {b : K} (hb : shootGapNorm P xs us < b) : Small fun a => shootGapNorm P (stepX P xs dx a) (stepU P us du a) < b := by
  refine ((h.gapNorm hlin (ε := b - shootGapNorm P xs us) (by linarith)).and (Small.le (c := (1 / 2 : K)) (by norm_num))).mono fun a ha k => ?_
  have := shootGapNorm_nonneg P xs us
  nlinarith [k.1, k.2]

/-- if there are gaps, small steps reduce them. -/
theorem TrueDerivs.gapDesc (h : TrueDerivs P xs us)
    (hlin : ∀ t, t < P.T → dx (t + 1) = (P.calcDiffR t (xs t) (us t)).Fx *ᵥ dx t + (P.calcDiffR t (xs t) (us t)).Fu *ᵥ du t + shootGap P xs us t)
    (hg : shootGapNorm P xs us ≠ 0) : Small fun a => shootGapNorm P (stepX P xs dx a) (stepU P us du a) < shootGapNorm P xs us := by
  have hp : 0 < shootGapNorm P xs us := lt_of_le_of_ne (shootGapNorm_nonneg P xs us) (Ne.symm hg)
  refine (h.gapNorm hlin (ε := shootGapNorm P xs us / 2) (by linarith)).mono fun a ha k => ?_
  nlinarith

end Spec
end Mim
