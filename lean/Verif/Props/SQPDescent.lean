import Verif.Lemmas.Descent
import Verif.Lemmas.Curvature
import Verif.Props.SQPConvex
import Verif.Props.DirectionExists

/-!
# C94: SolverSQP accepts all small steps on nonlinear problems
-/
set_option linter.unusedSectionVars false
set_option linter.unusedSimpArgs false
set_option autoImplicit false

namespace Mim
open Spec SQP Matrix
variable {K : Type} [Field K] [LinearOrder K] [IsStrictOrderedRing K] {P : Problem K}
variable {llt : LLT K} {fuel : ℕ} {xs : Option (Traj P)} {us : Option (Ctrls P)} {ri : K} {s : SQP P}

namespace SQP

/-- what holds of the state in which the line search of iteration `n` starts, if no earlier search of this solve failed. -/
structure Ready (s2 : SQP P) : Prop where
  calc_ : FreshCalc P s2.data s2.xs s2.us
  diff : FreshDiff P s2.data s2.xs s2.us
  cost : s2.cost = trajCost P s2.xs s2.us
  gap : s2.gap = shootGapNorm P s2.xs s2.us
  merit : s2.merit = meritAt P s2.mu s2.xs s2.us
  fs0 : s2.fs 0 = 0
  fs : ∀ t, t < P.T → s2.fs (t + 1) = shootGap P s2.xs s2.us t
  dx0 : s2.dx 0 = 0
  kkt : (lqOf s2.data s2.fs s2.preg s2.dreg).KKT s2.dx s2.du s2.lagMul
  pos : (lqOf s2.data s2.fs s2.preg s2.dreg).PosCurv

theorem ready (hT : 0 < P.T) (hllt : LLTExact llt) (hP : SymProblem P) (hs : Reachable s)
    (hint : ∀ a ∈ s.par.alphas, P.integrate P.x0 (sv a (zeroV K P.ndx)) = P.x0) (hdiff : P.diff P.x0 P.x0 = 0) (n : ℕ) {s1 s2 : SQP P}
    (h1 : iterate llt fuel n (s.start xs us ri) = some (none, s1)) (hacc : s1.nRej = s.nRej) (h2 : retry llt fuel true s1 = some (true, s2)) :
    Ready s2 := by
  obtain ⟨f1, f2, f3, f4, f5⟩ := C17_sqp_directions_fresh hT n h1 hacc h2
  have hsym := symHess_of_fresh hP f2
  obtain ⟨k, kd⟩ := C18_sqp_every_iteration hllt hs n h1 h2 hsym
  obtain ⟨s0, r0, g1, g2⟩ := retry_true_feas h2
  obtain ⟨b, hr, hpd, hd, hu, hl⟩ := computeDirection_riccati hllt (g2.trans (iterate_feas n h1)) g1 hsym
  have hx0 := (iterate_xs0 hT hs hint n _ _ h1).2.2
  have hfs0 : s2.fs 0 = 0 := by rw [f4, (retry_xs h2).1, hx0, hdiff]
  have hm := retry_eval h2
  simp only [if_true] at hm
  obtain ⟨d1, d2, d3, d4, d5⟩ := hm
  have r2 : s2.mu = s1.mu := retry_frame mu (fun _ _ _ _ _ _ _ _ _ _ _ _ => rfl) (fun _ _ _ => rfl) _ _ _ _ _ _ h2
  have hg : gapNorm s1.calcDiff.fs = shootGapNorm P s2.xs s2.us := by rw [← d3, gapNorm_fresh hfs0 f5]
  exact ⟨f1, f2, f3, by rw [d4, hg], by rw [d5, hg, ← d2, f3, r2]; rfl, hfs0, f5, kd, k, hr.posCurv hpd⟩

variable {s2 : SQP P}

theorem Ready.lin (h : Ready s2) (t : ℕ) (ht : t < P.T) :
    s2.dx (t + 1) = (P.calcDiffR t (s2.xs t) (s2.us t)).Fx *ᵥ s2.dx t + (P.calcDiffR t (s2.xs t) (s2.us t)).Fu *ᵥ s2.du t + shootGap P s2.xs s2.us t := by
  have := h.kkt.dyn t ht
  simp only [lqOf, h.diff.run t ht, h.fs t ht] at this
  exact this

theorem Ready.slope_eq (h : Ready s2) : slope P s2.xs s2.us s2.dx s2.du =
    -(lqOf s2.data s2.fs s2.preg s2.dreg).curv s2.dx s2.du + ∑ t ∈ Finset.range P.T, s2.lagMul (t + 1) ⬝ᵥ shootGap P s2.xs s2.us t := by
  have := h.kkt.linear h.dx0
  rw [Finset.sum_congr rfl fun t ht => show s2.lagMul (t + 1) ⬝ᵥ shootGap P s2.xs s2.us t =
    s2.lagMul (t + 1) ⬝ᵥ (lqOf s2.data s2.fs s2.preg s2.dreg).c (t + 1) from by
      change _ = s2.lagMul (t + 1) ⬝ᵥ s2.fs (t + 1); rw [h.fs t (Finset.mem_range.mp ht)], ← this]
  unfold slope
  simp only [lqOf]
  rw [h.diff.ter, Finset.sum_congr rfl fun t ht => by rw [← h.diff.run t (Finset.mem_range.mp ht)]]

/-- a trajectory without gaps and with the direction zero has residual zero. -/
theorem Ready.zero (h : Ready s2) (hg : shootGapNorm P s2.xs s2.us = 0) (hu : ∀ t, t < P.T → s2.du t = 0) :
    kktResidual s2.data s2.fs s2.lagMul = 0 := by
  have hfs : ∀ t, t ≤ P.T → s2.fs t = 0 := by
    intro t ht
    cases t with
    | zero => exact h.fs0
    | succ t => rw [h.fs t ht, shootGap_of_norm hg t ht]
  have hx : ∀ t, t ≤ P.T → s2.dx t = 0 := by
    intro t
    induction t with
    | zero => intro _; exact h.dx0
    | succ t ih => intro ht; rw [h.lin t ht, ih (by omega), hu t ht, shootGap_of_norm hg t ht]; simp
  refine le_antisymm ?_ ?_
  · rw [C02_sqp_residual_meaning _ _ _ _ le_rfl]
    have hv : ∀ {n : ℕ} {v : Vec K n}, v = 0 → ∀ i, |v i| ≤ 0 := fun h i => by rw [h]; simp
    refine ⟨fun t ht => hv ?_, fun t ht => hv ?_, hv ?_, fun t ht => hv (hfs t ht)⟩
    · have := h.kkt.stat_x t ht
      rw [hx t ht.le, hu t ht] at this
      simp only [lqOf, Matrix.mulVec_zero, zero_add] at this
      rw [this, sub_self]
    · have := h.kkt.stat_u t ht
      rw [hx t ht.le, hu t ht] at this
      simpa only [lqOf, Matrix.mulVec_zero, zero_add] using this
    · have := h.kkt.stat_T
      rw [hx P.T le_rfl] at this
      simp only [lqOf, Matrix.mulVec_zero, zero_add] at this
      rw [this, sub_self]
  · unfold kktResidual
    simp only [cppMax_exact, normInf_exact]
    exact le_max_of_le_left (le_max_of_le_right (exactNormInf_nonneg _))

/-- on a trajectory without gaps the cost decreases along the direction. -/
theorem Ready.downhill (h : Ready s2) (hg : shootGapNorm P s2.xs s2.us = 0) (hk : kktResidual s2.data s2.fs s2.lagMul ≠ 0) :
    slope P s2.xs s2.us s2.dx s2.du < 0 := by
  have hz := shootGap_of_norm hg
  have hu : ∃ t, t < P.T ∧ s2.du t ≠ 0 := by
    by_contra hn
    push Not at hn
    exact hk (h.zero hg hn)
  have hc := h.pos s2.dx s2.du ⟨h.dx0, fun t ht => by
    have := h.kkt.dyn t ht
    rw [this]
    simp only [lqOf, h.fs t ht, hz t ht, add_zero]⟩ hu
  have : ∑ t ∈ Finset.range P.T, s2.lagMul (t + 1) ⬝ᵥ shootGap P s2.xs s2.us t = 0 :=
    Finset.sum_eq_zero fun t ht => by rw [hz t (Finset.mem_range.mp ht), dotProduct_zero]
  rw [h.slope_eq, this]
  linarith

theorem iterate_last {n : ℕ} {s s1 : SQP P} (h : iterate llt fuel (n + 1) s = some (none, s1)) :
    ∃ s0 s0', iterate llt fuel n s = some (none, s0) ∧ body llt fuel s0 = some (none, s0') ∧ s1 = { s0' with iter := s0'.iter + 1 } := by
  induction n generalizing s with
  | zero =>
    rw [iterate] at h
    split at h
    · cases h
    · cases h
    · rename_i q hq
      simp only [iterate, Option.some.injEq, Prod.mk.injEq, true_and] at h
      exact ⟨s, q, rfl, hq, h.symm⟩
  | succ n ih =>
    rw [iterate] at h
    split at h
    · cases h
    · cases h
    · rename_i q hq
      obtain ⟨s0, s0', i1, i2, i3⟩ := ih h
      refine ⟨s0, s0', ?_, i2, i3⟩
      rw [iterate, hq]
      exact i1

theorem mem_lastN_snoc {A : Type} {k : ℕ} {l : List A} {c e : A} (h : e ∈ lastN (k + 1) (l ++ [c])) : e = c ∨ e ∈ lastN k l := by
  unfold lastN at h ⊢
  rw [List.length_append, List.length_singleton, show l.length + 1 - (k + 1) = l.length - k by omega, List.drop_append_of_le_length (by omega)] at h
  rcases List.mem_append.mp h with h | h
  · exact .inr h
  · exact .inl (List.mem_singleton.mp h)

theorem lastN_mono {A : Type} {k k' : ℕ} (hk : k ≤ k') {l : List A} {e : A} (h : e ∈ lastN k l) : e ∈ lastN k' l := by
  unfold lastN at h ⊢
  rw [show l.length - k = (l.length - k') + ((l.length - k) - (l.length - k')) by omega, ← List.drop_drop] at h
  exact List.mem_of_mem_drop h

/-- no older entry of the filter dominates the current iterate. -/
theorem older (hT : 0 < P.T)
    (hwf : FilterWF s) (huf : s.useFilter = true) (n : ℕ) {s1 s2 : SQP P}
    (h1 : iterate llt fuel n (s.start xs us ri) = some (none, s1)) (hacc : s1.nRej = s.nRej) (h2 : retry llt fuel true s1 = some (true, s2)) :
    ¬ Dominated (lastN (min s.filterSize n) s1.hist) (trajCost P s2.xs s2.us) (shootGapNorm P s2.xs s2.us) := by
  cases n with
  | zero => rintro ⟨e, he, -⟩; simp [lastN] at he
  | succ n =>
    obtain ⟨s0, s0', i1, i2, i3⟩ := iterate_last h1
    cases body_cases i2 with
    | gaveUp hr hb => cases hb
    | converged s3 hr hk hs' hb => cases hb
    | searched s3 hr hk hs' hb =>
      have hn3 : s3.nRej = s0.nRej :=
        retry_frame nRej (fun _ _ _ _ _ _ _ _ _ _ _ _ => rfl) (fun _ _ _ => rfl) _ _ _ _ _ _ hr
      have hmono := ((iterate_fresh hT (s.start xs us ri) rfl n none s0 i1).1 rfl).1
      change s.nRej ≤ s0.nRej at hmono
      have hrej : s1.nRej = (checked s3).pushFilter.search.nRej := by
        rw [i3, hs']; exact updateReg_frame nRej (fun _ _ _ => rfl) _
      obtain ⟨-, hh, hiff⟩ := C11_sqp_filter hwf huf n i1 hr
      obtain ⟨e1, e2, -, -⟩ := updateReg_xs (checked s3).pushFilter.search
      have hx1 : s1.xs = (checked s3).pushFilter.search.xs := by rw [i3, hs']; exact e1
      have hu1 : s1.us = (checked s3).pushFilter.search.us := by rw [i3, hs']; exact e2
      have hh1 : s1.hist = (checked s3).pushFilter.hist := by
        rw [i3, hs']
        refine (updateReg_frame hist (fun _ _ _ => rfl) _).trans ?_
        unfold search
        simp only []
        have := lineSearch_frame hist (fun _ _ _ _ _ _ _ _ _ => rfl) (fun _ _ _ _ _ _ => rfl) (checked s3).pushFilter.par.alphas (checked s3).pushFilter
        split
        · exact this
        · exact this
      obtain ⟨x1, x2, -⟩ := retry_xs h2
      rcases C16_sqp_first_acceptable hT (checked s3).pushFilter with ⟨pre, a, post, -, -, g3, g4, g5, -, -, -⟩ | ⟨-, -, -, hn, -⟩
      · obtain ⟨-, -, -, hnd⟩ := (hiff a).mp g3
        rintro ⟨e, he, c1, c2⟩
        refine hnd ⟨e, ?_, ?_, ?_⟩
        · rw [hh1] at he; exact he
        · rw [x1, x2, hx1, hu1, trajCost_congr P g4 g5] at c1; exact c1
        · rw [x1, x2, hx1, hu1, shootGapNorm_congr P g4 g5] at c2; exact c2
      · rw [hn] at hrej
        change s1.nRej = s3.nRej + 1 at hrej
        omega

end SQP

/-- **C94 (a), filter line search.**  Nonlinear problems, exact arithmetic, any filter size.  Let `calcDiff` report the true first derivatives at
the current iterate (nothing is asked of the Hessians but symmetry), let no earlier line search of this call have failed, and let the residual
be positive, so that `solve` goes on.  Then all sufficiently small step lengths are acceptable. -/
theorem C94_sqp_filter_small_steps (hT : 0 < P.T) (hllt : LLTExact llt) (hP : SymProblem P) (hs : Reachable s)
    (hint : ∀ a ∈ s.par.alphas, P.integrate P.x0 (sv a (zeroV K P.ndx)) = P.x0) (hdiff : P.diff P.x0 P.x0 = 0)
    (hwf : FilterWF s) (huf : s.useFilter = true) (n : ℕ) {s1 s2 : SQP P}
    (h1 : iterate llt fuel n (s.start xs us ri) = some (none, s1)) (hacc : s1.nRej = s.nRej) (h2 : retry llt fuel true s1 = some (true, s2))
    (hk : kktResidual s2.data s2.fs s2.lagMul ≠ 0) (hD : TrueDerivs P s2.xs s2.us) (hb : ¬ CostBlowsUp P s2.xs s2.us) :
    Small (Acceptable (checked s2).pushFilter) := by
  have hR := ready hT hllt hP hs hint hdiff n h1 hacc h2
  have hold := older hT hwf huf n h1 hacc h2
  obtain ⟨-, hh, hiff⟩ := C11_sqp_filter hwf huf n h1 h2
  have hcur : Small fun a => trajCost P (stepX P s2.xs s2.dx a) (stepU P s2.us s2.du a) < s2.cost ∨
      shootGapNorm P (stepX P s2.xs s2.dx a) (stepU P s2.us s2.du a) < s2.gap := by
    rw [hR.cost, hR.gap]
    by_cases hg : shootGapNorm P s2.xs s2.us = 0
    · exact (hD.trajCost.desc (hR.downhill hg hk)).mono fun a _ h => .inl h
    · exact (hD.gapDesc hR.lin hg).mono fun a _ h => .inr h
  have hmem : Small fun a => ∀ e ∈ lastN (min s.filterSize n) s1.hist,
      trajCost P (stepX P s2.xs s2.dx a) (stepU P s2.us s2.du a) < e.1 ∨ shootGapNorm P (stepX P s2.xs s2.dx a) (stepU P s2.us s2.du a) < e.2 := by
    refine Small.list _ fun e he => ?_
    have : trajCost P s2.xs s2.us < e.1 ∨ shootGapNorm P s2.xs s2.us < e.2 := by
      by_contra hn
      push Not at hn
      exact hold ⟨e, he, by rw [leb_exact, decide_eq_true_eq]; exact hn.1, by rw [leb_exact, decide_eq_true_eq]; exact hn.2⟩
    rcases this with h | h
    · exact (hD.trajCost.lim h).mono fun a _ h => .inl h
    · exact (hD.gapLim hR.lin h).mono fun a _ h => .inr h
  refine (((hcur.and hmem).and (hD.noBlowUp (dx := s2.dx) (du := s2.du) hb)).and (Small.le (c := (1 : K)) one_pos)).mono fun a ha k => ?_
  obtain ⟨⟨⟨k1, k2⟩, k3⟩, k4⟩ := k
  refine (hiff a).mpr ⟨by simpa using k4, by simpa using ha.le, k3, ?_⟩
  rintro ⟨e, he, c1, c2⟩
  rw [leb_exact, decide_eq_true_eq] at c1 c2
  rw [hh] at he
  have : e = (s2.cost, s2.gap) ∨ e ∈ lastN (min s.filterSize n) s1.hist := by
    cases hf : s.filterSize with
    | zero =>
      rw [hf] at he
      simp [lastN] at he
    | succ f =>
      rw [hf, show min (f + 1) (n + 1) = min f n + 1 by omega] at he
      exact (mem_lastN_snoc he).imp id (lastN_mono (by omega))
  rcases this with rfl | he
  · rcases k1 with k | k
    · exact absurd c1 (not_le.mpr k)
    · exact absurd c2 (not_le.mpr k)
  · rcases k2 e he with k | k
    · exact absurd c1 (not_le.mpr k)
    · exact absurd c2 (not_le.mpr k)

/-- **C94 (b), merit line search.**  The same with the merit function, if its weight exceeds every multiplier of the dynamics and the regularized model
of the cost has nonnegative curvature along the direction (on a trajectory without gaps neither is needed). -/
theorem C94_sqp_merit_small_steps (hT : 0 < P.T) (hllt : LLTExact llt) (hP : SymProblem P) (hs : Reachable s)
    (hint : ∀ a ∈ s.par.alphas, P.integrate P.x0 (sv a (zeroV K P.ndx)) = P.x0) (hdiff : P.diff P.x0 P.x0 = 0)
    (huf : s.useFilter = false) (n : ℕ) {s1 s2 : SQP P}
    (h1 : iterate llt fuel n (s.start xs us ri) = some (none, s1)) (hacc : s1.nRej = s.nRej) (h2 : retry llt fuel true s1 = some (true, s2))
    (hk : kktResidual s2.data s2.fs s2.lagMul ≠ 0) (hD : TrueDerivs P s2.xs s2.us) (hb : ¬ CostBlowsUp P s2.xs s2.us)
    (hmu : shootGapNorm P s2.xs s2.us = 0 ∨ ((∀ t, t < P.T → ∀ i, |s2.lagMul (t + 1) i| < s2.mu) ∧
      0 ≤ (lqOf s2.data s2.fs s2.preg s2.dreg).curv s2.dx s2.du)) :
    Small (Acceptable (checked s2).pushFilter) := by
  have hR := ready hT hllt hP hs hint hdiff n h1 hacc h2
  have hu2 : (checked s2).pushFilter.useFilter = false := by
    have hb : ∀ (s : SQP P) r s', body llt fuel s = some (r, s') → s'.useFilter = s.useFilter := fun s r s' h =>
      body_frame (fun s => s.useFilter) (fun _ _ _ _ _ _ _ _ _ _ _ _ => rfl) (fun _ _ _ => rfl)
        (fun _ _ _ _ _ _ _ _ _ => rfl) (fun _ _ _ _ _ _ => rfl) (fun _ _ _ _ => rfl) (fun _ _ _ _ => rfl)
        (fun _ _ => rfl) h
    have e1 : s1.useFilter = s.useFilter := by
      rcases iterate_inv llt fuel (fun _ s1 => s1.useFilter = s.useFilter)
        (fun _ _ => True) (fun n s1 s2 hI h => (hb _ _ _ h).trans hI) (fun _ _ _ _ _ _ => trivial)
        n (s.start xs us ri) rfl none s1 h1 with ⟨_, h⟩ | ⟨_, h, _⟩
      · exact h
      · cases h
    have e2 : s2.useFilter = s1.useFilter := retry_frame useFilter (fun _ _ _ _ _ _ _ _ _ _ _ _ => rfl) (fun _ _ _ => rfl) _ _ _ _ _ _ h2
    exact e2.trans (e1.trans huf)
  have hm : Small fun a => meritAt P s2.mu (stepX P s2.xs s2.dx a) (stepU P s2.us s2.du a) < meritAt P s2.mu s2.xs s2.us := by
    unfold meritAt
    by_cases hg : shootGapNorm P s2.xs s2.us = 0
    · -- no gaps: the slope is negative, the gaps appear at second order only
      have hsl := hR.downhill hg hk
      have hmu1 : 0 < |s2.mu| + 1 := by positivity
      refine ((hD.trajCost (dx := s2.dx) (du := s2.du) (-(slope P s2.xs s2.us s2.dx s2.du) / 4) (by linarith)).and (hD.gapNorm hR.lin
        (ε := -(slope P s2.xs s2.us s2.dx s2.du) / (4 * (|s2.mu| + 1))) (div_pos (by linarith) (by positivity)))).mono fun a ha k => ?_
      obtain ⟨k1, k2⟩ := k
      rw [hg, mul_zero, zero_add] at k2
      have k3 := (abs_le.mp k1).2
      have k4 := shootGapNorm_nonneg P (stepX P s2.xs s2.dx a) (stepU P s2.us s2.du a)
      have k5 : s2.mu * shootGapNorm P (stepX P s2.xs s2.dx a) (stepU P s2.us s2.du a) ≤
          (|s2.mu| + 1) * (-(slope P s2.xs s2.us s2.dx s2.du) / (4 * (|s2.mu| + 1)) * a) :=
        (mul_le_mul_of_nonneg_right ((le_abs_self s2.mu).trans (by linarith)) k4).trans (mul_le_mul_of_nonneg_left k2 hmu1.le)
      have k6 : (|s2.mu| + 1) * (-(slope P s2.xs s2.us s2.dx s2.du) / (4 * (|s2.mu| + 1)) * a) = -(slope P s2.xs s2.us s2.dx s2.du) / 4 * a := by
        field_simp
      rw [k6] at k5
      rw [hg, mul_zero, add_zero]
      nlinarith
    · obtain ⟨hlam, hcv⟩ := hmu.resolve_left hg
      have hgp : 0 < shootGapNorm P s2.xs s2.us := lt_of_le_of_ne (shootGapNorm_nonneg _ _ _) (Ne.symm hg)
      -- slope of the merit function
      have hsl : slope P s2.xs s2.us s2.dx s2.du - s2.mu * shootGapNorm P s2.xs s2.us < 0 := by
        have h1 : ∑ t ∈ Finset.range P.T, s2.lagMul (t + 1) ⬝ᵥ shootGap P s2.xs s2.us t < s2.mu * shootGapNorm P s2.xs s2.us := by
          unfold shootGapNorm
          rw [sumUp_exact, Finset.mul_sum]
          have hle : ∀ t ∈ Finset.range P.T, s2.lagMul (t + 1) ⬝ᵥ shootGap P s2.xs s2.us t ≤ s2.mu * norm1 (shootGap P s2.xs s2.us t) := by
            intro t ht
            rw [norm1_exact, Finset.mul_sum]
            unfold dotProduct
            refine Finset.sum_le_sum fun i _ => ?_
            refine (le_abs_self _).trans ?_
            rw [abs_mul]
            exact mul_le_mul_of_nonneg_right (hlam t (Finset.mem_range.mp ht) i).le (abs_nonneg _)
          obtain ⟨t, ht, htn⟩ : ∃ t, t < P.T ∧ shootGap P s2.xs s2.us t ≠ 0 := by
            by_contra hn
            push Not at hn
            apply hg
            unfold shootGapNorm
            rw [sumUp_exact]
            exact Finset.sum_eq_zero fun t ht => by rw [hn t (Finset.mem_range.mp ht), norm1_exact]; simp
          obtain ⟨i, hi⟩ : ∃ i, shootGap P s2.xs s2.us t i ≠ 0 := by
            by_contra hn
            push Not at hn
            exact htn (funext hn)
          refine Finset.sum_lt_sum hle ⟨t, Finset.mem_range.mpr ht, ?_⟩
          rw [norm1_exact, Finset.mul_sum]
          unfold dotProduct
          refine Finset.sum_lt_sum (fun j _ => ?_) ⟨i, Finset.mem_univ i, ?_⟩
          · refine (le_abs_self _).trans ?_
            rw [abs_mul]
            exact mul_le_mul_of_nonneg_right (hlam t ht j).le (abs_nonneg _)
          · refine lt_of_le_of_lt (le_abs_self _) ?_
            rw [abs_mul]
            exact mul_lt_mul_of_pos_right (hlam t ht i) (abs_pos.mpr hi)
        rw [hR.slope_eq]
        linarith
      have hmu0 : 0 ≤ s2.mu := by
        obtain ⟨t, ht, i, -⟩ : ∃ t, t < P.T ∧ ∃ i : Fin P.ndx, True := by
          by_contra hn
          push Not at hn
          apply hg
          unfold shootGapNorm
          rw [sumUp_exact]
          refine Finset.sum_eq_zero fun t ht => ?_
          rw [norm1_exact]
          exact Finset.sum_eq_zero fun i _ => absurd trivial (by simpa using hn t (Finset.mem_range.mp ht) i)
        exact (abs_nonneg _).trans (hlam t ht i).le
      have hmu1 : 0 < s2.mu + 1 := by linarith
      set D := -(slope P s2.xs s2.us s2.dx s2.du - s2.mu * shootGapNorm P s2.xs s2.us) with hDD
      have hDp : 0 < D := by linarith
      refine ((hD.trajCost (dx := s2.dx) (du := s2.du) (D / 4) (by linarith)).and (hD.gapNorm hR.lin
        (ε := D / (4 * (s2.mu + 1))) (div_pos hDp (by positivity)))).mono fun a ha k => ?_
      obtain ⟨k1, k2⟩ := k
      have k3 := (abs_le.mp k1).2
      have k5 := mul_le_mul_of_nonneg_left k2 hmu0
      have k6 : s2.mu * (D / (4 * (s2.mu + 1)) * a) ≤ D / 4 * a := by
        have e : s2.mu * (D / (4 * (s2.mu + 1)) * a) = s2.mu / (s2.mu + 1) * (D / 4 * a) := by field_simp
        have e1 : s2.mu / (s2.mu + 1) ≤ 1 := (div_le_one hmu1).mpr (by linarith)
        have e2 : 0 ≤ D / 4 * a := by positivity
        rw [e]
        calc s2.mu / (s2.mu + 1) * (D / 4 * a) ≤ 1 * (D / 4 * a) := mul_le_mul_of_nonneg_right e1 e2
          _ = D / 4 * a := one_mul _
      nlinarith
  refine ((hm.and (hD.noBlowUp (dx := s2.dx) (du := s2.du) hb)).and (Small.le (c := (1 : K)) one_pos)).mono fun a ha k => ?_
  obtain ⟨⟨k1, k3⟩, k4⟩ := k
  refine ⟨by simpa using k4, by simpa using ha.le, k3, ?_⟩
  rw [if_neg (by rw [hu2]; simp)]
  change ltb (meritAt P s2.mu (stepX P s2.xs s2.dx a) (stepU P s2.us s2.du a)) s2.merit = true
  rw [hR.merit, ltb_exact, decide_eq_true_eq]
  exact k1

/-- **C94 (c).**  So the line search succeeds as soon as its list of step lengths has a sufficiently small member (and neither `xs` nor `us` is
left where it was): a failed search means that the list is too coarse, or that the derivatives are wrong. -/
theorem C94_sqp_search_succeeds (hT : 0 < P.T) {s3 : SQP P} (h : Small (Acceptable s3)) :
    ∃ δ : K, 0 < δ ∧ ((∃ a ∈ s3.par.alphas, 0 < a ∧ a ≤ δ) → (search s3).nRej = s3.nRej ∧
      ∃ b ∈ s3.par.alphas, Acceptable s3 b ∧ (∀ t, t ≤ P.T → (search s3).xs t = stepX P s3.xs s3.dx b t) ∧
        (∀ t, t < P.T → (search s3).us t = stepU P s3.us s3.du b t)) := by
  obtain ⟨δ, hδ, h⟩ := h
  refine ⟨δ, hδ, ?_⟩
  rintro ⟨a, ha, a0, a1⟩
  rcases C16_sqp_first_acceptable hT s3 with ⟨pre, b, post, e, -, g3, g4, g5, -, -, g6⟩ | ⟨hn, -⟩
  · exact ⟨g6, b, by rw [e]; simp, g3, g4, g5⟩
  · exact absurd (h a a0 a1) (hn a ha)

end Mim

namespace Mim.Ex
open Spec SQP Matrix

/-- A nonlinear problem: `x⁺ = x + u + x u`, unit quadratic costs, one step from `x = 1`. -/
def bent : Problem ℚ where
  T := 1
  ndx := 1
  nu _ := 1
  ng _ := 0
  X := ℚ
  integrate x d := x + d 0
  diff a b := fun _ => b - a
  zeroX := 0
  x0 := 1
  calcR _ x u := ⟨(x * x + u 0 * u 0) / 2, x + u 0 + x * u 0, fun i => i.elim0⟩
  calcDiffR _ x u := ⟨fun _ => x, fun _ => u 0, m1 1, m1 0, m1 1, m1 (1 + u 0), m1 (1 + x),
    Matrix.of fun i => i.elim0, Matrix.of fun i => i.elim0⟩
  calcT x := ⟨x * x / 2, fun i => i.elim0⟩
  calcDiffT x := ⟨fun _ => x, m1 1, Matrix.of fun i => i.elim0⟩
  badX _ := false
  lb _ i := i.elim0
  ub _ i := i.elim0

theorem bent_sym : SymProblem bent where
  xx _ _ _ _ := by ext i j; rfl
  uu _ _ _ _ := by ext i j; rfl
  T _ := by ext i j; rfl

theorem bent_derivs (xs : Traj bent) (us : Ctrls bent) : TrueDerivs bent xs us where
  cost t _ d e := by
    let x : ℚ := xs t
    let u : Vec ℚ 1 := us t
    let d' : Vec ℚ 1 := d
    let e' : Vec ℚ 1 := e
    refine Deriv0.of_sq ((d' 0 * d' 0 + e' 0 * e' 0) / 2) fun a _ _ => ?_
    have h : (bent.calcR t (bent.integrate (xs t) (sv a d)) (us t + sv a e)).cost =
      ((x + a * d' 0) * (x + a * d' 0) + (u 0 + a * e' 0) * (u 0 + a * e' 0)) / 2 := rfl
    have h' : (bent.calcR t (xs t) (us t)).cost = (x * x + u 0 * u 0) / 2 := rfl
    have h'' : (bent.calcDiffR t (xs t) (us t)).Lx ⬝ᵥ d + (bent.calcDiffR t (xs t) (us t)).Lu ⬝ᵥ e = x * d' 0 + u 0 * e' 0 := by
      change ∑ i : Fin 1, _ + ∑ i : Fin 1, _ = _
      simp only [Fin.sum_univ_one]
      rfl
    rw [h, h', h'', show ((x + a * d' 0) * (x + a * d' 0) + (u 0 + a * e' 0) * (u 0 + a * e' 0)) / 2 - (x * x + u 0 * u 0) / 2 -
      a * (x * d' 0 + u 0 * e' 0) = (d' 0 * d' 0 + e' 0 * e' 0) / 2 * (a * a) by ring, abs_of_nonneg]
    have := mul_self_nonneg (d' 0)
    have := mul_self_nonneg (e' 0)
    have := mul_self_nonneg a
    positivity
  term d := by
    let x : ℚ := xs bent.T
    let d' : Vec ℚ 1 := d
    refine Deriv0.of_sq (d' 0 * d' 0 / 2) fun a _ _ => ?_
    have h : (bent.calcT (bent.integrate (xs bent.T) (sv a d))).cost = (x + a * d' 0) * (x + a * d' 0) / 2 := rfl
    have h' : (bent.calcT (xs bent.T)).cost = x * x / 2 := rfl
    have h'' : (bent.calcDiffT (xs bent.T)).Lx ⬝ᵥ d = x * d' 0 := by
      change ∑ i : Fin 1, _ = _
      simp only [Fin.sum_univ_one]
      rfl
    rw [h, h', h'', show (x + a * d' 0) * (x + a * d' 0) / 2 - x * x / 2 - a * (x * d' 0) = d' 0 * d' 0 / 2 * (a * a) by ring, abs_of_nonneg]
    have := mul_self_nonneg (d' 0)
    have := mul_self_nonneg a
    positivity
  gap t _ d d1 e i := by
    let x : ℚ := xs t
    let y : ℚ := xs (t + 1)
    let u : Vec ℚ 1 := us t
    let d' : Vec ℚ 1 := d
    let d1' : Vec ℚ 1 := d1
    let e' : Vec ℚ 1 := e
    refine Deriv0.of_sq |d' 0 * e' 0| fun a _ _ => ?_
    have h : bent.diff (bent.integrate (xs (t + 1)) (sv a d1)) (bent.calcR t (bent.integrate (xs t) (sv a d)) (us t + sv a e)).xnext i =
      (x + a * d' 0) + (u 0 + a * e' 0) + (x + a * d' 0) * (u 0 + a * e' 0) - (y + a * d1' 0) := rfl
    have h' : bent.diff (xs (t + 1)) (bent.calcR t (xs t) (us t)).xnext i = x + u 0 + x * u 0 - y := rfl
    have h'' : ((bent.calcDiffR t (xs t) (us t)).Fx *ᵥ d + (bent.calcDiffR t (xs t) (us t)).Fu *ᵥ e - d1) i = (1 + u 0) * d' 0 + (1 + x) * e' 0 - d1' 0 := by
      obtain rfl : i = (0 : Fin 1) := Subsingleton.elim (α := Fin 1) _ _
      change (m1 (1 + u 0) *ᵥ d' + m1 (1 + x) *ᵥ e' - d1') 0 = _
      simp [mulVec, dotProduct, m1]
    rw [h, h', h'', show (x + a * d' 0) + (u 0 + a * e' 0) + (x + a * d' 0) * (u 0 + a * e' 0) - (y + a * d1' 0) - (x + u 0 + x * u 0 - y) -
      a * ((1 + u 0) * d' 0 + (1 + x) * e' 0 - d1' 0) = d' 0 * e' 0 * (a * a) by ring, abs_mul, abs_of_nonneg (mul_self_nonneg a)]

/-- a guess for `bent` with a gap. -/
def bentGuess : Traj bent := fun t => if t = 0 then (1 : ℚ) else (3 : ℚ)

/-- a default-constructed solver for `bent` with the filter (size 4), or with the merit function and the weight 10. -/
def bentSolver (f : Bool) : SQP bent := if f then (SQP.new (Data.zero bent)).setFilterSize 4 else { SQP.new (Data.zero bent) with useFilter := false, mu := 10 }

/-- first direction from that guess. -/
noncomputable def bentDir (f : Bool) : Option (Bool × SQP bent) := retry llt1 20 true ((bentSolver f).start (some bentGuess) none 0)

theorem bentDir_ok (f : Bool) : (bentDir f).map (fun r => (r.1, decide (kktResidual r.2.data r.2.fs r.2.lagMul = 0),
      decide (bad (sumUp 1 (nodeCost bent r.2.xs r.2.us)) = true ∨ bad (trajCost bent r.2.xs r.2.us) = true),
      decide (shootGapNorm bent r.2.xs r.2.us = 0), decide (|(r.2.lagMul 1 (0 : Fin 1) : ℚ)| < (if f then 20 else r.2.mu)),
      decide (0 ≤ (lqOf r.2.data r.2.fs r.2.preg r.2.dreg).curv r.2.dx r.2.du))) =
    some (true, false, false, false, true, true) := by cases f <;> decide +kernel

/-- **C94 is met**: the first line search on `bent` from a guess with a gap, with the filter (size 4) and with the merit function. -/
theorem C94_example (f : Bool) : ∃ s2, retry llt1 20 true ((bentSolver f).start (some bentGuess) none 0) = some (true, s2) ∧
    shootGapNorm bent s2.xs s2.us ≠ 0 ∧ Small (Acceptable (checked s2).pushFilter) := by
  have h := bentDir_ok f
  cases e : bentDir f with
  | none => rw [e] at h; cases h
  | some r =>
    obtain ⟨b, s2⟩ := r
    rw [e] at h
    simp only [Option.map_some, Option.some.injEq, Prod.mk.injEq, decide_eq_false_iff_not, decide_eq_true_eq] at h
    obtain ⟨rfl, hk, hb, hg, hm, hc⟩ := h
    refine ⟨s2, e, hg, ?_⟩
    have hb : ¬ CostBlowsUp bent s2.xs s2.us := by
      rintro (⟨t, ht, h⟩ | h)
      · obtain rfl : t = 0 := Nat.lt_one_iff.mp ht
        exact hb (.inl h)
      · exact hb (.inr h)
    have hr : Reachable (bentSolver f) := by
      cases f
      · exact .setParams _ (SQP.new (Data.zero bent)).par (SQP.new (Data.zero bent)).tol 10 false (SQP.new (Data.zero bent)).extra (SQP.new (Data.zero bent)).ncb (.new _)
      · exact .setFilterSize _ _ (.new _)
    have hi : ∀ a ∈ (bentSolver f).par.alphas, bent.integrate bent.x0 (sv a (zeroV ℚ bent.ndx)) = bent.x0 := fun a _ => by
      change (1 : ℚ) + a * 0 = 1; ring
    have hd : bent.diff bent.x0 bent.x0 = 0 := by funext i; change (1 : ℚ) - 1 = 0; ring
    cases f with
    | true =>
      exact C94_sqp_filter_small_steps (by decide) llt1_exact bent_sym hr hi hd ((FilterWF.new _).grow 4 (by decide)) rfl 0 rfl rfl e hk
        (bent_derivs _ _) hb
    | false =>
      refine C94_sqp_merit_small_steps (by decide) llt1_exact bent_sym hr hi hd rfl 0 rfl rfl e hk (bent_derivs _ _) hb (.inr ⟨fun t ht i => ?_, hc⟩)
      obtain rfl : t = 0 := Nat.lt_one_iff.mp ht
      obtain rfl : i = (0 : Fin 1) := Subsingleton.elim (α := Fin 1) _ _
      exact hm

end Mim.Ex
