import Verif.Lemmas.DescentAlong
import Verif.Props.FDDPConvexLQ

/-!
# C95, C96: DDP and FDDP on nonlinear problems: small steps
-/
set_option linter.unusedSectionVars false
set_option linter.unusedSimpArgs false
set_option autoImplicit false

namespace Mim
open Spec DDP Matrix
variable {K : Type} [Field K] [LinearOrder K] [IsStrictOrderedRing K] {P : Problem K}
variable {llt : LLT K} {fuel : ℕ} {xs : Option (Traj P)} {us : Option (Ctrls P)} {fe : Bool} {ri : K} {s : DDP P}

namespace DDP
variable {k : Kind P} {s1 s2 : DDP P}

/-- derivative of the cost along the closed-loop rollout. -/
theorem slope_policy (hllt : LLTExact llt) {b0 : BP P} (hd : FreshDiff P s2.y.data s2.xs s2.us) (hP : SymProblem P)
    (hb : backwardPass llt s2.y.data s2.e.fs s2.feas s2.preg s2.dreg b0 = .ok s2.e.bp) :
    slope P s2.xs s2.us (s2.policy.dX s2.openGap) (s2.policy.dU s2.openGap) =
      ∑ t ∈ Finset.range (P.T + 1), (s2.e.bp.Vx t ⬝ᵥ s2.openGap t - s2.openGap t ⬝ᵥ (s2.e.bp.Vxx t *ᵥ s2.policy.dX s2.openGap t)) -
        ∑ t ∈ Finset.range P.T, s2.e.bp.Qu t ⬝ᵥ s2.e.bp.k t := by
  have hsym := freshDiff_symHess hd hP
  obtain ⟨hR, -⟩ := backward_riccati hllt hsym hb
  have := hR.slope (x := s2.policy.dX s2.openGap) (u := s2.policy.dU s2.openGap) rfl (fun t ht => by
    change s2.policy.dX s2.openGap (t + 1) = (s2.y.data.rd t).Fx *ᵥ _ + (s2.y.data.rd t).Fu *ᵥ _ + s2.openGap (t + 1)
    rw [hd.run t ht]
    rfl) (fun t _ => rfl)
  have e : slope P s2.xs s2.us (s2.policy.dX s2.openGap) (s2.policy.dU s2.openGap) =
      ∑ t ∈ Finset.range P.T, ((s2.y.data.rd t).Lx ⬝ᵥ s2.policy.dX s2.openGap t + (s2.y.data.rd t).Lu ⬝ᵥ s2.policy.dU s2.openGap t) +
        s2.y.data.td.Lx ⬝ᵥ s2.policy.dX s2.openGap P.T := by
    unfold slope
    rw [hd.ter, Finset.sum_congr rfl fun t ht => by rw [← hd.run t (Finset.mem_range.mp ht)]]
  rw [e]
  refine this.trans ?_
  congr 1
  · refine Finset.sum_congr rfl fun t _ => ?_
    change (s2.e.bp.Vx t - s2.e.bp.Vxx t *ᵥ s2.openGap t + s2.e.bp.Vxx t *ᵥ s2.openGap t) ⬝ᵥ s2.openGap t - _ = _
    rw [sub_add_cancel]
    rfl
  · refine Finset.sum_congr rfl fun t ht => ?_
    rw [dotProduct_comm]
    exact gain_quu hllt hsym hb t (Finset.mem_range.mp ht)

/-- near a trajectory that satisfies the dynamics. -/
theorem near_feasible (hret : ∀ x y, P.integrate x (P.diff x y) = y) (hself : ∀ x, P.diff x x = 0) (hf : Feasible P s2.xs s2.us)
    (hfs0 : s2.e.fs 0 = P.diff (s2.xs 0) P.x0) (hfs : ∀ t, t < P.T → s2.e.fs (t + 1) = shootGap P s2.xs s2.us t) :
    s2.policy.Near true s2.openGap ∧ ∀ t, t ≤ P.T → s2.openGap t = 0 := by
  have hz : ∀ t, t ≤ P.T → s2.openGap t = 0 := by
    intro t ht
    unfold openGap
    split
    · rfl
    · cases t with
      | zero => rw [hfs0, hf.1, hself]
      | succ t => rw [hfs t ht]; unfold shootGap; rw [hf.2 t ht, hself]
  refine ⟨⟨fun t x => hret _ _, fun a => ?_, fun t ht a x => ?_⟩, hz⟩
  · rw [hz 0 (Nat.zero_le _), smul_zero]
    change P.diff (s2.xs 0) P.x0 = 0
    rw [hf.1, hself]
  · rw [hz (t + 1) ht, smul_zero, zero_add]
    change P.diff (s2.xs (t + 1)) x = P.diff (P.calcR t (s2.xs t) (s2.us t)).xnext x
    rw [hf.2 t ht]

end DDP

/-- **C95 (a), DDP.**  Nonlinear problems, exact arithmetic.  Let the current trajectory satisfy the dynamics, `calcDiff` report the true first
derivatives there, and the cost not be declared to blow up.  With `th_grad > 0` and `th_acceptstep < 1`, all sufficiently small step lengths are
acceptable. -/
theorem C95_ddp_small_steps (hllt : LLTExact llt) (hP : SymProblem P) (hret : ∀ x y, P.integrate x (P.diff x y) = y) (hself : ∀ x, P.diff x x = 0)
    (hg : 0 < s.c.par.thGrad) (ha : s.c.par.thAccept < 1) (n : ℕ) {s1 s2 : DDP P}
    (h1 : iterate (ddp P) llt fuel n (s.start xs us fe ri) = some (none, s1)) (h2 : retry (ddp P) llt fuel s1 = some (true, s2))
    (hf : Feasible P s2.xs s2.us) (hD : TrueDerivsAlong P s2.xs s2.us) (hb : ¬ CostBlowsUp P s2.xs s2.us) :
    Small (AcceptDDP ((ddp P).push (checked (ddp P) s2))) := by
  obtain ⟨f1, f2, f3, f4⟩ := C17_ddp_directions_fresh (.inl rfl) n h1 h2
  obtain ⟨_, hbp, _⟩ := retry_spec ddp_laws h2
  obtain ⟨_, b0, hbp⟩ := hbp rfl
  obtain ⟨hN, hz⟩ := near_feasible hret hself hf f3 f4
  obtain ⟨d1, d2, d3, d4⟩ := C22_ddp_expected_improvement hllt hP n h1 h2
  have hsl := slope_policy hllt f1 hP hbp
  rw [Finset.sum_eq_zero fun t ht => by rw [hz t (Nat.lt_succ_iff.mp (Finset.mem_range.mp ht))]; simp, zero_sub, ← d1] at hsl
  have hc : ((ddp P).push (checked (ddp P) s2)).c = s.c :=
    (pushed_candidate ddp_laws h2).2.2.2.2.trans (iterate_headInv ddp_laws s xs us fe ri n h1).2.1
  have hdec : Small fun a => ltb ((ddp P).improve s2).m.d0 s.c.par.thGrad = true ∨
      s.c.par.thAccept * predicted ((ddp P).improve s2).m.d0 ((ddp P).improve s2).m.d1 a <
        trajCost P s2.xs s2.us - trajCost P (s2.policy.X true a) (s2.policy.U true a) := by
    by_cases h : ((ddp P).improve s2).m.d0 < s.c.par.thGrad
    · exact Small.triv.mono fun a _ _ => .inl (by rw [ltb_exact, decide_eq_true_eq]; exact h)
    · have hd0 : 0 < ((ddp P).improve s2).m.d0 := lt_of_lt_of_le hg (not_lt.mp h)
      have hc := hN.trajCost hD ((1 - max s.c.par.thAccept 0) * ((ddp P).improve s2).m.d0 / 2)
        (by have : max s.c.par.thAccept 0 < 1 := max_lt ha one_pos
            have := mul_pos (sub_pos.mpr this) hd0
            linarith)
      refine (hc.and (Small.le (c := (1 : K)) one_pos)).mono fun a h0 k => .inr ?_
      obtain ⟨k, ka⟩ := k
      rw [show slope P s2.policy.xs s2.policy.us (s2.policy.dX s2.openGap) (s2.policy.dU s2.openGap) = -((ddp P).improve s2).m.d0 from hsl] at k
      have k2 := (abs_le.mp k).2
      change trajCost P (s2.policy.X true a) (s2.policy.U true a) - trajCost P s2.xs s2.us - _ ≤ _ at k2
      rw [(d4 a).1]
      have hm1 : max s.c.par.thAccept 0 < 1 := max_lt ha one_pos
      have e1 : 0 ≤ a * (1 - a / 2) * ((ddp P).improve s2).m.d0 := mul_nonneg (mul_nonneg h0.le (by linarith)) hd0.le
      have e2 : s.c.par.thAccept * (a * (1 - a / 2) * ((ddp P).improve s2).m.d0) ≤ max s.c.par.thAccept 0 * (a * (1 - a / 2) * ((ddp P).improve s2).m.d0) :=
        mul_le_mul_of_nonneg_right (le_max_left _ _) e1
      have e3 : a * (1 - a / 2) * ((ddp P).improve s2).m.d0 ≤ a * ((ddp P).improve s2).m.d0 := by
        have : 0 ≤ a * a * ((ddp P).improve s2).m.d0 := by positivity
        linarith
      have e4 := mul_le_mul_of_nonneg_left e3 (le_max_right s.c.par.thAccept 0)
      have e5 : 0 < (1 - max s.c.par.thAccept 0) * ((ddp P).improve s2).m.d0 * a := mul_pos (mul_pos (sub_pos.mpr hm1) hd0) h0
      nlinarith
  refine ((hdec.and (hN.noBlowUp hD hb)).and (Small.le (c := (1 : K)) one_pos)).mono fun a h0 k => ?_
  obtain ⟨⟨k1, k2⟩, k3⟩ := k
  refine ⟨by simpa using k3, by simpa using h0.le, k2, ?_, ?_⟩
  · rw [leb_exact, decide_eq_true_eq]
    exact (d4 a).2 h0.le k3
  · rw [hc]
    rcases k1 with k1 | k1
    · exact .inl k1
    · refine .inr (.inr ?_)
      change ltb _ (s2.e.cost - trajCost P (s2.policy.X true a) (s2.policy.U true a)) = true
      rw [f2, ltb_exact, decide_eq_true_eq]
      exact k1

/-- **C95 (b).**  So DDP's line search succeeds as soon as its list of step lengths has a sufficiently small member. -/
theorem C95_ddp_search_succeeds {z : DDP P} (h0 : z.y.xs 0 = P.x0) (h : Small (AcceptDDP z)) :
    ∃ δ : K, 0 < δ ∧ ((∃ a ∈ z.c.par.alphas, 0 < a ∧ a ≤ δ) → (search (ddp P) z).nRej = z.nRej ∧ (search (ddp P) z).feas = true ∧
      ∃ b ∈ z.c.par.alphas, AcceptDDP z b ∧ ∀ t, t ≤ P.T → (search (ddp P) z).xs t = z.policy.X true b t) := by
  obtain ⟨δ, hδ, h⟩ := h
  refine ⟨δ, hδ, ?_⟩
  rintro ⟨a, ha, a0, a1⟩
  rcases C16_ddp_first_acceptable z h0 with ⟨pre, b, post, e, -, g3, g4, -, -, g6, -, g7, -⟩ | ⟨hn, -⟩
  · exact ⟨g7, g6, b, by rw [e]; simp, g3, g4⟩
  · exact absurd (h a a0 a1) (hn a ha)

/-! ## FDDP -/

namespace DDP
variable {s1 s2 : DDP P} {φ : P.X → Vec K P.ndx}

theorem near_open (hE : Euclid P φ) (hf : s2.feas = true → Feasible P s2.xs s2.us)
    (hfs0 : s2.e.fs 0 = P.diff (s2.xs 0) P.x0) (hfs : ∀ t, t < P.T → s2.e.fs (t + 1) = shootGap P s2.xs s2.us t) :
    s2.policy.Near s2.feas s2.openGap := by
  have hret : ∀ x y, P.integrate x (P.diff x y) = y := fun x y => hE.inj _ _ (by rw [hE.integrate, hE.diff]; abel)
  cases hfe : s2.feas with
  | true => exact (near_feasible hret (fun x => by rw [hE.diff, sub_self]) (hf hfe) hfs0 hfs).1
  | false =>
    have hog : ∀ t, s2.openGap t = s2.e.fs t := fun t => by unfold openGap; rw [hfe]; simp
    refine ⟨fun t x => hret _ _, fun a => ?_, fun t ht a x => ?_⟩
    · change P.diff (s2.xs 0) (P.integrate P.x0 ((a - 1) • s2.e.fs 0)) = _
      rw [hog, hE.diff, hE.integrate, hfs0, hE.diff]
      module
    · change P.diff (s2.xs (t + 1)) (P.integrate x ((a - 1) • s2.e.fs (t + 1))) = a • s2.openGap (t + 1) + P.diff (P.calcR t (s2.xs t) (s2.us t)).xnext x
      rw [hog, hE.diff, hE.integrate, hfs t ht]
      unfold shootGap
      rw [hE.diff, hE.diff]
      module

theorem dvAt_sum (z : DDP P) (hE : Euclid P φ) (X : Traj P) :
    z.dvAt X = ∑ t ∈ Finset.range (P.T + 1), z.openGap t ⬝ᵥ (z.e.bp.Vxx t *ᵥ P.diff (z.xs t) (X t)) := by
  have hneg : ∀ t, P.diff (X t) (z.xs t) = -P.diff (z.xs t) (X t) := fun t => by rw [hE.diff, hE.diff]; abel
  unfold dvAt
  cases hf : z.feas with
  | true =>
    rw [if_pos rfl]
    exact (Finset.sum_eq_zero fun t _ => by unfold openGap; rw [hf]; simp).symm
  | false =>
    have hog : ∀ t, z.openGap t = z.e.fs t := fun t => by unfold openGap; rw [hf]; simp
    rw [if_neg (by simp)]
    have key : ∀ n, forUp n (fun t acc => acc - dot (z.e.fs t) (mv (z.e.bp.Vxx t) (P.diff (X t) (z.xs t))))
        (0 - dot (z.e.fs P.T) (mv (z.e.bp.Vxx P.T) (P.diff (X P.T) (z.xs P.T)))) =
        ∑ t ∈ Finset.range n, z.openGap t ⬝ᵥ (z.e.bp.Vxx t *ᵥ P.diff (z.xs t) (X t)) +
          z.openGap P.T ⬝ᵥ (z.e.bp.Vxx P.T *ᵥ P.diff (z.xs P.T) (X P.T)) := by
      intro n
      induction n with
      | zero =>
        change 0 - dot _ _ = _
        rw [dot_exact, mv_exact, hneg, mulVec_neg, dotProduct_neg, hog]
        simp
      | succ n ih =>
        rw [forUp_succ, ih, Finset.sum_range_succ, dot_exact, mv_exact, hneg, mulVec_neg, dotProduct_neg, hog n]
        ring
    rw [key, Finset.sum_range_succ]

/-- slope of the actual decrease of the cost along FDDP's trials beyond the one FDDP predicts. -/
def missed (z : DDP P) : K := ∑ t ∈ Finset.range (P.T + 1), z.openGap t ⬝ᵥ (z.e.bp.Vxx t *ᵥ z.policy.dX z.openGap t)

end DDP

/-- **C96 (a).**  FDDP on nonlinear problems, first order in the step length.  The cost of the trial decreases at the rate `dg + missed`, where
`missed = Σ_t f_t · Vxx_t δx_t` (`f_t` the gaps, `δx` the velocity of the states of the trial); the decrease FDDP predicts has the rate `dg`. -/
theorem C96_fddp_first_order (hllt : LLTExact llt) (hP : SymProblem P) {φ : P.X → Vec K P.ndx} (hE : Euclid P φ) (n : ℕ) {s1 s2 : DDP P}
    (h1 : iterate (fddp P) llt fuel n (s.start xs us fe ri) = some (none, s1)) (h2 : retry (fddp P) llt fuel s1 = some (true, s2))
    (hf : s2.feas = true → Feasible P s2.xs s2.us) (hD : TrueDerivsAlong P s2.xs s2.us) :
    let z := (fddp P).push (checked (fddp P) s2)
    Deriv0 (fun a => z.e.cost - trajCost P (z.policy.X (z.closes a) a) (z.policy.U (z.closes a) a)) 0 (z.m.dg + z.missed) ∧
    Deriv0 z.predictedFDDP 0 z.m.dg ∧ Deriv0 (fun a => z.m.dg + z.dvAt (z.policy.X (z.closes a) a)) z.m.dg z.missed := by
  obtain ⟨f1, f2, f3, f4⟩ := C17_ddp_directions_fresh (.inr rfl) n h1 h2
  obtain ⟨_, hbp, _⟩ := retry_spec fddp_laws h2
  obtain ⟨_, b0, hbp⟩ := hbp rfl
  have hN := near_open hE hf f3 f4
  have hsl := slope_policy hllt f1 hP hbp
  obtain ⟨g1, -⟩ := improveFDDP_exact hllt (freshDiff_symHess f1 hP) hbp
  intro z
  have hcl : Small fun a => z.closes a = s2.feas := by
    refine (Small.le (c := (1 / 2 : K)) (by norm_num)).mono fun a h0 k => ?_
    change (s2.feas || eqb a 1) = s2.feas
    rw [eqb_exact, decide_eq_false (by intro h; rw [h] at k; norm_num at k), Bool.or_false]
  have hdg : z.m.dg = ∑ t ∈ Finset.range P.T, s2.e.bp.Qu t ⬝ᵥ s2.e.bp.k t - ∑ t ∈ Finset.range (P.T + 1), s2.e.bp.Vx t ⬝ᵥ s2.openGap t := g1
  have hmis : z.missed = ∑ t ∈ Finset.range (P.T + 1), s2.openGap t ⬝ᵥ (s2.e.bp.Vxx t *ᵥ s2.policy.dX s2.openGap t) := rfl
  have hdv : Deriv0 (fun a => z.dvAt (z.policy.X (z.closes a) a)) 0 z.missed := by
    have : Deriv0 (fun a => ∑ t ∈ Finset.range (P.T + 1), s2.openGap t ⬝ᵥ (s2.e.bp.Vxx t *ᵥ P.diff (s2.xs t) (s2.policy.X s2.feas a t)))
        (∑ t ∈ Finset.range (P.T + 1), 0) z.missed := by
      rw [hmis]
      exact Deriv0.sum _ fun t ht => ((hN.curve hD t (by omega)).mulVec _).dot _
    rw [Finset.sum_const_zero] at this
    refine this.congr (hcl.mono fun a _ k => ?_)
    rw [k, dvAt_sum z hE]
    rfl
  have hd0 := (Deriv0.const z.m.dg).add hdv
  simp only [zero_add, add_zero] at hd0
  refine ⟨?_, ?_, hd0⟩
  · have := (Deriv0.const s2.e.cost).add ((hN.trajCost hD).smul (-1))
    rw [f2, show trajCost P s2.policy.xs s2.policy.us = trajCost P s2.xs s2.us from rfl] at this
    rw [show slope P s2.policy.xs s2.policy.us (s2.policy.dX s2.openGap) (s2.policy.dU s2.openGap) = _ from hsl, Finset.sum_sub_distrib] at this
    rw [hdg, hmis]
    have e : trajCost P s2.xs s2.us + -1 * trajCost P s2.xs s2.us = 0 := by ring
    rw [e] at this
    refine (show Deriv0 _ _ _ from ?_)
    have e2 : ∑ t ∈ Finset.range P.T, s2.e.bp.Qu t ⬝ᵥ s2.e.bp.k t - ∑ t ∈ Finset.range (P.T + 1), s2.e.bp.Vx t ⬝ᵥ s2.openGap t +
        ∑ t ∈ Finset.range (P.T + 1), s2.openGap t ⬝ᵥ (s2.e.bp.Vxx t *ᵥ s2.policy.dX s2.openGap t) =
        0 + -1 * (∑ t ∈ Finset.range (P.T + 1), s2.e.bp.Vx t ⬝ᵥ s2.openGap t -
          ∑ t ∈ Finset.range (P.T + 1), s2.openGap t ⬝ᵥ (s2.e.bp.Vxx t *ᵥ s2.policy.dX s2.openGap t) -
          ∑ t ∈ Finset.range P.T, s2.e.bp.Qu t ⬝ᵥ s2.e.bp.k t) := by ring
    rw [e2]
    refine this.congr (hcl.mono fun a _ k => ?_)
    rw [k]
    change s2.e.cost - trajCost P (s2.policy.X s2.feas a) (s2.policy.U s2.feas a) = _
    rw [f2]
    ring
  · have h3 := ((hd0.add (((Deriv0.const (z.m.dq)).add (hdv.smul (-2))).mulSelf.smul (1 / 2))).mulSelf)
    simp only [mul_zero, add_zero] at h3
    refine h3.congr (Small.triv.mono fun a _ _ => ?_)
    unfold predictedFDDP predicted
    simp only [lit_exact]
    push_cast
    ring

/-- what is left of FDDP's acceptance test for small steps. -/
theorem fddp_small {z : DDP P} (hu : z.c.useFilter = false) (hb : Small fun a => ¬ z.policy.BlowsUp (z.closes a) a)
    (h : Small fun a => (0 ≤ z.predictedFDDP a ∧ (z.m.dg + z.dvAt (z.policy.X (z.closes a) a) < z.c.par.thGrad ∨
      z.c.par.thAccept * z.predictedFDDP a < z.e.cost - trajCost P (z.policy.X (z.closes a) a) (z.policy.U (z.closes a) a))) ∨
      (z.predictedFDDP a < 0 ∧ z.c.thNeg * z.predictedFDDP a < z.e.cost - trajCost P (z.policy.X (z.closes a) a) (z.policy.U (z.closes a) a))) :
    Small (AcceptFDDP z) := by
  refine ((h.and hb).and (Small.le (c := (1 : K)) one_pos)).mono fun a h0 k => ?_
  obtain ⟨⟨k1, k2⟩, k3⟩ := k
  refine ⟨by simpa using k3, by simpa using h0.le, k2, ?_⟩
  rw [if_neg (by rw [hu]; simp)]
  simpa only [leb_exact, ltb_exact, decide_eq_true_eq, decide_eq_false_iff_not, not_le] using k1

theorem fddp_closes (z : DDP P) : Small fun a => z.closes a = z.feas := by
  refine (Small.le (c := (1 / 2 : K)) (by norm_num)).mono fun a h0 k => ?_
  change (z.feas || eqb a 1) = z.feas
  rw [eqb_exact, decide_eq_false (by intro h; rw [h] at k; norm_num at k), Bool.or_false]

section
variable {φ : P.X → Vec K P.ndx} {s1 s2 : DDP P}

theorem fddp_noBlowUp (hE : Euclid P φ) (n : ℕ)
    (h1 : iterate (fddp P) llt fuel n (s.start xs us fe ri) = some (none, s1)) (h2 : retry (fddp P) llt fuel s1 = some (true, s2))
    (hf : s2.feas = true → Feasible P s2.xs s2.us) (hD : TrueDerivsAlong P s2.xs s2.us) (hb : ¬ CostBlowsUp P s2.xs s2.us) :
    Small fun a => ¬ ((fddp P).push (checked (fddp P) s2)).policy.BlowsUp (((fddp P).push (checked (fddp P) s2)).closes a) a := by
  obtain ⟨f1, f2, f3, f4⟩ := C17_ddp_directions_fresh (.inr rfl) n h1 h2
  have hN := near_open hE hf f3 f4
  refine ((hN.noBlowUp hD hb).and (fddp_closes ((fddp P).push (checked (fddp P) s2)))).mono fun a _ k => ?_
  rw [k.2]
  exact k.1

/-- **C96 (b), when FDDP accepts small steps.**  Without the filter, all sufficiently small steps are accepted if the rate `dg` of the predicted
decrease is positive and `th_acceptstep` times it is less than the rate `dg + missed` of the actual one (or `dg < th_grad`), or if it is negative
and `th_acceptnegstep` times it is less than the actual one. -/
theorem C96_fddp_small_accepted (hllt : LLTExact llt) (hP : SymProblem P) (hE : Euclid P φ) (n : ℕ)
    (h1 : iterate (fddp P) llt fuel n (s.start xs us fe ri) = some (none, s1)) (h2 : retry (fddp P) llt fuel s1 = some (true, s2))
    (hu : s.c.useFilter = false)
    (hf : s2.feas = true → Feasible P s2.xs s2.us) (hD : TrueDerivsAlong P s2.xs s2.us) (hb : ¬ CostBlowsUp P s2.xs s2.us) :
    let z := (fddp P).push (checked (fddp P) s2)
    (0 < z.m.dg ∧ (z.m.dg < s.c.par.thGrad ∨ s.c.par.thAccept * z.m.dg < z.m.dg + z.missed)) ∨
      (z.m.dg < 0 ∧ s.c.thNeg * z.m.dg < z.m.dg + z.missed) → Small (AcceptFDDP z) := by
  intro z hz
  have hc : z.c = s.c := (pushed_candidate fddp_laws h2).2.2.2.2.trans (iterate_headInv fddp_laws s xs us fe ri n h1).2.1
  obtain ⟨d1, d2, d3⟩ := C96_fddp_first_order hllt hP hE n h1 h2 hf hD
  refine fddp_small (by rw [hc]; exact hu) (fddp_noBlowUp hE n h1 h2 hf hD hb) ?_
  rw [hc]
  rcases hz with ⟨p1, p2⟩ | ⟨p1, p2⟩
  · have e1 := d2.asc p1
    rcases p2 with p2 | p2
    · exact (e1.and (d3.lim p2)).mono fun a _ k => .inl ⟨k.1.le, .inl k.2⟩
    · have e2 := d1.add (d2.smul (-s.c.par.thAccept))
      rw [mul_zero, add_zero] at e2
      have e3 := e2.asc (by linarith)
      refine (e1.and e3).mono fun a _ k => .inl ⟨k.1.le, .inr ?_⟩
      have := k.2
      linarith
  · have e1 := d2.desc p1
    have e2 := d1.add (d2.smul (-s.c.thNeg))
    rw [mul_zero, add_zero] at e2
    have e3 := e2.asc (by linarith)
    refine (e1.and e3).mono fun a _ k => .inr ⟨k.1, ?_⟩
    have := k.2
    linarith

/-- **C96 (c), when FDDP refuses them.**  If the inequalities hold the other way round, all sufficiently small steps are refused. -/
theorem C96_fddp_small_refused (hllt : LLTExact llt) (hP : SymProblem P) (hE : Euclid P φ) (n : ℕ)
    (h1 : iterate (fddp P) llt fuel n (s.start xs us fe ri) = some (none, s1)) (h2 : retry (fddp P) llt fuel s1 = some (true, s2))
    (hu : s.c.useFilter = false)
    (hf : s2.feas = true → Feasible P s2.xs s2.us) (hD : TrueDerivsAlong P s2.xs s2.us) :
    let z := (fddp P).push (checked (fddp P) s2)
    (0 < z.m.dg ∧ s.c.par.thGrad < z.m.dg ∧ z.m.dg + z.missed < s.c.par.thAccept * z.m.dg) ∨
      (z.m.dg < 0 ∧ z.m.dg + z.missed < s.c.thNeg * z.m.dg) → Small fun a => ¬ AcceptFDDP z a := by
  intro z hz
  have hc : z.c = s.c := (pushed_candidate fddp_laws h2).2.2.2.2.trans (iterate_headInv fddp_laws s xs us fe ri n h1).2.1
  obtain ⟨d1, d2, d3⟩ := C96_fddp_first_order hllt hP hE n h1 h2 hf hD
  have key : Small fun a => (0 < z.predictedFDDP a ∧ s.c.par.thGrad < z.m.dg + z.dvAt (z.policy.X (z.closes a) a) ∧
      z.e.cost - trajCost P (z.policy.X (z.closes a) a) (z.policy.U (z.closes a) a) < s.c.par.thAccept * z.predictedFDDP a) ∨
      (z.predictedFDDP a < 0 ∧ z.e.cost - trajCost P (z.policy.X (z.closes a) a) (z.policy.U (z.closes a) a) < s.c.thNeg * z.predictedFDDP a) := by
    rcases hz with ⟨p1, p2, p3⟩ | ⟨p1, p2⟩
    · have e1 := d2.asc p1
      have e2 := d1.add (d2.smul (-s.c.par.thAccept))
      rw [mul_zero, add_zero] at e2
      have e3 := e2.desc (by linarith)
      refine ((e1.and e3).and (d3.lim' p2)).mono fun a _ k => .inl ⟨k.1.1, k.2, ?_⟩
      have := k.1.2
      linarith
    · have e1 := d2.desc p1
      have e2 := d1.add (d2.smul (-s.c.thNeg))
      rw [mul_zero, add_zero] at e2
      have e3 := e2.desc (by linarith)
      refine (e1.and e3).mono fun a _ k => .inr ⟨k.1, ?_⟩
      have := k.2
      linarith
  refine key.mono fun a _ k hA => ?_
  obtain ⟨-, -, -, hA⟩ := hA
  rw [if_neg (by rw [hc, hu]; simp), hc] at hA
  simp only [leb_exact, ltb_exact, decide_eq_true_eq, decide_eq_false_iff_not, not_le] at hA
  rcases k with ⟨k1, k2, k3⟩ | ⟨k1, k2⟩
  · rcases hA with ⟨_, a2 | a2⟩ | ⟨a1, _⟩ <;> linarith
  · rcases hA with ⟨a1, _⟩ | ⟨_, a2⟩ <;> linarith

/-- **C95 (c), FDDP.**  From a trajectory that satisfies the dynamics and is declared feasible, without the filter, all sufficiently small steps
are acceptable. -/
theorem C95_fddp_small_steps (hllt : LLTExact llt) (hP : SymProblem P) (hE : Euclid P φ)
    (hg : 0 < s.c.par.thGrad) (ha : s.c.par.thAccept < 1) (n : ℕ)
    (h1 : iterate (fddp P) llt fuel n (s.start xs us fe ri) = some (none, s1)) (h2 : retry (fddp P) llt fuel s1 = some (true, s2))
    (hu : s.c.useFilter = false) (hfe : s2.feas = true)
    (hf : Feasible P s2.xs s2.us) (hD : TrueDerivsAlong P s2.xs s2.us) (hb : ¬ CostBlowsUp P s2.xs s2.us) :
    Small (AcceptFDDP ((fddp P).push (checked (fddp P) s2))) := by
  obtain ⟨f1, f2, f3, f4⟩ := C17_ddp_directions_fresh (.inr rfl) n h1 h2
  obtain ⟨_, hbp, _⟩ := retry_spec fddp_laws h2
  obtain ⟨_, b0, hbp⟩ := hbp rfl
  obtain ⟨g1, g2⟩ := improveFDDP_exact hllt (freshDiff_symHess f1 hP) hbp
  have hog : ∀ t, s2.openGap t = 0 := fun t => by unfold openGap; rw [hfe]; simp
  have hsum : ∀ f : ℕ → K, (∀ t, f t = 0) → ∑ t ∈ Finset.range (P.T + 1), f t = 0 := fun f h => Finset.sum_eq_zero fun t _ => h t
  rw [hsum _ fun t => by rw [hog, dotProduct_zero], sub_zero] at g1
  rw [hsum _ fun t => by rw [hog, zero_dotProduct], zero_sub] at g2
  have hnn : 0 ≤ (checked (fddp P) s2).m.dg := by
    rw [g1]; exact Finset.sum_nonneg fun t ht => (gain_pos hllt (freshDiff_symHess f1 hP) hbp t (Finset.mem_range.mp ht)).1
  have hmis : ((fddp P).push (checked (fddp P) s2)).missed = 0 := hsum _ fun t => by
    rw [show ((fddp P).push (checked (fddp P) s2)).openGap t = s2.openGap t from rfl, hog, zero_dotProduct]
  rcases hnn.eq_or_lt with h0 | h0
  · have hc : ((fddp P).push (checked (fddp P) s2)).c = s.c :=
      (pushed_candidate fddp_laws h2).2.2.2.2.trans (iterate_headInv fddp_laws s xs us fe ri n h1).2.1
    have hdv : ∀ X, ((fddp P).push (checked (fddp P) s2)).dvAt X = 0 := fun X => by
      unfold dvAt
      rw [if_pos (show ((fddp P).push (checked (fddp P) s2)).feas = true from hfe)]
    have hz1 : ((fddp P).push (checked (fddp P) s2)).m.dg = 0 := h0.symm
    have hz2 : ((fddp P).push (checked (fddp P) s2)).m.dq = 0 := by
      change (checked (fddp P) s2).m.dq = 0
      rw [g2, ← g1, ← h0, neg_zero]
    refine fddp_small (by rw [hc]; exact hu) (fddp_noBlowUp hE n h1 h2 (fun _ => hf) hD hb) (Small.triv.mono fun a _ _ => .inl ⟨?_, .inl ?_⟩)
    · unfold predictedFDDP predicted
      rw [hdv, hz1, hz2]
      simp
    · rw [hdv, hz1, hc, add_zero]
      exact hg
  · refine C96_fddp_small_accepted hllt hP hE n h1 h2 hu (fun _ => hf) hD hb (.inl ⟨h0, .inr ?_⟩)
    rw [hmis, add_zero]
    change s.c.par.thAccept * (checked (fddp P) s2).m.dg < (checked (fddp P) s2).m.dg
    nlinarith

end

end Mim
