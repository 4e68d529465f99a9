import Verif.Lemmas.QPStop
import Mathlib.Algebra.Order.Archimedean.Basic

/-!
# C53, C54: the QP iterations approach the solutions of the QP, and the QP loop ends by itself
-/
set_option linter.unusedSectionVars false
set_option linter.unusedSimpArgs false

namespace Mim
open QP Spec Matrix

section
variable {K : Type} [Field K] [LinearOrder K] [IsStrictOrderedRing K] [SqrtOps K] {P : Problem K}
variable {llt : LLT K} {E : QEnv P}

/-- every executed iteration leaves a clamped state. -/
theorem AtIter.clamped (hb : BoundsOK P) {q0 q : CQP P} (h : AtIter llt E q0 q) (hp : q.exec ≠ 0)
    (hr : ∀ q, AtIter llt E q0 q → ∀ t, t ≤ P.T → ∀ i, 0 < q.v.rho t i ∧ q.v.inv t i = 1 / q.v.rho t i) : Clamped E q.v := by
  obtain ⟨q1, q', h1, _, hs, _, rfl, _⟩ := h.exec_pos hp
  obtain ⟨a, b, c⟩ := C27_csqp_iteration hb (q := { q1 with tick := q1.tick + 1 }) (hr q1 h1) hs
  rw [(between_v (E := E) q').1]
  exact ⟨a, b, c⟩

/-- what a tolerance check that fails costs. -/
theorem check_cost (E : QEnv P) (hb : BoundsOK P) (rho : (t : ℕ) → Vec K (P.ng t)) (hrho : ∀ t, t ≤ P.T → ∀ i, 0 < rho t i) (ha : 0 ≤ E.c.alpha)
    (hea : 0 < E.c.epsAbs) (her : 0 ≤ E.c.epsRel) (her1 : E.c.epsRel ≤ 1) :
    ∃ κ : K, 0 < κ ∧ ∀ q q' : CQP P, q.v.rho = rho → (∀ t, t ≤ P.T → ∀ i, q.v.inv t i = 1 / rho t i) → Clamped E q.v → q.step llt E = .ok q' →
      q.qpIters % E.c.interval = 0 → (q'.setTol E.c).converged = false → κ ≤ splitGap E.d rho q'.v.dx q'.v.du q.v.z := by
  obtain ⟨C, hC, c1, c2⟩ := dual_const E rho
  obtain ⟨m, hm, hmr⟩ := rho_lower rho hrho
  set al := E.c.alpha
  have hden : 0 < 1 + al + al * C := by have := mul_nonneg ha hC; linarith
  set δ := E.c.epsAbs / (1 + al + al * C) with hδ
  have hδ0 : 0 < δ := div_pos hea hden
  have hδe : (1 + al + al * C) * δ = E.c.epsAbs := by rw [hδ]; field_simp
  have h1 : (1 + al) * δ ≤ E.c.epsAbs := by
    rw [← hδe]; exact mul_le_mul_of_nonneg_right (by have := mul_nonneg ha hC; linarith) hδ0.le
  have h2 : C * (al * δ) ≤ E.c.epsAbs := by
    rw [← hδe]
    have : (1 + al) * δ ≥ 0 := mul_nonneg (by linarith) hδ0.le
    linarith [show C * (al * δ) = al * C * δ by ring, show (1 + al + al * C) * δ = (1 + al) * δ + al * C * δ by ring]
  refine ⟨m * δ ^ 2, by positivity, fun q q' hq hinv hcl hst hi hf => ?_⟩
  by_contra hn
  push Not at hn
  obtain ⟨g1, g2⟩ := splitGap_rows hrho hm hmr hδ0.le hn.le
  have hr : ∀ t, t ≤ P.T → ∀ i, 0 < q.v.rho t i ∧ q.v.inv t i = 1 / q.v.rho t i := fun t ht i => by
    rw [hq]; exact ⟨hrho t ht i, hinv t ht i⟩
  obtain ⟨b1, b2, b3⟩ := C27_csqp_iteration hb hr hst
  obtain ⟨m1, m2⟩ := step_move hst
  have hz : ∀ t, t < P.T → AllLe (q'.v.z t - q.v.z t) (al * δ) := fun t ht i => by
    refine row_move (hr t ht.le i).1 ha (m1 t ht i) ?_ (g1 t ht i)
    have := cone_row (b1 t ht).2 (b1 t ht).1 (hcl.run t ht).2 (hcl.run t ht).1 i
    simpa only [Pi.add_apply, add_sub_add_left_eq_sub] using this
  have hzT : AllLe (q'.v.z P.T - q.v.z P.T) (al * δ) := fun i => by
    refine row_move (hr _ le_rfl i).1 ha (m2 i) ?_ (g2 i)
    have := cone_row b3 b2 hcl.ter.2 hcl.ter.1 i
    simpa only [Pi.add_apply, add_sub_add_left_eq_sub] using this
  have hN := C32_csqp_norms hst (Nat.dvd_of_mod_eq_zero hi)
  have hp : ∀ {n : ℕ} {c z z' : Vec K n}, AllLe (c - z) δ → AllLe (z' - z) (al * δ) → AllLe (c - z') E.c.epsAbs := by
    intro n c z z' h3 h4 i
    have e : (c - z') i = (c - z) i - (z' - z) i := by simp only [Pi.sub_apply]; ring
    rw [e]
    refine (abs_sub _ _).trans ?_
    have := h3 i
    have := h4 i
    linarith
  rcases fails_rows hst hi hea.le her her1 hf with h | h
  · refine absurd ((hN.p _ hea.le).mpr ⟨fun t ht => hp (g1 t ht) (hz t ht), hp g2 hzT⟩) (not_le.mpr h)
  · have hal : 0 ≤ al * δ := mul_nonneg ha hδ0.le
    refine absurd ((hN.d _ hea.le).mpr ⟨fun t ht => ?_, ?_⟩) (not_le.mpr h)
    · rw [hq]; exact dualLe_mono (c1 t ht _ _ hal (hz t ht)) h2
    · rw [hq]; exact dualLeT_mono (c2 _ _ hal hzT) h2

/-- **C54, unchanged penalties.** From every executed iteration on, only finitely many iterations follow during which neither the
tolerance test succeeds, nor time runs out, nor a penalty changes, provided the QP is convex and has a KKT point. -/
theorem C54_csqp_steady_finite [Archimedean K] (hllt : LLTExact llt) (hsym : SymHess E.d) (hcv : Convex E.d E.preg E.dreg)
    (hs : ∀ l, E.sched = some l → SchedOK P l) (hb : BoundsOK P) (hs0 : 0 ≤ E.c.sigma) (ha : 0 < E.c.alpha) (ha2 : E.c.alpha < 2)
    (hea : 0 < E.c.epsAbs) (her : 0 ≤ E.c.epsRel) (her1 : E.c.epsRel ≤ 1) (hint : 0 < E.c.interval)
    {q0 q : CQP P} (h0 : CSQP.Zero0 q0) (h : AtIter llt E q0 q) (hcl : Clamped E q.v)
    (hr : ∀ t, t ≤ P.T → ∀ i, 0 < q.v.rho t i ∧ q.v.inv t i = 1 / q.v.rho t i)
    (hk : ∃ xs us lams ys, QPKKT E.d E.fs E.preg E.dreg xs us lams ys) :
    ∃ N, ∀ p, Steady llt E q p → p.exec ≤ q.exec + N := by
  obtain ⟨xs, us, lams, ys, hk⟩ := hk
  obtain ⟨κ, hκ, hcost⟩ := check_cost (llt := llt) E hb q.v.rho (fun t ht i => (hr t ht i).1) ha.le hea her her1
  set D : CQP P → K := fun p => admmDist E.d q.v.rho E.c.sigma E.c.alpha p.v.dx p.v.du p.v.z p.v.y xs us ys with hD
  set c0 := E.c.alpha * (2 - E.c.alpha) with hc0
  have hc0p : 0 < c0 := mul_pos ha (by linarith)
  have key : ∀ p, Steady llt E q p → q.exec ≤ p.exec ∧ Clamped E p.v ∧
      D p + c0 * κ * ((p.exec / E.c.interval - q.exec / E.c.interval : ℕ) : K) ≤ D q := by
    intro p hp
    induction hp with
    | here => exact ⟨le_rfl, hcl, by simp⟩
    | @next p1 p' hp ht hst hn hr' ih =>
      obtain ⟨i1, i2, i3⟩ := ih
      have hat := hp.at h
      have hrho := hp.rho
      have hr1 : ∀ t, t ≤ P.T → ∀ i, 0 < p1.v.rho t i ∧ p1.v.inv t i = 1 / p1.v.rho t i := by rw [hrho.1, hrho.2]; exact hr
      have hfe := fejer_step hllt hsym hcv hs h0 hat (fun t ht i => (hr1 t ht i).1) i2 ha.le hst hk
      rw [hrho.1] at hfe
      obtain ⟨b1, b2, b3⟩ := C27_csqp_iteration hb (q := { p1 with tick := p1.tick + 1 }) hr1 hst
      have ev := (between_v (E := E) p').1
      have ee : (p'.between E).exec = p1.exec + 1 := by rw [(between_v (E := E) p').2.2.2.1, (step_misc hst).1]
      have hg := splitGap_nonneg (d := E.d) (fun t ht i => (hr t ht i).1) p'.v.dx p'.v.du p1.v.z
      have hsd := mul_nonneg (mul_nonneg ha.le hs0) (stepDist_nonneg (P := P) p'.v.dx p1.v.dx p'.v.du p1.v.du)
      refine ⟨by omega, ?_, ?_⟩
      · rw [ev]; exact ⟨b1, b2, b3⟩
      have hDp : D (p'.between E) = admmDist E.d q.v.rho E.c.sigma E.c.alpha p'.v.dx p'.v.du p'.v.z p'.v.y xs us ys := by
        simp only [hD, ev]
      rw [hDp, ee]
      have hcnt := hat.count
      have hmis := (step_misc hst).2.1
      simp only [] at hmis
      by_cases hi : p'.qpIters % E.c.interval = 0
      · have hκ' := hcost { p1 with tick := p1.tick + 1 } p' hrho.1 (fun t ht i => by rw [← hrho.1]; exact (hr1 t ht i).2) i2 hst
          (by simp only []; rw [← hmis]; exact hi) (hn hi)
        have hdiv : (p1.exec + 1) / E.c.interval = p1.exec / E.c.interval + 1 := by
          rw [Nat.succ_div, if_pos]
          rw [← hcnt, ← hmis]; exact Nat.dvd_of_mod_eq_zero hi
        have hle : q.exec / E.c.interval ≤ p1.exec / E.c.interval := Nat.div_le_div_right i1
        have hcast : (((p1.exec + 1) / E.c.interval - q.exec / E.c.interval : ℕ) : K) =
            ((p1.exec / E.c.interval - q.exec / E.c.interval : ℕ) : K) + 1 := by
          rw [hdiv, Nat.sub_add_comm hle]; push_cast; ring
        rw [hcast]
        have := mul_le_mul_of_nonneg_left hκ' hc0p.le
        simp only [] at this
        change D p1 + _ ≤ _ at i3
        change _ ≤ D p1 at hfe
        linarith [show c0 * κ * (((p1.exec / E.c.interval - q.exec / E.c.interval : ℕ) : K) + 1) =
          c0 * κ * ((p1.exec / E.c.interval - q.exec / E.c.interval : ℕ) : K) + c0 * κ by ring]
      · have hdiv : (p1.exec + 1) / E.c.interval = p1.exec / E.c.interval := by
          rw [Nat.succ_div, if_neg, add_zero]
          rw [← hcnt, ← hmis]; exact fun hd => hi (Nat.mod_eq_zero_of_dvd hd)
        rw [hdiv]
        have := mul_nonneg hc0p.le hg
        change _ ≤ D p1 at hfe
        linarith
  obtain ⟨n, hn⟩ := exists_nat_gt (D q / (c0 * κ))
  refine ⟨(n + 1) * E.c.interval, fun p hp => ?_⟩
  obtain ⟨k1, k2, k3⟩ := key p hp
  have hDp : 0 ≤ D p := admmDist_nonneg (fun t ht i => (hr t ht i).1) hs0 ha.le _ _ _ _ _ _ _
  have hk0 : 0 < c0 * κ := mul_pos hc0p hκ
  rw [div_lt_iff₀ hk0] at hn
  have hlt : ((p.exec / E.c.interval - q.exec / E.c.interval : ℕ) : K) < n := by
    have : ((p.exec / E.c.interval - q.exec / E.c.interval : ℕ) : K) * (c0 * κ) < n * (c0 * κ) := by
      have e : c0 * κ * ((p.exec / E.c.interval - q.exec / E.c.interval : ℕ) : K) =
        ((p.exec / E.c.interval - q.exec / E.c.interval : ℕ) : K) * (c0 * κ) := by ring
      linarith
    exact lt_of_mul_lt_mul_right this hk0.le
  have hlt' : p.exec / E.c.interval - q.exec / E.c.interval < n := by exact_mod_cast hlt
  have e1 := Nat.div_add_mod p.exec E.c.interval
  have e2 := Nat.div_add_mod q.exec E.c.interval
  have e3 := Nat.mod_lt p.exec hint
  have e4 : p.exec / E.c.interval ≤ q.exec / E.c.interval + n := by omega
  have e5 := Nat.mul_le_mul_left E.c.interval e4
  rw [Nat.mul_add] at e5
  have e6 : (n + 1) * E.c.interval = E.c.interval * n + E.c.interval := by ring
  omega

end

/-! ## the limit on the number of iterations -/
section
variable {F : Type} [Add F] [Sub F] [Mul F] [Div F] [Neg F] [Zero F] [One F] [FloatOps F] [SqrtOps F] {P : Problem F}
variable {llt : LLT F} {E : QEnv P}

/-- the same environment with another `max_qp_iters`. -/
def QEnv.withMax (E : QEnv P) (M : ℕ) : QEnv P := { E with c := { E.c with maxQP := M } }

theorem step_withMax (M : ℕ) (q : CQP P) : q.step llt (E.withMax M) = q.step llt E := rfl

theorem AtIter.withMax {M : ℕ} {q0 q : CQP P} (h : AtIter llt (E.withMax M) q0 q) : AtIter llt E q0 q := by
  induction h with
  | first h => exact .first h
  | next h ht hs hn ih => exact .next ih ht hs hn

/-- when the loop cannot execute more than `N` iterations, a larger limit is never what ends it. -/
theorem not_limit {q0 : CQP P} {N : ℕ} (hN : ∀ q, AtIter llt E q0 q → q.exec ≤ N) {M : ℕ} (hM : N < M) {q' : CQP P}
    (h : q0.computeDirection llt (E.withMax M) = .ok q') : q'.why ≠ .limit := by
  have hd := direction_end h
  clear h
  cases hd with
  | limit h he =>
    have := hN _ h.withMax
    rw [he] at this
    exact absurd this (not_le.mpr hM)
  | time h he ht => exact fun e => (by cases e)
  | tol h he ht hs hi hc => exact fun e => (by cases e)

end

section
variable {K : Type} [Field K] [LinearOrder K] [IsStrictOrderedRing K] [SqrtOps K] {P : Problem K}
variable {llt : LLT K} {E : QEnv P}

/-- no adaptation: every penalty the estimate can take is within the factor `adaptive_rho_tolerance` of every other. -/
structure NoAdapt (c : CConf K) : Prop where
  tol : 0 < c.adaptTol
  le : c.rhoMin ≤ c.rhoMax
  wide : c.rhoMax ≤ c.rhoMin * c.adaptTol

theorem updateRho_same (hn : NoAdapt E.c) {q : CQP P} (h1 : E.c.rhoMin ≤ q.rhoSparse) (h2 : q.rhoSparse ≤ E.c.rhoMax) :
    (q.updateRho E).v = q.v := by
  unfold CQP.updateRho
  simp only []
  split
  · rw [if_neg]
    simp only [rhoEstimate, cppMin_exact, cppMax_exact, ltb_exact, Bool.or_eq_true, decide_eq_true_eq, not_or, not_lt]
    constructor
    · exact (min_le_right _ _).trans (hn.wide.trans (mul_le_mul_of_nonneg_right h1 hn.tol.le))
    · refine le_min ((?_ : _ ≤ E.c.rhoMin).trans (le_max_right _ _)) ?_
      · rw [div_le_iff₀ hn.tol]; exact h2.trans hn.wide
      · refine le_trans ?_ hn.le
        rw [div_le_iff₀ hn.tol]; exact h2.trans hn.wide
  · rfl

theorem step_rho_same (hn : NoAdapt E.c) {q q' : CQP P} (h1 : E.c.rhoMin ≤ q.rhoSparse) (h2 : q.rhoSparse ≤ E.c.rhoMax)
    (hst : q.step llt E = .ok q') : q'.v.rho = q.v.rho ∧ q'.v.inv = q.v.inv := by
  unfold CQP.step at hst
  obtain ⟨q1, h3, h4⟩ := Res.thenDo_eq_ok hst
  have hq : ∃ b, q1 = { q with b := b } := by
    unfold CQP.pass at h3
    split at h3
    · split at h3
      all_goals
        obtain ⟨b, _, h4⟩ := Res.map_eq_ok h3
        exact ⟨b, h4.symm⟩
    · cases h3
      exact ⟨_, rfl⟩
  obtain ⟨b, rfl⟩ := hq
  have e : q'.v = (((({ q with b := b } : CQP P).forward E).updateLag E).updateRho E).v := by rw [h4]
  have hsp : ((({ q with b := b } : CQP P).forward E).updateLag E).rhoSparse = q.rhoSparse := rfl
  rw [e, updateRho_same hn (by rw [hsp]; exact h1) (by rw [hsp]; exact h2)]
  have hl := updateLag_ok (E := E) (({ q with b := b } : CQP P).forward E)
  exact ⟨hl.rho, hl.inv⟩

variable {W : World K} {s0 : CSQP P} {xs : Option (Traj P)} {us : Option (Ctrls P)} {fuel m : ℕ} {ri : K}

/-- **C53.** In exact arithmetic, for every reachable solver, every solve, every call of `computeDirection` on a convex QP and every
KKT point of that QP: each QP iteration but the first strictly reduces the distance to the KKT point by at least the weighted
splitting gap and the weighted length of the move. -/
theorem C53_csqp_iteration_closer (hllt : LLTExact W.llt) (hp : SymProblem P) (hs : ∀ l, W.sched = some l → SchedOK P l)
    (hc : PenaltyConf s0.c) (hb : BoundsOK P) (h0 : CSQP.Reachable s0) (ha : 0 ≤ s0.c.alpha) {s : CSQP P}
    (h : CSQP.Calls W fuel xs us m ri s0 s) (hcv : Convex s.data s.preg s.dreg) {q q' : CQP P} (hq : AtIter W.llt (s.env W) s.q q)
    (he : q.exec ≠ 0) (hst : ({ q with tick := q.tick + 1 } : CQP P).step W.llt (s.env W) = .ok q')
    {xk lamk : ℕ → Vec K P.ndx} {uk : (t : ℕ) → Vec K (P.nu t)} {yk : (t : ℕ) → Vec K (P.ng t)}
    (hk : QPKKT s.data s.e.fs s.preg s.dreg xk uk lamk yk) :
    admmDist s.data q.v.rho s0.c.sigma s0.c.alpha q'.v.dx q'.v.du q'.v.z q'.v.y xk uk yk +
      s0.c.alpha * (2 - s0.c.alpha) * splitGap s.data q.v.rho q'.v.dx q'.v.du q.v.z +
      s0.c.alpha * s0.c.sigma * stepDist P q'.v.dx q.v.dx q'.v.du q.v.du ≤
    admmDist s.data q.v.rho s0.c.sigma s0.c.alpha q.v.dx q.v.du q.v.z q.v.y xk uk yk := by
  have hpos := fun q (hq : AtIter W.llt (s.env W) s.q q) => calls_penalty_pos hc hb.not_crossed h hq
  have ec : (s.env W).c = s0.c := h.conf
  have := fejer_step (E := s.env W) hllt (hp.data h.evald) hcv hs (h.node0 h0.node0).1 hq (fun t ht i => (hpos q hq t ht i).1)
    (hq.clamped hb he hpos) (by rw [ec]; exact ha) hst hk
  rw [ec] at this
  exact this

/-- **C54.** In exact arithmetic, when the penalty cannot adapt (`rho_max ≤ adaptive_rho_tolerance · rho_min`), `0 < alpha < 2`,
`sigma ≥ 0`, `eps_abs > 0`, `0 ≤ eps_rel ≤ 1`: the QP loop of every direction computation on a convex QP that has a KKT point
executes at most `N` iterations, whatever `max_qp_iters` is; with a larger limit it ends by its tolerance test (or by the clock). -/
theorem C54_csqp_qp_terminates [Archimedean K] (hllt : LLTExact W.llt) (hp : SymProblem P) (hs : ∀ l, W.sched = some l → SchedOK P l)
    (hc : PenaltyConf s0.c) (hna : NoAdapt s0.c) (hb : BoundsOK P) (h0 : CSQP.Reachable s0)
    (hs0 : 0 ≤ s0.c.sigma) (ha : 0 < s0.c.alpha) (ha2 : s0.c.alpha < 2)
    (hea : 0 < s0.c.epsAbs) (her : 0 ≤ s0.c.epsRel) (her1 : s0.c.epsRel ≤ 1) (hint : 0 < s0.c.interval) {s : CSQP P}
    (h : CSQP.Calls W fuel xs us m ri s0 s) (hcv : Convex s.data s.preg s.dreg)
    (hk : ∃ xk uk lamk yk, QPKKT s.data s.e.fs s.preg s.dreg xk uk lamk yk) :
    ∃ N, (∀ q, AtIter W.llt (s.env W) s.q q → q.exec ≤ N) ∧
      ∀ M, N < M → ∀ q', s.q.computeDirection W.llt ((s.env W).withMax M) = .ok q' → q'.why = .tol ∨ q'.why = .time := by
  suffices hN : ∃ N, ∀ q, AtIter W.llt (s.env W) s.q q → q.exec ≤ N by
    obtain ⟨N, hN⟩ := hN
    refine ⟨N, hN, fun M hM q' hq => ?_⟩
    have := not_limit hN hM hq
    cases hw : q'.why with
    | limit => exact absurd hw this
    | time => exact .inr rfl
    | tol => exact .inl rfl
  have ec : (s.env W).c = s0.c := h.conf
  have hpos := fun q (hq : AtIter W.llt (s.env W) s.q q) => calls_penalty_pos hc hb.not_crossed h hq
  by_cases hex : ∃ q, AtIter W.llt (s.env W) s.q q ∧ q.exec = 1
  · obtain ⟨q1, hq1, he1⟩ := hex
    obtain ⟨N, hN⟩ := C54_csqp_steady_finite (E := s.env W) hllt (hp.data h.evald) hcv hs hb (by rw [ec]; exact hs0) (by rw [ec]; exact ha)
      (by rw [ec]; exact ha2) (by rw [ec]; exact hea) (by rw [ec]; exact her) (by rw [ec]; exact her1) (by rw [ec]; exact hint)
      (h.node0 h0.node0).1 hq1 (hq1.clamped hb (by rw [he1]; exact one_ne_zero) hpos) (hpos q1 hq1) hk
    have hst : ∀ n q, AtIter W.llt (s.env W) s.q q → q.exec = n + 1 → Steady W.llt (s.env W) q1 q := by
      intro n
      induction n with
      | zero => intro q hq he; rw [hq1.unique hq (by rw [he1, he])]; exact .here
      | succ n ih =>
        intro q hq he
        obtain ⟨p, q', g1, g2, g3, g4, g5, g6⟩ := hq.exec_pos (by omega)
        have hst := ih p g1 (by omega)
        rw [g5]
        have hr := C29_csqp_rho_range (by simpa using hc.le) (by simpa using hc.le') (by simpa using hc.le.trans hc.le') h g1
        refine .next hst g2 g3 g4 (step_rho_same (q := { p with tick := p.tick + 1 }) (by rw [ec]; exact hna) ?_ ?_ g3)
        · rw [ec]; simpa using hr.1
        · rw [ec]; simpa using hr.2.1
    refine ⟨1 + N, fun q hq => ?_⟩
    rcases Nat.eq_zero_or_pos q.exec with h1 | h1
    · omega
    · have := hN q (hst (q.exec - 1) q hq (by omega))
      omega
  · refine ⟨0, fun q hq => ?_⟩
    by_contra hn
    have key : ∀ n q, AtIter W.llt (s.env W) s.q q → q.exec = n + 1 → False := by
      intro n
      induction n with
      | zero => intro q hq he; exact hex ⟨q, hq, he⟩
      | succ n ih =>
        intro q hq he
        obtain ⟨p, q', g1, g2, g3, g4, g5, g6⟩ := hq.exec_pos (by omega)
        exact ih p g1 (by omega)
    exact key (q.exec - 1) q hq (by omega)

end
end Mim
