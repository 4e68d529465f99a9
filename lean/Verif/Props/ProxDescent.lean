import Verif.Lemmas.DescentCon
import Verif.Props.ProxRecognise
import Verif.Props.ProxFilter
import Verif.Props.SQPDescent
import Verif.Lemmas.PyCSQPHist

/-!
# C97: CSQPProxQP accepts all small steps on nonlinear constrained problems
-/
set_option linter.unusedSectionVars false
set_option linter.unusedSimpArgs false
set_option autoImplicit false

namespace Mim
open Spec Matrix
variable {K : Type} [Field K] [LinearOrder K] [IsStrictOrderedRing K] {P : Problem K}

namespace PROX
variable {qp : PSolve K} {fuel : ℕ} {xs : Option (Traj P)} {us : Option (Ctrls P)} {m : ℕ} {ri : K} {s0 : PROX P}

/-- no entry of the filter dominates the current iterate, except entries with its own values. -/
theorem older (hwf : FilterWF s0) (huf : s0.c.useFilter = true) {s : PROX P} (h : AtHead qp fuel xs us m ri s0 s) :
    ∀ e ∈ lastN (min s0.c.filterSize s.iter) s.hist, e = (trajCost P s.xs s.us, shootGapNorm P s.xs s.us, conViol P s.xs s.us) ∨
      ¬ (e.1 ≤ trajCost P s.xs s.us ∧ e.2.1 ≤ shootGapNorm P s.xs s.us ∧ e.2.2 ≤ conViol P s.xs s.us) := by
  induction h with
  | start => intro e he; simp [PROX.start, lastN] at he
  | @next s s' h hi hb ih =>
    cases body_cases hb with
    | gaveUp hr hb' => cases hb'
    | converged s1 hr hk hs hb' => cases hb'
    | searched s1 hr hk hs hb' =>
      obtain ⟨-, hh, hn, hacc⟩ := C11_prox_filter hwf huf h hr
      obtain ⟨k1, k2, k3, k4, k5, k6, k7⟩ := retry_keeps hr
      obtain ⟨p, d, hu⟩ := updateReg_set s1.pushFilter.search
      have e : s'.xs = s1.pushFilter.search.xs ∧ s'.us = s1.pushFilter.search.us := by
        rw [hs]; split <;> rw [hu] <;> exact ⟨rfl, rfl⟩
      have hit := (body_iter hb).1
      have hhist : s'.hist = s1.pushFilter.hist := hn s' hb
      intro w hw
      change w ∈ lastN (min s0.c.filterSize (s'.iter + 1)) s'.hist at hw
      rw [hit, hhist] at hw
      change w = (trajCost P s'.xs s'.us, shootGapNorm P s'.xs s'.us, conViol P s'.xs s'.us) ∨
        ¬ (w.1 ≤ trajCost P s'.xs s'.us ∧ w.2.1 ≤ shootGapNorm P s'.xs s'.us ∧ w.2.2 ≤ conViol P s'.xs s'.us)
      rw [e.1, e.2]
      rcases C16_prox_first_acceptable s1.pushFilter with ⟨pre, a, post, _, _, g3, g4, g5, _⟩ | ⟨_, g3, g4, _⟩
      · refine .inr ?_
        rintro ⟨c1, c2, c3⟩
        obtain ⟨-, -, -, hnd⟩ := (hacc a).mp g3
        have e4 : ∀ t, t ≤ P.T → s1.pushFilter.search.xs t = stepX P s.xs s1.dx a t := fun t ht => by rw [g4 t ht, ← k3]; rfl
        have e5 : ∀ t, t < P.T → s1.pushFilter.search.us t = stepU P s.us s1.du a t := fun t ht => by rw [g5 t ht, ← k4]; rfl
        rw [trajCost_congr P e4 e5] at c1
        rw [shootGapNorm_congr P e4 e5] at c2
        rw [PyCSQP.conViol_congr e4 e5] at c3
        exact hnd ⟨w, hw, by rw [leb_exact, decide_eq_true_eq]; exact c1, by rw [leb_exact, decide_eq_true_eq]; exact c2,
          by rw [leb_exact, decide_eq_true_eq]; exact c3⟩
      · rw [g3, g4]
        change w = (trajCost P s1.xs s1.us, shootGapNorm P s1.xs s1.us, conViol P s1.xs s1.us) ∨
          ¬ (w.1 ≤ trajCost P s1.xs s1.us ∧ w.2.1 ≤ shootGapNorm P s1.xs s1.us ∧ w.2.2 ≤ conViol P s1.xs s1.us)
        rw [k3, k4]
        rw [hh] at hw
        cases hf : s0.c.filterSize with
        | zero => rw [hf] at hw; simp [lastN] at hw
        | succ f =>
          rw [hf, show min (f + 1) (s.iter + 1) = min f s.iter + 1 by omega] at hw
          rcases SQP.mem_lastN_snoc hw with rfl | hw
          · exact .inl rfl
          · exact ih w (SQP.lastN_mono (by omega) hw)

theorem qpStep (hr : Reachable s0) (hT : 0 < P.T) (hc : ColsOK P) (hqp : QPExact P.nVars P.nEq P.nIn qp) {s s1 : PROX P}
    (hs : AtHead qp fuel xs us m ri s0 s) (hd : retry qp fuel true { s with wasFeas := false } = some (true, s1)) :
    QPStep P 0 0 s.xs s.us s1.dx s1.du s1.lam s1.y s1.data s1.e.fs := by
  obtain ⟨h1, h2, h3⟩ := C40_prox_direction_kkt hr hT hc hqp hs hd
  obtain ⟨_, _, k3, k4, k5, _⟩ := retry_keeps hd
  exact ⟨h1, h2, fun t ht => by rw [k5.fs t ht, k3, k4], h3⟩

/-- **C97 (a), filter.**  Nonlinear constrained problems, exact arithmetic, exact QP solver, any filter size, any iteration of any `solve` (also after
failed line searches).  Let `calcDiff` report the true first derivatives of costs, dynamics and constraints at the iterate, and let the cost have
positive curvature along the directions of the linearised dynamics.  Then either the iterate with the multipliers just computed satisfies the
first-order conditions of the problem exactly, or all sufficiently small step lengths are acceptable. -/
theorem C97_prox_filter_small_steps (hr : Reachable s0) (hT : 0 < P.T) (hc : ColsOK P) (hqp : QPExact P.nVars P.nEq P.nIn qp)
    (hwf : FilterWF s0) (huf : s0.c.useFilter = true) {s s1 : PROX P} (hs : AtHead qp fuel xs us m ri s0 s)
    (hd : retry qp fuel true { s with wasFeas := false } = some (true, s1))
    (hD : TrueDerivs P s.xs s.us) (hC : TrueConDerivs P s.xs s.us) (hpos : ReducedPos P s.xs s.us) (hb : ¬ CostBlowsUp P s.xs s.us) :
    (IsPKKT P 0 s.xs s.us s1.lam s1.y ∧ Complementary P s.xs s.us s1.y) ∨ Small (Acceptable s1.pushFilter) := by
  by_cases hk : IsPKKT P 0 s.xs s.us s1.lam s1.y ∧ Complementary P s.xs s.us s1.y
  · exact .inl hk
  refine .inr ?_
  have hq := qpStep hr hT hc hqp hs hd
  obtain ⟨-, hh, -, hiff⟩ := C11_prox_filter hwf huf hs hd
  have hmem : ∀ e ∈ lastN (min s0.c.filterSize (s.iter + 1)) s1.pushFilter.hist,
      e = (trajCost P s.xs s.us, shootGapNorm P s.xs s.us, conViol P s.xs s.us) ∨
      ¬ (e.1 ≤ trajCost P s.xs s.us ∧ e.2.1 ≤ shootGapNorm P s.xs s.us ∧ e.2.2 ≤ conViol P s.xs s.us) := by
    intro e he
    rw [hh] at he
    cases hf : s0.c.filterSize with
    | zero => rw [hf] at he; simp [lastN] at he
    | succ f =>
      rw [hf, show min (f + 1) (s.iter + 1) = min f s.iter + 1 by omega] at he
      rcases SQP.mem_lastN_snoc he with rfl | he
      · exact .inl rfl
      · exact older hwf huf hs e (SQP.lastN_mono (by omega) he)
  refine (((filter_small hD hC hq.lin (hq.better le_rfl le_rfl hpos hk hD hC) _ hmem).and
    (hD.noBlowUp (dx := s1.dx) (du := s1.du) hb)).and (Small.le (c := (1 : K)) one_pos)).mono fun a ha k => ?_
  exact (hiff a).mpr ⟨by simpa using k.2, by simpa using ha.le, k.1.2, k.1.1⟩

/-- **C97 (b), merit function.**  The same with the merit function, if its weights are nonnegative and, unless the iterate is feasible, exceed the
multipliers of the dynamics and of the constraints, and the curvature of the cost along the direction is nonnegative. -/
theorem C97_prox_merit_small_steps (hr : Reachable s0) (hT : 0 < P.T) (hc : ColsOK P) (hqp : QPExact P.nVars P.nEq P.nIn qp)
    (huf : s0.c.useFilter = false) {s s1 : PROX P} (hs : AtHead qp fuel xs us m ri s0 s)
    (hd : retry qp fuel true { s with wasFeas := false } = some (true, s1))
    (hD : TrueDerivs P s.xs s.us) (hC : TrueConDerivs P s.xs s.us) (hpos : ReducedPos P s.xs s.us) (hb : ¬ CostBlowsUp P s.xs s.us)
    (hwd : 0 ≤ s0.c.muDyn) (hwc : 0 ≤ s0.c.muCon)
    (hw : (shootGapNorm P s.xs s.us = 0 ∧ violation P s.xs s.us = 0) ∨ ((∀ t, t < P.T → ∀ i, |s1.lam (t + 1) i| < s0.c.muDyn) ∧
      (∀ t, t ≤ P.T → ∀ i, |s1.y t i| < s0.c.muCon) ∧ 0 ≤ curv P s.xs s.us s1.dx s1.du)) :
    (IsPKKT P 0 s.xs s.us s1.lam s1.y ∧ Complementary P s.xs s.us s1.y) ∨ Small (Acceptable s1.pushFilter) := by
  by_cases hk : IsPKKT P 0 s.xs s.us s1.lam s1.y ∧ Complementary P s.xs s.us s1.y
  · exact .inl hk
  refine .inr ?_
  have hq := qpStep hr hT hc hqp hs hd
  obtain ⟨k1, k2, k3, k4, k5, _⟩ := retry_keeps hd
  simp only [fpart, Prod.mk.injEq] at k1
  have hcc : s1.c = s0.c := k1.1.trans hs.conf
  refine (((hq.meritDesc le_rfl le_rfl hk hpos hD hC hwd hwc (hw.imp id fun h => ⟨h.1, h.2.1, by
    rw [hq.curv_eq]; simpa using h.2.2⟩)).and
    (hD.noBlowUp (dx := s1.dx) (du := s1.du) hb)).and (Small.le (c := (1 : K)) one_pos)).mono fun a ha k => ?_
  have hu : s1.pushFilter.c.useFilter = false := by change s1.c.useFilter = false; rw [hcc]; exact huf
  refine ⟨by simpa using k.2, by simpa using ha.le, ?_, ?_⟩
  · change ¬ CostBlowsUp P (stepX P s1.xs s1.dx a) (stepU P s1.us s1.du a)
    rw [k3, k4]; exact k.1.2
  · rw [if_neg (by rw [hu]; simp)]
    change ltb (pmerit P s1.c.muDyn s1.c.muCon (stepX P s1.xs s1.dx a) (stepU P s1.us s1.du a)) s1.merit = true
    rw [k5.merit, hcc, k3, k4, ltb_exact, decide_eq_true_eq]
    exact k.1.1

/-- **C97 (c).**  So the line search succeeds as soon as its list of step lengths has a sufficiently small member. -/
theorem C97_prox_search_succeeds {s3 : PROX P} (h : Small (Acceptable s3)) :
    ∃ δ : K, 0 < δ ∧ ((∃ a ∈ s3.c.par.alphas, 0 < a ∧ a ≤ δ) → (search s3).nRej = s3.nRej ∧
      ∃ b ∈ s3.c.par.alphas, Acceptable s3 b ∧ (∀ t, t ≤ P.T → (search s3).xs t = stepX P s3.xs s3.dx b t) ∧
        (∀ t, t < P.T → (search s3).us t = stepU P s3.us s3.du b t)) := by
  obtain ⟨δ, hδ, h⟩ := h
  refine ⟨δ, hδ, ?_⟩
  rintro ⟨a, ha, a0, a1⟩
  rcases C16_prox_first_acceptable s3 with ⟨pre, b, post, e, -, g3, g4, g5, -, g6, -⟩ | ⟨hn, -⟩
  · exact ⟨g6, b, by rw [e]; simp, g3, g4, g5⟩
  · exact absurd (h a a0 a1) (hn a ha)

end PROX
end Mim
