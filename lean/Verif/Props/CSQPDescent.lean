import Verif.Lemmas.DescentCon
import Verif.Props.CSQPLine
import Verif.Props.CSQPFilter
import Verif.Props.SQPDescent
import Verif.Lemmas.PyCSQPHist

/-!
# C98: SolverCSQP and small steps on nonlinear constrained problems
-/
set_option linter.unusedSectionVars false
set_option linter.unusedSimpArgs false
set_option autoImplicit false

namespace Mim
open Spec Matrix
variable {K : Type} [Field K] [LinearOrder K] [IsStrictOrderedRing K] [SqrtOps K] {P : Problem K}

namespace CSQP
variable {W : World K} {fuel : ℕ} {xs : Option (Traj P)} {us : Option (Ctrls P)} {m : ℕ} {ri : K} {s0 : CSQP P}

/-- no entry of the filter dominates the current iterate. -/
theorem older (hwf : FilterWF s0) (huf : s0.c.useFilter = true) {s : CSQP P} (h : AtHead W fuel xs us m ri s0 s) :
    ∀ e ∈ lastN (min s0.c.filterSize s.iter) s.hist,
      ¬ (e.1 ≤ trajCost P s.xs s.us ∧ e.2.1 ≤ shootGapNorm P s.xs s.us ∧ e.2.2 ≤ conViol P s.xs s.us) := by
  cases h with
  | start =>
    intro e he
    rw [(start_conf W xs us m ri s0).2.2.2] at he
    simp [lastN] at he
  | @next s s' h hi hb =>
    obtain ⟨s1, hd, -, ha, -⟩ := body_next hb
    obtain ⟨-, hh, hn, hacc⟩ := C11_csqp_filter hwf huf h hd
    obtain ⟨q, p, d, hs1⟩ := direction_set hd
    have hx : (checked s1).xs = s.xs ∧ (checked s1).us = s.us ∧ (checked s1).q.v = s1.q.v := by
      subst hs1
      exact ⟨(entry_conf s).2.2.1, (entry_conf s).2.2.2, rfl⟩
    have hit : s'.iter = s.iter := (body_conf hb).2.2
    have hhist := hn s' hb
    intro w hw
    change w ∈ lastN (min s0.c.filterSize (s'.iter + 1)) s'.hist at hw
    rw [hit, hhist] at hw
    change ¬ (w.1 ≤ trajCost P s'.xs s'.us ∧ w.2.1 ≤ shootGapNorm P s'.xs s'.us ∧ w.2.2 ≤ conViol P s'.xs s'.us)
    rcases C16_csqp_first_acceptable ha with ⟨pre, a, post, _, _, g3, g4, g5, _⟩ | ⟨_, _, _, _, _, hr⟩
    · rintro ⟨c1, c2, c3⟩
      obtain ⟨-, -, -, hnd⟩ := (hacc a).mp g3
      have e4 : ∀ t, t ≤ P.T → s'.xs t = stepX P s.xs s1.q.v.dx a t := fun t ht => by rw [g4 t ht, hx.1, hx.2.2]
      have e5 : ∀ t, t < P.T → s'.us t = stepU P s.us s1.q.v.du a t := fun t ht => by rw [g5 t ht, hx.2.1, hx.2.2]
      rw [trajCost_congr P e4 e5] at c1
      rw [shootGapNorm_congr P e4 e5] at c2
      rw [PyCSQP.conViol_congr e4 e5] at c3
      exact hnd ⟨w, hw, by rw [leb_exact, decide_eq_true_eq]; exact c1, by rw [leb_exact, decide_eq_true_eq]; exact c2,
        by rw [leb_exact, decide_eq_true_eq]; exact c3⟩
    · cases hr

/-- what the line search of an iteration works on. -/
theorem direction_facts {s s1 : CSQP P} (hd : direction W fuel true (entry s) = some (none, s1)) :
    Evald s1 ∧ s1.xs = s.xs ∧ s1.us = s.us ∧ s1.c = s.c := by
  have he := direction_evald hd (entry_evald s)
  obtain ⟨q, p, d, hs1⟩ := direction_set hd
  subst hs1
  exact ⟨he, (entry_conf s).2.2.1, (entry_conf s).2.2.2, (entry_conf s).1⟩

/-- the direction satisfies the linearised dynamics of the current iterate, however far ADMM got. -/
theorem direction_lin {s s1 : CSQP P} (h : AtHead W fuel xs us m ri s0 s) (hi : s.iter < m) (hu : s.q.timeUp (s.env W) = false)
    (hr : s.q.reached = false) (hd : direction W fuel true (entry s) = some (none, s1)) (hx : 0 < s1.q.exec ∨ s0.c.eqGuess = true)
    (t : ℕ) (ht : t < P.T) : s1.q.v.dx (t + 1) = (P.calcDiffR t (s.xs t) (s.us t)).Fx *ᵥ s1.q.v.dx t +
      (P.calcDiffR t (s.xs t) (s.us t)).Fu *ᵥ s1.q.v.du t + shootGap P s.xs s.us t := by
  obtain ⟨he, e1, e2, -⟩ := direction_facts hd
  obtain ⟨sc, hc, hdir⟩ := head_call h hi hu hr hd
  unfold CSQP.dir at hdir
  obtain ⟨q', hq, e⟩ := Res.map_eq_ok hdir
  subst e
  have hdyn := direction_dyn (E := sc.env W) hq (by rw [← hc.conf] at hx; exact hx) t ht
  rw [← e1, ← e2, ← he.fs t ht, ← he.diff.run t ht]
  exact hdyn

theorem small_of_better (hwf : FilterWF s0) (huf : s0.c.useFilter = true) {s s1 : CSQP P} (h : AtHead W fuel xs us m ri s0 s)
    (hd : direction W fuel true (entry s) = some (none, s1))
    (hD : TrueDerivs P s.xs s.us) (hC : TrueConDerivs P s.xs s.us) (hb : ¬ CostBlowsUp P s.xs s.us)
    (hlin : ∀ t, t < P.T → s1.q.v.dx (t + 1) = (P.calcDiffR t (s.xs t) (s.us t)).Fx *ᵥ s1.q.v.dx t +
      (P.calcDiffR t (s.xs t) (s.us t)).Fu *ᵥ s1.q.v.du t + shootGap P s.xs s.us t)
    (hcur : Small fun a => trajCost P (stepX P s.xs s1.q.v.dx a) (stepU P s.us s1.q.v.du a) < trajCost P s.xs s.us ∨
      shootGapNorm P (stepX P s.xs s1.q.v.dx a) (stepU P s.us s1.q.v.du a) < shootGapNorm P s.xs s.us ∨
      conViol P (stepX P s.xs s1.q.v.dx a) (stepU P s.us s1.q.v.du a) < conViol P s.xs s.us) :
    Small (Acceptable (checked s1).pushFilter.setMerit) := by
  obtain ⟨-, hh, -, hiff⟩ := C11_csqp_filter hwf huf h hd
  have hmem : ∀ e ∈ lastN (min s0.c.filterSize (s.iter + 1)) (checked s1).pushFilter.setMerit.hist,
      e = (trajCost P s.xs s.us, shootGapNorm P s.xs s.us, conViol P s.xs s.us) ∨
      ¬ (e.1 ≤ trajCost P s.xs s.us ∧ e.2.1 ≤ shootGapNorm P s.xs s.us ∧ e.2.2 ≤ conViol P s.xs s.us) := by
    intro e he
    rw [hh] at he
    cases hf : s0.c.filterSize with
    | zero => rw [hf] at he; simp [lastN] at he
    | succ f =>
      rw [hf, show min (f + 1) (s.iter + 1) = min f s.iter + 1 by omega] at he
      rcases SQP.mem_lastN_snoc he with rfl | he
      · exact .inl rfl
      · exact .inr (older hwf huf h e (SQP.lastN_mono (by omega) he))
  refine (((filter_small hD hC hlin hcur _ hmem).and
    (hD.noBlowUp (dx := s1.q.v.dx) (du := s1.q.v.du) hb)).and (Small.le (c := (1 : K)) one_pos)).mono fun a ha k => ?_
  exact (hiff a).mpr ⟨by simpa using k.2, by simpa using ha.le, k.1.2, k.1.1⟩

/-- **C98 (a).**  Filter line search, nonlinear constrained problems, exact arithmetic, any filter size, any number of ADMM iterations and any
accuracy of the QP solution.  Let `calcDiff` report the true first derivatives.  If the iterate has shooting gaps, all sufficiently small step
lengths are acceptable. -/
theorem C98_csqp_gaps_small_steps (hwf : FilterWF s0) (huf : s0.c.useFilter = true) {s s1 : CSQP P} (h : AtHead W fuel xs us m ri s0 s)
    (hi : s.iter < m) (hu : s.q.timeUp (s.env W) = false) (hr : s.q.reached = false)
    (hd : direction W fuel true (entry s) = some (none, s1)) (hx : 0 < s1.q.exec ∨ s0.c.eqGuess = true)
    (hD : TrueDerivs P s.xs s.us) (hC : TrueConDerivs P s.xs s.us) (hb : ¬ CostBlowsUp P s.xs s.us) (hg : shootGapNorm P s.xs s.us ≠ 0) :
    Small (Acceptable (checked s1).pushFilter.setMerit) := by
  have hlin := direction_lin h hi hu hr hd hx
  exact small_of_better hwf huf h hd hD hC hb hlin ((hD.gapDesc hlin hg).mono fun a _ k => .inr (.inl k))

/-- **C98 (b).**  The same without gaps, if ADMM solved the QP (`lam`, `y`: its multipliers; C28 says when it did): either the iterate with these
multipliers satisfies the first-order conditions of the problem exactly, or all sufficiently small step lengths are acceptable. -/
theorem C98_csqp_filter_small_steps (hwf : FilterWF s0) (huf : s0.c.useFilter = true) {s s1 : CSQP P} (h : AtHead W fuel xs us m ri s0 s)
    (hd : direction W fuel true (entry s) = some (none, s1)) {lam : ℕ → Vec K P.ndx} {y : (t : ℕ) → Vec K (P.ng t)}
    (hq : QPKKT s1.data s1.e.fs s1.preg s1.dreg s1.q.v.dx s1.q.v.du lam y) (hp : 0 ≤ s1.preg) (hdr : 0 ≤ s1.dreg)
    (hD : TrueDerivs P s.xs s.us) (hC : TrueConDerivs P s.xs s.us) (hpos : ReducedPos P s.xs s.us) (hb : ¬ CostBlowsUp P s.xs s.us) :
    (IsPKKT P 0 s.xs s.us lam y ∧ Complementary P s.xs s.us y) ∨ Small (Acceptable (checked s1).pushFilter.setMerit) := by
  by_cases hk : IsPKKT P 0 s.xs s.us lam y ∧ Complementary P s.xs s.us y
  · exact .inl hk
  refine .inr ?_
  obtain ⟨he, e1, e2, -⟩ := direction_facts hd
  have hst : QPStep P s1.preg s1.dreg s.xs s.us s1.q.v.dx s1.q.v.du lam y s1.data s1.e.fs :=
    ⟨by rw [← e1, ← e2]; exact he.fresh, by rw [← e1, ← e2]; exact he.diff, fun t ht => by rw [he.fs t ht, e1, e2], hq⟩
  exact small_of_better hwf huf h hd hD hC hb hst.lin (hst.better hp hdr hpos hk hD hC)

/-- the weights of the merit function: given ones, or a multiple of the largest multiplier if one of them is negative. -/
def weightDyn (c : CConf K) (lagInf : K) : K := if ltb c.muDyn 0 || ltb c.muCon 0 then c.lagCoef * lagInf else c.muDyn
/-- the same for the constraints. -/
def weightCon (c : CConf K) (lagInf : K) : K := if ltb c.muDyn 0 || ltb c.muCon 0 then c.lagCoef * lagInf else c.muCon

theorem merit_weights (c : CConf K) (l : K) (X : Traj P) (U : Ctrls P) :
    Spec.merit P c l X U = trajCost P X U + weightDyn c l * shootGapNorm P X U + weightCon c l * conViol P X U := by
  unfold Spec.merit weightDyn weightCon
  split
  · ring
  · rfl

/-- **C98 (c), merit function.**  If ADMM solved the QP and the weights of the merit function (given or automatic) are nonnegative and, unless
the iterate is feasible, exceed the multipliers of the QP, and the curvature of the regularized model along the direction is nonnegative: the same. -/
theorem C98_csqp_merit_small_steps (huf : s0.c.useFilter = false) {s s1 : CSQP P} (h : AtHead W fuel xs us m ri s0 s)
    (hd : direction W fuel true (entry s) = some (none, s1)) {lam : ℕ → Vec K P.ndx} {y : (t : ℕ) → Vec K (P.ng t)}
    (hq : QPKKT s1.data s1.e.fs s1.preg s1.dreg s1.q.v.dx s1.q.v.du lam y) (hp : 0 ≤ s1.preg) (hdr : 0 ≤ s1.dreg)
    (hD : TrueDerivs P s.xs s.us) (hC : TrueConDerivs P s.xs s.us) (hpos : ReducedPos P s.xs s.us) (hb : ¬ CostBlowsUp P s.xs s.us)
    (hwd : 0 ≤ weightDyn s0.c (checked s1).pushFilter.setMerit.m.lagInf) (hwc : 0 ≤ weightCon s0.c (checked s1).pushFilter.setMerit.m.lagInf)
    (hw : (shootGapNorm P s.xs s.us = 0 ∧ violation P s.xs s.us = 0) ∨
      ((∀ t, t < P.T → ∀ i, |lam (t + 1) i| < weightDyn s0.c (checked s1).pushFilter.setMerit.m.lagInf) ∧
      (∀ t, t ≤ P.T → ∀ i, |y t i| < weightCon s0.c (checked s1).pushFilter.setMerit.m.lagInf) ∧
      0 ≤ (lqOf s1.data s1.e.fs s1.preg s1.dreg).curv s1.q.v.dx s1.q.v.du)) :
    (IsPKKT P 0 s.xs s.us lam y ∧ Complementary P s.xs s.us y) ∨ Small (Acceptable (checked s1).pushFilter.setMerit) := by
  by_cases hk : IsPKKT P 0 s.xs s.us lam y ∧ Complementary P s.xs s.us y
  · exact .inl hk
  refine .inr ?_
  obtain ⟨he, e1, e2, e3⟩ := direction_facts hd
  have hcc : s1.c = s0.c := e3.trans h.conf
  have hst : QPStep P s1.preg s1.dreg s.xs s.us s1.q.v.dx s1.q.v.du lam y s1.data s1.e.fs :=
    ⟨by rw [← e1, ← e2]; exact he.fresh, by rw [← e1, ← e2]; exact he.diff, fun t ht => by rw [he.fs t ht, e1, e2], hq⟩
  refine (((hst.meritDesc hp hdr hk hpos hD hC hwd hwc hw).and
    (hD.noBlowUp (dx := s1.q.v.dx) (du := s1.q.v.du) hb)).and (Small.le (c := (1 : K)) one_pos)).mono fun a ha k => ?_
  refine ⟨by simpa using k.2, by simpa using ha.le, ?_, ?_⟩
  · change ¬ CostBlowsUp P (stepX P s1.xs s1.q.v.dx a) (stepU P s1.us s1.q.v.du a)
    rw [e1, e2]; exact k.1.2
  · have hu : (checked s1).pushFilter.setMerit.c.useFilter = false := by change s1.c.useFilter = false; rw [hcc]; exact huf
    rw [if_neg (by rw [hu]; simp), setMerit_eq (checked_evald he)]
    change ltb (Spec.merit P s1.c (checked s1).pushFilter.setMerit.m.lagInf (stepX P s1.xs s1.q.v.dx a) (stepU P s1.us s1.q.v.du a))
      (Spec.merit P s1.c (checked s1).pushFilter.setMerit.m.lagInf s1.xs s1.us) = true
    rw [hcc, e1, e2, ltb_exact, decide_eq_true_eq, merit_weights, merit_weights]
    exact k.1.1

/-- **C98 (d).**  So the line search succeeds as soon as its list of step lengths has a sufficiently small member. -/
theorem C98_csqp_search_succeeds {s3 : CSQP P} (h : Small (Acceptable s3.pushFilter.setMerit)) :
    ∃ δ : K, 0 < δ ∧ ((∃ a ∈ s3.c.par.alphas, 0 < a ∧ a ≤ δ) → ∀ r s', s3.advance = (r, s') → s'.nRej = s3.nRej ∧ r ≠ .brk ∧
      ∃ b ∈ s3.c.par.alphas, Acceptable s3.pushFilter.setMerit b ∧ (∀ t, t ≤ P.T → s'.xs t = stepX P s3.xs s3.q.v.dx b t) ∧
        (∀ t, t < P.T → s'.us t = stepU P s3.us s3.q.v.du b t)) := by
  obtain ⟨δ, hδ, h⟩ := h
  refine ⟨δ, hδ, ?_⟩
  rintro ⟨a, ha, a0, a1⟩ r s' hadv
  rcases C16_csqp_first_acceptable hadv with ⟨pre, b, post, e, -, g3, g4, g5, -, g6, g7⟩ | ⟨hn, -⟩
  · refine ⟨g6, ?_, b, by rw [e]; simp, g3, g4, g5⟩
    rcases g7 with rfl | rfl <;> simp
  · exact absurd (h a a0 a1) (hn a ha)

end CSQP
end Mim
