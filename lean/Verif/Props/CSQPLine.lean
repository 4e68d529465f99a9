import Verif.Props.QPStep
import Verif.Props.SQPAffine

/-!
# The line search of SolverCSQP and the data it works on (C15, C16, C17, C20)
-/
set_option linter.unusedSectionVars false
set_option linter.unusedSimpArgs false

namespace Mim
open Spec QP Matrix

section
variable {F : Type} [Add F] [Sub F] [Mul F] [Div F] [Neg F] [Zero F] [One F] [FloatOps F] [SqrtOps F] {P : Problem F}
namespace CSQP

/-- **C16 (CSQP).** Either the search accepts the first step length (in `set_alphas` order) that lies in `[0,1]`, whose trial
does not blow up and passes the test, the new trajectory is the trial and the solve goes on (or ends because of the
regularization bound); or no step length passes, `xs`, `us` are unchanged and the main loop is left. -/
theorem C16_csqp_first_acceptable {s s' : CSQP P} {r : Step} (h : s.advance = (r, s')) :
    (∃ pre a post, s.c.par.alphas = pre ++ a :: post ∧ (∀ b ∈ pre, ¬ Acceptable s.pushFilter.setMerit b) ∧
      Acceptable s.pushFilter.setMerit a ∧ (∀ t, t ≤ P.T → s'.xs t = stepX P s.xs s.q.v.dx a t) ∧
      (∀ t, t < P.T → s'.us t = stepU P s.us s.q.v.du a t) ∧ s'.acc = s.acc ++ [a] ∧ s'.nRej = s.nRej ∧
      (r = .next ∨ r = .fin (.ret false))) ∨
    ((∀ b ∈ s.c.par.alphas, ¬ Acceptable s.pushFilter.setMerit b) ∧ s'.xs = s.xs ∧ s'.us = s.us ∧ s'.acc = s.acc ∧
      s'.nRej = s.nRej + 1 ∧ r = .brk) := by
  obtain ⟨l1, l2⟩ := lineSearch_spec s.c.par.alphas s.pushFilter.setMerit
  obtain ⟨d, w, iw, n, xs, us, fe, ac, _, hset⟩ := lineSearch_set s.c.par.alphas s.pushFilter.setMerit
  cases advance_cases h with
  | rejected s2 hl hs hr =>
    rw [hl] at l2 hset
    obtain ⟨a1, a2, a3, a4⟩ := l2 rfl
    right
    subst hs
    refine ⟨a1, a2, a3, a4, ?_, hr⟩
    simp only [] at hset ⊢
    rw [hset]; rfl
  | accepted s2 hl hs hr =>
    rw [hl] at l1 hset
    obtain ⟨pre, a, post, a1, a2, a3, a4⟩ := l1 rfl
    obtain ⟨p, d', hu⟩ := updateReg_set s2
    rw [hu] at hs
    subst hs
    refine .inl ⟨pre, a, post, a1, a2, a3, a4.xs, a4.us, a4.acc, ?_, ?_⟩
    · simp only [] at hset ⊢
      rw [hset]; rfl
    · rw [hr]; split
      · exact .inr rfl
      · exact .inl rfl

theorem merit_congr (c : CConf F) (l : F) {xs xs' : Traj P} {us us' : Ctrls P} (hx : ∀ t, t ≤ P.T → xs t = xs' t)
    (hu : ∀ t, t < P.T → us t = us' t) : Spec.merit P c l xs us = Spec.merit P c l xs' us' := by
  obtain ⟨_, h1, h2, h3, _⟩ := eval_congr hx hu
  unfold Spec.merit
  rw [h1, h2, h3]

/-- the merit of the current iterate, as stored before the search. -/
theorem setMerit_eq {s : CSQP P} (he : Evald s) : s.pushFilter.setMerit.m.merit =
    Spec.merit P s.c s.pushFilter.setMerit.m.lagInf s.xs s.us := by
  unfold setMerit Spec.merit
  simp only []
  unfold meritOf
  rw [← he.cost, ← he.gap, ← he.con]
  rfl

/-- **C15 (CSQP), one step.** With the merit line search an accepted step strictly decreases the merit function with the weights
in use (fixed ones, or the multiplier estimate of this iteration); any arithmetic. -/
theorem C15_csqp_step_decreases {s s' : CSQP P} {r : Step} (he : Evald s) (huf : s.c.useFilter = false)
    (h : s.advance = (r, s')) (hacc : s'.nRej = s.nRej) :
    ltb (Spec.merit P s.c s.pushFilter.setMerit.m.lagInf s'.xs s'.us)
      (Spec.merit P s.c s.pushFilter.setMerit.m.lagInf s.xs s.us) = true := by
  rcases C16_csqp_first_acceptable h with ⟨pre, a, post, _, _, h3, h4, h5, _⟩ | ⟨_, _, _, _, h, _⟩
  · obtain ⟨_, _, _, h6⟩ := h3
    have e : s.pushFilter.setMerit.c.useFilter = false := huf
    rw [e] at h6
    simp only [Bool.false_eq_true, if_false] at h6
    rw [setMerit_eq he] at h6
    rw [merit_congr s.c _ h4 h5]
    exact h6
  · omega

end CSQP
end

section
variable {F : Type} [Add F] [Sub F] [Mul F] [Div F] [Neg F] [Zero F] [One F] [FloatOps F] [SqrtOps F] {P : Problem F}
variable {W : World F} {fuel : ℕ} {xs : Option (Traj P)} {us : Option (Ctrls P)} {m : ℕ} {ri : F} {s0 : CSQP P}
namespace CSQP

/-- the parts of an iteration that goes on. -/
theorem body_next {s s' : CSQP P} (h : body W fuel s = some (.next, s')) :
    ∃ s1, direction W fuel true (entry s) = some (none, s1) ∧ s1.q.qpIters ≠ 0 ∧ (checked s1).advance = (.next, s') ∧
      leb (checked s1).m.KKT (checked s1).c.tol = false := by
  unfold body at h
  simp only [] at h
  split at h
  · cases h
  · split at h
    · cases h
    · cases h
    · rename_i s1 hd
      refine ⟨s1, hd, ?_⟩
      unfold finish at h
      split at h
      · cases h
      · rename_i hq
        simp only [] at h
        split at h
        · cases h
        · rename_i hk
          refine ⟨hq, Option.some.inj h, ?_⟩
          simpa using hk

/-- **C15 (CSQP), over a solve.** Merit line search with fixed weights (`mu_dynamic, mu_constraint` not negative): the merit
function at the successive iterates of any solve is strictly decreasing (`s`, `s'`: heads of two consecutive iterations);
in any arithmetic, from any solver state. -/
theorem C15_csqp_merit_monotone (huf : s0.c.useFilter = false) (hm : (ltb s0.c.muDyn 0 || ltb s0.c.muCon 0) = false)
    {s s' : CSQP P} (h : AtHead W fuel xs us m ri s0 s) (hb : body W fuel s = some (.next, s')) :
    ltb (trajCost P s'.xs s'.us + s0.c.muDyn * shootGapNorm P s'.xs s'.us + s0.c.muCon * conViol P s'.xs s'.us)
      (trajCost P s.xs s.us + s0.c.muDyn * shootGapNorm P s.xs s.us + s0.c.muCon * conViol P s.xs s.us) = true := by
  obtain ⟨s1, hd, hq, ha, _⟩ := body_next hb
  have he : Evald (checked s1) := checked_evald (direction_evald hd (entry_evald s))
  obtain ⟨q, p, d, hs1⟩ := direction_set hd
  have hx : (checked s1).xs = s.xs ∧ (checked s1).us = s.us ∧ (checked s1).c = s.c := by
    subst hs1
    exact ⟨(entry_conf s).2.2.1, (entry_conf s).2.2.2, (entry_conf s).1⟩
  have hc : (checked s1).c = s0.c := hx.2.2.trans h.conf
  have hn : s'.nRej = (checked s1).nRej := by
    rcases C16_csqp_first_acceptable ha with ⟨_, _, _, _, _, _, _, _, _, hn, _⟩ | ⟨_, _, _, _, _, hr⟩
    · exact hn
    · cases hr
  have := C15_csqp_step_decreases he (by rw [hc]; exact huf) ha hn
  rw [hc, hx.1, hx.2.1] at this
  unfold Spec.merit at this
  rw [hm] at this
  exact this

/-- **C17 (CSQP).** Every direction computation of every solve (main loop, retries, extra iteration), from any solver state and
in any arithmetic, works with costs, next states, constraint values, derivatives and gaps evaluated at the current `xs`, `us`. -/
theorem C17_csqp_directions_fresh {s : CSQP P} (h : Calls W fuel xs us m ri s0 s) :
    FreshCalc P s.data s.xs s.us ∧ FreshDiff P s.data s.xs s.us ∧ s.e.cost = trajCost P s.xs s.us ∧
    s.e.gap = shootGapNorm P s.xs s.us ∧ s.e.con = conViol P s.xs s.us ∧
    ∀ t, t < P.T → s.e.fs (t + 1) = shootGap P s.xs s.us t :=
  ⟨h.evald.fresh, h.evald.diff, h.evald.cost, h.evald.gap, h.evald.con, h.evald.fs⟩

end CSQP
end

section
variable {K : Type} [Field K] [LinearOrder K] [IsStrictOrderedRing K] [SqrtOps K] {P : Problem K}
variable {llt : LLT K} {E : QEnv P}

/-- a step after at least one executed iteration, or after the warm start, satisfies the linearised dynamics. -/
theorem step_dyn {q q' : CQP P} (hst : q.step llt E = .ok q') (t : ℕ) (ht : t < P.T) :
    q'.v.dx (t + 1) = (E.d.rd t).Fx *ᵥ q'.v.dx t + (E.d.rd t).Fu *ᵥ q'.v.du t + E.fs (t + 1) := by
  obtain ⟨q1, _, _, _, hl, r, i, hv⟩ := step_parts hst
  rw [hv]
  simp only []
  rw [hl.dx (t + 1) ht, hl.dx t ht.le, hl.du t ht]
  exact (fwdLoop_spec E q1.b.bp (q1.v.dxt, q1.v.dut)).1 t ht

theorem iter_dyn {q0 q : CQP P} (h : AtIter llt E q0 q) (hx : 0 < q.exec ∨ E.c.eqGuess = true) (t : ℕ) (ht : t < P.T) :
    q.v.dx (t + 1) = (E.d.rd t).Fx *ᵥ q.v.dx t + (E.d.rd t).Fu *ᵥ q.v.du t + E.fs (t + 1) := by
  cases h with
  | @first q h =>
    rcases hx with hx | hg
    · exact absurd hx (by simp)
    · unfold CQP.warm at h
      rw [if_pos hg] at h
      obtain ⟨q1, h1, h2⟩ := Res.thenDo_eq_ok h
      obtain ⟨b, h3, h4⟩ := Res.map_eq_ok h1
      subst h4 h2
      exact (fwdLoop_spec E b.bp _).1 t ht
  | @next q q' h ht' hst hn =>
    rw [(between_v q').1]
    exact step_dyn hst t ht

theorem direction_dyn {q0 q' : CQP P} (h : q0.computeDirection llt E = .ok q') (hx : 0 < q'.exec ∨ E.c.eqGuess = true)
    (t : ℕ) (ht : t < P.T) :
    q'.v.dx (t + 1) = (E.d.rd t).Fx *ᵥ q'.v.dx t + (E.d.rd t).Fu *ᵥ q'.v.du t + E.fs (t + 1) := by
  have hd := direction_end h
  clear h
  cases hd with
  | @limit q h he => exact (iter_dyn h hx t ht :)
  | @time q h he hu => exact (iter_dyn h hx t ht :)
  | @tol q q' h he hu hst hi hc =>
    simp only [(setTol_v E.c q').1]
    exact step_dyn hst t ht

variable {W : World K} {fuel : ℕ} {xs : Option (Traj P)} {us : Option (Ctrls P)} {m : ℕ} {ri : K} {s0 : CSQP P}

/-- **C20 (CSQP).** Affine dynamics, exact arithmetic: for every call of `computeDirection` in every solve that executed a QP
iteration or computed the equality-QP guess, the trial with step length `a` along the result has exactly `(1 - a)` times the
current shooting gaps; the full step closes all gaps. -/
theorem C20_csqp_gap_contraction {φ : P.X → Vec K P.ndx} (hE : Euclid P φ) (hA : AffineDyn P φ) {s s' : CSQP P}
    (h : CSQP.Calls W fuel xs us m ri s0 s) (hd : s.dir W = .ok s') (hx : 0 < s'.q.exec ∨ s0.c.eqGuess = true) (a : K) :
    (∀ t, t < P.T → shootGap P (stepX P s'.xs s'.q.v.dx a) (stepU P s'.us s'.q.v.du a) t =
      (1 - a) • shootGap P s.xs s.us t) ∧
    (a = 1 → shootGapNorm P (stepX P s'.xs s'.q.v.dx a) (stepU P s'.us s'.q.v.du a) = 0) := by
  unfold CSQP.dir at hd
  obtain ⟨q', hq, e⟩ := Res.map_eq_ok hd
  subst e
  have hdyn := direction_dyn (E := s.env W) hq (by rw [← h.conf] at hx; exact hx)
  have key := gap_contraction hE hA s.xs s.us q'.v.dx q'.v.du (fun t ht => by
    rw [hdyn t ht, ← h.evald.fs t ht, ← h.evald.diff.run t ht]; rfl) a
  refine ⟨key, fun ha => ?_⟩
  unfold shootGapNorm
  apply sumUp_zero_of
  intro t ht
  rw [key t ht, ha, sub_self, zero_smul]
  simp

end
end Mim
