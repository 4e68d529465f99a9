import Verif.Props.CSQPReg
import Verif.Props.CSQPReturn

/-!
# The time limit of SolverCSQP (C33), and escaping exceptions at the level of `solve` (C43)

`Expired W s0 k`: the `k`-th clock reading is at or past the limit of the solve that was started in state `s0` (the reading with
number `s0.q.tick` is `start_time_`).
-/
set_option linter.unusedSectionVars false
set_option linter.unusedSimpArgs false

namespace Mim
open Spec CSQP Matrix

variable {F : Type} [Add F] [Sub F] [Mul F] [Div F] [Neg F] [Zero F] [One F] [FloatOps F] [SqrtOps F] {P : Problem F}
variable {W : World F} {fuel : ℕ} {xs : Option (Traj P)} {us : Option (Ctrls P)} {m : ℕ} {ri : F} {s0 s s' : CSQP P} {o : Out}

/-- reading `k` is past the limit. -/
def Expired (W : World F) (s0 : CSQP P) (k : ℕ) : Prop := leb s0.c.maxTime (W.clock k - W.clock s0.q.tick) = true

/-- the rest of the solve from a loop head. -/
theorem CSQP.AtHead.solve_eq (h : AtHead W fuel xs us m ri s0 s) (hm : s.iter ≤ m) :
    CSQP.solve W fuel xs us m ri s0 =
      match iterate W fuel (m - s.iter) s with
      | none => none
      | some (some o, s) => some (o, s)
      | some (none, s) => extraIter W fuel s := by
  induction h with
  | start =>
    rw [(start_conf W xs us m ri s0).2.2.2]
    rfl
  | @next s s' h hi hb ih =>
    rw [ih hi.le]
    have e1 : s'.iter = s.iter := (body_conf hb).2.2
    have e2 : m - s.iter = (m - (s'.iter + 1)) + 1 := by omega
    rw [e2]
    conv_lhs => unfold iterate
    rw [hb]

theorem CSQP.AtHead.t0 (h : AtHead W fuel xs us m ri s0 s) : s.q.t0 = W.clock s0.q.tick := by
  have hJ : ∀ E : QEnv P, CQP.Inv E fun q => q.t0 = W.clock s0.q.tick := by
    intro E
    constructor
    all_goals first | exact fun _ _ _ _ _ _ _ _ _ h => h | exact fun _ _ h => h | exact fun _ _ _ h => h | skip
    · intro q h
      unfold CQP.resetParams; cases E.c.resetRho <;> exact h
    · exact fun _ h => h
    · exact fun _ h => h
    · exact fun _ h => h
  induction h with
  | start =>
    by_cases hm : m = 0
    · subst hm; rfl
    · unfold CSQP.start; simp only [if_neg hm]
  | next h hi hb ih => exact (body_qinv hJ (fun _ _ h => h) ih hb :)

theorem CSQP.AtHead.timeUp_iff (h : AtHead W fuel xs us m ri s0 s) :
    s.q.timeUp (s.env W) = true ↔ Expired W s0 s.q.tick := by
  unfold CQP.timeUp Expired
  rw [h.t0, ← h.conf]
  exact Iff.rfl

theorem computeDirection_t0 (llt : LLT F) (E : QEnv P) (q : CQP P) : (q.computeDirection llt E).st.t0 = q.t0 := by
  have hJ : CQP.Inv E fun q1 => q1.t0 = q.t0 := by
    constructor
    all_goals first | exact fun _ _ _ _ _ _ _ _ _ h => h | exact fun _ _ h => h | exact fun _ _ _ h => h | skip
    · intro q h
      unfold CQP.resetParams; cases E.c.resetRho <;> exact h
    · exact fun _ h => h
    · exact fun _ h => h
    · exact fun _ h => h
  exact hJ.computeDirection_st llt q rfl

theorem CSQP.LeftLoop.t0 (h : LeftLoop W fuel xs us m ri s0 s) (hr : s.q.reached = false) : s.q.t0 = W.clock s0.q.tick := by
  cases h with
  | done h hi => exact h.t0
  | @brk s1 _ h hi hb =>
    have hJ : ∀ E : QEnv P, CQP.Inv E fun q => q.t0 = W.clock s0.q.tick := by
      intro E
      constructor
      all_goals first | exact fun _ _ _ _ _ _ _ _ _ h => h | exact fun _ _ h => h | exact fun _ _ _ h => h | skip
      · intro q h
        unfold CQP.resetParams; cases E.c.resetRho <;> exact h
      · exact fun _ h => h
      · exact fun _ h => h
      · exact fun _ h => h
    exact body_qinv hJ (fun _ _ h => h) h.t0 hb

theorem CSQP.Calls.t0 (h : Calls W fuel xs us m ri s0 s) : s.q.t0 = W.clock s0.q.tick := by
  induction h with
  | @head s h hi hu hr =>
    obtain ⟨q, e, _, hq⟩ := prepare_set { s with q := { s.q with tick := s.q.tick + 1 } }
    have : entry s = { ({ s with q := { s.q with tick := s.q.tick + 1 } } : CSQP P).calcEval with q := q } := e
    rw [this]
    rcases hq with rfl | rfl
    · exact h.t0
    · exact h.t0
  | extra h he hr => exact h.t0 hr
  | @again s1 s2 h hm hd hl ih =>
    obtain ⟨q, hq, rfl⟩ := dir_exn hd
    have := computeDirection_t0 W.llt (CSQP.env W s1) s1.q
    rw [hq] at this
    exact this.trans ih

/-- clock readings inside the QP loop. -/
theorem AtIter.clock {llt : LLT F} {E : QEnv P} {q0 q : CQP P} (h : AtIter llt E q0 q) :
    q.t0 = q0.t0 ∧ q.tick = q0.tick + q.exec ∧
    ∀ k, k < q.exec → leb E.c.maxTime (E.clock (q0.tick + k) - q0.t0) = false := by
  have hw : ∀ q : CQP P, (q0.resetParams E.c).warm llt E = .ok q → q.t0 = q0.t0 ∧ q.tick = q0.tick := by
    intro q hq
    have h1 : (q0.resetParams E.c).t0 = q0.t0 ∧ (q0.resetParams E.c).tick = q0.tick := by
      unfold CQP.resetParams; cases E.c.resetRho <;> exact ⟨rfl, rfl⟩
    unfold CQP.warm at hq
    split at hq
    · obtain ⟨q1, h2, h3⟩ := Res.thenDo_eq_ok hq
      obtain ⟨b, _, h4⟩ := Res.map_eq_ok h2
      subst h4
      subst h3
      exact h1
    · cases hq; exact h1
  induction h with
  | @first q h =>
    obtain ⟨a, b⟩ := hw q h
    exact ⟨a, b, fun k hk => absurd hk (Nat.not_lt_zero k)⟩
  | @next q q' h ht hs hn ih =>
    obtain ⟨m1, m2, m3, m4, m5⟩ := step_misc hs
    obtain ⟨_, _, _, b4, b5, b6, _, _, _⟩ := between_v (E := E) q'
    simp only [] at m1 m3 m4
    refine ⟨by rw [b6, m4]; exact ih.1, by rw [b5, b4, m3, m1, ih.2.1]; omega, fun k hk => ?_⟩
    rw [b4, m1] at hk
    rcases Nat.lt_succ_iff_lt_or_eq.mp hk with hk | rfl
    · exact ih.2.2 k hk
    · unfold CQP.timeUp at ht
      rw [ih.1, ih.2.1] at ht
      exact ht

/-- **C33, QP iterations.**  In every `computeDirection` call of every solve, for every clock: the `k`-th executed QP iteration is
preceded by a clock reading that is not past the limit, so as soon as a reading is, no further QP iteration is executed; and the loop
is left by the time limit only if a reading past the limit was seen. -/
theorem C33_csqp_qp_iterations (h : Calls W fuel xs us m ri s0 s) (hd : s.dir W = .ok s') :
    (∀ k, k < s'.q.exec → ¬ Expired W s0 (s.q.tick + k)) ∧
    (∀ k, Expired W s0 (s.q.tick + k) → s'.q.exec ≤ k) ∧
    (s'.q.why = .time ↔ s'.q.exec < s0.c.maxQP ∧ Expired W s0 (s.q.tick + s'.q.exec) ∧ s'.q.why ≠ .tol) := by
  obtain ⟨q', hq, rfl⟩ := dir_ok hd
  have hc := h.conf
  have key : ∀ q, AtIter W.llt (s.env W) s.q q → ∀ k, k < q.exec → ¬ Expired W s0 (s.q.tick + k) := by
    intro q hq k hk
    have := hq.clock.2.2 k hk
    unfold Expired
    rw [← h.t0, ← hc]
    have e : leb s.c.maxTime (W.clock (s.q.tick + k) - s.q.t0) = false := this
    rw [e]; simp
  have hlast : ∀ q, AtIter W.llt (s.env W) s.q q → (q.timeUp (s.env W) = true ↔ Expired W s0 (s.q.tick + q.exec)) := by
    intro q hq
    unfold CQP.timeUp Expired
    rw [hq.clock.1, hq.clock.2.1, h.t0, ← hc]
    exact Iff.rfl
  have h1 : ∀ k, k < q'.exec → ¬ Expired W s0 (s.q.tick + k) := by
    cases direction_end hq with
    | @limit q ha he => exact key q ha
    | @time q ha he ht => exact key q ha
    | @tol q q1 ha he ht hs hi hcv =>
      intro k hk
      have e2 : (q1.setTol (s.env W).c).exec = q1.exec := (setTol_v (s.env W).c q1).2.2.2.1
      have m1 := (step_misc hs).1
      simp only [] at m1
      have hk' : k < q.exec + 1 := by rw [← m1, ← e2]; exact hk
      rcases Nat.lt_succ_iff_lt_or_eq.mp hk' with hk' | rfl
      · exact key q ha k hk'
      · rw [← hlast q ha, ht]; simp
  refine ⟨h1, fun k hk => not_lt.mp fun hlt => h1 k hlt hk, ?_, ?_⟩
  · intro hw
    cases direction_end hq with
    | limit ha he => cases hw
    | @time q ha he ht => exact ⟨by rw [← hc]; exact he, (hlast q ha).mp ht, by simp⟩
    | tol => cases hw
  · rintro ⟨e1, e2, e3⟩
    have he := direction_end hq
    clear hq h1
    cases he with
    | @limit q ha he =>
      have : q.exec = s0.c.maxQP := by rw [← hc]; exact he
      exact absurd e1 (by simp only [this]; exact lt_irrefl _)
    | time => rfl
    | tol => exact absurd rfl e3

/-- **C33, main loop.**  If the clock reading at the head of an iteration of the main loop is past the limit, `solve` returns false
with the iterate it had there: no evaluation, no QP, no KKT check, no callback, no trial step, and no extra iteration. -/
theorem C33_csqp_head (h : AtHead W fuel xs us m ri s0 s) (hi : s.iter < m) (hx : Expired W s0 s.q.tick) :
    CSQP.solve W fuel xs us m ri s0 = some (.ret false, { s with q := { s.q with tick := s.q.tick + 1, reached := true } }) := by
  rw [h.solve_eq hi.le]
  obtain ⟨k, hk⟩ : ∃ k, m - s.iter = k + 1 := ⟨m - s.iter - 1, by omega⟩
  rw [hk]
  have hb : body W fuel s = some (.brk, { s with q := { s.q with tick := s.q.tick + 1, reached := true } }) := by
    unfold body
    rw [h.timeUp_iff.mpr hx]
    rfl
  unfold iterate
  rw [hb]
  unfold extraIter
  simp

/-- a time-out in front of the first QP iteration of an SQP iteration, in terms of `get_qp_iters()`. -/
theorem C33_csqp_no_qp (h : AtHead W fuel xs us m ri s0 s) (hi : s.iter < m) (hu : ¬ Expired W s0 s.q.tick)
    (hd : direction W fuel true (entry s) = some (none, s')) (h0 : s'.q.qpIters = 0) :
    CSQP.solve W fuel xs us m ri s0 = some (.ret false, s') ∧ s'.xs = s.xs ∧ s'.us = s.us ∧ s'.nTry = s.nTry ∧
    s'.nKKT = s.nKKT ∧ s'.log = s.log := by
  have hu' : s.q.timeUp (s.env W) = false := by
    cases hc : s.q.timeUp (s.env W) with
    | false => rfl
    | true => exact absurd (h.timeUp_iff.mp hc) hu
  refine ⟨?_, ?_⟩
  · rw [h.solve_eq hi.le]
    obtain ⟨k, hk⟩ : ∃ k, m - s.iter = k + 1 := ⟨m - s.iter - 1, by omega⟩
    rw [hk]
    have hb : body W fuel s = some (.fin (.ret false), s') := by
      unfold body
      simp only [hu', Bool.false_eq_true, if_false]
      have : direction W fuel true (prepare { s with q := { s.q with tick := s.q.tick + 1 } }) = some (none, s') := hd
      rw [this]
      unfold finish
      simp only [h0, if_true]
    unfold iterate
    rw [hb]
  · obtain ⟨q, p, d, rfl⟩ := direction_set hd
    obtain ⟨q1, e, _, _⟩ := prepare_set { s with q := { s.q with tick := s.q.tick + 1 } }
    have : entry s = { ({ s with q := { s.q with tick := s.q.tick + 1 } } : CSQP P).calcEval with q := q1 } := e
    simp only [this]
    exact ⟨rfl, rfl, rfl, rfl, rfl⟩

/-- **C33, before the first QP iteration.**  Suppose the clock reading at the head of an iteration is within the limit but the next
one is past it, at least one QP iteration is allowed, no earlier QP of this solve ran out of time, and the unconstrained backward
pass (if used) does not throw.  Then `solve` returns false with the iterate it had: no KKT check, no callback, no trial step. -/
theorem C33_csqp_before_first (h : AtHead W fuel xs us m ri s0 s) (hi : s.iter < m) (hr : s.q.reached = false)
    (hmax : 0 < s0.c.maxQP) (hu : ¬ Expired W s0 s.q.tick) (hx : Expired W s0 (s.q.tick + 1))
    (hw : (((entry s).q.resetParams (entry s).c).warm W.llt ((entry s).env W)).isOk = true) (hf : 0 < fuel) :
    ∃ s', CSQP.solve W fuel xs us m ri s0 = some (.ret false, s') ∧ s'.xs = s.xs ∧ s'.us = s.us ∧ s'.nTry = s.nTry ∧
      s'.nKKT = s.nKKT ∧ s'.log = s.log ∧ s'.q.qpIters = 0 ∧ s'.q.exec = 0 := by
  have hu' : s.q.timeUp (s.env W) = false := by
    cases hc : s.q.timeUp (s.env W) with
    | false => rfl
    | true => exact absurd (h.timeUp_iff.mp hc) hu
  have hcall : Calls W fuel xs us m ri s0 (entry s) := .head h hi hu' (.inr hr)
  have hent : (entry s).q.reached = false ∧ (entry s).q.tick = s.q.tick + 1 := by
    obtain ⟨q1, e, _, hq⟩ := prepare_set { s with q := { s.q with tick := s.q.tick + 1 } }
    have : entry s = { ({ s with q := { s.q with tick := s.q.tick + 1 } } : CSQP P).calcEval with q := q1 } := e
    rw [this]
    rcases hq with rfl | rfl
    · exact ⟨hr, rfl⟩
    · exact ⟨hr, rfl⟩
  -- the direction computation
  obtain ⟨q1, hq1⟩ : ∃ q1, ((entry s).q.resetParams (entry s).c).warm W.llt ((entry s).env W) = .ok q1 := by
    cases hc : ((entry s).q.resetParams (entry s).c).warm W.llt ((entry s).env W) with
    | ok q1 => exact ⟨q1, rfl⟩
    | exn q1 => rw [hc] at hw; cases hw
  have hfirst : AtIter W.llt ((entry s).env W) (entry s).q { q1 with qpIters := 1, exec := 0 } := .first hq1
  have hcl := hfirst.clock
  simp only [] at hcl
  have htu : ({ q1 with qpIters := 1, exec := 0 } : CQP P).timeUp ((entry s).env W) = true := by
    unfold Expired at hx
    unfold CQP.timeUp
    rw [← h.conf, ← h.t0] at hx
    have e0 : (entry s).q.t0 = s.q.t0 := by rw [hcall.t0, h.t0]
    have e1 : ((entry s).env W).c.maxTime = s.c.maxTime := congrArg (fun c => c.maxTime) (entry_conf s).1
    rw [e1]
    simp only [hcl.1, hcl.2.1, hent.2, e0, Nat.add_zero]
    exact hx
  obtain ⟨k, hk⟩ : ∃ k, (entry s).c.maxQP = k + 1 := by
    have : (entry s).c.maxQP = s0.c.maxQP := by rw [(entry_conf s).1, h.conf]
    exact ⟨s0.c.maxQP - 1, by omega⟩
  have hdirq : (entry s).q.computeDirection W.llt ((entry s).env W) =
      .ok { q1 with tick := q1.tick + 1, qpIters := 0, exec := 0, reached := true, why := .time } := by
    unfold CQP.computeDirection
    have e : ((entry s).q.resetParams ((entry s).env W).c).warm W.llt ((entry s).env W) = .ok q1 := hq1
    rw [e, Res.bind_ok]
    have e2 : ((entry s).env W).c.maxQP = k + 1 := hk
    rw [e2]
    unfold CQP.loop
    rw [htu]
    rfl
  have hdir : (entry s).dir W = .ok { entry s with
      q := { q1 with tick := q1.tick + 1, qpIters := 0, exec := 0, reached := true, why := .time } } := by
    unfold CSQP.dir
    rw [hdirq]; rfl
  have hd : direction W fuel true (entry s) = some (none, { entry s with
      q := { q1 with tick := q1.tick + 1, qpIters := 0, exec := 0, reached := true, why := .time } }) := by
    unfold direction
    split
    · rw [hdir]
    · obtain ⟨n, rfl⟩ : ∃ n, fuel = n + 1 := ⟨fuel - 1, by omega⟩
      unfold retry
      simp only [hent.1, Bool.and_false, Bool.false_eq_true, if_false, hdir]
  obtain ⟨r1, r2, r3, r4, r5, r6⟩ := C33_csqp_no_qp h hi hu hd rfl
  exact ⟨_, r1, r2, r3, r4, r5, r6, rfl, rfl⟩

/-- **C43, `solve` level.**  With `remove_reg`, if the direction computation of some iteration throws, the exception leaves
`solve`, in the state that computation left. -/
theorem C43_csqp_solve_escapes (hrm : s0.c.removeReg = true) (h : AtHead W fuel xs us m ri s0 s) (hi : s.iter < m)
    (hu : s.q.timeUp (s.env W) = false) {s1 : CSQP P} (hd : (entry s).dir W = .exn s1) :
    CSQP.solve W fuel xs us m ri s0 = some (.thrown, s1) := by
  rw [h.solve_eq hi.le]
  obtain ⟨k, hk⟩ : ∃ k, m - s.iter = k + 1 := ⟨m - s.iter - 1, by omega⟩
  rw [hk]
  unfold iterate
  rw [C43_csqp_escapes (by rw [h.conf]; exact hrm) hu hd]

/-! ## Witnesses -/
namespace Ex
open CSQP

/-- a clock that is past the limit at reading `n` (limit 1). -/
noncomputable def worldAt (n : ℕ) : World ℚ := ⟨llt1, fun i => if i < n then 0 else 2, none⟩

/-- `C33_csqp_before_first`: the limit passes between the head of the first iteration and its first QP iteration. -/
example : ∃ s', CSQP.solve (worldAt 2) 20 none none 5 0 linSolver = some (.ret false, s') ∧
    s'.xs = (linSolver.start (worldAt 2) none none 5 0).xs := by
  obtain ⟨s', h1, h2, _⟩ := C33_csqp_before_first (W := worldAt 2) (fuel := 20) (xs := none) (us := none) (m := 5) (ri := 0)
    (s0 := linSolver) AtHead.start (by decide +kernel) (by decide +kernel) (by decide +kernel)
    (by unfold Expired; decide +kernel) (by unfold Expired; decide +kernel) (by decide +kernel) (by decide)
  exact ⟨s', h1, h2⟩

/-- `C33_csqp_head` at the first iteration. -/
example : (CSQP.solve (worldAt 1) 20 none none 5 0 linSolver).map (fun r => (r.1, r.2.nTry, r.2.nKKT)) =
    some (.ret false, 0, 0) := by
  rw [C33_csqp_head (W := worldAt 1) (xs := none) (us := none) (m := 5) (ri := 0) (s0 := linSolver) AtHead.start
    (by decide +kernel) (by unfold Expired; decide +kernel)]
  rfl

/-- **C33, the limit is not enforced**: on `cconcave`, started with zero regularization, `solve` never returns, for every clock
whose first check is within the limit — in particular one that is past the limit at every later reading. -/
theorem C33_csqp_limit_not_enforced (clock : ℕ → ℚ) (h1 : clock 1 - clock 0 < 1) (fuel : ℕ) :
    CSQP.solve ⟨llt1, clock, none⟩ fuel none none 1 0 cconcaveSolver = none := by
  refine C09_csqp_zero_diverges (B0 := (entry (cconcaveSolver.start world none none 1 0)).q.b)
    (by decide +kernel) (by decide +kernel) (by decide +kernel) (by decide +kernel) ?_ ?_ fuel
  · change decide ((1 : ℚ) ≤ clock 1 - clock 0) = false
    simpa using h1
  · have : (plainPass llt1 ((entry (cconcaveSolver.start world none none 1 0)).env world)
        (entry (cconcaveSolver.start world none none 1 0)).q.b).isOk = false := by decide +kernel
    exact this

example : (fun i => if i < 2 then (0 : ℚ) else 100) 1 - (fun i => if i < 2 then (0 : ℚ) else 100) 0 < 1 := by norm_num

end Ex
end Mim
