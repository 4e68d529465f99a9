import Verif.Lemmas.QPLag

/-!
# The calls of `computeDirection` made by a solve

`AtHead … s`: `s` is the state at the head of some iteration of the main loop of `solve`.  `Calls … s`: `s` is the state in which
`solve` calls `computeDirection` (main loop, its retries, the extra iteration and its retries).
-/
set_option linter.unusedSectionVars false
set_option linter.unusedSimpArgs false

namespace Mim
open Spec
variable {F : Type} [Add F] [Sub F] [Mul F] [Div F] [Neg F] [Zero F] [One F] [FloatOps F] [SqrtOps F] {P : Problem F}

namespace CSQP

/-- states at the head of the main loop. -/
inductive AtHead (W : World F) (fuel : ℕ) (xs : Option (Traj P)) (us : Option (Ctrls P)) (m : ℕ) (ri : F) (s0 : CSQP P) :
    CSQP P → Prop
  | start : AtHead W fuel xs us m ri s0 (s0.start W xs us m ri)
  | next {s s' : CSQP P} (h : AtHead W fuel xs us m ri s0 s) (hi : s.iter < m) (hb : body W fuel s = some (.next, s')) :
      AtHead W fuel xs us m ri s0 { s' with iter := s'.iter + 1 }

/-- states in which the main loop is left without a result. -/
inductive LeftLoop (W : World F) (fuel : ℕ) (xs : Option (Traj P)) (us : Option (Ctrls P)) (m : ℕ) (ri : F) (s0 : CSQP P) :
    CSQP P → Prop
  | done {s : CSQP P} (h : AtHead W fuel xs us m ri s0 s) (hi : s.iter = m) : LeftLoop W fuel xs us m ri s0 s
  | brk {s s' : CSQP P} (h : AtHead W fuel xs us m ri s0 s) (hi : s.iter < m) (hb : body W fuel s = some (.brk, s')) :
      LeftLoop W fuel xs us m ri s0 s'

/-- states in which `computeDirection` is called. -/
inductive Calls (W : World F) (fuel : ℕ) (xs : Option (Traj P)) (us : Option (Ctrls P)) (m : ℕ) (ri : F) (s0 : CSQP P) :
    CSQP P → Prop
  | head {s : CSQP P} (h : AtHead W fuel xs us m ri s0 s) (hi : s.iter < m) (hu : s.q.timeUp (s.env W) = false)
      (hr : s.c.removeReg = true ∨ s.q.reached = false) : Calls W fuel xs us m ri s0 (entry s)
  | extra {s : CSQP P} (h : LeftLoop W fuel xs us m ri s0 s) (he : s.c.extra = true) (hr : s.q.reached = false) :
      Calls W fuel xs us m ri s0 s.calcEval
  | again {s s' : CSQP P} (h : Calls W fuel xs us m ri s0 s) (hm : s.c.removeReg = false) (hd : s.dir W = .exn s')
      (hl : leb s'.increaseReg.c.par.regMax s'.increaseReg.preg = false) : Calls W fuel xs us m ri s0 s'.increaseReg

variable {W : World F} {fuel : ℕ} {xs : Option (Traj P)} {us : Option (Ctrls P)} {m : ℕ} {ri : F} {s0 : CSQP P}

theorem AtHead.conf {s : CSQP P} (h : AtHead W fuel xs us m ri s0 s) : s.c = s0.c := by
  induction h with
  | start => exact (start_conf W xs us m ri s0).1
  | next h hi hb ih => exact (body_conf hb).1.trans ih

theorem entry_conf (s : CSQP P) : (entry s).c = s.c ∧ (entry s).iter = s.iter ∧ (entry s).xs = s.xs ∧ (entry s).us = s.us := by
  unfold entry prepare; simp only []; split <;> exact ⟨rfl, rfl, rfl, rfl⟩

theorem LeftLoop.conf {s : CSQP P} (h : LeftLoop W fuel xs us m ri s0 s) : s.c = s0.c := by
  cases h with
  | done h hi => exact h.conf
  | brk h hi hb => exact (body_conf hb).1.trans h.conf

theorem Calls.conf {s : CSQP P} (h : Calls W fuel xs us m ri s0 s) : s.c = s0.c := by
  induction h with
  | head h hi hu hr => exact (entry_conf _).1.trans h.conf
  | extra h he hr => exact h.conf
  | again h hm hd hl ih =>
    obtain ⟨q, _, rfl⟩ := dir_exn hd
    exact ih

/-- the retry loop makes calls only. -/
theorem retry_calls {chk : Bool} {n : ℕ} {s s' : CSQP P} (hc : Calls W fuel xs us m ri s0 s) (hr : s.q.reached = false)
    (hm : s.c.removeReg = false) (h : retry W chk n s = some (true, s')) :
    ∃ sc, Calls W fuel xs us m ri s0 sc ∧ sc.dir W = .ok s' := by
  induction n generalizing s with
  | zero => cases h
  | succ n ih =>
    unfold retry at h
    rw [hr] at h
    simp only [Bool.and_false, Bool.false_eq_true, if_false] at h
    split at h
    · rename_i s1 hs1
      cases h
      exact ⟨s, hc, hs1⟩
    · rename_i s1 hs1
      obtain ⟨q, hq, rfl⟩ := dir_exn hs1
      split at h
      · cases h
      · rename_i hl
        have hq' := (CQP.computeDirection_exn_reached _ _ _ _ hq).trans hr
        exact ih (hc.again hm hs1 (by simpa using hl)) hq' hm h

/-- A direction used by an iteration of the main loop whose start found the time limit not reached is the result of a call. -/
theorem head_call {s s' : CSQP P} (h : AtHead W fuel xs us m ri s0 s) (hi : s.iter < m) (hu : s.q.timeUp (s.env W) = false)
    (hr : s.q.reached = false) (hd : direction W fuel true (entry s) = some (none, s')) :
    ∃ sc, Calls W fuel xs us m ri s0 sc ∧ sc.dir W = .ok s' := by
  have hc := Calls.head h hi hu (.inr hr)
  have hr' : (entry s).q.reached = false := by
    unfold entry prepare; simp only []; split <;> exact hr
  cases direction_cases hd with
  | escaped _ h1 ho => cases ho
  | plain _ h1 ho => exact ⟨_, hc, h1⟩
  | found hm h1 ho => exact retry_calls hc hr' hm h1
  | gaveUp _ h1 ho => cases ho

/-- The same for the extra iteration. -/
theorem extra_call {s s' : CSQP P} (h : LeftLoop W fuel xs us m ri s0 s) (he : s.c.extra = true) (hr : s.q.reached = false)
    (hd : direction W fuel false s.calcEval = some (none, s')) :
    ∃ sc, Calls W fuel xs us m ri s0 sc ∧ sc.dir W = .ok s' := by
  have hc := Calls.extra h he hr
  cases direction_cases hd with
  | escaped _ h1 ho => cases ho
  | plain _ h1 ho => exact ⟨_, hc, h1⟩
  | found hm h1 ho => exact retry_calls hc hr hm h1
  | gaveUp _ h1 ho => cases ho

/-- Induction over a solve, loop heads included. -/
theorem solve_heads {s' : CSQP P} {o : Out} (Q : Out → CSQP P → Prop)
    (hret : ∀ s o s', AtHead W fuel xs us m ri s0 s → s.iter < m → body W fuel s = some (.fin o, s') → Q o s')
    (hex : ∀ s o s', LeftLoop W fuel xs us m ri s0 s → extraIter W fuel s = some (o, s') → Q o s')
    (h : solve W fuel xs us m ri s0 = some (o, s')) : Q o s' := by
  refine solve_inv (fun n s => AtHead W fuel xs us m ri s0 s ∧ s.iter + n = m) (fun s => LeftLoop W fuel xs us m ri s0 s) Q
    ⟨.start, ?_⟩ ?_ ?_ ?_ ?_ hex h
  · rw [(start_conf W xs us m ri s0).2.2.2, Nat.zero_add]
  · rintro s ⟨h1, h2⟩; exact .done h1 h2
  · rintro n s s' ⟨h1, h2⟩ hb
    refine ⟨.next h1 (by omega) hb, ?_⟩
    have := (body_conf hb).2.2
    simp only [this]; omega
  · rintro n s s' ⟨h1, h2⟩ hb; exact .brk h1 (by omega) hb
  · rintro n s o s' ⟨h1, h2⟩ hb; exact hret s o s' h1 (by omega) hb

/-! ## invariants along the calls -/

theorem body_node0 {s s' : CSQP P} {r : Step} (h0 : Node0 s) (h : body W fuel s = some (r, s')) : Node0 s' :=
  body_inv Node0 (fun _ _ _ h => h) prepare_node0 (fun _ _ _ hI h => direction_node0 hI h) (fun _ h => h) node0_lineSearch
    (fun _ _ _ _ h => h) h0 h

theorem AtHead.node0 {s : CSQP P} (h : AtHead W fuel xs us m ri s0 s) (h0 : Node0 s0) : Node0 s := by
  induction h with
  | start => exact start_node0 W xs us m ri s0 h0
  | next h hi hb ih => have := body_node0 ih hb; exact this

theorem LeftLoop.node0 {s : CSQP P} (h : LeftLoop W fuel xs us m ri s0 s) (h0 : Node0 s0) : Node0 s := by
  cases h with
  | done h hi => exact h.node0 h0
  | brk h hi hb => exact body_node0 (h.node0 h0) hb

theorem Calls.node0 {s : CSQP P} (h : Calls W fuel xs us m ri s0 s) (h0 : Node0 s0) : Node0 s := by
  induction h with
  | head h hi hu hr => exact entry_zero _ (h.node0 h0)
  | extra h he hr => exact h.node0 h0
  | again h hm hd hl ih =>
    have := dir_zero0 W _ ih.1
    rw [hd] at this
    obtain ⟨q, _, rfl⟩ := dir_exn hd
    exact ⟨this, ih.2⟩

/-- at each call all evaluations are those of the current trajectory. -/
theorem Calls.evald {s : CSQP P} (h : Calls W fuel xs us m ri s0 s) : Evald s := by
  induction h with
  | head h hi hu hr => exact entry_evald _
  | extra h he hr => exact calcEval_evald _
  | again h hm hd hl ih =>
    obtain ⟨q, _, rfl⟩ := dir_exn hd
    exact ih.congr rfl rfl rfl rfl

theorem rhoRow_twice (rm r : F) (lb ub : Option F) (old : F × F) :
    rhoRow rm r lb ub (rhoRow rm r lb ub old) = rhoRow rm r lb ub old := by
  cases lb with
  | none => cases ub <;> rfl
  | some l =>
    cases ub with
    | none => rfl
    | some u =>
      unfold rhoRow
      simp only []
      by_cases h1 : leb (absf (l - u)) (lit (1 / 10 ^ 6)) = true
      · rw [if_pos h1, if_pos h1]
      · rw [if_neg h1, if_neg h1]
        by_cases h2 : ltb l u = true
        · rw [if_pos h2, if_pos h2]
        · rw [if_neg h2, if_neg h2]

theorem resetRho_twice (c : CConf F) (q : CQP P) : (q.resetRho c).resetRho c = q.resetRho c := by
  have h1 : (applyRho c c.rhoBase (applyRho c c.rhoBase q.v)) = applyRho c c.rhoBase q.v := by
    have e : ∀ t i, t ≤ P.T → ((applyRho c c.rhoBase q.v).rho t i, (applyRho c c.rhoBase q.v).inv t i) =
        rhoRow c.rhoMin c.rhoBase (P.lb t i) (P.ub t i) (q.v.rho t i, q.v.inv t i) := by
      intro t i ht
      unfold applyRho
      simp only [ht, if_true]
    have hr : (applyRho c c.rhoBase (applyRho c c.rhoBase q.v)).rho = (applyRho c c.rhoBase q.v).rho := by
      funext t
      by_cases ht : t ≤ P.T
      · funext i
        change (if t ≤ P.T then fun i => (rhoRow c.rhoMin c.rhoBase (P.lb t i) (P.ub t i) (_, _)).1 else _) i = _
        rw [if_pos ht]
        change (rhoRow _ _ _ _ ((applyRho c c.rhoBase q.v).rho t i, (applyRho c c.rhoBase q.v).inv t i)).1 = _
        rw [e t i ht, rhoRow_twice, ← e t i ht]
      · change (if t ≤ P.T then _ else _) = _
        rw [if_neg ht]
    have hi : (applyRho c c.rhoBase (applyRho c c.rhoBase q.v)).inv = (applyRho c c.rhoBase q.v).inv := by
      funext t
      by_cases ht : t ≤ P.T
      · funext i
        change (if t ≤ P.T then fun i => (rhoRow c.rhoMin c.rhoBase (P.lb t i) (P.ub t i) (_, _)).2 else _) i = _
        rw [if_pos ht]
        change (rhoRow _ _ _ _ ((applyRho c c.rhoBase q.v).rho t i, (applyRho c c.rhoBase q.v).inv t i)).2 = _
        rw [e t i ht, rhoRow_twice, ← e t i ht]
      · change (if t ≤ P.T then _ else _) = _
        rw [if_neg ht]
    have : applyRho c c.rhoBase (applyRho c c.rhoBase q.v) = { applyRho c c.rhoBase q.v with
        rho := (applyRho c c.rhoBase (applyRho c c.rhoBase q.v)).rho
        inv := (applyRho c c.rhoBase (applyRho c c.rhoBase q.v)).inv } := rfl
    rw [this, hr, hi]
  change ({ q with rhoSparse := c.rhoBase, v := applyRho c c.rhoBase (applyRho c c.rhoBase q.v) } : CQP P) = _
  rw [h1]
  rfl

/-- A property of the QP solver's state that is established by the penalty reset and preserved by everything
`computeDirection` does holds at every iteration of every QP of a solve, whatever the state before the solve. -/
theorem Calls.reset_inv {I : CConf F → CQP P → Prop} (hI : ∀ E : QEnv P, CQP.Inv E (I E.c))
    (hrs : ∀ c (q : CQP P), I c (q.resetRho c)) {s : CSQP P} (h : Calls W fuel xs us m ri s0 s) :
    s.c.resetRho = true ∨ I s.c s.q := by
  have hctl : ∀ (s : CSQP P) tk rc, I s.c s.q → I s.c { s.q with tick := tk, reached := rc } := fun s tk rc h =>
    (hI (s.env W)).ctl s.q s.q.tolP s.q.tolD s.q.rhoEst s.q.qpIters tk rc s.q.exec s.q.why h
  have hdirst : ∀ s : CSQP P, I s.c s.q → I (s.dir W).st.c (s.dir W).st.q := by
    intro s h
    rw [dir_st]
    exact (hI (s.env W)).computeDirection_st W.llt s.q h
  have hdir : ∀ chk (s s' : CSQP P) o, I s.c s.q → direction W fuel chk s = some (o, s') → I s'.c s'.q := by
    intro chk s s' o h0 h
    exact direction_inv (fun s => I s.c s.q) hdirst (fun _ h => h) h0 h
  have hadv : ∀ s : CSQP P, I s.c s.q → I (lineSearch s.c.par.alphas s.pushFilter.setMerit).2.c
      (lineSearch s.c.par.alphas s.pushFilter.setMerit).2.q := by
    intro s h
    obtain ⟨_, _, _, _, _, _, _, _, _, e⟩ := lineSearch_set s.c.par.alphas s.pushFilter.setMerit
    rw [e]; exact h
  -- after an iteration that got past its time check
  have hbody : ∀ (s s' : CSQP P) r, s.c.resetRho = false → (s.iter = 0 ∨ I s.c s.q) → body W fuel s = some (r, s') →
      s'.q.reached = true ∧ r = .brk ∨ I s'.c s'.q := by
    intro s s' r hrr h0 h
    have he : I (entry s).c (entry s).q := by
      unfold entry prepare
      simp only []
      split
      · exact hrs _ _
      · rename_i hc
        rcases h0 with h0 | h0
        · exact absurd ⟨h0, hrr⟩ hc
        · exact hctl s _ _ h0
    cases body_cases h with
    | timeUp hu hs hr => subst hs; exact .inl ⟨rfl, hr⟩
    | ended hu o h1 hr => exact .inr (hdir _ _ _ _ he h1)
    | noQP hu h1 hq hr => exact .inr (hdir _ _ _ _ he h1)
    | converged hu s1 h1 hq hk hs hr => subst hs; have := hdir _ _ _ _ he h1; exact .inr this
    | searched hu s1 h1 hq hk ha =>
      have h1' := hdir _ _ _ _ he h1
      have h2 := hadv (checked s1) h1'
      cases ha with
      | rejected s2 h3 hs hr => rw [h3] at h2; subst hs; exact .inr h2
      | accepted s2 h3 hs hr =>
        rw [h3] at h2
        obtain ⟨p, d, e⟩ := updateReg_set s2
        rw [hs, e]; exact .inr h2
  have hhead : ∀ s : CSQP P, AtHead W fuel xs us m ri s0 s → s.c.resetRho = false →
      (s.iter = 0 ∧ 0 < m ∨ I s.c s.q) := by
    intro s h hrr
    induction h with
    | start =>
      by_cases hm : m = 0
      · right
        subst hm
        have := (hI (s0.env W)).ctl _ s0.q.tolP s0.q.tolD s0.q.rhoEst s0.q.qpIters (s0.q.tick + 1) false s0.q.exec s0.q.why
          (hrs s0.c ({ s0.q with t0 := W.clock s0.q.tick }))
        exact this
      · exact .inl ⟨(start_conf W xs us m ri s0).2.2.2, Nat.pos_of_ne_zero hm⟩
    | next h hi hb ih =>
      have hc := (body_conf hb).1
      have hrr' := hrr
      change (_ : CSQP P).c.resetRho = false at hrr'
      rw [hc] at hrr'
      right
      have := hbody _ _ _ hrr' ((ih hrr').imp And.left id) hb
      rcases this with ⟨_, h2⟩ | h2
      · cases h2
      · exact h2
  induction h with
  | @head s h hi hu hr =>
    rw [(entry_conf _).1]
    cases hrr : s.c.resetRho with
    | true => exact .inl rfl
    | false =>
      right
      rw [← (entry_conf s).1]
      unfold entry prepare
      simp only []
      split
      · exact hrs _ _
      · rename_i hc
        rcases hhead _ h hrr with h0 | h0
        · exact absurd ⟨h0.1, hrr⟩ hc
        · exact hctl s _ _ h0
  | @extra s h he hr =>
    change s.c.resetRho = true ∨ I s.c s.q
    cases hrr : s.c.resetRho with
    | true => exact .inl rfl
    | false =>
      right
      cases h with
      | done h hi =>
        rcases hhead _ h hrr with h0 | h0
        · omega
        · exact h0
      | brk h hi hb =>
        have hc := (body_conf hb).1
        have hrr' := hrr
        rw [hc] at hrr'
        rcases hbody _ _ _ hrr' ((hhead _ h hrr').imp And.left id) hb with ⟨h1, _⟩ | h1
        · rw [hr] at h1; cases h1
        · exact h1
  | @again s s' h hm hd hl ih =>
    have hs := hdirst s
    rw [hd] at hs
    obtain ⟨q, _, rfl⟩ := dir_exn hd
    rcases ih with ih | ih
    · exact .inl ih
    · exact .inr (hs ih)

/-- … and at every iteration of every QP. -/
theorem Calls.iter_inv {I : CConf F → CQP P → Prop} (hI : ∀ E : QEnv P, CQP.Inv E (I E.c))
    (hrs : ∀ c (q : CQP P), I c (q.resetRho c)) {s : CSQP P} (h : Calls W fuel xs us m ri s0 s) {q : CQP P}
    (hq : AtIter W.llt (s.env W) s.q q) : I s.c q := by
  rcases h.reset_inv hI hrs with hr | h1
  · have key : ∀ q0 : CQP P, s.c.resetRho = true → I s.c (q0.resetParams s.c) := by
      intro q0 hr
      have := (hI (s.env W)).reset (q0.resetRho s.c) (hrs _ _)
      have e : (q0.resetRho s.c).resetParams (s.env W).c = q0.resetParams s.c := by
        change (q0.resetRho s.c).resetParams s.c = _
        unfold CQP.resetParams
        rw [hr]
        simp only [if_true]
        have : (q0.resetRho s.c).resetRho s.c = q0.resetRho s.c := resetRho_twice _ _
        rw [this]
      rw [e] at this
      exact this
    induction hq with
    | @first q hw =>
      have h2 := (hI (s.env W)).warm_st W.llt _ (key s.q hr)
      rw [show (s.q.resetParams s.c).warm W.llt (s.env W) = .ok q from hw] at h2
      exact (hI (s.env W)).ctl q q.tolP q.tolD q.rhoEst 1 q.tick q.reached 0 q.why h2
    | @next q q' h ht hs hn ih =>
      have h3 := (hI (s.env W)).step_st W.llt _ ((hI (s.env W)).ctl q q.tolP q.tolD q.rhoEst q.qpIters (q.tick + 1) q.reached q.exec q.why ih)
      rw [hs] at h3
      unfold CQP.between
      split
      · exact (hI (s.env W)).ctl (q'.setTol s.c) _ _ _ (q'.qpIters + 1) _ _ _ _ ((hI (s.env W)).setTol _ h3)
      · exact (hI (s.env W)).ctl q' q'.tolP q'.tolD q'.rhoEst (q'.qpIters + 1) q'.tick q'.reached q'.exec q'.why h3
  · exact hq.inv (hI (s.env W)) h1

end CSQP
end Mim

namespace Mim
open Spec
variable {F : Type} [Add F] [Sub F] [Mul F] [Div F] [Neg F] [Zero F] [One F] [FloatOps F] [SqrtOps F] {P : Problem F}

namespace CSQP
variable {W : World F} {fuel : ℕ} {xs : Option (Traj P)} {us : Option (Ctrls P)} {m : ℕ} {ri : F} {s0 : CSQP P}

/-- A property of the QP solver's state that everything preserves, penalty resets included. -/
theorem body_qinv {J : CQP P → Prop} (hJ : ∀ E : QEnv P, CQP.Inv E J) (hrs : ∀ c (q : CQP P), J q → J (q.resetRho c))
    {s s' : CSQP P} {r : Step} (h0 : J s.q) (h : body W fuel s = some (r, s')) : J s'.q := by
  refine body_inv (fun s => J s.q) ?_ ?_ ?_ (fun _ h => h) ?_ (fun _ _ _ _ h => h) h0 h
  · intro s tk rc h
    exact (hJ (s.env W)).ctl s.q s.q.tolP s.q.tolD s.q.rhoEst s.q.qpIters tk rc s.q.exec s.q.why h
  · intro s h
    obtain ⟨q, e, _, hq⟩ := prepare_set s
    rw [e]
    rcases hq with rfl | rfl
    · exact h
    · exact hrs _ _ h
  · intro s s' o h hd
    refine direction_inv (fun s => J s.q) (fun s h => ?_) (fun _ h => h) h hd
    rw [dir_st]
    exact (hJ (s.env W)).computeDirection_st W.llt s.q h
  · intro s h
    obtain ⟨_, _, _, _, _, _, _, _, _, e⟩ := lineSearch_set s.c.par.alphas s.pushFilter.setMerit
    rw [e]; exact h

theorem Calls.qinv {J : CQP P → Prop} (hJ : ∀ E : QEnv P, CQP.Inv E J) (hrs : ∀ c (q : CQP P), J q → J (q.resetRho c))
    (ht : ∀ (q : CQP P) t, J q → J { q with t0 := t })
    (h0 : J s0.q) {s : CSQP P} (h : Calls W fuel xs us m ri s0 s) : J s.q := by
  have hstart : J (s0.start W xs us m ri).q := by
    have h1 := ht _ (W.clock s0.q.tick) h0
    by_cases hm : m = 0
    · subst hm
      have := (hJ (s0.env W)).ctl _ s0.q.tolP s0.q.tolD s0.q.rhoEst s0.q.qpIters (s0.q.tick + 1) false s0.q.exec s0.q.why
          (hrs s0.c _ h1)
      exact this
    · unfold start
      simp only [if_neg hm]
      exact (hJ (s0.env W)).ctl _ s0.q.tolP s0.q.tolD s0.q.rhoEst s0.q.qpIters (s0.q.tick + 1) false s0.q.exec s0.q.why h1
  have hhead : ∀ s : CSQP P, AtHead W fuel xs us m ri s0 s → J s.q := by
    intro s h
    induction h with
    | start => exact hstart
    | next h hi hb ih => have := body_qinv hJ hrs ih hb; exact this
  induction h with
  | @head s h hi hu hr =>
    obtain ⟨q, e, _, hq⟩ := prepare_set { s with q := { s.q with tick := s.q.tick + 1 } }
    have h1 := (hJ (s.env W)).ctl s.q s.q.tolP s.q.tolD s.q.rhoEst s.q.qpIters (s.q.tick + 1) s.q.reached s.q.exec s.q.why
      (hhead _ h)
    unfold entry
    rw [e]
    rcases hq with rfl | rfl
    · exact h1
    · exact hrs _ _ h1
  | @extra s h he hr =>
    cases h with
    | done h hi => have := hhead _ h; exact this
    | brk h hi hb => have := body_qinv hJ hrs (hhead _ h) hb; exact this
  | @again s s' h hm hd hl ih =>
    have := (hJ (s.env W)).computeDirection_st W.llt s.q ih
    have e := dir_st W s
    rw [hd] at e
    change s' = _ at e
    subst e
    exact this

end CSQP
end Mim
