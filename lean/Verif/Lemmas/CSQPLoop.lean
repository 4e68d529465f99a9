import Verif.Model.CSQP
import Verif.Lemmas.SQPTry

/-!
# What the functions of SolverCSQP write; case analysis of an iteration; induction over the loop
-/
set_option linter.unusedSectionVars false
set_option linter.unusedSimpArgs false

namespace Mim
open Spec

variable {F : Type} [Add F] [Sub F] [Mul F] [Div F] [Neg F] [Zero F] [One F] [FloatOps F] {P : Problem F}

namespace CQP
variable [SqrtOps F]

/-- An invariant of the QP solver's state that holds through all of `computeDirection`, also when it throws. -/
structure Inv (E : QEnv P) (I : CQP P → Prop) : Prop where
  bwd : ∀ (q : CQP P) b, I q → I { q with b := b }
  ctl : ∀ (q : CQP P) tp td re qi tk rc ex wh, I q →
    I { q with tolP := tp, tolD := td, rhoEst := re, qpIters := qi, tick := tk, reached := rc, exec := ex, why := wh }
  reset : ∀ q : CQP P, I q → I (q.resetParams E.c)
  plain : ∀ q : CQP P, I q → I (q.forwardPlain E)
  fwd : ∀ q : CQP P, I q → I (q.forward E)
  lag : ∀ q : CQP P, I q → I (q.updateLag E)
  rho : ∀ (q : CQP P) r, (∃ n s, r = rhoEstimate E.c n s ∧ (ltb (s * E.c.adaptTol) r || ltb r (s / E.c.adaptTol)) = true) → I q → I { q with rhoSparse := r, v := applyRho E.c r q.v }

variable {E : QEnv P} {I : CQP P → Prop} (hI : Inv E I)
include hI

theorem Inv.updateRho (q : CQP P) (h : I q) : I (q.updateRho E) := by
  have h1 := hI.ctl q q.tolP q.tolD (rhoEstimate E.c q.n q.rhoSparse) q.qpIters q.tick q.reached q.exec q.why h
  unfold CQP.updateRho
  simp only []
  split
  · split
    · rename_i hu
      exact hI.rho _ _ ⟨_, _, rfl, hu⟩ h1
    · exact h1
  · exact h1

theorem Inv.pass_st (llt : LLT F) (q : CQP P) (h : I q) : I (q.pass llt E).st := by
  unfold CQP.pass
  have e : ∀ r : Res (CBP P), I (r.map fun b => { q with b := b }).st := by
    intro r
    cases r with
    | ok b => exact hI.bwd q b h
    | exn b => exact hI.bwd q b h
  split
  · exact e _
  · exact hI.bwd q _ h

theorem Inv.step_st (llt : LLT F) (q : CQP P) (h : I q) : I (q.step llt E).st := by
  have h1 := hI.pass_st llt q h
  unfold CQP.step
  cases hp : q.pass llt E with
  | exn q1 => rw [hp] at h1; exact h1
  | ok q1 =>
    rw [hp] at h1
    have h2 := hI.updateRho _ (hI.lag _ (hI.fwd _ h1))
    exact hI.ctl _ _ _ _ _ _ _ (q1.exec + 1) _ h2

theorem Inv.setTol (q : CQP P) (h : I q) : I (q.setTol E.c) := by
  unfold CQP.setTol
  split
  · exact hI.ctl q E.c.epsAbs E.c.epsAbs q.rhoEst q.qpIters q.tick q.reached q.exec q.why h
  · exact hI.ctl q _ _ q.rhoEst q.qpIters q.tick q.reached q.exec q.why h

theorem Inv.loop_st (llt : LLT F) (n : ℕ) (q : CQP P) (h : I q) : I (CQP.loop llt E n q).st := by
  induction n generalizing q with
  | zero => exact hI.ctl q q.tolP q.tolD q.rhoEst q.qpIters q.tick q.reached q.exec .limit h
  | succ n ih =>
    have hk := hI.ctl q q.tolP q.tolD q.rhoEst q.qpIters (q.tick + 1) q.reached q.exec q.why h
    unfold CQP.loop
    simp only []
    split
    · exact hI.ctl q q.tolP q.tolD q.rhoEst (q.qpIters - 1) (q.tick + 1) true q.exec .time h
    · have h1 := hI.step_st llt _ hk
      cases hp : CQP.step llt E { q with tick := q.tick + 1 } with
      | exn q1 => rw [hp] at h1; exact h1
      | ok q1 =>
        rw [hp] at h1
        have h2 := hI.setTol q1 h1
        rw [Res.bind_ok]
        split
        · split
          · exact hI.ctl (q1.setTol E.c) _ _ _ _ _ _ _ .tol h2
          · exact ih _ (hI.ctl (q1.setTol E.c) _ _ _ _ _ _ _ _ h2)
        · exact ih _ (hI.ctl q1 _ _ _ _ _ _ _ _ h1)

theorem Inv.warm_st (llt : LLT F) (q : CQP P) (h : I q) : I (q.warm llt E).st := by
  unfold CQP.warm
  split
  · cases plainPass llt E q.b with
    | ok b => exact hI.plain _ (hI.bwd q b h)
    | exn b => exact hI.bwd q b h
  · exact h

theorem Inv.computeDirection_st (llt : LLT F) (q : CQP P) (h : I q) : I (q.computeDirection llt E).st := by
  have h1 := hI.warm_st llt _ (hI.reset q h)
  unfold CQP.computeDirection
  cases hp : (q.resetParams E.c).warm llt E with
  | exn q1 => rw [hp] at h1; exact h1
  | ok q1 =>
    rw [hp] at h1
    exact hI.loop_st llt _ _ (hI.ctl q1 q1.tolP q1.tolD q1.rhoEst 1 q1.tick q1.reached 0 q1.why h1)

omit hI

/-- `computeDirection` throws only before or inside a backward pass: the time-out flag is then untouched. -/
theorem loop_exn_reached (llt : LLT F) (E : QEnv P) (n : ℕ) (q q' : CQP P) (h : CQP.loop llt E n q = .exn q') :
    q'.reached = q.reached := by
  have hr : ∀ q : CQP P, ((q.updateRho E).reached = q.reached) := by
    intro q; unfold CQP.updateRho; simp only []; split
    · split <;> rfl
    · rfl
  have hp : ∀ q : CQP P, (q.pass llt E).st.reached = q.reached := by
    intro q
    unfold CQP.pass
    have e : ∀ r : Res (CBP P), (r.map fun b => { q with b := b }).st.reached = q.reached := by
      intro r; cases r <;> rfl
    split
    · exact e _
    · rfl
  have hs : ∀ q : CQP P, (q.step llt E).st.reached = q.reached := by
    intro q
    have := hp q
    unfold CQP.step
    cases hq : q.pass llt E with
    | exn q1 => rw [hq] at this; exact this
    | ok q1 => rw [hq] at this; exact (hr _).trans this
  induction n generalizing q with
  | zero => cases h
  | succ n ih =>
    unfold CQP.loop at h
    simp only [] at h
    split at h
    · cases h
    · have h1 := hs { q with tick := q.tick + 1 }
      cases hq : CQP.step llt E { q with tick := q.tick + 1 } with
      | exn q1 => rw [hq] at h h1; cases h; exact h1
      | ok q1 =>
        rw [hq, Res.bind_ok] at h
        rw [hq] at h1
        have hst : (q1.setTol E.c).reached = q1.reached := by unfold CQP.setTol; split <;> rfl
        split at h
        · split at h
          · cases h
          · exact (ih _ h).trans (hst.trans h1)
        · exact (ih _ h).trans h1

theorem resetParams_reached (c : CConf F) (q : CQP P) : (q.resetParams c).reached = q.reached := by
  unfold CQP.resetParams; cases c.resetRho <;> rfl

theorem computeDirection_exn_reached (llt : LLT F) (E : QEnv P) (q q' : CQP P) (h : q.computeDirection llt E = .exn q') :
    q'.reached = q.reached := by
  have hw : ((q.resetParams E.c).warm llt E).st.reached = q.reached := by
    unfold CQP.warm
    split
    · cases plainPass llt E (q.resetParams E.c).b with
      | ok b => exact resetParams_reached E.c q
      | exn b => exact resetParams_reached E.c q
    · exact resetParams_reached E.c q
  unfold CQP.computeDirection at h
  cases hp : (q.resetParams E.c).warm llt E with
  | exn q1 => rw [hp] at h hw; cases h; exact hw
  | ok q1 =>
    rw [hp] at h hw
    exact (loop_exn_reached llt E _ _ _ h).trans hw

end CQP

namespace CSQP

/-- what `tryStep` writes. -/
theorem tryStep_set (a : F) (s : CSQP P) :
    ∃ d w, (tryStep a s).st = { s with data := d, w := w, nTry := s.nTry + 1 } := by
  unfold tryStep
  simp only []
  split
  · exact ⟨s.data, s.w, rfl⟩
  · have h : ∀ s0 : CSQP P, (∃ d w, s0 = { s with data := d, w := w, nTry := s.nTry + 1 }) →
        ∃ d w, (forUpR P.T tryStage s0).st = { s with data := d, w := w, nTry := s.nTry + 1 } := by
      intro s0 h0
      refine forUpR_inv_st (fun s1 => ∃ d w, s1 = { s with data := d, w := w, nTry := s.nTry + 1 }) _ _ _ h0 ?_
      rintro t _ s1 ⟨d, w, rfl⟩
      simp only [tryStage, Res.throwIf_st]
      exact ⟨_, _, rfl⟩
    obtain ⟨d, w, hd⟩ := h (({ s with nTry := s.nTry + 1, w := { s.w with cost := 0, merit := 0, gap := 0, con := 0 } } : CSQP P).tryMove a)
      ⟨_, _, rfl⟩
    generalize forUpR P.T tryStage
      (({ s with nTry := s.nTry + 1, w := { s.w with cost := 0, merit := 0, gap := 0, con := 0 } } : CSQP P).tryMove a) = r at hd
    cases r with
    | exn s1 => exact ⟨d, w, hd⟩
    | ok s1 =>
      simp only [Res.bind_ok]
      change s1 = _ at hd
      subst hd
      simp only [tryTerminal, Res.throwIf_st]
      exact ⟨_, _, rfl⟩

/-- what the line search writes. -/
theorem lineSearch_set (as : List F) (s : CSQP P) :
    ∃ d w iw n xs us fe ac, n ≤ s.nTry + as.length ∧
      (lineSearch as s).2 = { s with data := d, w := w, m := { s.m with isWorse := iw }, nTry := n, xs := xs, us := us, feas := fe
                                     acc := ac } := by
  induction as generalizing s with
  | nil => exact ⟨s.data, s.w, s.m.isWorse, s.nTry, s.xs, s.us, s.feas, s.acc, le_rfl, rfl⟩
  | cons a as ih =>
    obtain ⟨d, w, hd⟩ := tryStep_set a s
    have tail : ∀ (s1 : CSQP P) iw, s1 = { s with data := d, w := w, m := { s.m with isWorse := iw }, nTry := s.nTry + 1 } →
        ∃ d w iw n xs us fe ac, n ≤ s.nTry + (a :: as).length ∧
          (lineSearch as s1).2 = { s with data := d, w := w, m := { s.m with isWorse := iw }, nTry := n, xs := xs, us := us
                                          feas := fe, acc := ac } := by
      rintro s1 iw rfl
      obtain ⟨d2, w2, iw2, n, xs, us, fe, ac, hn, h⟩ :=
        ih { s with data := d, w := w, m := { s.m with isWorse := iw }, nTry := s.nTry + 1 }
      refine ⟨d2, w2, iw2, n, xs, us, fe, ac, ?_, h⟩
      simp only [List.length_cons] at hn ⊢; omega
    unfold lineSearch
    cases ht : tryStep a s with
    | exn s1 =>
      rw [ht] at hd
      exact tail s1 s.m.isWorse hd
    | ok s1 =>
      rw [ht] at hd
      change s1 = _ at hd
      simp only []
      have acc : ∀ (s2 : CSQP P) iw, s2 = { s with data := d, w := w, m := { s.m with isWorse := iw }, nTry := s.nTry + 1 } →
          ∃ d w iw n xs us fe ac, n ≤ s.nTry + (a :: as).length ∧
          s2.accept a = { s with data := d, w := w, m := { s.m with isWorse := iw }, nTry := n, xs := xs, us := us
                                 feas := fe, acc := ac } := by
        rintro s2 iw rfl
        refine ⟨d, w, iw, s.nTry + 1, _, _, _, _, ?_, rfl⟩
        simp only [List.length_cons]; omega
      split
      · split
        · exact tail _ _ (by rw [hd])
        · exact acc _ _ (by rw [hd])
      · split
        · exact acc s1 s.m.isWorse hd
        · exact tail s1 s.m.isWorse hd

variable [SqrtOps F]

theorem dir_st (W : World F) (s : CSQP P) : (s.dir W).st = { s with q := (s.q.computeDirection W.llt (s.env W)).st } := by
  unfold dir
  cases s.q.computeDirection W.llt (s.env W) <;> rfl

theorem dir_ok {W : World F} {s s1 : CSQP P} (h : s.dir W = .ok s1) :
    ∃ q, s.q.computeDirection W.llt (s.env W) = .ok q ∧ s1 = { s with q := q } := by
  obtain ⟨q, h1, h2⟩ := Res.map_eq_ok h
  exact ⟨q, h1, h2.symm⟩

theorem dir_exn {W : World F} {s s1 : CSQP P} (h : s.dir W = .exn s1) :
    ∃ q, s.q.computeDirection W.llt (s.env W) = .exn q ∧ s1 = { s with q := q } := by
  unfold dir at h
  cases hc : s.q.computeDirection W.llt (s.env W) with
  | ok q => rw [hc] at h; cases h
  | exn q => rw [hc] at h; cases h; exact ⟨q, rfl, rfl⟩

/-- what the retry loop writes. -/
theorem retry_set {W : World F} {chk : Bool} {fuel : ℕ} {s s' : CSQP P} {b : Bool} (h : retry W chk fuel s = some (b, s')) :
    ∃ q p d, s' = { s with q := q, preg := p, dreg := d } := by
  induction fuel generalizing s with
  | zero => cases h
  | succ n ih =>
    unfold retry at h
    split at h
    · cases h; exact ⟨s'.q, s'.preg, s'.dreg, rfl⟩
    · have hd := dir_st W s
      split at h
      · rename_i s1 hs1
        rw [hs1] at hd
        cases h
        exact ⟨_, s.preg, s.dreg, hd⟩
      · rename_i s1 hs1
        rw [hs1] at hd
        change s1 = _ at hd
        simp only [] at h
        split at h
        · cases h
          subst hd
          exact ⟨_, _, _, rfl⟩
        · obtain ⟨q, p, d, e⟩ := ih h
          subst hd
          exact ⟨q, p, d, e⟩

/-- invariant rule for the retry loop. -/
theorem retry_inv {W : World F} {chk : Bool} (I : CSQP P → Prop) (hd : ∀ s, I s → I (s.dir W).st)
    (hr : ∀ s : CSQP P, I s → I s.increaseReg) {fuel : ℕ} {s s' : CSQP P} {b : Bool} (h0 : I s)
    (h : retry W chk fuel s = some (b, s')) : I s' := by
  induction fuel generalizing s with
  | zero => cases h
  | succ n ih =>
    unfold retry at h
    split at h
    · cases h; exact h0
    · have hd' := hd s h0
      split at h
      · rename_i s1 hs1
        rw [hs1] at hd'
        cases h
        exact hd'
      · rename_i s1 hs1
        rw [hs1] at hd'
        simp only [] at h
        split at h
        · cases h; exact hr _ hd'
        · exact ih (hr _ hd') h

/-- a retry loop that ends normally, with the time limit not reached before, ends with a successful `computeDirection` from a
state that differs from the start in the QP solver's state and the regularization only. -/
theorem retry_true {W : World F} {chk : Bool} {fuel : ℕ} {s s' : CSQP P} (hr : s.q.reached = false)
    (h : retry W chk fuel s = some (true, s')) :
    ∃ q p d, ({ s with q := q, preg := p, dreg := d } : CSQP P).dir W = .ok s' ∧ q.reached = false := by
  induction fuel generalizing s with
  | zero => cases h
  | succ n ih =>
    unfold retry at h
    rw [hr] at h
    simp only [Bool.and_false, Bool.false_eq_true, if_false] at h
    split at h
    · rename_i s1 hs1
      cases h
      exact ⟨s.q, s.preg, s.dreg, hs1, hr⟩
    · rename_i s1 hs1
      obtain ⟨q, hq, rfl⟩ := dir_exn hs1
      split at h
      · cases h
      · have hq' := (CQP.computeDirection_exn_reached _ _ _ _ hq).trans hr
        exact ih (s := increaseReg { s with q := q }) hq' h

/-- the ways the direction computation ends. -/
inductive DirCase (W : World F) (fuel : ℕ) (chk : Bool) (s : CSQP P) (o : Option Out) (s' : CSQP P) : Prop
  | escaped (hr : s.c.removeReg = true) (hd : s.dir W = .exn s') (ho : o = some .thrown)
  | plain (hr : s.c.removeReg = true) (hd : s.dir W = .ok s') (ho : o = none)
  | found (hr : s.c.removeReg = false) (hd : retry W chk fuel s = some (true, s')) (ho : o = none)
  | gaveUp (hr : s.c.removeReg = false) (hd : retry W chk fuel s = some (false, s')) (ho : o = some (.ret false))

theorem direction_cases {W : World F} {fuel : ℕ} {chk : Bool} {s s' : CSQP P} {o : Option Out}
    (h : direction W fuel chk s = some (o, s')) : DirCase W fuel chk s o s' := by
  unfold direction at h
  split at h
  · rename_i hr
    split at h <;> rename_i s1 hs1 <;> cases h
    · exact .plain hr hs1 rfl
    · exact .escaped hr hs1 rfl
  · rename_i hr
    have hr' : s.c.removeReg = false := by simpa using hr
    split at h <;> rename_i hs1 <;> cases h
    · exact .found hr' hs1 rfl
    · exact .gaveUp hr' hs1 rfl

theorem direction_set {W : World F} {fuel : ℕ} {chk : Bool} {s s' : CSQP P} {o : Option Out}
    (h : direction W fuel chk s = some (o, s')) : ∃ q p d, s' = { s with q := q, preg := p, dreg := d } := by
  cases direction_cases h with
  | escaped hr hd ho => have := dir_st W s; rw [hd] at this; exact ⟨_, s.preg, s.dreg, this⟩
  | plain hr hd ho => have := dir_st W s; rw [hd] at this; exact ⟨_, s.preg, s.dreg, this⟩
  | found hr hd ho => exact retry_set hd
  | gaveUp hr hd ho => exact retry_set hd

theorem direction_inv {W : World F} {fuel : ℕ} {chk : Bool} (I : CSQP P → Prop) (hd : ∀ s, I s → I (s.dir W).st)
    (hr : ∀ s : CSQP P, I s → I s.increaseReg) {s s' : CSQP P} {o : Option Out} (h0 : I s)
    (h : direction W fuel chk s = some (o, s')) : I s' := by
  cases direction_cases h with
  | escaped _ h1 ho => have := hd s h0; rw [h1] at this; exact this
  | plain _ h1 ho => have := hd s h0; rw [h1] at this; exact this
  | found _ h1 ho => exact retry_inv I hd hr h0 h1
  | gaveUp _ h1 ho => exact retry_inv I hd hr h0 h1

/-- a direction computation that does not end `solve` ends with a successful `computeDirection`. -/
theorem direction_none {W : World F} {fuel : ℕ} {chk : Bool} {s s' : CSQP P} (hr : s.q.reached = false)
    (h : direction W fuel chk s = some (none, s')) :
    ∃ q p d, ({ s with q := q, preg := p, dreg := d } : CSQP P).dir W = .ok s' := by
  cases direction_cases h with
  | escaped _ h1 ho => cases ho
  | plain _ h1 ho => exact ⟨s.q, s.preg, s.dreg, h1⟩
  | found _ h1 ho => obtain ⟨q, p, d, h2, _⟩ := retry_true hr h1; exact ⟨q, p, d, h2⟩
  | gaveUp _ h1 ho => cases ho

/-- state at the tolerance test of an iteration whose direction computation ended in `s1`. -/
abbrev checked (s1 : CSQP P) : CSQP P := s1.checkKKT.callbacks

/-- the state handed to the direction computation by an iteration that starts in `s`. -/
abbrev entry (s : CSQP P) : CSQP P := prepare { s with q := { s.q with tick := s.q.tick + 1 } }

/-- the ways an iteration goes on after a failed tolerance test. -/
inductive AdvCase (s : CSQP P) (r : Step) (s' : CSQP P) : Prop
  | rejected (s2 : CSQP P) (hl : lineSearch s.c.par.alphas s.pushFilter.setMerit = (false, s2))
      (hs : s' = { s2 with nRej := s2.nRej + 1 }) (hr : r = .brk)
  | accepted (s2 : CSQP P) (hl : lineSearch s.c.par.alphas s.pushFilter.setMerit = (true, s2))
      (hs : s' = s2.updateReg.2) (hr : r = if s2.updateReg.1 then .fin (.ret false) else .next)

theorem advance_cases {s s' : CSQP P} {r : Step} (h : s.advance = (r, s')) : AdvCase s r s' := by
  unfold advance at h
  split at h
  · rename_i s2 hl
    cases h
    exact .rejected s2 hl rfl rfl
  · rename_i s2 hl
    cases h
    exact .accepted s2 hl rfl rfl

/-- the ways an iteration ends. -/
inductive BodyCase (W : World F) (fuel : ℕ) (s : CSQP P) (r : Step) (s' : CSQP P) : Prop
  | timeUp (hu : s.q.timeUp (s.env W) = true) (hs : s' = { s with q := { s.q with tick := s.q.tick + 1, reached := true } })
      (hr : r = .brk)
  | ended (hu : s.q.timeUp (s.env W) = false) (o : Out) (hd : direction W fuel true (entry s) = some (some o, s'))
      (hr : r = .fin o)
  | noQP (hu : s.q.timeUp (s.env W) = false) (hd : direction W fuel true (entry s) = some (none, s')) (hq : s'.q.qpIters = 0)
      (hr : r = .fin (.ret false))
  | converged (hu : s.q.timeUp (s.env W) = false) (s1 : CSQP P) (hd : direction W fuel true (entry s) = some (none, s1))
      (hq : s1.q.qpIters ≠ 0) (hk : leb (checked s1).m.KKT (checked s1).c.tol = true) (hs : s' = checked s1)
      (hr : r = .fin (.ret true))
  | searched (hu : s.q.timeUp (s.env W) = false) (s1 : CSQP P) (hd : direction W fuel true (entry s) = some (none, s1))
      (hq : s1.q.qpIters ≠ 0) (hk : leb (checked s1).m.KKT (checked s1).c.tol = false)
      (ha : AdvCase (checked s1) r s')

theorem body_cases {W : World F} {fuel : ℕ} {s s' : CSQP P} {r : Step} (h : body W fuel s = some (r, s')) :
    BodyCase W fuel s r s' := by
  unfold body at h
  simp only [] at h
  split at h
  · rename_i hu
    cases h
    exact .timeUp hu rfl rfl
  · rename_i hu
    have hu' : s.q.timeUp (s.env W) = false := by simpa using hu
    split at h
    · cases h
    · rename_i o s1 hd
      cases h
      exact .ended hu' o hd rfl
    · rename_i s1 hd
      simp only [Option.some.injEq] at h
      unfold finish at h
      split at h
      · rename_i hq
        cases h
        exact .noQP hu' hd hq rfl
      · rename_i hq
        simp only [] at h
        split at h
        · rename_i hk
          cases h
          exact .converged hu' s1 hd hq hk rfl rfl
        · rename_i hk
          exact .searched hu' s1 hd hq (by simpa using hk) (advance_cases h)

/-- induction over the main loop: `I n s` is an invariant at the head of an iteration with `n` iterations left; `J` holds when
the loop is left without a result, `Q` when `solve` ends. -/
theorem iterate_inv (W : World F) (fuel : ℕ) (I : ℕ → CSQP P → Prop) (J : CSQP P → Prop) (Q : Out → CSQP P → Prop)
    (hend : ∀ s, I 0 s → J s)
    (hstep : ∀ n s s', I (n + 1) s → body W fuel s = some (.next, s') → I n { s' with iter := s'.iter + 1 })
    (hbrk : ∀ n s s', I (n + 1) s → body W fuel s = some (.brk, s') → J s')
    (hret : ∀ n s o s', I (n + 1) s → body W fuel s = some (.fin o, s') → Q o s')
    (n : ℕ) (s : CSQP P) (h0 : I n s) (r : Option Out) (s' : CSQP P) (h : iterate W fuel n s = some (r, s')) :
    (r = none ∧ J s') ∨ (∃ o, r = some o ∧ Q o s') := by
  induction n generalizing s with
  | zero =>
    simp only [iterate, Option.some.injEq, Prod.mk.injEq] at h
    obtain ⟨rfl, rfl⟩ := h
    exact .inl ⟨rfl, hend _ h0⟩
  | succ n ih =>
    unfold iterate at h
    split at h
    · cases h
    · rename_i o s1 hb
      cases h
      exact .inr ⟨o, rfl, hret n s o s' h0 hb⟩
    · rename_i s1 hb
      cases h
      exact .inl ⟨rfl, hbrk n s s' h0 hb⟩
    · rename_i s1 hb
      exact ih _ (hstep n s s1 h0 hb) h

/-- the ways the part after the loop ends. -/
inductive ExtraCase (W : World F) (fuel : ℕ) (s : CSQP P) (o : Out) (s' : CSQP P) : Prop
  | off (he : s.c.extra = false ∨ s.q.reached = true) (ho : o = .ret false) (hs : s' = s)
  | ended (he : s.c.extra = true) (hr : s.q.reached = false) (hd : direction W fuel false s.calcEval = some (some o, s'))
  | checked (he : s.c.extra = true) (hr : s.q.reached = false) (s1 : CSQP P)
      (hd : direction W fuel false s.calcEval = some (none, s1)) (hs : s' = CSQP.checked s1)
      (ho : o = .ret (leb (CSQP.checked s1).m.KKT (CSQP.checked s1).c.tol))

theorem extra_cases {W : World F} {fuel : ℕ} {s s' : CSQP P} {o : Out} (h : extraIter W fuel s = some (o, s')) :
    ExtraCase W fuel s o s' := by
  unfold extraIter at h
  split at h
  · rename_i he
    simp only [Bool.and_eq_true, Bool.not_eq_true'] at he
    split at h
    · cases h
    · rename_i o1 s1 hd
      cases h
      exact .ended he.1 he.2 hd
    · rename_i s1 hd
      cases h
      exact .checked he.1 he.2 s1 hd rfl rfl
  · rename_i he
    cases h
    refine .off ?_ rfl rfl
    cases h1 : s.c.extra
    · exact .inl rfl
    · right; simpa [h1] using he

/-- Induction over a whole solve: invariant `I` at loop heads, `J` when the loop is left, `Q` for the result. -/
theorem solve_inv {W : World F} {fuel : ℕ} {xs : Option (Traj P)} {us : Option (Ctrls P)} {m : ℕ} {ri : F} {s s' : CSQP P}
    {o : Out} (I : ℕ → CSQP P → Prop) (J : CSQP P → Prop) (Q : Out → CSQP P → Prop)
    (h0 : I m (s.start W xs us m ri)) (hend : ∀ s, I 0 s → J s)
    (hstep : ∀ n s s', I (n + 1) s → body W fuel s = some (.next, s') → I n { s' with iter := s'.iter + 1 })
    (hbrk : ∀ n s s', I (n + 1) s → body W fuel s = some (.brk, s') → J s')
    (hret : ∀ n s o s', I (n + 1) s → body W fuel s = some (.fin o, s') → Q o s')
    (hex : ∀ s o s', J s → extraIter W fuel s = some (o, s') → Q o s')
    (h : solve W fuel xs us m ri s = some (o, s')) : Q o s' := by
  have key := iterate_inv W fuel I J Q hend hstep hbrk hret m _ h0
  unfold solve at h
  split at h
  · cases h
  · rename_i o1 s1 h1
    cases h
    rcases key _ _ h1 with ⟨h', _⟩ | ⟨o', h', hq⟩
    · cases h'
    · cases h'; exact hq
  · rename_i s1 h1
    rcases key _ _ h1 with ⟨_, hj⟩ | ⟨o', h', _⟩
    · exact hex _ _ _ hj h
    · cases h'

/-- the configuration and the member `steplength_` are constant during a solve. -/
theorem body_conf {W : World F} {fuel : ℕ} {s s' : CSQP P} {r : Step} (h : body W fuel s = some (r, s')) :
    s'.c = s.c ∧ s'.steplength = s.steplength ∧ s'.iter = s.iter := by
  have hp : ∀ s0 : CSQP P, (prepare s0).c = s0.c ∧ (prepare s0).steplength = s0.steplength ∧ (prepare s0).iter = s0.iter := by
    intro s0; unfold prepare; simp only []; split <;> exact ⟨rfl, rfl, rfl⟩
  have hd : ∀ o s1, direction W fuel true (entry s) = some (o, s1) →
      s1.c = s.c ∧ s1.steplength = s.steplength ∧ s1.iter = s.iter := by
    intro o s1 h
    obtain ⟨q, p, d, rfl⟩ := direction_set h
    exact hp _
  cases body_cases h with
  | timeUp hu hs hr => subst hs; exact ⟨rfl, rfl, rfl⟩
  | ended hu o h1 hr => exact hd _ _ h1
  | noQP hu h1 hq hr => exact hd _ _ h1
  | converged hu s1 h1 hq hk hs hr => have := hd _ _ h1; subst hs; exact this
  | searched hu s1 h1 hq hk ha =>
    have h2 := hd _ _ h1
    have hl : ∀ b s2, lineSearch (checked s1).c.par.alphas (checked s1).pushFilter.setMerit = (b, s2) →
        s2.c = s.c ∧ s2.steplength = s.steplength ∧ s2.iter = s.iter := by
      intro b s2 hl
      obtain ⟨_, _, _, _, _, _, _, _, _, e⟩ := lineSearch_set (checked s1).c.par.alphas (checked s1).pushFilter.setMerit
      rw [hl] at e
      change s2 = _ at e
      subst e
      exact h2
    cases ha with
    | rejected s2 h3 hs hr => have := hl _ _ h3; subst hs; exact this
    | accepted s2 h3 hs hr =>
      have : s2.updateReg.2.c = s2.c ∧ s2.updateReg.2.steplength = s2.steplength ∧ s2.updateReg.2.iter = s2.iter := by
        unfold updateReg; split
        · exact ⟨rfl, rfl, rfl⟩
        · split <;> exact ⟨rfl, rfl, rfl⟩
      have h4 := hl _ _ h3
      subst hs
      exact ⟨this.1.trans h4.1, this.2.1.trans h4.2.1, this.2.2.trans h4.2.2⟩

theorem start_conf (W : World F) (xs : Option (Traj P)) (us : Option (Ctrls P)) (m : ℕ) (ri : F) (s : CSQP P) :
    (s.start W xs us m ri).c = s.c ∧ (s.start W xs us m ri).steplength = s.steplength ∧
    (s.start W xs us m ri).q.reached = false ∧ (s.start W xs us m ri).iter = 0 := by
  unfold start
  by_cases h : m = 0
  · subst h; exact ⟨rfl, rfl, rfl, rfl⟩
  · simp only [if_neg h]; exact ⟨trivial, trivial, trivial, trivial⟩

end CSQP
end Mim
