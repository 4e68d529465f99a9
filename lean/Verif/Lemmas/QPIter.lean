import Verif.Lemmas.QPMt
import Verif.Lemmas.CSQPReach

/-!
# QP iterations

`AtIter llt E q0 q`: `q` is the state in front of the clock check of some iteration of the QP loop of
`q0.computeDirection`.
-/
set_option linter.unusedSectionVars false
set_option linter.unusedSimpArgs false

namespace Mim
section
variable {F : Type} [Add F] [Sub F] [Mul F] [Div F] [Neg F] [Zero F] [One F] [FloatOps F] [SqrtOps F] {P : Problem F}
variable {llt : LLT F} {E : QEnv P}
open QP

/-- the bookkeeping between two iterations. -/
def CQP.between (E : QEnv P) (q : CQP P) : CQP P :=
  { (if q.qpIters % E.c.interval = 0 then q.setTol E.c else q) with qpIters := q.qpIters + 1 }

/-- states at the head of the QP loop. -/
inductive AtIter (llt : LLT F) (E : QEnv P) (q0 : CQP P) : CQP P → Prop
  | first {q : CQP P} (h : (q0.resetParams E.c).warm llt E = .ok q) : AtIter llt E q0 { q with qpIters := 1, exec := 0 }
  | next {q q' : CQP P} (h : AtIter llt E q0 q) (ht : q.timeUp E = false)
      (hs : ({ q with tick := q.tick + 1 } : CQP P).step llt E = .ok q')
      (hn : q'.qpIters % E.c.interval = 0 → (q'.setTol E.c).converged = false) : AtIter llt E q0 (q'.between E)

theorem setTol_qpIters (c : CConf F) (q : CQP P) : (q.setTol c).qpIters = q.qpIters := by
  unfold CQP.setTol; split <;> rfl

theorem setTol_v (c : CConf F) (q : CQP P) : (q.setTol c).v = q.v ∧ (q.setTol c).b = q.b ∧ (q.setTol c).n = q.n ∧
    (q.setTol c).exec = q.exec ∧ (q.setTol c).tick = q.tick ∧ (q.setTol c).t0 = q.t0 ∧ (q.setTol c).reached = q.reached ∧
    (q.setTol c).rhoSparse = q.rhoSparse := by
  unfold CQP.setTol; split <;> exact ⟨rfl, rfl, rfl, rfl, rfl, rfl, rfl, rfl⟩

theorem between_v (q : CQP P) : (q.between E).v = q.v ∧ (q.between E).b = q.b ∧ (q.between E).n = q.n ∧
    (q.between E).exec = q.exec ∧ (q.between E).tick = q.tick ∧ (q.between E).t0 = q.t0 ∧
    (q.between E).reached = q.reached ∧ (q.between E).rhoSparse = q.rhoSparse ∧ (q.between E).qpIters = q.qpIters + 1 := by
  unfold CQP.between
  obtain ⟨h1, h2, h3, h4, h5, h6, h7, h8⟩ := setTol_v E.c q
  split
  · exact ⟨h1, h2, h3, h4, h5, h6, h7, h8, rfl⟩
  · exact ⟨rfl, rfl, rfl, rfl, rfl, rfl, rfl, rfl, rfl⟩

/-- how the loop ends. -/
inductive LoopEnd (llt : LLT F) (E : QEnv P) (q0 : CQP P) (n : ℕ) : CQP P → Prop
  | limit {q : CQP P} (h : AtIter llt E q0 q) (he : q.exec = n) : LoopEnd llt E q0 n { q with why := .limit }
  | time {q : CQP P} (h : AtIter llt E q0 q) (he : q.exec < n) (ht : q.timeUp E = true) :
      LoopEnd llt E q0 n { q with tick := q.tick + 1, qpIters := q.qpIters - 1, reached := true, why := .time }
  | tol {q q' : CQP P} (h : AtIter llt E q0 q) (he : q.exec < n) (ht : q.timeUp E = false)
      (hs : ({ q with tick := q.tick + 1 } : CQP P).step llt E = .ok q') (hi : q'.qpIters % E.c.interval = 0)
      (hc : (q'.setTol E.c).converged = true) : LoopEnd llt E q0 n { q'.setTol E.c with why := .tol }

theorem step_misc {q q' : CQP P} (h : q.step llt E = .ok q') : q'.exec = q.exec + 1 ∧ q'.qpIters = q.qpIters ∧
    q'.tick = q.tick ∧ q'.t0 = q.t0 ∧ q'.reached = q.reached := by
  unfold CQP.step at h
  obtain ⟨q1, h1, h2⟩ := Res.thenDo_eq_ok h
  have hq : ∃ b, q1 = { q with b := b } := by
    unfold CQP.pass at h1
    split at h1
    · split at h1
      all_goals
        obtain ⟨b, _, h4⟩ := Res.map_eq_ok h1
        exact ⟨b, h4.symm⟩
    · cases h1
      exact ⟨_, rfl⟩
  obtain ⟨b, rfl⟩ := hq
  subst h2
  simp only [true_and]
  have hr : ∀ q : CQP P, (q.updateRho E).tick = q.tick ∧ (q.updateRho E).t0 = q.t0 ∧ (q.updateRho E).reached = q.reached ∧
      (q.updateRho E).qpIters = q.qpIters := by
    intro q
    unfold CQP.updateRho
    by_cases h : q.qpIters % E.c.interval = 0 <;> simp only [h, if_true, if_false, and_self]
    split <;> exact ⟨rfl, rfl, rfl, rfl⟩
  obtain ⟨a1, a2, a3, a4⟩ := hr (({ q with b := b } : CQP P).forward E |>.updateLag E)
  exact ⟨a4, a1, a2, a3⟩

/-- number of executed iterations and `qp_iters_` at the head of the loop. -/
theorem AtIter.count {q0 q : CQP P} (h : AtIter llt E q0 q) : q.qpIters = q.exec + 1 := by
  induction h with
  | first h => rfl
  | next h ht hs hn ih =>
    obtain ⟨h1, h2, _⟩ := step_misc hs
    obtain ⟨_, _, _, a4, _, _, _, _, a9⟩ := between_v (E := E) (_ : CQP P)
    rw [a9, a4, h1, h2]
    simp only [ih]

theorem loop_end {q0 : CQP P} {n : ℕ} {q q' : CQP P} (h : AtIter llt E q0 q) (hl : CQP.loop llt E n q = .ok q') :
    LoopEnd llt E q0 (q.exec + n) q' := by
  induction n generalizing q with
  | zero => cases hl; exact .limit h rfl
  | succ n ih =>
    unfold CQP.loop at hl
    simp only [] at hl
    cases ht : q.timeUp E with
    | true =>
      rw [ht] at hl
      simp only [if_true] at hl
      cases hl
      exact .time h (by omega) ht
    | false =>
      rw [ht] at hl
      simp only [Bool.false_eq_true, if_false] at hl
      obtain ⟨q1, h1, h2⟩ := Res.bind_eq_ok hl
      have hx : (q1.between E).exec = q.exec + 1 := by
        rw [(between_v (E := E) q1).2.2.2.1, (step_misc h1).1]
      by_cases hi : q1.qpIters % E.c.interval = 0
      · simp only [hi, if_true] at h2
        cases hc : (q1.setTol E.c).converged with
        | true =>
          rw [hc] at h2
          simp only [if_true] at h2
          cases h2
          exact .tol h (by omega) ht h1 hi hc
        | false =>
          rw [hc] at h2
          simp only [Bool.false_eq_true, if_false] at h2
          have e : ({ q1.setTol E.c with qpIters := (q1.setTol E.c).qpIters + 1 } : CQP P) = q1.between E := by
            unfold CQP.between
            simp only [hi, if_true, setTol_qpIters]
          rw [e] at h2
          have := ih (AtIter.next h ht h1 fun _ => hc) h2
          rw [hx] at this
          have e2 : q.exec + 1 + n = q.exec + (n + 1) := by omega
          rwa [e2] at this
      · simp only [hi, if_false] at h2
        have e : ({ q1 with qpIters := q1.qpIters + 1 } : CQP P) = q1.between E := by
          unfold CQP.between
          simp only [hi, if_false]
        rw [e] at h2
        have := ih (AtIter.next h ht h1 fun e => absurd e hi) h2
        rw [hx] at this
        have e2 : q.exec + 1 + n = q.exec + (n + 1) := by omega
        rwa [e2] at this

/-- how a successful `computeDirection` ends. -/
theorem direction_end {q0 q' : CQP P} (h : q0.computeDirection llt E = .ok q') : LoopEnd llt E q0 E.c.maxQP q' := by
  unfold CQP.computeDirection at h
  obtain ⟨q, h1, h2⟩ := Res.bind_eq_ok h
  have := loop_end (AtIter.first h1) h2
  simpa using this

/-- invariants of the QP solver hold at the head of each iteration. -/
theorem AtIter.inv {I : CQP P → Prop} (hI : CQP.Inv E I) {q0 q : CQP P} (h0 : I q0) (h : AtIter llt E q0 q) : I q := by
  induction h with
  | @first q h =>
    have := hI.warm_st llt _ (hI.reset q0 h0)
    rw [h] at this
    exact hI.ctl q q.tolP q.tolD q.rhoEst 1 q.tick q.reached 0 q.why this
  | @next q q' h ht hs hn ih =>
    have := hI.step_st llt _ (hI.ctl q q.tolP q.tolD q.rhoEst q.qpIters (q.tick + 1) q.reached q.exec q.why ih)
    rw [hs] at this
    unfold CQP.between
    split
    · have h2 := hI.setTol _ this
      exact hI.ctl (q'.setTol E.c) _ _ _ (q'.qpIters + 1) _ _ _ _ h2
    · exact hI.ctl q' q'.tolP q'.tolD q'.rhoEst (q'.qpIters + 1) q'.tick q'.reached q'.exec q'.why this

end
end Mim
