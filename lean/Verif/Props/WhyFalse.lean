import Verif.Props.SQPReg
import Verif.Props.DDPReturn
import Verif.Props.CSQPReg
import Verif.Props.ProxReg

/-!
# Why `solve` returns `false` (C56)

`solve` of every solver returns `false` for a reason that can be read off the solver afterwards: the iteration budget is used up,
the regularization is at its maximum, and for SolverCSQP also: the time limit was reached, no QP iteration was done, or a line
search rejected every trial step.  In the other direction: an iteration that raises the regularization to its maximum is the last
one.  `iter` is `get_iter()`, `preg` is `get_preg()`, `m` is `maxiter`.
-/
set_option linter.unusedSectionVars false
set_option linter.unusedSimpArgs false

namespace Mim
open Spec Matrix

/-! ### SolverSQP -/
section
open SQP
variable {F : Type} [Add F] [Sub F] [Mul F] [Div F] [Neg F] [Zero F] [One F] [FloatOps F] {P : Problem F}
variable {llt : LLT F} {fuel : ℕ} {xs : Option (Traj P)} {us : Option (Ctrls P)} {m : ℕ} {ri : F} {s s' : SQP P}

theorem SQP.retry_max {r : Bool} {s s1 : SQP P} (h : SQP.retry llt fuel r s = some (false, s1)) :
    eqb s1.preg s1.par.regMax = true := by
  induction fuel generalizing r s with
  | zero => cases h
  | succ n ih =>
    unfold SQP.retry at h
    split at h
    · cases h
    · simp only [] at h
      split at h
      · rename_i h1; cases h; exact h1
      · exact ih h

theorem SQP.updateReg_max {s : SQP P} (h : s.updateReg.1 = true) : eqb s.updateReg.2.preg s.updateReg.2.par.regMax = true := by
  unfold SQP.updateReg at h ⊢
  simp only [] at h ⊢
  generalize (if ltb s.par.thStepDec s.steplength then s.decreaseReg else s) = s1 at h ⊢
  split at h
  · rename_i h1; rw [if_pos h1]; exact h
  · cases h

theorem SQP.updateReg_max' {s : SQP P} (h : s.updateReg.1 = false) (hi : leb s.updateReg.2.steplength s.updateReg.2.par.thStepInc = true) :
    eqb s.updateReg.2.preg s.updateReg.2.par.regMax = false := by
  unfold SQP.updateReg at h hi ⊢
  simp only [] at h hi ⊢
  generalize (if ltb s.par.thStepDec s.steplength then s.decreaseReg else s) = s1 at h hi ⊢
  split at h
  · rename_i h1; rw [if_pos h1]; exact h
  · rename_i h1; rw [if_neg h1] at hi; exact absurd hi h1

theorem SQP.body_max {r : Option Bool} (h : SQP.body llt fuel s = some (r, s')) :
    (r = some false → eqb s'.preg s'.par.regMax = true) ∧ s'.iter = s.iter ∧ s'.par = s.par ∧ s'.extra = s.extra ∧ s'.tol = s.tol ∧
    (r = none → leb s'.steplength s'.par.thStepInc = true → eqb s'.preg s'.par.regMax = false) := by
  have hf := SQP.body_frame (P := P) (fun s => (s.iter, s.par, s.extra, s.tol)) (fun _ _ _ _ _ _ _ _ _ _ _ _ => rfl) (fun _ _ _ => rfl)
    (fun _ _ _ _ _ _ _ _ _ => rfl) (fun _ _ _ _ _ _ => rfl) (fun _ _ _ _ => rfl) (fun _ _ _ _ => rfl) (fun _ _ => rfl) h
  simp only [Prod.mk.injEq] at hf
  refine ⟨fun hr => ?_, hf.1, hf.2.1, hf.2.2.1, hf.2.2.2, fun hr hi => ?_⟩
  · subst hr
    cases SQP.body_cases h with
    | gaveUp hr hb => exact SQP.retry_max hr
    | converged s1 hr hk hs hb => cases hb
    | searched s1 hr hk hs hb =>
      split at hb
      · rename_i h1; subst hs; exact SQP.updateReg_max h1
      · cases hb
  · subst hr
    cases SQP.body_cases h with
    | gaveUp hr hb => cases hb
    | converged s1 hr hk hs hb => cases hb
    | searched s1 hr hk hs hb =>
      split at hb
      · cases hb
      · rename_i h1; subst hs; exact SQP.updateReg_max' (by simpa using h1) hi

/-- **C56 (SQP).**  If `solve` returns `false` then all `maxiter` iterations were made and, with
`extra_iteration_for_last_kkt`, the last computed residual is not within the tolerance – or the regularization is at its
maximum. -/
theorem C56_sqp_false (h : SQP.solve llt fuel xs us m ri s = some (false, s')) :
    (s'.iter = m ∧ (s.extra = true → leb s'.KKT s.tol = false)) ∨ eqb s'.preg s.par.regMax = true := by
  have key := fun r s1 => SQP.iterate_inv llt fuel
    (fun n s1 => s1.iter + n = m ∧ s1.par = s.par ∧ s1.extra = s.extra ∧ s1.tol = s.tol)
    (fun b s1 => b = false → eqb s1.preg s.par.regMax = true)
    (fun n s1 s2 hI h => by
      obtain ⟨_, h1, h2, h3, h4, _⟩ := SQP.body_max h
      exact ⟨by change s2.iter + 1 + n = m; omega, h2.trans hI.2.1, h3.trans hI.2.2.1, h4.trans hI.2.2.2⟩)
    (fun n s1 b s2 hI h hb => by
      subst hb
      obtain ⟨h0, _, h2, _⟩ := SQP.body_max h
      have := h0 rfl
      rwa [h2, hI.2.1] at this)
    m (s.start xs us ri) ⟨Nat.zero_add m, rfl, rfl, rfl⟩ r s1
  rcases SQP.solve_cases h with h | ⟨s1, h1, h2⟩
  · rcases key _ _ h with ⟨h', _⟩ | ⟨b', e, h'⟩
    · cases h'
    · cases e; exact .inr (h' rfl)
  · obtain ⟨i1, i2, i3, i4⟩ : s1.iter + 0 = m ∧ s1.par = s.par ∧ s1.extra = s.extra ∧ s1.tol = s.tol := by
      rcases key _ _ h1 with ⟨_, h'⟩ | ⟨b', h', _⟩
      · exact h'
      · cases h'
    have hfr : ∀ b s2, SQP.retry llt fuel true s1 = some (b, s2) → s2.iter = s1.iter ∧ s2.par = s1.par ∧ s2.tol = s1.tol := by
      intro b s2 hr
      have := SQP.retry_frame (P := P) (fun s => (s.iter, s.par, s.tol)) (fun _ _ _ _ _ _ _ _ _ _ _ _ => rfl) (fun _ _ _ => rfl)
        _ _ _ _ _ _ hr
      simpa only [Prod.mk.injEq] using this
    cases SQP.extra_cases h2 with
    | off he hb hs => subst hs; exact .inl ⟨i1, fun e => by rw [i3, e] at he; cases he⟩
    | gaveUp he hr hb =>
      obtain ⟨_, e2, _⟩ := hfr _ _ hr
      have := SQP.retry_max hr
      rw [e2, i2] at this
      exact .inr this
    | checked he s2 hr hs hb =>
      obtain ⟨e1, _, e3⟩ := hfr _ _ hr
      subst hs
      refine .inl ⟨?_, fun _ => ?_⟩
      · change s2.iter = m; rw [e1]; exact i1
      · have e : (SQP.checked s2).tol = s.tol := e3.trans i4
        rw [e] at hb; exact hb.symm

/-- **C56 (SQP), in the other direction.**  An iteration whose last tried step length counts as short (`<= th_stepinc`) – in
particular, with the default settings, one that rejected every trial step – is followed by a further one only if the
regularization has not reached its maximum. -/
theorem C56_sqp_goes_on (h : SQP.body llt fuel s = some (none, s')) (hi : leb s'.steplength s.par.thStepInc = true) :
    eqb s'.preg s.par.regMax = false := by
  obtain ⟨_, _, h2, _, _, h3⟩ := SQP.body_max h
  rw [h2] at h3
  exact h3 rfl hi

end

/-! ### SolverDDP, SolverFDDP -/
section
open DDP
variable {F : Type} [Add F] [Sub F] [Mul F] [Div F] [Neg F] [Zero F] [One F] [FloatOps F] {P : Problem F}
variable {k : Kind P} {llt : LLT F} {fuel : ℕ} {xs : Option (Traj P)} {us : Option (Ctrls P)} {m : ℕ} {fe : Bool} {ri : F} {s s' : DDP P}

theorem DDP.updateReg_max {s : DDP P} (h : s.updateReg.1 = true) : eqb s.updateReg.2.preg s.updateReg.2.c.par.regMax = true := by
  unfold DDP.updateReg at h ⊢
  simp only [] at h ⊢
  generalize (if ltb s.c.par.thStepDec s.steplength then s.decreaseReg else s) = s1 at h ⊢
  split at h
  · rename_i h1; rw [if_pos h1]; exact h
  · cases h

theorem DDP.updateReg_max' {s : DDP P} (h : s.updateReg.1 = false) (hi : leb s.updateReg.2.steplength s.updateReg.2.c.par.thStepInc = true) :
    eqb s.updateReg.2.preg s.updateReg.2.c.par.regMax = false := by
  unfold DDP.updateReg at h hi ⊢
  simp only [] at h hi ⊢
  generalize (if ltb s.c.par.thStepDec s.steplength then s.decreaseReg else s) = s1 at h hi ⊢
  split at h
  · rename_i h1; rw [if_pos h1]; exact h
  · rename_i h1; rw [if_neg h1] at hi; exact absurd hi h1

theorem DDP.body_max (hk : k.Laws) (h : DDP.body k llt fuel s = some (some false, s')) : eqb s'.preg s'.c.par.regMax = true := by
  cases DDP.body_cases h with
  | gaveUp hr hb => exact (DDP.retry_spec hk hr).2.2 rfl
  | converged s1 hr hk hs hb => cases hb
  | stuck s1 hr hk hu hs hb => subst hs; exact DDP.updateReg_max hu
  | next s1 hr hk hu hs hb => cases hb

/-- **C56 (DDP, FDDP).**  If `solve` returns `false` then all `maxiter` iterations were made, or the regularization is at its
maximum. -/
theorem C56_ddp_false (hk : IsSolver k) (h : DDP.solve k llt fuel xs us m fe ri s = some (false, s')) :
    s'.iter = m ∨ eqb s'.preg s.c.par.regMax = true := by
  refine DDP.solve_inv (k := k) (llt := llt) (fuel := fuel) (fun n s1 => s1.iter + n = m ∧ s1.c = s.c)
    (fun b s1 => b = false → s1.iter = m ∨ eqb s1.preg s.c.par.regMax = true) (fun n s1 s2 hI h => ?_) (fun n s1 b s2 hI h hb => ?_)
    (fun s1 hI _ => .inl hI.1) ⟨Nat.zero_add m, rfl⟩ h rfl
  · obtain ⟨h1, h2⟩ := DDP.body_frame hk.laws h
    exact ⟨by change s2.iter + 1 + n = m; omega, h1.trans hI.2⟩
  · subst hb
    have h1 := DDP.body_max hk.laws h
    rw [(DDP.body_frame hk.laws h).1, hI.2] at h1
    exact .inr h1

/-- **C56 (DDP, FDDP), in the other direction.** -/
theorem C56_ddp_goes_on (hk : IsSolver k) (h : DDP.body k llt fuel s = some (none, s')) (hi : leb s'.steplength s.c.par.thStepInc = true) :
    eqb s'.preg s.c.par.regMax = false := by
  have hc := (DDP.body_frame hk.laws h).1
  rw [← hc] at hi ⊢
  cases DDP.body_cases h with
  | gaveUp hr hb => cases hb
  | converged s1 hr hk hs hb => cases hb
  | stuck s1 hr hk hu hs hb => cases hb
  | next s1 hr hk hu hs hb =>
    subst hs
    exact DDP.updateReg_max' hu hi

end

/-! ### SolverPROXQP -/
section
open PROX
variable {F : Type} [Add F] [Sub F] [Mul F] [Div F] [Neg F] [Zero F] [One F] [FloatOps F] {P : Problem F}
variable {qp : PSolve F} {fuel : ℕ} {xs : Option (Traj P)} {us : Option (Ctrls P)} {m : ℕ} {ri : F} {s s' : PROX P}

theorem PROX.updateReg_max {s : PROX P} (h : s.updateReg.1 = true) : eqb s.updateReg.2.preg s.updateReg.2.c.par.regMax = true := by
  unfold PROX.updateReg at h ⊢
  simp only [] at h ⊢
  generalize (if ltb s.c.par.thStepDec s.steplength then s.decreaseReg else s) = s1 at h ⊢
  split at h
  · rename_i h1; rw [if_pos h1]; exact h
  · cases h

theorem PROX.updateReg_max' {s : PROX P} (h : s.updateReg.1 = false) (hi : leb s.updateReg.2.steplength s.updateReg.2.c.par.thStepInc = true) :
    eqb s.updateReg.2.preg s.updateReg.2.c.par.regMax = false := by
  unfold PROX.updateReg at h hi ⊢
  simp only [] at h hi ⊢
  generalize (if ltb s.c.par.thStepDec s.steplength then s.decreaseReg else s) = s1 at h hi ⊢
  split at h
  · rename_i h1; rw [if_pos h1]; exact h
  · rename_i h1; rw [if_neg h1] at hi; exact absurd hi h1

namespace PROX
/-- **C56 (PROXQP).**  If `solve` returns `false` then all `maxiter` iterations were made, or the regularization is at its
maximum. -/
theorem C56_prox_false (h : solve qp fuel xs us m ri s = some (false, s')) : s'.iter = m ∨ eqb s'.preg s.c.par.regMax = true := by
  rcases solve_end h with ⟨_, _, h1⟩ | ⟨s1, h1, h2, h3⟩
  · exact .inl h1
  · have hc : s'.c = s.c := (body_iter h3).2.trans h1.conf
    right
    rw [← hc]
    cases body_cases h3 with
    | gaveUp hr hb =>
      cases retry_post hr with
      | found j a _ _ _ hb hs => cases hb
      | gaveUp j _ _ hm hb hs => subst hs; exact hm
    | converged s2 hr hk hs hb => cases hb
    | searched s2 hr hk hs hb =>
      split at hb
      · rename_i h1; rw [if_pos h1] at hs; subst hs; exact updateReg_max h1
      · cases hb

/-- **C56 (PROXQP), in the other direction.** -/
theorem C56_prox_goes_on (h : body qp fuel s = some (none, s')) (hi : leb s'.steplength s.c.par.thStepInc = true) :
    eqb s'.preg s.c.par.regMax = false := by
  have hc := (body_iter h).2
  rw [← hc] at hi ⊢
  cases body_cases h with
  | gaveUp hr hb => cases hb
  | converged s1 hr hk hs hb => cases hb
  | searched s1 hr hk hs hb =>
    split at hb
    · cases hb
    · rename_i h1; rw [if_neg h1] at hs; subst hs; exact updateReg_max' (by simpa using h1) hi
end PROX
end

/-! ### SolverCSQP -/
section
open CSQP
variable {F : Type} [Add F] [Sub F] [Mul F] [Div F] [Neg F] [Zero F] [One F] [FloatOps F] [SqrtOps F] {P : Problem F}
variable {W : World F} {fuel : ℕ} {xs : Option (Traj P)} {us : Option (Ctrls P)} {m : ℕ} {ri : F} {s s' : CSQP P} {o : Out}

namespace CSQP
theorem retry_max {chk : Bool} {s s1 : CSQP P} (h : retry W chk fuel s = some (false, s1)) : leb s1.c.par.regMax s1.preg = true := by
  induction fuel generalizing s with
  | zero => cases h
  | succ n ih =>
    unfold retry at h
    split at h
    · cases h
    · split at h
      · cases h
      · simp only [] at h
        split at h
        · rename_i h1; cases h; exact h1
        · exact ih h

theorem direction_max {chk : Bool} {s s1 : CSQP P} (h : direction W fuel chk s = some (some (.ret false), s1)) :
    leb s1.c.par.regMax s1.preg = true := by
  cases direction_cases h with
  | escaped hr hd ho => cases ho
  | plain hr hd ho => cases ho
  | found hr hd ho => cases ho
  | gaveUp hr hd ho => exact retry_max hd

theorem updateReg_max {s : CSQP P} (h : s.updateReg.1 = true) : leb s.updateReg.2.c.par.regMax s.updateReg.2.preg = true := by
  unfold updateReg at h ⊢
  simp only [] at h ⊢
  split at h
  · cases h
  · split at h
    · cases h
    · rename_i h1 h2; rw [if_neg h1, if_neg h2]; exact h

/-- the counter of failed line searches only grows. -/
theorem direction_nRej {chk : Bool} {s s1 : CSQP P} {oo : Option Out} (h : direction W fuel chk s = some (oo, s1)) :
    s1.nRej = s.nRej ∧ s1.iter = s.iter ∧ s1.c = s.c := by
  obtain ⟨q, p, d, rfl⟩ := direction_set h
  exact ⟨rfl, rfl, rfl⟩

theorem prepare_nRej (s : CSQP P) : s.prepare.nRej = s.nRej := by
  unfold prepare; simp only []; split <;> rfl

/-- what an iteration that does not go on leaves behind. -/
theorem body_why {r : Step} (h : body W fuel s = some (r, s')) :
    (r = .next → s'.nRej = s.nRej) ∧
    (r = .fin (.ret false) → leb s.c.par.regMax s'.preg = true ∨ s'.q.qpIters = 0) ∧
    (r = .brk → s'.q.reached = true ∨ s'.nRej = s.nRej + 1) := by
  have hc := (body_conf h).1
  have hn : (entry s).nRej = s.nRej := prepare_nRej _
  cases body_cases h with
  | timeUp hu hs hr => subst hr hs; exact ⟨fun e => (by cases e), fun e => (by cases e), fun _ => .inl rfl⟩
  | ended hu o hd hr =>
    refine ⟨fun e => (by rw [hr] at e; cases e), fun e => .inl ?_, fun e => (by rw [hr] at e; cases e)⟩
    rw [hr] at e; cases e
    rw [← hc]; exact direction_max hd
  | noQP hu hd hq hr =>
    exact ⟨fun e => (by rw [hr] at e; cases e), fun e => .inr hq, fun e => (by rw [hr] at e; cases e)⟩
  | converged hu s1 hd hq hk hs hr =>
    exact ⟨fun e => (by rw [hr] at e; cases e), fun e => (by rw [hr] at e; cases e), fun e => (by rw [hr] at e; cases e)⟩
  | searched hu s1 hd hq hk ha =>
    have h1 : s1.nRej = s.nRej := (direction_nRej hd).1.trans hn
    have hls : (lineSearch (checked s1).c.par.alphas (checked s1).pushFilter.setMerit).2.nRej = s1.nRej := by
      obtain ⟨d, w, iw, n, x, u, fe, ac, _, e⟩ := lineSearch_set (checked s1).c.par.alphas (checked s1).pushFilter.setMerit
      rw [e]; rfl
    cases ha with
    | rejected s2 hl hs hr =>
      rw [hl] at hls
      subst hr hs
      exact ⟨fun e => (by cases e), fun e => (by cases e), fun _ => .inr (by change s2.nRej + 1 = _; rw [hls, h1])⟩
    | accepted s2 hl hs hr =>
      rw [hl] at hls
      refine ⟨fun e => ?_, fun e => .inl ?_, fun e => ?_⟩
      · obtain ⟨p, d, e⟩ := updateReg_set s2
        rw [hs, e]; exact hls.trans h1
      · rw [hr] at e
        split at e
        · rename_i h2
          rw [← hc, hs]; exact updateReg_max h2
        · cases e
      · rw [hr] at e; split at e <;> cases e
end CSQP

/-- **C56 (CSQP).**  If `solve` returns `false` then one of the following can be read off the solver: `maxiter` iterations were
made; the regularization is at its maximum; the time limit was noticed; the direction of the last iteration comes from a QP
without a single iteration; or a line search rejected every trial step. -/
theorem C56_csqp_false (h : CSQP.solve W fuel xs us m ri s = some (.ret false, s')) :
    s'.iter = m ∨ leb s.c.par.regMax s'.preg = true ∨ s'.q.reached = true ∨ s'.q.qpIters = 0 ∨ s'.nRej = s.nRej + 1 := by
  have hst : (s.start W xs us m ri).nRej = s.nRej := by
    unfold start
    by_cases hm : m = 0
    · subst hm; rfl
    · simp only [if_neg hm]
  obtain ⟨c1, _, _, c4⟩ := start_conf W xs us m ri s
  refine CSQP.solve_inv (W := W) (fuel := fuel) (fun n s1 => s1.c = s.c ∧ s1.iter + n = m ∧ s1.nRej = s.nRej)
    (fun s1 => s1.c = s.c ∧ (s1.iter = m ∨ s1.q.reached = true ∨ s1.nRej = s.nRej + 1))
    (fun o s1 => o = .ret false → s1.iter = m ∨ leb s.c.par.regMax s1.preg = true ∨ s1.q.reached = true ∨ s1.q.qpIters = 0 ∨
      s1.nRej = s.nRej + 1) ⟨c1, by rw [c4]; exact Nat.zero_add m, hst⟩ (fun s1 hI => ⟨hI.1, .inl hI.2.1⟩) (fun n s1 s2 hI h => ?_)
    (fun n s1 s2 hI h => ?_) (fun n s1 o s2 hI h ho => ?_) (fun s1 o s2 hJ h ho => ?_) h rfl
  · obtain ⟨h1, _, h3⟩ := body_conf h
    exact ⟨h1.trans hI.1, by change s2.iter + 1 + n = m; omega, ((body_why h).1 rfl).trans hI.2.2⟩
  · obtain ⟨h1, _, h3⟩ := body_conf h
    rcases (body_why h).2.2 rfl with h4 | h4
    · exact ⟨h1.trans hI.1, .inr (.inl h4)⟩
    · exact ⟨h1.trans hI.1, .inr (.inr (by rw [h4, hI.2.2]))⟩
  · subst ho
    rcases (body_why h).2.1 rfl with h4 | h4
    · rw [hI.1] at h4; exact .inr (.inl h4)
    · exact .inr (.inr (.inr (.inl h4)))
  · have tail : ∀ s3 : CSQP P, s3.iter = s1.iter → s3.nRej = s1.nRej → s1.q.reached = false →
        s3.iter = m ∨ leb s.c.par.regMax s3.preg = true ∨ s3.q.reached = true ∨ s3.q.qpIters = 0 ∨ s3.nRej = s.nRej + 1 := by
      intro s3 e1 e2 hr
      rcases hJ.2 with h4 | h4 | h4
      · exact .inl (e1.trans h4)
      · rw [hr] at h4; cases h4
      · exact .inr (.inr (.inr (.inr (e2.trans h4))))
    cases extra_cases h with
    | off he ho hs =>
      subst hs
      rcases hJ.2 with h4 | h4 | h4
      · exact .inl h4
      · exact .inr (.inr (.inl h4))
      · exact .inr (.inr (.inr (.inr h4)))
    | ended he hr hd =>
      obtain ⟨e1, e2, _⟩ := direction_nRej hd
      exact tail s2 e2 e1 hr
    | checked he hr s3 hd hs ho =>
      obtain ⟨e1, e2, _⟩ := direction_nRej hd
      subst hs
      exact tail (CSQP.checked s3) e2 e1 hr

/-- C56 (CSQP), in the other direction: an iteration followed by a further one leaves the regularization below its maximum,
unless the constant `get_steplength()` exceeds `th_stepdec` (then it was decreased) or `remove_reg` is set. -/
theorem C56_csqp_goes_on (h : CSQP.body W fuel s = some (.next, s')) (hr : s.c.removeReg = false)
    (hd : ltb s.c.par.thStepDec s.steplength = false) : leb s.c.par.regMax s'.preg = false := by
  have hc := body_conf h
  rw [← hc.1] at hr hd ⊢
  rw [← hc.2.1] at hd
  have key : ∀ s2 : CSQP P, s2.updateReg.1 = false → s2.updateReg.2.c.removeReg = false →
      ltb s2.updateReg.2.c.par.thStepDec s2.updateReg.2.steplength = false → leb s2.updateReg.2.c.par.regMax s2.updateReg.2.preg = false := by
    intro s2 h1 h2 h3
    obtain ⟨p, d, e⟩ := updateReg_set s2
    have e1 : s2.updateReg.2.c = s2.c := by rw [e]
    have e2 : s2.updateReg.2.steplength = s2.steplength := by rw [e]
    rw [e1] at h2; rw [e1, e2] at h3
    rw [e1]
    unfold updateReg at h1 ⊢
    rw [h2, h3] at h1 ⊢
    exact h1
  cases body_cases h with
  | timeUp hu hs hr => cases hr
  | ended hu o h1 hr => cases hr
  | noQP hu h1 hq hr => cases hr
  | converged hu s1 h1 hq hk hs hr => cases hr
  | searched hu s1 h1 hq hk ha =>
    cases ha with
    | rejected s2 h3 hs hr => cases hr
    | accepted s2 h3 hs hr' =>
      split at hr'
      · cases hr'
      · rename_i h4
        subst hs
        exact key s2 (by simpa using h4) hr hd
end

section
open CSQP
variable {K : Type} [Field K] [LinearOrder K] [IsStrictOrderedRing K] [SqrtOps K] {P : Problem K}
variable {W : World K} {fuel : ℕ} {xs : Option (Traj P)} {us : Option (Ctrls P)} {m : ℕ} {ri : K} {s s' : CSQP P} {o : Out}
open scoped Classical

/-- the step that does not count as long multiplies the regularization. -/
theorem CSQP.body_geom (hinc : 1 ≤ s.c.par.regInc) (hr : s.c.removeReg = false)
    (hd : s.steplength ≤ s.c.par.thStepDec) {x : K} (hx : x ≤ s.preg) (hx0 : 0 ≤ x) (h : CSQP.body W fuel s = some (.next, s')) :
    x * s.c.par.regInc ≤ s'.preg ∧ s'.preg < s.c.par.regMax := by
  have hlt := C56_csqp_goes_on h hr (by simpa using hd)
  have hlt : s'.preg < s.c.par.regMax := by simpa using hlt
  refine ⟨?_, hlt⟩
  have hmono : ∀ (fuel : ℕ) {s1 s2 : CSQP P}, s1.c = s.c → x ≤ s1.preg → retry W true fuel s1 = some (true, s2) → x ≤ s2.preg := by
    intro fuel
    induction fuel with
    | zero => intro s1 s2 _ _ h; cases h
    | succ n ih =>
      intro s1 s2 hc h1 h2
      unfold retry at h2
      split at h2
      · cases h2; exact h1
      · have hst := dir_st W s1
        split at h2
        · rename_i s3 h3
          cases h2
          rw [h3] at hst
          change s2 = _ at hst
          rw [hst]; exact h1
        · rename_i s3 h3
          rw [h3] at hst
          change s3 = _ at hst
          have hc3 : s3.c = s.c := by rw [hst]; exact hc
          have hp3 : s3.preg = s1.preg := by rw [hst]
          simp only [] at h2
          split at h2
          · cases h2
          · rename_i h4
            refine ih (s1 := s3.increaseReg) hc3 ?_ h2
            have h4 : incReg s3.c.par s3.preg < s3.c.par.regMax := by
              have : ¬ (s3.increaseReg.c.par.regMax ≤ s3.increaseReg.preg) := by simpa using h4
              exact not_le.mp this
            change x ≤ incReg s3.c.par s3.preg
            rw [hc3, hp3, incReg_exact] at h4 ⊢
            rcases le_total s.c.par.regMax (s1.preg * s.c.par.regInc) with h5 | h5
            · rw [min_eq_left h5] at h4; exact absurd h4 (lt_irrefl _)
            · rw [min_eq_right h5]; nlinarith
  have hdir : ∀ {s1 s2 : CSQP P}, s1.c = s.c → x ≤ s1.preg → direction W fuel true s1 = some (none, s2) → x ≤ s2.preg := by
    intro s1 s2 hc h1 h2
    cases direction_cases h2 with
    | escaped h3 hd ho => cases ho
    | plain h3 hd ho => rw [hc, hr] at h3; cases h3
    | found h3 hd ho => exact hmono fuel hc h1 hd
    | gaveUp h3 hd ho => cases ho
  have hent : (entry s).c = s.c ∧ (entry s).preg = s.preg := by
    unfold entry prepare; simp only []; split <;> exact ⟨rfl, rfl⟩
  cases body_cases h with
  | timeUp hu hs hr => cases hr
  | ended hu o h1 hr => cases hr
  | noQP hu h1 hq hr => cases hr
  | converged hu s1 h1 hq hk hs hr => cases hr
  | searched hu s1 h1 hq hk ha =>
    have hp1 := hdir hent.1 (by rw [hent.2]; exact hx) h1
    obtain ⟨_, _, hc1⟩ := direction_nRej h1
    have hst1 : s1.steplength = s.steplength := by
      obtain ⟨q, p, d, rfl⟩ := direction_set h1
      unfold entry prepare; simp only []; split <;> rfl
    cases ha with
    | rejected s2 h3 hs hr => cases hr
    | accepted s2 h3 hs hr' =>
      obtain ⟨d, w, iw, n, xx, u, fe, ac, _, e⟩ := lineSearch_set (checked s1).c.par.alphas (checked s1).pushFilter.setMerit
      rw [h3] at e
      change s2 = _ at e
      have ec : s2.c = s.c := by rw [e]; exact hc1.trans hent.1
      have ep : s2.preg = s1.preg := by rw [e]; rfl
      have es : s2.steplength = s.steplength := by rw [e]; exact hst1
      have hu : s2.updateReg.2.preg = incReg s.c.par s1.preg := by
        unfold updateReg
        rw [ec, es, hr, show ltb s.c.par.thStepDec s.steplength = false by simpa using hd]
        change incReg s2.c.par s2.preg = _
        rw [ec, ep]
      rw [hs, hu, incReg_exact] at hlt ⊢
      rcases le_total s.c.par.regMax (s1.preg * s.c.par.regInc) with h5 | h5
      · rw [min_eq_left h5] at hlt; exact absurd hlt (lt_irrefl _)
      · rw [min_eq_right h5]; nlinarith

/-- **C56 (CSQP), a whole solve.**  If `get_steplength()` does not exceed `th_stepdec` (`set_th_stepDec(1)` on a solver whose
step length member has its initial value 1) every accepted step multiplies the regularization, however long it is, and `solve` gives
up before iteration `N`, for every `N` with `reginit * reg_incFactor ^ N >= reg_max`. -/
theorem C56_csqp_gives_up (hinc : 1 ≤ s.c.par.regInc) (hr : s.c.removeReg = false) (hd : s.steplength ≤ s.c.par.thStepDec)
    (hri : 0 < ri) (N : ℕ) (hN : 0 < N) (hreach : s.c.par.regMax ≤ ri * s.c.par.regInc ^ N)
    (h : CSQP.solve W fuel xs us m ri s = some (o, s')) : s'.iter < N := by
  obtain ⟨c1, c2, _, c4⟩ := start_conf W xs us m ri s
  have hp : (s.start W xs us m ri).preg = ri := by
    have : (s.start W xs us m ri).preg = if s.c.removeReg then 0 else initReg s.c.par ri := by
      unfold CSQP.start
      by_cases hm : m = 0
      · subst hm; rfl
      · simp only [if_neg hm]
    rw [this, hr, initReg_exact]; simp
  have hlt : ∀ s1 : CSQP P, ri * s.c.par.regInc ^ s1.iter ≤ s1.preg → s1.iter = 0 ∨ s1.preg < s.c.par.regMax → s1.iter < N := by
    intro s1 h1 h2
    rcases h2 with h2 | h2
    · rw [h2]; exact hN
    · by_contra hn
      have h3 : s.c.par.regInc ^ N ≤ s.c.par.regInc ^ s1.iter := pow_le_pow_right₀ hinc (not_lt.mp hn)
      have h4 : ri * s.c.par.regInc ^ N ≤ ri * s.c.par.regInc ^ s1.iter := mul_le_mul_of_nonneg_left h3 hri.le
      linarith
  refine CSQP.solve_inv (W := W) (fuel := fuel)
    (fun _ s1 => s1.c = s.c ∧ s1.steplength = s.steplength ∧ ri * s.c.par.regInc ^ s1.iter ≤ s1.preg ∧
      (s1.iter = 0 ∨ s1.preg < s.c.par.regMax))
    (fun s1 => s1.iter < N) (fun _ s1 => s1.iter < N) ⟨c1, c2, by rw [c4, hp]; simp, .inl c4⟩
    (fun s1 hI => hlt s1 hI.2.2.1 hI.2.2.2) (fun n s1 s2 hI h => ?_) (fun n s1 s2 hI h => ?_) (fun n s1 o s2 hI h => ?_)
    (fun s1 o s2 hJ h => ?_) h
  · obtain ⟨i1, i2, i3, i4⟩ := hI
    obtain ⟨b1, b2, b3⟩ := body_conf h
    have hg := CSQP.body_geom (s := s1) (by rw [i1]; exact hinc) (by rw [i1]; exact hr) (by rw [i1, i2]; exact hd) i3
      (mul_nonneg hri.le (pow_nonneg (by linarith) _)) h
    rw [i1] at hg
    refine ⟨b1.trans i1, b2.trans i2, ?_, .inr hg.2⟩
    change ri * s.c.par.regInc ^ (s2.iter + 1) ≤ s2.preg
    rw [b3, pow_succ, ← mul_assoc]; exact hg.1
  · rw [(body_conf h).2.2]; exact hlt s1 hI.2.2.1 hI.2.2.2
  · rw [(body_conf h).2.2]; exact hlt s1 hI.2.2.1 hI.2.2.2
  · cases extra_cases h with
    | off he ho hs => subst hs; exact hJ
    | ended he hr hd => rw [(direction_nRej hd).2.1]; exact hJ
    | checked he hr s3 hd hs ho => subst hs; change s3.iter < N; rw [(direction_nRej hd).2.1]; exact hJ

end

/-! ### the cases occur -/
namespace Ex
open CSQP

/-- the one-stage constrained problem with `set_th_stepDec(1)`, one trial step 1/2 and `reg_max = 100`. -/
def shortSolver : CSQP (clq 1 1 1 1 1) :=
  { clqSolver with c := { clqSolver.c with par := { clqSolver.c.par with alphas := [1 / 2], thStepDec := 1, regMax := 100, regInc := 10 } } }

theorem short_run : (CSQP.solve world 20 none none 10 1 shortSolver).map
    (fun r => (decide (r.1 = .ret false), r.2.iter, r.2.preg, r.2.nRej, r.2.acc.length)) = some (true, 1, 100, 0, 2) := by decide +kernel

/-- C56 (CSQP): two accepted steps (both moving towards the solution) exhaust the regularization; the bound of
`C56_csqp_gives_up` (`N = 2`) is sharp here. -/
theorem C56_csqp_example : ∃ s', CSQP.solve world 20 none none 10 1 shortSolver = some (.ret false, s') ∧ s'.iter < 2 ∧ s'.iter ≠ 10 ∧
    leb (100 : ℚ) s'.preg = true := by
  have h := short_run
  cases hr : CSQP.solve world 20 none none 10 1 shortSolver with
  | none => rw [hr] at h; simp at h
  | some r =>
    obtain ⟨o, s'⟩ := r
    rw [hr] at h
    simp only [Option.map_some, Option.some.injEq, Prod.mk.injEq, decide_eq_true_eq] at h
    obtain ⟨rfl, h1, h2, _⟩ := h
    have hN := C56_csqp_gives_up (s := shortSolver) (by decide +kernel) (by decide +kernel) (by decide +kernel) (by decide +kernel) 2
      (by decide) (by decide +kernel) hr
    exact ⟨s', rfl, hN, by rw [h1]; decide, by rw [h2]; decide +kernel⟩

/-- C56 (SQP): with the single trial step 1/100 and `reg_max = 10` the first iteration is the last one. -/
def shortSQP : SQP lq := { lqSolver with par := { lqSolver.par with alphas := [1 / 100], regMax := 10, regInc := 10 } }

theorem C56_sqp_example : (SQP.solve llt1 20 none none 10 1 shortSQP).any (fun r : Bool × SQP lq =>
    !r.1 && decide (r.2.iter = 0) && decide (r.2.preg = 10)) = true := by decide +kernel

/-- … and with 100 a second iteration follows, with the regularization at 10. -/
theorem C56_sqp_example_next : (SQP.solve llt1 20 none none 10 1 { shortSQP with par := { shortSQP.par with regMax := 100 } }).any
    (fun r : Bool × SQP lq => !r.1 && decide (r.2.iter = 1) && decide (r.2.preg = 100)) = true := by decide +kernel

def shortDDP : DDP lq := { lqDDP with c := { lqDDP.c with par := { lqDDP.c.par with alphas := [1 / 100], regMax := 100, regInc := 10 } } }

theorem C56_ddp_example : (DDP.solve (DDP.ddp lq) llt1 20 none none 10 false 1 shortDDP).any
    (fun r : Bool × DDP lq => !r.1 && decide (r.2.iter = 1) && decide (r.2.preg = 100)) = true := by decide +kernel

end Ex
end Mim
