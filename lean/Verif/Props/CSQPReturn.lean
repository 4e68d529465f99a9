import Verif.Lemmas.CSQPReach
import Verif.Spec.ExamplesC
import Verif.Props.SQPReturn

/-!
# What a return of `SolverCSQP::solve` guarantees (C03, C07, C08, C17, C34, C38, C43)

`CSQP.solve … = some (.ret b, s')` says that the call returned `b` and left the solver in state `s'`; `.thrown` that an
exception escaped.
-/
set_option linter.unusedSectionVars false
set_option linter.unusedSimpArgs false

namespace Mim
open Spec Matrix

section
variable {F : Type} [Add F] [Sub F] [Mul F] [Div F] [Neg F] [Zero F] [One F] [FloatOps F] [SqrtOps F] {P : Problem F}
variable {W : World F} {fuel : ℕ} {xs : Option (Traj P)} {us : Option (Ctrls P)} {m : ℕ} {ri : F} {s s' : CSQP P} {b : Bool}
variable {o : Out}

namespace CSQP

/-- the configuration and `steplength_` after a solve. -/
theorem solve_conf (h : solve W fuel xs us m ri s = some (o, s')) : s'.c = s.c ∧ s'.steplength = s.steplength := by
  have hb := fun (s1 s2 : CSQP P) r (h : body W fuel s1 = some (r, s2)) => body_conf h
  refine solve_inv (fun _ s1 => s1.c = s.c ∧ s1.steplength = s.steplength)
    (fun s1 => s1.c = s.c ∧ s1.steplength = s.steplength) (fun _ s1 => s1.c = s.c ∧ s1.steplength = s.steplength)
    ⟨(start_conf W xs us m ri s).1, (start_conf W xs us m ri s).2.1⟩ (fun _ h => h)
    (fun n s1 s2 hI h => ⟨(hb _ _ _ h).1.trans hI.1, (hb _ _ _ h).2.1.trans hI.2⟩)
    (fun n s1 s2 hI h => ⟨(hb _ _ _ h).1.trans hI.1, (hb _ _ _ h).2.1.trans hI.2⟩)
    (fun n s1 o s2 hI h => ⟨(hb _ _ _ h).1.trans hI.1, (hb _ _ _ h).2.1.trans hI.2⟩) ?_ h
  intro s1 o s2 hI hx
  cases extra_cases hx with
  | off he ho hs => subst hs; exact hI
  | ended he hr hd => obtain ⟨q, p, d, rfl⟩ := direction_set hd; exact hI
  | checked he hr s3 hd hs ho => obtain ⟨q, p, d, rfl⟩ := direction_set hd; subst hs; exact hI

/-- number of KKT checks: an iteration makes one check unless it ends before it. -/
theorem body_nKKT {r : Step} (h : body W fuel s = some (r, s')) :
    s.nKKT ≤ s'.nKKT ∧ s'.nKKT ≤ s.nKKT + 1 ∧ (r = .fin (.ret true) → s'.nKKT = s.nKKT + 1) ∧
    s'.nTry ≤ s.nTry + s.c.par.alphas.length := by
  have he : (entry s).nKKT = s.nKKT ∧ (entry s).nTry = s.nTry ∧ (entry s).c = s.c := by
    obtain ⟨q, h, _⟩ := prepare_set { s with q := { s.q with tick := s.q.tick + 1 } }
    unfold entry; rw [h]; exact ⟨rfl, rfl, rfl⟩
  have hd : ∀ o s1, direction W fuel true (entry s) = some (o, s1) →
      s1.nKKT = s.nKKT ∧ s1.nTry = s.nTry ∧ s1.c = s.c := by
    intro o s1 h
    obtain ⟨q, p, d, rfl⟩ := direction_set h
    exact he
  cases body_cases h with
  | timeUp hu hs hr => subst hs; subst hr; simp
  | ended hu o h1 hr =>
    obtain ⟨d1, d2, d3⟩ := hd _ _ h1
    refine ⟨by omega, by omega, ?_, by omega⟩
    intro e
    rw [hr] at e
    cases direction_cases h1 with
    | escaped _ _ ho => cases ho; cases e
    | plain _ _ ho => cases ho
    | found _ _ ho => cases ho
    | gaveUp _ _ ho => cases ho; cases e
  | noQP hu h1 hq hr =>
    obtain ⟨d1, d2, d3⟩ := hd _ _ h1
    subst hr
    refine ⟨by omega, by omega, fun e => (by cases e), by omega⟩
  | converged hu s1 h1 hq hk hs hr =>
    obtain ⟨d1, d2, d3⟩ := hd _ _ h1
    subst hs
    have e : (checked s1).nKKT = s1.nKKT + 1 := rfl
    have e' : (checked s1).nTry = s1.nTry := rfl
    exact ⟨by omega, by omega, fun _ => by omega, by omega⟩
  | searched hu s1 h1 hq hk ha =>
    obtain ⟨d1, d2, d3⟩ := hd _ _ h1
    have e : (checked s1).nKKT = s1.nKKT + 1 := rfl
    have hl : ∀ b s2, lineSearch (checked s1).c.par.alphas (checked s1).pushFilter.setMerit = (b, s2) →
        s2.nKKT = s1.nKKT + 1 ∧ s2.nTry ≤ s1.nTry + s1.c.par.alphas.length := by
      intro b s2 hl
      obtain ⟨d, w, iw, n, xs, us, fe, ac, hn, e⟩ := lineSearch_set (checked s1).c.par.alphas (checked s1).pushFilter.setMerit
      rw [hl] at e
      change s2 = _ at e
      subst e
      exact ⟨rfl, hn⟩
    rw [d3] at hl
    cases ha with
    | rejected s2 h3 hs hr =>
      obtain ⟨l1, l2⟩ := hl _ _ h3
      subst hs; subst hr
      exact ⟨by change _ ≤ s2.nKKT; omega, by change s2.nKKT ≤ _; omega, fun e => (by cases e), by change s2.nTry ≤ _; omega⟩
    | accepted s2 h3 hs hr =>
      obtain ⟨l1, l2⟩ := hl _ _ h3
      obtain ⟨p, d, e⟩ := updateReg_set s2
      rw [e] at hs
      subst hs
      refine ⟨by change _ ≤ s2.nKKT; omega, by change s2.nKKT ≤ _; omega, ?_, by change s2.nTry ≤ _; omega⟩
      intro h
      rw [h] at hr
      split at hr <;> simp at hr

/-- What a true return means, before interpretation: the state is that of a check. -/
theorem solve_true (h : solve W fuel xs us m ri s = some (.ret true, s')) :
    leb s'.m.KKT s'.c.tol = true ∧ s'.m.KKT = ckktResidual s'.data s'.e.fs s'.lagMul s'.q.v.y s'.e.con ∧ Evald s' ∧
    s.nKKT < s'.nKKT := by
  have hs0 : (s.start W xs us m ri).nKKT = s.nKKT := by
    unfold start
    by_cases hm : m = 0
    · subst hm; rfl
    · simp only [if_neg hm]
  refine solve_inv (fun _ s1 => s.nKKT ≤ s1.nKKT) (fun s1 => s.nKKT ≤ s1.nKKT)
    (fun o s1 => o = .ret true → leb s1.m.KKT s1.c.tol = true ∧
      s1.m.KKT = ckktResidual s1.data s1.e.fs s1.lagMul s1.q.v.y s1.e.con ∧ Evald s1 ∧ s.nKKT < s1.nKKT)
    hs0.ge (fun _ h => h) (fun n s1 s2 hI h => hI.trans (body_nKKT h).1) (fun n s1 s2 hI h => hI.trans (body_nKKT h).1)
    ?_ ?_ h rfl
  · rintro n s1 o s2 hI h rfl
    have hn := (body_nKKT h).2.2.1 rfl
    cases body_cases h with
    | timeUp hu hs hr => cases hr
    | ended hu o h1 hr =>
      cases hr
      cases direction_cases h1 with
      | escaped _ _ ho => cases ho
      | plain _ _ ho => cases ho
      | found _ _ ho => cases ho
      | gaveUp _ _ ho => cases ho
    | noQP hu h1 hq hr => cases hr
    | converged hu s3 h1 hq hk hs hr =>
      subst hs
      exact ⟨hk, rfl, checked_evald (direction_evald h1 (entry_evald _)), by omega⟩
    | searched hu s3 h1 hq hk ha =>
      cases ha with
      | rejected s2 h3 hs hr => cases hr
      | accepted s2 h3 hs hr => split at hr <;> simp at hr
  · rintro s1 o s2 hJ hx rfl
    cases extra_cases hx with
    | off he ho hs => cases ho
    | ended he hr hd =>
      cases direction_cases hd with
      | escaped _ _ ho => cases ho
      | plain _ _ ho => cases ho
      | found _ _ ho => cases ho
      | gaveUp _ _ ho => cases ho
    | checked he hr s3 hd hs ho =>
      subst hs
      have hn : s3.nKKT = s1.nKKT := by obtain ⟨q, p, d, rfl⟩ := direction_set hd; rfl
      refine ⟨?_, rfl, checked_evald (direction_evald hd (calcEval_evald _)), ?_⟩
      · simpa using ho.symm
      · change s.nKKT < s3.nKKT + 1; omega

end CSQP
open CSQP

/-- **C03 (soundness).**  If `SolverCSQP::solve` returns true then the reported KKT residual is `<=` the termination tolerance
(which the call does not change), it was computed in this call, and it is the residual of data, gaps and constraint norm
evaluated at the returned trajectory, with the multipliers the solver holds.  No assumption on the arithmetic. -/
theorem C03_csqp_true_sound (h : solve W fuel xs us m ri s = some (.ret true, s')) :
    leb s'.m.KKT s'.c.tol = true ∧ s'.c.tol = s.c.tol ∧ s.nKKT < s'.nKKT ∧
    s'.m.KKT = ckktResidual s'.data s'.e.fs s'.lagMul s'.q.v.y s'.e.con ∧
    FreshCalc P s'.data s'.xs s'.us ∧ FreshDiff P s'.data s'.xs s'.us ∧
    (∀ t, t < P.T → s'.e.fs (t + 1) = shootGap P s'.xs s'.us t) ∧ s'.e.con = conViol P s'.xs s'.us := by
  obtain ⟨h1, h2, h3, h4⟩ := solve_true h
  exact ⟨h1, by rw [(solve_conf h).1], h4, h2, h3.fresh, h3.diff, h3.fs, h3.con⟩

/-- **C08 (CSQP).**  `get_iter() <= maxiter`; at most `maxiter * |alphas|` `tryStep` calls; at most `maxiter` KKT checks, one
more with the extra iteration. -/
theorem C08_csqp_counts (h : solve W fuel xs us m ri s = some (o, s')) :
    s'.iter ≤ m ∧
    s'.nTry ≤ s.nTry + m * s.c.par.alphas.length ∧
    s'.nKKT ≤ s.nKKT + m + (if s.c.extra then 1 else 0) := by
  have hs0 : (s.start W xs us m ri).nKKT = s.nKKT ∧ (s.start W xs us m ri).nTry = s.nTry := by
    unfold start
    by_cases hm : m = 0
    · subst hm; exact ⟨rfl, rfl⟩
    · simp only [if_neg hm]; exact ⟨trivial, trivial⟩
  obtain ⟨c1, _, _, c4⟩ := start_conf W xs us m ri s
  have hstep : ∀ n (s1 s2 : CSQP P) r, (s1.c = s.c ∧ s1.iter + (n + 1) = m ∧
      s1.nTry + (n + 1) * s.c.par.alphas.length ≤ s.nTry + m * s.c.par.alphas.length ∧ s1.nKKT + (n + 1) ≤ s.nKKT + m) →
      body W fuel s1 = some (r, s2) →
      s2.c = s.c ∧ s2.iter + (n + 1) = m ∧
      s2.nTry + n * s.c.par.alphas.length ≤ s.nTry + m * s.c.par.alphas.length ∧ s2.nKKT + n ≤ s.nKKT + m := by
    rintro n s1 s2 r ⟨i1, i2, i3, i4⟩ h
    obtain ⟨p1, _, p3⟩ := body_conf h
    obtain ⟨_, k2, _, k4⟩ := body_nKKT h
    rw [i1] at k4
    have : (n + 1) * s.c.par.alphas.length = n * s.c.par.alphas.length + s.c.par.alphas.length := Nat.succ_mul _ _
    exact ⟨p1.trans i1, by omega, by omega, by omega⟩
  refine solve_inv (fun n s1 => s1.c = s.c ∧ s1.iter + n = m ∧
      s1.nTry + n * s.c.par.alphas.length ≤ s.nTry + m * s.c.par.alphas.length ∧ s1.nKKT + n ≤ s.nKKT + m)
    (fun s1 => s1.c = s.c ∧ s1.iter ≤ m ∧ s1.nTry ≤ s.nTry + m * s.c.par.alphas.length ∧ s1.nKKT ≤ s.nKKT + m)
    (fun _ s1 => s1.iter ≤ m ∧ s1.nTry ≤ s.nTry + m * s.c.par.alphas.length ∧
      s1.nKKT ≤ s.nKKT + m + (if s.c.extra then 1 else 0))
    ⟨c1, by omega, by omega, by omega⟩ ?_ ?_ ?_ ?_ ?_ h
  · rintro s1 ⟨i1, i2, i3, i4⟩
    exact ⟨i1, by omega, by omega, by omega⟩
  · intro n s1 s2 hI h
    obtain ⟨i1, i2, i3, i4⟩ := hstep n s1 s2 _ hI h
    exact ⟨i1, by change s2.iter + 1 + n = m; omega, i3, i4⟩
  · intro n s1 s2 hI h
    obtain ⟨i1, i2, i3, i4⟩ := hstep n s1 s2 _ hI h
    exact ⟨i1, by omega, by omega, by omega⟩
  · intro n s1 o s2 hI h
    obtain ⟨i1, i2, i3, i4⟩ := hstep n s1 s2 _ hI h
    exact ⟨by omega, by omega, by omega⟩
  · rintro s1 o s2 ⟨i1, i2, i3, i4⟩ hx
    cases extra_cases hx with
    | off he ho hs => subst hs; exact ⟨i2, i3, by omega⟩
    | ended he hr hd => obtain ⟨q, p, d, rfl⟩ := direction_set hd; exact ⟨i2, i3, Nat.le_trans i4 (Nat.le_add_right _ _)⟩
    | checked he hr s3 hd hs ho =>
      obtain ⟨q, p, d, rfl⟩ := direction_set hd
      subst hs
      have hx : s.c.extra = true := by rw [← i1]; exact he
      rw [if_pos hx]
      exact ⟨i2, i3, by change s1.nKKT + 1 ≤ s.nKKT + m + 1; omega⟩

/-- **C07 (CSQP).**  However `solve` ends (exceptions included), from every reachable solver state and for every initial guess,
the trajectory starts at the problem's initial state, provided that integrating a multiple of the zero displacement from it
returns it. -/
theorem C07_csqp_initial_state (hs : Reachable s)
    (hint : ∀ a ∈ s.c.par.alphas, P.integrate P.x0 (sv a (zeroV F P.ndx)) = P.x0)
    (h : solve W fuel xs us m ri s = some (o, s')) : s'.xs 0 = P.x0 := by
  have hI : (fun s1 : CSQP P => s1.c = s.c ∧ Node0 s1 ∧ s1.xs 0 = P.x0) s' := by
    refine solve_inv1 (fun s1 : CSQP P => s1.c = s.c ∧ Node0 s1 ∧ s1.xs 0 = P.x0) (fun _ _ _ h => h) (fun _ _ h => h)
      ?_ (fun _ h => h) ?_ (fun _ h => h) ?_ (fun _ _ _ _ h => h) ?_ h
    · rintro s1 ⟨i1, i2, i3⟩
      obtain ⟨q, h1, _, _⟩ := prepare_set s1
      refine ⟨by rw [h1]; exact i1, prepare_node0 _ i2, by rw [h1]; exact i3⟩
    · rintro s1 s2 chk o ⟨i1, i2, i3⟩ hd
      have h2 := direction_node0 i2 hd
      obtain ⟨q, p, d, rfl⟩ := direction_set hd
      exact ⟨i1, h2, i3⟩
    · rintro s1 ⟨i1, i2, i3⟩
      have h2 := node0_lineSearch s1 i2
      obtain ⟨l1, l2⟩ := lineSearch_spec s1.c.par.alphas s1.pushFilter.setMerit
      refine ⟨?_, h2, ?_⟩
      · obtain ⟨_, _, _, _, _, _, _, _, _, e⟩ := lineSearch_set s1.c.par.alphas s1.pushFilter.setMerit
        rw [e]; exact i1
      · cases hl : (lineSearch s1.c.par.alphas s1.pushFilter.setMerit).1 with
        | true =>
          obtain ⟨pre, a, post, ha, _, _, hst⟩ := l1 hl
          rw [hst.xs 0 (Nat.zero_le _)]
          change P.integrate (s1.xs 0) (sv a (s1.q.v.dx 0)) = P.x0
          rw [i3, i2.1.1]
          apply hint
          rw [← i1, ha]; simp
        | false =>
          obtain ⟨_, e, _⟩ := l2 hl
          rw [e]; exact i3
    · refine ⟨(start_conf W xs us m ri s).1, start_node0 W xs us m ri s hs.node0, ?_⟩
      unfold start
      by_cases hm : m = 0
      · subst hm; change Function.update (β := fun _ => P.X) (xs.getD fun _ => P.zeroX) 0 P.x0 0 = P.x0; simp
      · simp only [if_neg hm]; exact Function.update_self (β := fun _ => P.X) 0 P.x0 (xs.getD fun _ => P.zeroX)
  exact hI.2.2

/-- **C34.**  The member `get_steplength()` reads is not written by `solve`, however it ends … -/
theorem C34_csqp_steplength_constant (h : solve W fuel xs us m ri s = some (o, s')) : s'.steplength = s.steplength :=
  (solve_conf h).2

/-- … so that in every iteration of a solve the regularization update after an accepted step is decided by this constant, not
by the accepted step length: it is decreased if the constant exceeds `th_stepdec`, increased otherwise.  (An iteration goes on
to the next one only after an accepted step.) -/
theorem C34_csqp_reg_ignores_step {r : Step} (h : body W fuel s = some (r, s')) (hr : r = .next) (hrm : s.c.removeReg = false) :
    ∃ p, s'.preg = (if ltb s.c.par.thStepDec s.steplength then decReg s.c.par p else incReg s.c.par p) ∧
      ∃ a, s'.acc = s.acc ++ [a] := by
  have hd : ∀ o s1, direction W fuel true (entry s) = some (o, s1) →
      s1.c = s.c ∧ s1.steplength = s.steplength ∧ s1.acc = s.acc := by
    intro o s1 h
    obtain ⟨q, p, d, rfl⟩ := direction_set h
    obtain ⟨q, h, _⟩ := prepare_set { s with q := { s.q with tick := s.q.tick + 1 } }
    unfold entry; rw [h]; exact ⟨rfl, rfl, rfl⟩
  subst hr
  cases body_cases h with
  | timeUp hu hs hr => cases hr
  | ended hu o h1 hr => cases hr
  | noQP hu h1 hq hr => cases hr
  | converged hu s1 h1 hq hk hs hr => cases hr
  | searched hu s1 h1 hq hk ha =>
    obtain ⟨d1, d2, d3⟩ := hd _ _ h1
    cases ha with
    | rejected s2 h3 hs hr => cases hr
    | accepted s2 h3 hs hr =>
      obtain ⟨l1, _⟩ := lineSearch_spec (checked s1).c.par.alphas (checked s1).pushFilter.setMerit
      rw [h3] at l1
      obtain ⟨pre, a, post, _, _, _, hst⟩ := l1 rfl
      have hac : s2.acc = s1.acc ++ [a] := hst.acc
      obtain ⟨_, _, _, _, _, _, _, _, _, e⟩ := lineSearch_set (checked s1).c.par.alphas (checked s1).pushFilter.setMerit
      rw [h3] at e
      have e1 : s2.c = s1.c := by rw [show s2 = _ from e]; rfl
      have e2 : s2.steplength = s1.steplength := by rw [show s2 = _ from e]; rfl
      refine ⟨s2.preg, ?_, a, ?_⟩
      · rw [hs]
        unfold updateReg
        rw [e1, e2, d1, d2, hrm]
        simp only [Bool.false_eq_true, if_false]
        split
        · change decReg s2.c.par _ = _; rw [e1, d1]
        · change incReg s2.c.par _ = _; rw [e1, d1]
      · obtain ⟨p, d, e⟩ := updateReg_set s2
        rw [hs, e]
        change s2.acc = _
        rw [hac, d3]

/-- **C43.**  Without `remove_reg` no exception of a failing direction computation escapes `solve`; with it, `solve` ends by an
escaping exception whenever a direction computation fails, at the state that computation left. -/
theorem C43_csqp_no_escape (hrm : s.c.removeReg = false) (h : solve W fuel xs us m ri s = some (o, s')) : o ≠ .thrown := by
  refine (solve_inv (fun _ s1 => s1.c = s.c) (fun s1 => s1.c = s.c) (fun o _ => o ≠ .thrown)
    (start_conf W xs us m ri s).1 (fun _ h => h) (fun n s1 s2 hI h => (body_conf h).1.trans hI)
    (fun n s1 s2 hI h => (body_conf h).1.trans hI) ?_ ?_ h)
  · intro n s1 o s2 hI h
    have he : (entry s1).c = s1.c := by
      obtain ⟨q, h, _⟩ := prepare_set { s1 with q := { s1.q with tick := s1.q.tick + 1 } }
      unfold entry; rw [h]; rfl
    cases body_cases h with
    | timeUp hu hs hr => cases hr
    | ended hu o h1 hr =>
      cases hr
      cases direction_cases h1 with
      | escaped hr _ ho => rw [he, hI, hrm] at hr; cases hr
      | plain _ _ ho => cases ho
      | found _ _ ho => cases ho
      | gaveUp _ _ ho => cases ho; simp
    | noQP hu h1 hq hr => cases hr; simp
    | converged hu s1 h1 hq hk hs hr => cases hr; simp
    | searched hu s1 h1 hq hk ha =>
      cases ha with
      | rejected s2 h3 hs hr => cases hr
      | accepted s2 h3 hs hr => split at hr <;> simp at hr; subst hr; simp
  · intro s1 o s2 hI hx
    cases extra_cases hx with
    | off he ho hs => subst ho; simp
    | ended he hr hd =>
      cases direction_cases hd with
      | escaped hr _ ho =>
        have : s1.calcEval.c = s1.c := rfl
        rw [this, hI, hrm] at hr; cases hr
      | plain _ _ ho => cases ho
      | found _ _ ho => cases ho
      | gaveUp _ _ ho => cases ho; simp
    | checked he hr s3 hd hs ho => subst ho; simp

/-- the converse: with `remove_reg` the first failing direction computation ends the iteration by an escaping exception. -/
theorem C43_csqp_escapes (hrm : s.c.removeReg = true) (hu : s.q.timeUp (s.env W) = false)
    {s1 : CSQP P} (hd : (entry s).dir W = .exn s1) : body W fuel s = some (.fin .thrown, s1) := by
  have he : (entry s).c = s.c := by
    obtain ⟨q, h, _⟩ := prepare_set { s with q := { s.q with tick := s.q.tick + 1 } }
    unfold entry; rw [h]; rfl
  unfold body
  simp only [hu, Bool.false_eq_true, if_false]
  have : direction W fuel true (entry s) = some (some .thrown, s1) := by
    unfold direction
    rw [he, hrm, hd]; rfl
  rw [show direction W fuel true (prepare { s with q := { s.q with tick := s.q.tick + 1 } }) = _ from this]

end

section Exact
variable {K : Type} [Field K] [LinearOrder K] [IsStrictOrderedRing K] [SqrtOps K] {P : Problem K}
variable {W : World K} {fuel : ℕ} {xs : Option (Traj P)} {us : Option (Ctrls P)} {m : ℕ} {ri : K} {s s' : CSQP P} {b : Bool}
open CSQP

theorem addViol_exact {n : ℕ} (lb ub : Fin n → Option K) (g : Vec K n) (acc : K) :
    addViol lb ub g acc = acc + ∑ i, rowViol (lb i) (ub i) (g i) := by
  have h1 : ∀ i, |lowViol (lb i) (g i)| = (lb i).elim 0 fun l => max (l - g i) 0 := by
    intro i
    cases h : lb i with
    | none => simp [lowViol]
    | some l => simp [lowViol, abs_of_nonneg (le_max_right (l - g i) 0)]
  have h2 : ∀ i, |upViol (ub i) (g i)| = (ub i).elim 0 fun u => max (g i - u) 0 := by
    intro i
    cases h : ub i with
    | none => simp [upViol]
    | some l => simp [upViol, abs_of_nonneg (le_max_right (g i - l) 0)]
  unfold addViol rowViol
  rw [Finset.sum_add_distrib, add_assoc]
  simp only [norm1, absf_exact, sum_exact, h1, h2]

/-- the accumulated violation is the L1 violation of the trajectory. -/
theorem conViol_exact (xs : Traj P) (us : Ctrls P) : conViol P xs us = violation P xs us := by
  have : ∀ n, forUp n (fun t acc => addViol (P.lb t) (P.ub t) (P.calcR t (xs t) (us t)).g acc) (0 : K)
      = ∑ t ∈ Finset.range n, ∑ i, rowViol (P.lb t i) (P.ub t i) ((P.calcR t (xs t) (us t)).g i) := by
    intro n
    induction n with
    | zero => rfl
    | succ n ih => rw [forUp_succ, ih, addViol_exact, Finset.sum_range_succ]
  unfold conViol violation
  rw [addViol_exact, this]

/-- **C03 (meaning).**  In exact arithmetic, for a non-negative tolerance, CSQP's residual is within the tolerance iff every
stationarity component (with the constraint multipliers `y`; those of node 0 enter through the controls only), every gap
component and the constraint norm are. -/
theorem C03_csqp_residual_meaning (d : Data P) (fs lam : ℕ → Vec K P.ndx) (y : (t : ℕ) → Vec K (P.ng t)) (con tol : K)
    (h0 : 0 ≤ tol) :
    ckktResidual d fs lam y con ≤ tol ↔
      (∀ i, 0 < P.T → |((d.rd 0).Lx + (d.rd 0).Fxᵀ *ᵥ lam 1 - lam 0) i| ≤ tol) ∧
      (∀ t, 0 < t → t < P.T → ∀ i, |((d.rd t).Lx + (d.rd t).Fxᵀ *ᵥ lam (t + 1) - lam t + (d.rd t).Gxᵀ *ᵥ y t) i| ≤ tol) ∧
      (∀ t, t < P.T → ∀ i, |((d.rd t).Lu + (d.rd t).Fuᵀ *ᵥ lam (t + 1) + (d.rd t).Guᵀ *ᵥ y t) i| ≤ tol) ∧
      (∀ i, |(d.td.Lx - lam P.T + d.td.Gxᵀ *ᵥ y P.T) i| ≤ tol) ∧
      (∀ t, t ≤ P.T → ∀ i, |fs t i| ≤ tol) ∧ con ≤ tol := by
  unfold ckktResidual
  simp only [cppMax_exact, normInf_exact, mv_exact, max_assoc]
  rw [max_le_iff, max_le_iff, max_le_iff, forUp_max_le, forUp_max_le]
  simp only [max_le_iff, exactNormInf_le, h0, true_and]
  constructor
  · rintro ⟨h1, h2, h3, h4⟩
    refine ⟨fun i hT => ?_, fun t h0 ht i => ?_, fun t ht => (h1 t ht).2, h2, fun t ht => h3 t (Nat.lt_succ_of_le ht), h4⟩
    · have := (h1 0 hT).1 i
      simpa using this
    · have := (h1 t ht).1 i
      rw [if_pos h0] at this
      exact this
  · rintro ⟨h1, h2, h3, h4, h5, h6⟩
    refine ⟨fun t ht => ⟨fun i => ?_, h3 t ht⟩, h4, fun t ht => h5 t (Nat.le_of_lt_succ ht), h6⟩
    rcases Nat.eq_zero_or_pos t with rfl | hp
    · simpa using h1 i ht
    · rw [if_pos hp]; exact h2 t hp ht i

/-- **C03 (what is certified).**  In exact arithmetic a true return certifies, up to the tolerance, stationarity and
feasibility of the returned trajectory for the *nonlinear* constrained problem: with the multipliers `y` the solver holds and
the returned `λ` (whose block 0, the multiplier of the initial condition, is shifted by `Gx_0' y_0`). -/
theorem C03_csqp_true_is_ckkt (h0 : 0 ≤ s.c.tol) (hT : 0 < P.T) (h : solve W fuel xs us m ri s = some (.ret true, s')) :
    IsCKKT P s.c.tol s'.xs s'.us
      (Function.update s'.lagMul 0 (s'.lagMul 0 + (P.calcDiffR 0 (s'.xs 0) (s'.us 0)).Gxᵀ *ᵥ s'.q.v.y 0)) s'.q.v.y := by
  obtain ⟨h1, h2, _, h4, _, h6, h7, h8⟩ := C03_csqp_true_sound h
  rw [h2, h4] at h1
  have h1' : ckktResidual s'.data s'.e.fs s'.lagMul s'.q.v.y s'.e.con ≤ s.c.tol := by simpa using h1
  rw [C03_csqp_residual_meaning _ _ _ _ _ _ h0] at h1'
  obtain ⟨m1, m2, m3, m4, m5, m6⟩ := h1'
  have hs : ∀ t, Function.update s'.lagMul 0
      (s'.lagMul 0 + (P.calcDiffR 0 (s'.xs 0) (s'.us 0)).Gxᵀ *ᵥ s'.q.v.y 0) (t + 1) = s'.lagMul (t + 1) := fun t =>
    Function.update_of_ne (Nat.succ_ne_zero t) _ _
  refine ⟨?_, ?_, ?_, ?_, ?_⟩
  · intro t ht i
    rw [← h6.run t ht, hs]
    rcases Nat.eq_zero_or_pos t with rfl | hp
    · rw [Function.update_self, ← h6.run 0 ht]
      have := m1 i ht
      convert this using 2
      simp only [Pi.add_apply, Pi.sub_apply]; ring
    · rw [Function.update_of_ne (by omega)]
      exact m2 t hp ht i
  · intro t ht i
    rw [← h6.run t ht, hs]
    exact m3 t ht i
  · intro i
    rw [← h6.ter, Function.update_of_ne (by omega)]
    exact m4 i
  · intro t ht i
    rw [← h7 t ht]
    exact m5 (t + 1) (by omega) i
  · rw [← conViol_exact, ← h8]; exact m6

end Exact

namespace Ex
open CSQP

/-- the run on `lin`: returns true at the very first check, at the guess `u = 0`, with residual 0 and multiplier 1. -/
theorem lin_run : (CSQP.solve world 20 none none 5 0 linSolver).map
    (fun r => (decide (r.1 = .ret true), r.2.iter, r.2.m.KKT, r.2.nKKT, decide (sc (r.2.us 0) = 0),
      decide (sc (r.2.q.v.y 0) = 1))) = some (true, 0, 0, 1, true, true) := by decide +kernel

/-- **C03 (what is not certified).**  `solve` can return true, with residual 0, at a point that is not a KKT point: on `lin` it
certifies `u = 0` with multiplier 1 on the inactive constraint `u ≤ 1`, although cost `-u` is smaller at the feasible point
`u = 1` (and no complementary multiplier makes `u = 0` stationary). -/
theorem C03_csqp_no_complementarity : ∃ s' : CSQP lin,
    CSQP.solve world 20 none none 5 0 linSolver = some (.ret true, s') ∧ s'.m.KKT = 0 ∧
    ¬ Complementary lin s'.xs s'.us s'.q.v.y ∧
    (∃ us' : Ctrls lin, violation lin s'.xs us' = 0 ∧ trajCost lin s'.xs us' < trajCost lin s'.xs s'.us) ∧
    (∀ lam y, Complementary lin s'.xs s'.us y → ¬ IsCKKT lin 0 s'.xs s'.us lam y) := by
  have h := lin_run
  cases hr : CSQP.solve world 20 none none 5 0 linSolver with
  | none => rw [hr] at h; simp at h
  | some r =>
    obtain ⟨o, s'⟩ := r
    rw [hr] at h
    simp only [Option.map_some, Option.some.injEq, Prod.mk.injEq, decide_eq_true_eq] at h
    obtain ⟨rfl, _, hK, _, hu, hy⟩ := h
    have hcost : ∀ us : Ctrls lin, trajCost lin s'.xs us = -(sc (us 0)) := by
      intro us
      change (0 + -(sc (us 0))) + 0 = _
      ring
    have hviol : ∀ us : Ctrls lin, violation lin s'.xs us = max (sc (us 0) - 1) 0 := by
      intro us
      have e1 : violation lin s'.xs us = (∑ t ∈ Finset.range 1, ∑ i : Fin 1, rowViol (K := ℚ) none (if t = 0 then some 1 else none)
        (sc (us t))) + ∑ i : Fin 1, rowViol (K := ℚ) none none 0 := rfl
      rw [e1]
      simp [rowViol, sc]
    refine ⟨s', rfl, hK, ?_, ⟨fun _ _ => 1, ?_, ?_⟩, ?_⟩
    · rintro ⟨h1, _⟩
      have := (h1 0 Nat.zero_lt_one (0 : Fin 1)).1 (by rw [show s'.q.v.y 0 (0 : Fin 1) = 1 from hy]; norm_num)
      have e : (some (1 : ℚ)) = some (sc (s'.us 0)) := this
      rw [hu] at e
      exact absurd e (by decide)
    · rw [hviol]; simp [sc]
    · rw [hcost, hcost, hu]; norm_num [sc]
    · rintro lam y hc hk
      have h1 := hk.stat_u 0 Nat.zero_lt_one (0 : Fin 1)
      have e : ((fun _ => -1 : Vec ℚ 1) + (m1 0)ᵀ *ᵥ (lam 1 : Vec ℚ 1) + (m1 1)ᵀ *ᵥ (y 0 : Vec ℚ 1)) (0 : Fin 1)
          = -1 + sc (y 0) := by
        simp [m1, Matrix.mulVec, dotProduct, sc]
        exact Finset.sum_singleton _ (0 : Fin 1)
      have h2 : |-1 + sc (y 0)| ≤ (0 : ℚ) := by rw [← e]; exact h1
      have h3 : sc (y 0) = 1 := by
        have := abs_nonpos_iff.mp h2
        linarith
      have := (hc.1 0 Nat.zero_lt_one (0 : Fin 1)).1 (by rw [show y 0 (0 : Fin 1) = 1 from h3]; norm_num)
      have e : (some (1 : ℚ)) = some (sc (s'.us 0)) := this
      rw [hu] at e
      exact absurd e (by decide)

/-- C07, C08, C34: the hypotheses hold for that solver. -/
example : Reachable linSolver := by
  refine Reachable.setParams _ _ rfl (Reachable.new (Data.zero lin) (fun _ _ => 0) (fun _ _ => 0) 0)
example : ∀ a ∈ linSolver.c.par.alphas, lin.integrate lin.x0 (sv a (zeroV ℚ lin.ndx)) = lin.x0 := by
  intro a _; simp [lin, sv, zeroV]

end Ex
end Mim
