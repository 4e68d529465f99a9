import Verif.Props.CSQPTime

/-!
# What a QP of SolverCSQP starts from (C45)
-/
set_option linter.unusedSectionVars false
set_option linter.unusedSimpArgs false

namespace Mim
open Spec CSQP Matrix

variable {F : Type} [Add F] [Sub F] [Mul F] [Div F] [Neg F] [Zero F] [One F] [FloatOps F] [SqrtOps F] {P : Problem F}
variable {W : World F} {fuel : ℕ} {xs : Option (Traj P)} {us : Option (Ctrls P)} {m : ℕ} {ri : F} {s0 s s' : CSQP P} {o : Out}

/-- the line search and the regularization update do not touch the QP solver. -/
theorem CSQP.AdvCase.q {s : CSQP P} {r : Step} {s' : CSQP P} (h : AdvCase s r s') : s'.q = s.q := by
  have hu : ∀ s : CSQP P, s.updateReg.2.q = s.q := by
    intro s; unfold updateReg
    split
    · rfl
    · split <;> rfl
  have hl : ∀ as, (lineSearch as s.pushFilter.setMerit).2.q = s.q := by
    intro as
    obtain ⟨d, w, iw, n, x, u, fe, ac, _, e⟩ := lineSearch_set as s.pushFilter.setMerit
    rw [e]; rfl
  cases h with
  | rejected s2 h1 hs hr => have := hl s.c.par.alphas; rw [h1] at this; subst hs; exact this
  | accepted s2 h1 hs hr => have := hl s.c.par.alphas; rw [h1] at this; subst hs; rw [hu]; exact this

/-- the QP variables (`y`, `rho`, `inv_rho`, …) and the base penalty are those some call of `computeDirection` of this solve left. -/
def CSQP.Carried (W : World F) (fuel : ℕ) (xs : Option (Traj P)) (us : Option (Ctrls P)) (m : ℕ) (ri : F) (s0 s : CSQP P) : Prop :=
  ∃ sc s1, Calls W fuel xs us m ri s0 sc ∧ (sc.dir W = .ok s1 ∨ sc.dir W = .exn s1) ∧ s.q.v = s1.q.v ∧
    s.q.rhoSparse = s1.q.rhoSparse

theorem CSQP.entry_q (s : CSQP P) : ((entry s).q.v = s.q.v ∧ (entry s).q.rhoSparse = s.q.rhoSparse ∨
      s.iter = 0 ∧ s.c.resetRho = false) ∧ (s.iter = 0 ∧ s.c.resetRho = false → (entry s).q.v = applyRho s.c s.c.rhoBase s.q.v ∧
      (entry s).q.rhoSparse = s.c.rhoBase) ∧ (entry s).q.reached = s.q.reached := by
  unfold entry prepare
  by_cases h : s.iter = 0 ∧ s.c.resetRho = false
  · refine ⟨.inr h, fun _ => ?_, ?_⟩
    · simp only [calcEval, h, and_self, if_true]; exact ⟨rfl, rfl⟩
    · simp only [calcEval, h, and_self, if_true]; rfl
  · refine ⟨.inl ?_, fun h' => absurd h' h, ?_⟩
    · simp only [calcEval, h, if_false, and_self]
    · simp only [calcEval, h, if_false]

/-- the state at the head of an iteration: the first one, or carried from an earlier QP of this solve. -/
theorem CSQP.AtHead.carried (h : AtHead W fuel xs us m ri s0 s) :
    s = s0.start W xs us m ri ∨ (0 < s.iter ∧ Carried W fuel xs us m ri s0 s) := by
  induction h with
  | start => exact .inl rfl
  | @next s s' h hi hb ih =>
    refine .inr ⟨Nat.succ_pos _, ?_⟩
    cases body_cases hb with
    | timeUp hu hs hr => cases hr
    | ended hu o hd hr => cases hr
    | noQP hu hd hq hr => cases hr
    | converged hu s1 hd hq hk hs hr => cases hr
    | searched hu s1 hd hq hk ha =>
      have hq' : s'.q = s1.q := ha.q
      have hdone : (∃ sc, Calls W fuel xs us m ri s0 sc ∧ sc.dir W = .ok s1) →
          Carried W fuel xs us m ri s0 { s' with iter := s'.iter + 1 } := by
        rintro ⟨sc, h1, h2⟩
        exact ⟨sc, s1, h1, .inl h2, by simp only [hq'], by simp only [hq']⟩
      cases hre : s.q.reached with
      | false => exact hdone (head_call h hi hu hre hd)
      | true =>
        have hit : s ≠ s0.start W xs us m ri := by
          rintro rfl
          rw [(start_conf W xs us m ri s0).2.2.1] at hre; cases hre
        obtain ⟨hpos, sc, s2, c1, c2, c3, c4⟩ := ih.resolve_left hit
        cases direction_cases hd with
        | escaped _ h1 ho => cases ho
        | gaveUp _ h1 ho => cases ho
        | plain hr h1 ho =>
          have hr' : s.c.removeReg = true := by rw [← (entry_conf s).1]; exact hr
          exact hdone ⟨_, .head h hi hu (.inl hr'), h1⟩
        | found hr h1 ho =>
          have he : s1 = entry s := by
            cases fuel with
            | zero => cases h1
            | succ n =>
              unfold retry at h1
              rw [(entry_q s).2.2, hre] at h1
              simp only [Bool.and_self, if_true, Option.some.injEq, Prod.mk.injEq, true_and] at h1
              exact h1.symm
          obtain ⟨e1, _, _⟩ := entry_q s
          have e2 := e1.resolve_right (fun h => by omega)
          refine ⟨sc, s2, c1, c2, ?_, ?_⟩
          · simp only [hq', he]; rw [e2.1]; exact c3
          · simp only [hq', he]; rw [e2.2]; exact c4

theorem start_q (W : World F) (xs : Option (Traj P)) (us : Option (Ctrls P)) (m : ℕ) (ri : F) (s0 : CSQP P) :
    (m = 0 → (s0.start W xs us m ri).q.v = applyRho s0.c s0.c.rhoBase s0.q.v ∧
      (s0.start W xs us m ri).q.rhoSparse = s0.c.rhoBase) ∧ (m ≠ 0 → (s0.start W xs us m ri).q.v = s0.q.v) := by
  constructor
  · rintro rfl; exact ⟨rfl, rfl⟩
  · intro h; unfold start; simp only [if_neg h]

/-- **C45, history.**  The QP variables a call of `computeDirection` finds.  Either it is the first call of the solve: `y` is what
the solver held when `solve` was called, and (unless `reset_rho` makes each QP reset it anyway) the penalties have just been reset to
the base value.  Or all of them, `y` and the penalties included, are what an earlier call of this solve left. -/
theorem C45_csqp_history (h : Calls W fuel xs us m ri s0 s) :
    ((∀ t, s.q.v.y t = s0.q.v.y t) ∧ (s0.c.resetRho = false →
      s.q.rhoSparse = s0.c.rhoBase ∧ Penalties s0.c P s0.c.rhoBase s.q.v.rho s.q.v.inv)) ∨
    Carried W fuel xs us m ri s0 s := by
  have hap : ∀ q : CQP P, (∀ t, (applyRho s0.c s0.c.rhoBase q.v).y t = q.v.y t) := fun _ _ => rfl
  have hst : ∀ t, (s0.start W xs us m ri).q.v.y t = s0.q.v.y t := by
    intro t
    by_cases hm : m = 0
    · rw [((start_q W xs us m ri s0).1 hm).1]; rfl
    · rw [(start_q W xs us m ri s0).2 hm]
  cases h with
  | @head s h hi hu hr =>
    rcases h.carried with rfl | ⟨hp, sc, s1, c1, c2, c3, c4⟩
    · obtain ⟨e1, e2, _⟩ := entry_q (s0.start W xs us m ri)
      have hc := (start_conf W xs us m ri s0).1
      have hi0 := (start_conf W xs us m ri s0).2.2.2
      rw [hc, hi0] at e1 e2
      left
      cases hrr : s0.c.resetRho with
      | false =>
        obtain ⟨e3, e4⟩ := e2 ⟨rfl, hrr⟩
        refine ⟨fun t => ?_, fun _ => ⟨e4, ?_⟩⟩
        · rw [e3]; exact hst t
        · rw [e3]; exact applyRho_penalties _ _ _
      | true =>
        have e3 := e1.resolve_right (fun h => by rw [hrr] at h; cases h.2)
        exact ⟨fun t => by rw [e3.1]; exact hst t, fun h => by cases h⟩
    · obtain ⟨e1, _, _⟩ := entry_q s
      have e2 := e1.resolve_right (fun h => by omega)
      exact .inr ⟨sc, s1, c1, c2, e2.1.trans c3, e2.2.trans c4⟩
  | @extra s h he hr =>
    cases h with
    | done h hi =>
      rcases h.carried with rfl | ⟨hp, sc, s1, c1, c2, c3, c4⟩
      · have hm : m = 0 := by rw [← hi]; exact (start_conf W xs us m ri s0).2.2.2
        obtain ⟨e1, e2⟩ := (start_q W xs us m ri s0).1 hm
        refine .inl ⟨hst, fun _ => ⟨e2, ?_⟩⟩
        change Penalties s0.c P s0.c.rhoBase (s0.start W xs us m ri).q.v.rho (s0.start W xs us m ri).q.v.inv
        rw [e1]; exact applyRho_penalties _ _ _
      · exact .inr ⟨sc, s1, c1, c2, c3, c4⟩
    | @brk s2 _ h hi hb =>
      right
      cases body_cases hb with
      | timeUp hu hs hr' => subst hs; cases hr
      | ended hu o hd hr' => cases hr'
      | noQP hu hd hq hr' => cases hr'
      | converged hu s1 hd hq hk hs hr' => cases hr'
      | searched hu s1 hd hq hk ha =>
        have hq' : s.q = s1.q := ha.q
        have hre : s2.q.reached = false ∨ s2.q.reached = true ∧ s2.c.removeReg = true := by
          cases hre : s2.q.reached with
          | false => exact .inl rfl
          | true =>
            right
            refine ⟨rfl, ?_⟩
            cases direction_cases hd with
            | escaped _ h1 ho => cases ho
            | gaveUp _ h1 ho => cases ho
            | plain hr h1 ho => rw [← (entry_conf s2).1]; exact hr
            | found hrm h1 ho =>
              exfalso
              have he : s1 = entry s2 := by
                cases fuel with
                | zero => cases h1
                | succ n =>
                  unfold retry at h1
                  rw [(entry_q s2).2.2, hre] at h1
                  simp only [Bool.and_self, if_true, Option.some.injEq, Prod.mk.injEq, true_and] at h1
                  exact h1.symm
              rw [hq', he, (entry_q s2).2.2, hre] at hr
              cases hr
        rcases hre with hre | ⟨hre, hrm⟩
        · obtain ⟨sc, h1, h2⟩ := head_call h hi hu hre hd
          exact ⟨sc, s1, h1, .inl h2, by change s.q.v = _; rw [hq'], by change s.q.rhoSparse = _; rw [hq']⟩
        · cases direction_cases hd with
          | escaped _ h1 ho => cases ho
          | gaveUp _ h1 ho => cases ho
          | plain hr h1 ho =>
            exact ⟨_, s1, .head h hi hu (.inl hrm), .inl h1, by change s.q.v = _; rw [hq'], by change s.q.rhoSparse = _; rw [hq']⟩
          | found hrm' h1 ho => rw [(entry_conf s2).1, hrm] at hrm'; cases hrm'
  | @again s s1 h hm hd hl => exact .inr ⟨s, s1, h, .inr hd, rfl, rfl⟩

/-- **C45, the start of a QP.**  In front of the first QP iteration of every call of `computeDirection`, for every node `t ≤ T`: the
auxiliary variable `z` is zero; `y` is zero with `reset_y`, and otherwise what the call found; with `reset_rho` the penalties are
reset to the base value, otherwise they are what the call found. -/
theorem C45_csqp_start_of_qp {q : CQP P} (hq : AtIter W.llt (s.env W) s.q q) (h0 : q.exec = 0) :
    (∀ t, t ≤ P.T → q.v.z t = zeroV F (P.ng t)) ∧
    (∀ t, t ≤ P.T → q.v.y t = if s.c.resetY then zeroV F (P.ng t) else s.q.v.y t) ∧
    (if s.c.resetRho then q.rhoSparse = s.c.rhoBase ∧ Penalties s.c P s.c.rhoBase q.v.rho q.v.inv
     else q.rhoSparse = s.q.rhoSparse ∧ q.v.rho = s.q.v.rho ∧ q.v.inv = s.q.v.inv) := by
  cases hq with
  | @first q1 h1 =>
    have hw : q1.v.z = (s.q.resetParams s.c).v.z ∧ q1.v.y = (s.q.resetParams s.c).v.y ∧
        q1.v.rho = (s.q.resetParams s.c).v.rho ∧ q1.v.inv = (s.q.resetParams s.c).v.inv ∧
        q1.rhoSparse = (s.q.resetParams s.c).rhoSparse := by
      have h2 : (s.q.resetParams s.c).warm W.llt (s.env W) = .ok q1 := h1
      unfold CQP.warm at h2
      split at h2
      · obtain ⟨q2, h3, h4⟩ := Res.thenDo_eq_ok h2
        obtain ⟨b, _, h5⟩ := Res.map_eq_ok h3
        subst h5
        subst h4
        exact ⟨rfl, rfl, rfl, rfl, rfl⟩
      · cases h2; exact ⟨rfl, rfl, rfl, rfl, rfl⟩
    obtain ⟨a1, a2, a3, a4, a5⟩ := hw
    simp only [a1, a2, a3, a4, a5]
    unfold CQP.resetParams
    cases hrr : s.c.resetRho with
    | true =>
      simp only [if_true]
      refine ⟨fun t ht => by simp [ht], fun t ht => ?_, rfl, applyRho_penalties _ _ _⟩
      by_cases hy : s.c.resetY = true
      · simp [hy, ht]
      · simp [hy]; rfl
    | false =>
      simp only [Bool.false_eq_true, if_false, and_self, and_true]
      refine ⟨fun t ht => by simp [ht], fun t ht => ?_⟩
      by_cases hy : s.c.resetY = true
      · simp [hy, ht]
      · simp [hy]
  | @next q1 q' h ht hs hn =>
    have := (step_misc hs).1
    rw [(between_v (E := s.env W) q').2.2.2.1, this] at h0
    omega

/-! ## non-vacuity: the second QP of a solve starts from the multiplier of the first -/
namespace Ex
open CSQP

/-- from `x = -10` the unconstrained optimum violates `u ≤ 1`. -/
def clqN : CSQP (clq 1 1 1 1 (-10)) :=
  let s := CSQP.new (Data.zero _) (fun _ _ => 0) (fun _ _ => 0) 0
  { s with c := { s.c with maxQP := 1, maxTime := 1, removeReg := true } }

noncomputable def clqHead1 : CSQP (clq 1 1 1 1 (-10)) := clqN.start world none none 5 0
noncomputable def clqHead2 : CSQP (clq 1 1 1 1 (-10)) :=
  let s := ((body world 20 clqHead1).getD (.brk, clqHead1)).2
  { s with iter := s.iter + 1 }

theorem clqHead2_at : AtHead world 20 none none 5 0 clqN clqHead2 :=
  AtHead.next AtHead.start (by decide +kernel) (s' := ((body world 20 clqHead1).getD (.brk, clqHead1)).2) (by
    have h : (body world 20 clqHead1).map (fun y => y.1) = some .next := by decide +kernel
    change body world 20 clqHead1 = _
    cases hb : body world 20 clqHead1 with
    | none => rw [hb] at h; cases h
    | some y =>
      obtain ⟨r, s⟩ := y
      rw [hb] at h
      cases h
      rfl)

/-- the second call of the solve of `clqN` (default: `reset_y = false`) finds a non-zero `y`. -/
example : Calls world 20 none none 5 0 clqN (entry clqHead2) ∧ clqN.c.resetY = false ∧
    sc ((entry clqHead2).q.v.y 0) ≠ 0 :=
  ⟨.head clqHead2_at (by decide +kernel) (by decide +kernel) (.inl (by decide +kernel)), by decide +kernel, by decide +kernel⟩

end Ex
end Mim
