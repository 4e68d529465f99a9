import Verif.Lemmas.MtScratch
import Verif.Model.ParallelSolve
import Verif.Props.ParallelLag

/-!
# The multi-threaded `computeDirection` against the sequential one, from memories that differ in scratch only
-/
set_option linter.unusedSectionVars false
set_option linter.unusedSimpArgs false

namespace Mim
open Omp QP

section
variable {F : Type} [Add F] [Sub F] [Mul F] [Div F] [Neg F] [Zero F] [One F] [FloatOps F] [SqrtOps F] {P : Problem F}

/-- equal QP solver states up to the scratch memory of the backward passes. -/
structure SimQ (q q' : CQP P) : Prop where
  eq : q' = { q with b := q'.b }
  b : SameB q.b q'.b

theorem SimQ.refl (q : CQP P) : SimQ q q := ⟨rfl, SameB.refl _⟩

/-- equal outcomes with related states. -/
inductive SimRQ : Res (CQP P) → Res (CQP P) → Prop
  | ok {q q' : CQP P} (h : SimQ q q') : SimRQ (.ok q) (.ok q')
  | exn {q q' : CQP P} (h : SimQ q q') : SimRQ (.exn q) (.exn q')

/-- what the schedules of a multi-threaded solve have to satisfy. -/
structure MtWorld.OK {n : ℕ} (M : MtWorld n F) (P : Problem F) : Prop where
  pass : SchedOK P M.pass
  lag : ∀ k, (M.lag k).Valid P.T (lagOps P)
  tr : ∀ k, (M.tr k).Valid P.T CSQP.tryOps

end

section
variable {K : Type} [Field K] [LinearOrder K] [IsStrictOrderedRing K] [SqrtOps K] {P : Problem K} {n : ℕ} {E : QEnv P}
  {M : MtWorld n K}

/-- a full pass makes the states equal. -/
theorem pass_sim_full (hM : M.OK P) {q q' : CQP P} (h : SimQ q q') (hf : isFull E.c.interval q.qpIters = true) :
    (∃ q1, q.pass M.llt (E.withSched none) = .ok q1 ∧ q'.pass M.llt (E.withSched (some M.pass)) = .ok q1) ∨
    ∃ q1 q1', q.pass M.llt (E.withSched none) = .exn q1 ∧ q'.pass M.llt (E.withSched (some M.pass)) = .exn q1' ∧ SimQ q1 q1' := by
  obtain ⟨he, hb⟩ := h
  generalize q'.b = B at he hb
  subst he
  unfold CQP.pass QEnv.withSched
  simp only [hf, if_true]
  have := fullPassMt_scratch (llt := M.llt) (E := { E with sched := none }) (v := q.v) (hM.pass q.tick) hb
  rw [show fullPassMt (M.pass q.tick) M.llt { E with sched := some M.pass } q.v B =
    fullPassMt (M.pass q.tick) M.llt { E with sched := none } q.v B from rfl]
  generalize fullPass M.llt { E with sched := none } q.v q.b = r at this ⊢
  generalize fullPassMt (M.pass q.tick) M.llt { E with sched := none } q.v B = r' at this ⊢
  cases this with
  | ok C => exact .inl ⟨_, rfl, rfl⟩
  | exn h => exact .inr ⟨_, _, rfl, rfl, rfl, h⟩

/-- from equal states. -/
theorem pass_sim_eq (hM : M.OK P) (q : CQP P) (hf : isFull E.c.interval q.qpIters = false) :
    ∃ q1, q.pass M.llt (E.withSched none) = .ok q1 ∧ q.pass M.llt (E.withSched (some M.pass)) = .ok q1 := by
  unfold CQP.pass QEnv.withSched
  simp only [hf, Bool.false_eq_true, if_false]
  refine ⟨_, rfl, ?_⟩
  rw [fastPassMt_eq (hM.pass q.tick) (hM.pass q.tick)]
  rfl

theorem pass_sim (hM : M.OK P) {q q' : CQP P} (h : SimQ q q') (hf : q' = q ∨ isFull E.c.interval q.qpIters = true) :
    (∃ q1, q.pass M.llt (E.withSched none) = .ok q1 ∧ q'.pass M.llt (E.withSched (some M.pass)) = .ok q1) ∨
    ∃ q1 q1', q.pass M.llt (E.withSched none) = .exn q1 ∧ q'.pass M.llt (E.withSched (some M.pass)) = .exn q1' ∧ SimQ q1 q1' := by
  cases hb : isFull E.c.interval q.qpIters with
  | true => exact pass_sim_full hM h hb
  | false =>
    rcases hf with rfl | hf
    · exact .inl (pass_sim_eq hM _ hb)
    · rw [hb] at hf; cases hf

theorem step_sim (hM : M.OK P) (hid : M.idn ≤ negInf) {q q' : CQP P} (h : SimQ q q')
    (hf : q' = q ∨ isFull E.c.interval q.qpIters = true) :
    (∃ q1, q.step M.llt (E.withSched none) = .ok q1 ∧ q'.stepMt M (E.withSched (some M.pass)) = some (.ok q1)) ∨
    ∃ q1 q1', q.step M.llt (E.withSched none) = .exn q1 ∧ q'.stepMt M (E.withSched (some M.pass)) = some (.exn q1') ∧ SimQ q1 q1' := by
  unfold CQP.step CQP.stepMt
  rcases pass_sim hM h hf with ⟨q1, h1, h2⟩ | ⟨q1, q1', h1, h2, h3⟩
  · left
    rw [h1, h2]
    simp only [Res.thenDo_ok]
    rw [C47_csqp_multipliers (hM.lag q1.tick) hid]
    exact ⟨_, rfl, rfl⟩
  · right
    rw [h1, h2]
    exact ⟨_, _, rfl, rfl, h3⟩

theorem loop_sim (hM : M.OK P) (hid : M.idn ≤ negInf) (m : ℕ) {q q' : CQP P} (h : SimQ q q')
    (hf : q' = q ∨ isFull E.c.interval q.qpIters = true) :
    ∃ r, CQP.loopMt M (E.withSched (some M.pass)) m q' = some r ∧ SimRQ (CQP.loop M.llt (E.withSched none) m q) r := by
  induction m generalizing q q' with
  | zero =>
    refine ⟨_, rfl, .ok ?_⟩
    obtain ⟨he, hb⟩ := h
    generalize q'.b = B at he hb
    subst he
    exact ⟨rfl, hb⟩
  | succ m ih =>
    have hup : q'.timeUp (E.withSched (some M.pass)) = q.timeUp (E.withSched none) := by rw [h.eq]; rfl
    unfold CQP.loop CQP.loopMt
    simp only []
    rw [hup]
    cases q.timeUp (E.withSched none) with
    | true =>
      simp only [if_true]
      refine ⟨_, rfl, .ok ?_⟩
      obtain ⟨he, hb⟩ := h
      generalize q'.b = B at he hb
      subst he
      exact ⟨rfl, hb⟩
    | false =>
      simp only [Bool.false_eq_true, if_false]
      have h2 : SimQ { q with tick := q.tick + 1 } { q' with tick := q'.tick + 1 } := by
        obtain ⟨he, hb⟩ := h
        generalize q'.b = B at he hb
        subst he
        exact ⟨rfl, hb⟩
      have hf2 : ({ q' with tick := q'.tick + 1 } : CQP P) = { q with tick := q.tick + 1 } ∨
          isFull E.c.interval ({ q with tick := q.tick + 1 } : CQP P).qpIters = true := by
        rcases hf with rfl | hf
        · exact .inl rfl
        · exact .inr hf
      rcases step_sim hM hid h2 hf2 with ⟨q1, h3, h4⟩ | ⟨q1, q1', h3, h4, h5⟩
      · rw [h3, h4]
        simp only [Res.bind_ok]
        change ∃ r, (if q1.qpIters % E.c.interval = 0 then _ else _) = some r ∧
          SimRQ (if q1.qpIters % E.c.interval = 0 then _ else _) r
        split
        · change ∃ r, (if (q1.setTol E.c).converged = true then _ else _) = some r ∧
            SimRQ (if (q1.setTol E.c).converged = true then _ else _) r
          split
          · exact ⟨_, rfl, .ok (SimQ.refl _)⟩
          · exact ih (SimQ.refl _) (.inl rfl)
        · exact ih (SimQ.refl _) (.inl rfl)
      · rw [h3, h4]
        exact ⟨_, rfl, .exn h5⟩

theorem warm_sim {q q' : CQP P} (h : SimQ q q') :
    SimRQ (q.warm M.llt (E.withSched none)) (q'.warm M.llt (E.withSched (some M.pass))) := by
  obtain ⟨he, hb⟩ := h
  generalize q'.b = B at he hb
  subst he
  unfold CQP.warm QEnv.withSched
  simp only []
  split
  · have := plainPass_scratch (llt := M.llt) (E := { E with sched := none }) hb
    rw [show plainPass M.llt { E with sched := some M.pass } B = plainPass M.llt { E with sched := none } B from rfl]
    generalize plainPass M.llt { E with sched := none } q.b = r at this ⊢
    generalize plainPass M.llt { E with sched := none } B = r' at this ⊢
    cases this with
    | ok C => exact .ok (SimQ.refl _)
    | exn h => exact .exn ⟨rfl, h⟩
  · exact .ok ⟨rfl, hb⟩

theorem SimQ.resetRho {q q' : CQP P} (c : CConf K) (h : SimQ q q') : SimQ (q.resetRho c) (q'.resetRho c) := by
  obtain ⟨he, hb⟩ := h
  generalize q'.b = B at he hb
  subst he
  exact ⟨rfl, hb⟩

theorem SimQ.resetParams {q q' : CQP P} (c : CConf K) (h : SimQ q q') : SimQ (q.resetParams c) (q'.resetParams c) := by
  obtain ⟨he, hb⟩ := h
  generalize q'.b = B at he hb
  subst he
  unfold CQP.resetParams
  simp only []
  split
  · exact ⟨rfl, hb⟩
  · exact ⟨rfl, hb⟩

theorem direction_sim (hM : M.OK P) (hid : M.idn ≤ negInf) {q q' : CQP P} (h : SimQ q q') :
    ∃ r, q'.computeDirectionMt M (E.withSched (some M.pass)) = some r ∧ SimRQ (q.computeDirection M.llt (E.withSched none)) r := by
  unfold CQP.computeDirectionMt CQP.computeDirection
  have := warm_sim (M := M) (E := E) (h.resetParams E.c)
  rw [show (q.resetParams (E.withSched none).c) = q.resetParams E.c from rfl,
    show (q'.resetParams (E.withSched (some M.pass)).c) = q'.resetParams E.c from rfl]
  generalize (q.resetParams E.c).warm M.llt (E.withSched none) = r at this ⊢
  generalize (q'.resetParams E.c).warm M.llt (E.withSched (some M.pass)) = r' at this ⊢
  cases this with
  | exn h => exact ⟨_, rfl, .exn h⟩
  | @ok q1 q1' h =>
    simp only [Res.bind_ok]
    refine loop_sim hM hid _ ?_ (.inr (isFull_one _))
    obtain ⟨he, hb⟩ := h
    generalize q1'.b = B at he hb
    subst he
    exact ⟨rfl, hb⟩

end
end Mim
