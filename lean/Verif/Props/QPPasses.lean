import Verif.Lemmas.CSQPCalls
import Verif.Spec.ExamplesC

/-!
# The backward passes of SolverCSQP agree: C25 (cheap pass), C26 (multi-threaded passes)
-/
set_option linter.unusedSectionVars false
set_option linter.unusedSimpArgs false

namespace Mim
open Spec QP

section
variable {F : Type} [Add F] [Sub F] [Mul F] [Div F] [Neg F] [Zero F] [One F] [FloatOps F] [SqrtOps F] {P : Problem F}
variable {llt : LLT F} {E : QEnv P}

/-! ## C25 -/

/-- Specification for C25: `computeDirection` with the full sequential backward pass in every iteration. -/
def AllFull.step (llt : LLT F) (E : QEnv P) (q : CQP P) : Res (CQP P) :=
  ((fullPass llt E q.v q.b).map fun b => { q with b := b }).thenDo fun q =>
    { ((q.forward E).updateLag E).updateRho E with exec := q.exec + 1 }

/-- the loop. -/
def AllFull.loop (llt : LLT F) (E : QEnv P) : ℕ → CQP P → Res (CQP P)
  | 0, q => .ok { q with why := .limit }
  | n + 1, q =>
    let up := q.timeUp E
    let q := { q with tick := q.tick + 1 }
    if up then .ok { q with qpIters := q.qpIters - 1, reached := true, why := .time }
    else
      (AllFull.step llt E q).bind fun q =>
        if q.qpIters % E.c.interval = 0 then
          let q := q.setTol E.c
          if q.converged then .ok { q with why := .tol } else AllFull.loop llt E n { q with qpIters := q.qpIters + 1 }
        else AllFull.loop llt E n { q with qpIters := q.qpIters + 1 }

/-- `computeDirection` with full passes only. -/
def AllFull.computeDirection (llt : LLT F) (E : QEnv P) (q : CQP P) : Res (CQP P) :=
  ((q.resetParams E.c).warm llt E).bind fun q => AllFull.loop llt E E.c.maxQP { q with qpIters := 1, exec := 0 }

theorem AtIter.current (hs : E.sched = none) {q0 q : CQP P} (h : AtIter llt E q0 q) : Current llt E q := by
  induction h with
  | first h => exact .inl (isFull_one _)
  | @next q q' h ht hst hn ih =>
    have := step_current hs (q := { q with tick := q.tick + 1 }) ih hst
    unfold Current at this ⊢
    obtain ⟨e1, e2, _, _, _, _, _, _, e9⟩ := between_v (E := E) q'
    rw [e1, e2, e9]
    exact this

/-- **C25, one iteration.** In every iteration of every `computeDirection` of a single-threaded solver, whichever of
`backwardPass` and `backwardPass_without_rho_update` is called, it does exactly what `backwardPass` would do: same exception
behaviour, same memory afterwards (bit for bit: no law of arithmetic is used). -/
theorem C25_csqp_cheap_pass_is_full (hs : E.sched = none) {q0 q : CQP P} (h : AtIter llt E q0 q) :
    ({ q with tick := q.tick + 1 } : CQP P).pass llt E =
      (fullPass llt E q.v q.b).map fun b => { q with tick := q.tick + 1, b := b } :=
  pass_eq_full hs (q := { q with tick := q.tick + 1 }) (h.current hs)

theorem step_eq_full (hs : E.sched = none) {q : CQP P} (h : Current llt E q) : q.step llt E = AllFull.step llt E q := by
  unfold CQP.step AllFull.step
  rw [pass_eq_full hs h]

theorem loop_eq_full (hs : E.sched = none) (n : ℕ) {q : CQP P} (h : Current llt E q) :
    CQP.loop llt E n q = AllFull.loop llt E n q := by
  induction n generalizing q with
  | zero => rfl
  | succ n ih =>
    unfold CQP.loop AllFull.loop
    simp only []
    have hc : Current llt E ({ q with tick := q.tick + 1 } : CQP P) := h
    rw [← step_eq_full hs hc]
    cases hst : CQP.step llt E { q with tick := q.tick + 1 } with
    | exn q1 => rfl
    | ok q1 =>
      have hn := step_current hs hc hst
      simp only [Res.bind_ok]
      obtain ⟨e1, e2, _⟩ := setTol_v E.c q1
      have hn' : Current llt E { q1.setTol E.c with qpIters := (q1.setTol E.c).qpIters + 1 } := by
        unfold Current at hn ⊢
        rw [setTol_qpIters]
        change _ ∨ MatOK llt E (q1.setTol E.c).v (q1.setTol E.c).b
        rw [e1, e2]; exact hn
      rw [ih hn, ih hn']

/-- **C25.** For every solver state, problem data, configuration (in particular every `rho_update_interval`) and clock, a
single-threaded `computeDirection` equals the one that runs the full backward pass in every iteration: same result, same
exceptions, same memory, bit for bit. -/
theorem C25_csqp_cheap_passes_are_full (hs : E.sched = none) (q : CQP P) :
    q.computeDirection llt E = AllFull.computeDirection llt E q := by
  unfold CQP.computeDirection AllFull.computeDirection
  cases (q.resetParams E.c).warm llt E with
  | exn q1 => rfl
  | ok q1 =>
    simp only [Res.bind_ok]
    exact loop_eq_full hs _ (.inl (isFull_one _))

/-! ## C26 -/

/-- every parallel loop runs each of its iterations `0..T-1` exactly once. -/
def SchedOK (P : Problem F) (l : ℕ → List ℕ) : Prop := ∀ n, (l n).Perm (List.range P.T)

/-- the same environment with another schedule. -/
def QEnv.withSched (E : QEnv P) (s : Option (ℕ → List ℕ)) : QEnv P := { E with sched := s }

/-- **C26, the schedule is irrelevant (bit for bit).** -/
theorem C26_csqp_pass_schedule_independent {l l' : ℕ → List ℕ} (hl : SchedOK P l) (hl' : SchedOK P l') (q : CQP P) :
    q.pass llt (E.withSched (some l)) = q.pass llt (E.withSched (some l')) := by
  unfold CQP.pass QEnv.withSched
  simp only []
  have h := (hl q.tick).trans (hl' q.tick).symm
  split
  · rw [show fullPassMt (l q.tick) llt { E with sched := some l } q.v q.b = fullPassMt (l' q.tick) llt { E with sched := some l } q.v q.b
      from fullPassMt_perm h q.b]
    rfl
  · rw [show fastPassMt (l q.tick) (l q.tick) { E with sched := some l } q.v q.b =
      fastPassMt (l' q.tick) (l' q.tick) { E with sched := some l } q.v q.b from fastPassMt_perm h h q.b]
    rfl

/-- **C26 for a whole `computeDirection` (bit for bit).** -/
theorem C26_csqp_schedule_independent {l l' : ℕ → List ℕ} (hl : SchedOK P l) (hl' : SchedOK P l') (q : CQP P) :
    q.computeDirection llt (E.withSched (some l)) = q.computeDirection llt (E.withSched (some l')) := by
  have hstep : ∀ q : CQP P, q.step llt (E.withSched (some l)) = q.step llt (E.withSched (some l')) := by
    intro q
    unfold CQP.step
    rw [C26_csqp_pass_schedule_independent hl hl' q]
    rfl
  have hloop : ∀ n (q : CQP P), CQP.loop llt (E.withSched (some l)) n q = CQP.loop llt (E.withSched (some l')) n q := by
    intro n
    induction n with
    | zero => intro q; rfl
    | succ n ih =>
      intro q
      unfold CQP.loop
      simp only []
      rw [hstep]
      congr 2
      funext q1
      rw [ih, ih]
      rfl
  unfold CQP.computeDirection
  rw [show (q.resetParams (E.withSched (some l)).c).warm llt (E.withSched (some l)) =
    (q.resetParams (E.withSched (some l')).c).warm llt (E.withSched (some l')) from rfl]
  congr 1
  funext q1
  exact hloop _ _

/-- **C26, cheap pass: multi-threaded equals sequential bit for bit.** -/
theorem C26_csqp_cheap_pass_mt {l l' : List ℕ} (hl : l.Perm (List.range P.T)) (hl' : l'.Perm (List.range P.T)) (v : CVars P)
    (B : CBP P) : fastPassMt l l' E v B = fastPass E v B := fastPassMt_eq hl hl' B

end

section
variable {K : Type} [Field K] [LinearOrder K] [IsStrictOrderedRing K] [SqrtOps K] {P : Problem K}
variable {llt : LLT K} {E : QEnv P}

/-- **C26, full pass: multi-threaded equals sequential in exact arithmetic**: both succeed and leave the same memory, or both
throw. -/
theorem C26_csqp_full_pass_mt {l : List ℕ} (hl : l.Perm (List.range P.T)) (v : CVars P) (B : CBP P) :
    (∃ C, fullPass llt E v B = .ok C ∧ fullPassMt l llt E v B = .ok C) ∨
    ∃ C C', fullPass llt E v B = .exn C ∧ fullPassMt l llt E v B = .exn C' := fullPassMt_eq hl B

/-- equal results; after an exception the backward-pass memory may differ. -/
def SameRes (r r' : Res (CQP P)) : Prop :=
  (∃ q, r = .ok q ∧ r' = .ok q) ∨ ∃ q b, r = .exn q ∧ r' = .exn { q with b := b }

theorem pass_same {l : ℕ → List ℕ} (hl : SchedOK P l) (q : CQP P) :
    SameRes (q.pass llt (E.withSched none)) (q.pass llt (E.withSched (some l))) := by
  unfold CQP.pass QEnv.withSched
  simp only []
  split
  · rcases fullPassMt_eq (llt := llt) (E := { E with sched := none }) (v := q.v) (hl q.tick) q.b with
      ⟨C, h1, h2⟩ | ⟨C, C', h1, h2⟩
    · rw [h1, show fullPassMt (l q.tick) llt { E with sched := some l } q.v q.b = .ok C from h2]
      exact .inl ⟨_, rfl, rfl⟩
    · rw [h1, show fullPassMt (l q.tick) llt { E with sched := some l } q.v q.b = .exn C' from h2]
      exact .inr ⟨_, _, rfl, rfl⟩
  · left
    refine ⟨_, rfl, ?_⟩
    rw [fastPassMt_eq (hl q.tick) (hl q.tick)]
    rfl

theorem step_same {l : ℕ → List ℕ} (hl : SchedOK P l) (q : CQP P) :
    SameRes (q.step llt (E.withSched none)) (q.step llt (E.withSched (some l))) := by
  unfold CQP.step
  rcases pass_same (llt := llt) (E := E) hl q with ⟨q1, h1, h2⟩ | ⟨q1, b, h1, h2⟩
  · rw [h1, h2]; exact .inl ⟨_, rfl, rfl⟩
  · rw [h1, h2]; exact .inr ⟨_, _, rfl, rfl⟩

theorem loop_same {l : ℕ → List ℕ} (hl : SchedOK P l) (n : ℕ) (q : CQP P) :
    SameRes (CQP.loop llt (E.withSched none) n q) (CQP.loop llt (E.withSched (some l)) n q) := by
  induction n generalizing q with
  | zero => exact .inl ⟨_, rfl, rfl⟩
  | succ n ih =>
    unfold CQP.loop
    simp only []
    have ht : q.timeUp (E.withSched (some l)) = q.timeUp (E.withSched none) := rfl
    rw [ht]
    cases q.timeUp (E.withSched none) with
    | true => simp only [if_true]; exact .inl ⟨_, rfl, rfl⟩
    | false =>
      simp only [Bool.false_eq_true, if_false]
      rcases step_same (llt := llt) (E := E) hl { q with tick := q.tick + 1 } with ⟨q1, h1, h2⟩ | ⟨q1, b, h1, h2⟩
      · rw [h1, h2]
        simp only [Res.bind_ok]
        change SameRes (if q1.qpIters % E.c.interval = 0 then _ else _) (if q1.qpIters % E.c.interval = 0 then _ else _)
        split
        · change SameRes (if (q1.setTol E.c).converged = true then _ else _) (if (q1.setTol E.c).converged = true then _ else _)
          split
          · exact .inl ⟨_, rfl, rfl⟩
          · exact ih _
        · exact ih _
      · rw [h1, h2]; exact .inr ⟨_, _, rfl, rfl⟩

/-- **C26 for a whole `computeDirection` in exact arithmetic.** For every schedule, the multi-threaded `computeDirection`
succeeds iff the sequential one does, with the same final state in every member; if they throw, the states differ at most in
the scratch memory of the backward pass. -/
theorem C26_csqp_direction_mt {l : ℕ → List ℕ} (hl : SchedOK P l) (q : CQP P) :
    SameRes (q.computeDirection llt (E.withSched none)) (q.computeDirection llt (E.withSched (some l))) := by
  unfold CQP.computeDirection
  rw [show (q.resetParams (E.withSched (some l)).c).warm llt (E.withSched (some l)) =
    (q.resetParams (E.withSched none).c).warm llt (E.withSched none) from rfl]
  cases (q.resetParams (E.withSched none).c).warm llt (E.withSched none) with
  | exn q1 => exact .inr ⟨q1, q1.b, rfl, rfl⟩
  | ok q1 => exact loop_same hl _ _

/-- hence C25 for multi-threaded solvers in exact arithmetic. -/
theorem C25_csqp_cheap_passes_are_full_mt {l : ℕ → List ℕ} (hl : SchedOK P l) (q : CQP P) :
    SameRes (AllFull.computeDirection llt (E.withSched none) q) (q.computeDirection llt (E.withSched (some l))) := by
  rw [← C25_csqp_cheap_passes_are_full rfl q]
  exact C26_csqp_direction_mt hl q

/-- At the head of an iteration under any schedule, the sequential solver would be in the same state. -/
theorem AtIter.seq {l : ℕ → List ℕ} (hl : SchedOK P l) {q0 q : CQP P} (h : AtIter llt (E.withSched (some l)) q0 q) :
    AtIter llt (E.withSched none) q0 q := by
  induction h with
  | first h => exact .first h
  | @next q q' h ht hs hn ih =>
    rcases step_same (llt := llt) (E := E) hl { q with tick := q.tick + 1 } with ⟨q1, h1, h2⟩ | ⟨q1, b, h1, h2⟩
    · rw [h2] at hs
      cases hs
      exact .next ih ht h1 hn
    · rw [h2] at hs; cases hs

end

/-! ## non-vacuity -/
namespace Ex

/-- the reversed order is a schedule. -/
example : SchedOK (clq 3 1 1 1 1) (fun _ => [2, 1, 0]) := fun _ => show [2, 1, 0].Perm [0, 1, 2] by decide

theorem ok_of_isOk {S : Type _} {r : Res S} (h : r.isOk = true) : ∃ s, r = .ok s := by
  cases r with
  | ok s => exact ⟨s, rfl⟩
  | exn s => cases h

/-- `linSolver` reaches the second iteration of its QP, which uses the cheap pass. -/
theorem lin_second : ∃ q : CQP lin, AtIter world.llt (linSolver.env world) linSolver.q q ∧
    isFull linSolver.c.interval q.qpIters = false := by
  have h1 : AtIter world.llt (linSolver.env world) linSolver.q
      { linSolver.q.resetParams linSolver.c with qpIters := 1, exec := 0 } := .first rfl
  obtain ⟨q', h2⟩ := ok_of_isOk (r := ({ ({ linSolver.q.resetParams linSolver.c with qpIters := 1, exec := 0 } : CQP lin) with
      tick := 1 } : CQP lin).step world.llt (linSolver.env world)) (by decide +kernel)
  refine ⟨_, .next h1 (by decide +kernel) h2 fun e => ?_, ?_⟩
  · rw [(step_misc h2).2.1] at e; exact absurd e (by decide +kernel)
  rw [(between_v _).2.2.2.2.2.2.2.2, (step_misc h2).2.1]
  decide

/-- an environment with two iterations between penalty updates: the second iteration uses the cheap pass. -/
example : isFull 25 2 = false ∧ isFull 25 1 = true := by decide

end Ex
end Mim
