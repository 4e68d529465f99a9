import Verif.Lemmas.MtRefineQP
import Verif.Lemmas.CSQPReach

/-!
# The multi-threaded solve of SolverCSQP against the sequential one
-/
set_option linter.unusedSectionVars false
set_option linter.unusedSimpArgs false

namespace Mim
open Omp QP Spec

namespace CSQP
section
variable {F : Type} [Add F] [Sub F] [Mul F] [Div F] [Neg F] [Zero F] [One F] [FloatOps F] [SqrtOps F] {P : Problem F}

/-- the problem's datas agree except in the results of `calc` at the nodes of the problem. -/
structure SimD (d d' : Data P) : Prop where
  rd : d'.rd = d.rd
  td : d'.td = d.td
  run : ∀ j, P.T ≤ j → d'.run j = d.run j

/-- the trials agree except in the gaps and the accumulated numbers. -/
structure SimW (w w' : CTry P) : Prop where
  xs : w'.xs = w.xs
  us : w'.us = w.us
  fs0 : w'.fs 0 = w.fs 0
  fs : ∀ j, P.T < j → w'.fs j = w.fs j

/-- `s` with other scratch memory. -/
def alt (s : CSQP P) (d : Data P) (b : CBP P) (w : CTry P) : CSQP P := { s with data := d, q := { s.q with b := b }, w := w }

/-- equal solver states up to scratch memory: the Q-terms of the backward passes, the results of `calc` stored in the datas of the
nodes, the gaps, cost, norms and merit of the last trial. -/
structure Sim (s s' : CSQP P) : Prop where
  eq : s' = s.alt s'.data s'.q.b s'.w
  data : SimD s.data s'.data
  b : SameB s.q.b s'.q.b
  w : SimW s.w s'.w

theorem SimD.refl (d : Data P) : SimD d d := ⟨rfl, rfl, fun _ _ => rfl⟩
theorem SimW.refl (w : CTry P) : SimW w w := ⟨rfl, rfl, rfl, fun _ _ => rfl⟩
theorem SimD.trans {d d' d'' : Data P} (h : SimD d d') (h' : SimD d' d'') : SimD d d'' :=
  ⟨h'.rd.trans h.rd, h'.td.trans h.td, fun j hj => (h'.run j hj).trans (h.run j hj)⟩
theorem SimW.trans {w w' w'' : CTry P} (h : SimW w w') (h' : SimW w' w'') : SimW w w'' :=
  ⟨h'.xs.trans h.xs, h'.us.trans h.us, h'.fs0.trans h.fs0, fun j hj => (h'.fs j hj).trans (h.fs j hj)⟩
theorem SimD.symm {d d' : Data P} (h : SimD d d') : SimD d' d := ⟨h.rd.symm, h.td.symm, fun j hj => (h.run j hj).symm⟩
theorem SimW.symm {w w' : CTry P} (h : SimW w w') : SimW w' w := ⟨h.xs.symm, h.us.symm, h.fs0.symm, fun j hj => (h.fs j hj).symm⟩

theorem _root_.Mim.QP.SameB.symm {b b' : CBP P} (h : SameB b b') : SameB b' b := by
  obtain ⟨⟨h1, h2, h3, h4, h5, h6, h7, h8, h9, h10, h11⟩, h12⟩ := h
  exact ⟨⟨h1.symm, h2.symm, h3.symm, h4.symm, h5.symm, h6.symm, fun j hj => (h7 j hj).symm, fun j hj => (h8 j hj).symm,
    fun j hj => (h9 j hj).symm, fun j hj => (h10 j hj).symm, fun j hj => (h11 j hj).symm⟩, h12.symm⟩

theorem Sim.refl (s : CSQP P) : Sim s s := ⟨rfl, SimD.refl _, SameB.refl _, SimW.refl _⟩

theorem Sim.of {s : CSQP P} {d : Data P} {b : CBP P} {w : CTry P} (hd : SimD s.data d) (hb : SameB s.q.b b) (hw : SimW s.w w) :
    Sim s (s.alt d b w) := ⟨rfl, hd, hb, hw⟩

theorem Sim.ex {s s' : CSQP P} (h : Sim s s') :
    ∃ d b w, s' = s.alt d b w ∧ SimD s.data d ∧ SameB s.q.b b ∧ SimW s.w w := ⟨_, _, _, h.eq, h.data, h.b, h.w⟩

theorem Sim.symm {s s' : CSQP P} (h : Sim s s') : Sim s' s := by
  obtain ⟨d, b, w, rfl, hd, hb, hw⟩ := h.ex
  exact ⟨rfl, hd.symm, hb.symm, hw.symm⟩

theorem Sim.trans {s s' s'' : CSQP P} (h : Sim s s') (h' : Sim s' s'') : Sim s s'' := by
  obtain ⟨d, b, w, rfl, hd, hb, hw⟩ := h.ex
  obtain ⟨d', b', w', rfl, hd', hb', hw'⟩ := h'.ex
  exact ⟨rfl, hd.trans hd', hb.trans hb', hw.trans hw'⟩

/-! ## calc -/

theorem calc_data {d d' : Data P} (h : SimD d d') (xs : Traj P) (us : Ctrls P) :
    (d'.calcAll xs us).calcDiffAll xs us = (d.calcAll xs us).calcDiffAll xs us := by
  cases d; cases d'
  simp only [Data.calcAll, Data.calcDiffAll, Data.mk.injEq, true_and, and_true]
  refine ⟨?_, ?_⟩
  · funext t
    by_cases ht : t < P.T
    · simp only [ht, if_true]
    · simp only [ht, if_false]; exact h.run t (by omega)
  · funext t
    have := congrFun h.rd t
    simp only [] at this
    by_cases ht : t < P.T
    · simp only [ht, if_true]
    · simp only [ht, if_false]; exact this

theorem Sim.calcEval {s s' : CSQP P} (h : Sim s s') : Sim s.calcEval s'.calcEval := by
  obtain ⟨d, b, w, rfl, hd, hb, hw⟩ := h.ex
  have e := calc_data hd s.xs s.us
  have : (s.alt d b w).calcEval = s.calcEval.alt s.calcEval.data b w := by
    unfold CSQP.calcEval alt
    simp only []
    rw [e]
  rw [this]
  exact Sim.of (SimD.refl _) hb hw

/-! ## the trial -/

/-- the evaluation loop before node `t`. -/
structure SimT (t : ℕ) (s s' : CSQP P) : Prop where
  eq : s' = s.alt s'.data s'.q.b { s.w with fs := s'.w.fs }
  data : SimD s.data s'.data
  run : ∀ j, j < t → s'.data.run j = s.data.run j
  b : SameB s.q.b s'.q.b
  fs : ∀ j, j ≤ t → s'.w.fs j = s.w.fs j
  fs' : ∀ j, P.T < j → s'.w.fs j = s.w.fs j

theorem SimT.sim {t : ℕ} {s s' : CSQP P} (h : SimT t s s') : Sim s s' := by
  obtain ⟨h1, h2, h3, h4, h5, h6⟩ := h
  generalize s'.data = d at *
  generalize s'.q.b = b at *
  generalize s'.w.fs = f at *
  subst h1
  exact Sim.of h2 h4 ⟨rfl, rfl, h5 0 (Nat.zero_le _), h6⟩

theorem update_le {α : ℕ → Type _} {f g : (j : ℕ) → α j} {t : ℕ} (x : α (t + 1)) (h : ∀ j, j ≤ t → f j = g j) :
    ∀ j, j ≤ t + 1 → Function.update f (t + 1) x j = Function.update g (t + 1) x j := by
  intro j hj
  by_cases e : j = t + 1
  · subst e; rw [Function.update_self, Function.update_self]
  · rw [Function.update_of_ne e, Function.update_of_ne e]; exact h j (by omega)

theorem update_both {α : ℕ → Type _} {f g : (j : ℕ) → α j} {i j : ℕ} (x : α i) (h : f j = g j) :
    Function.update f i x j = Function.update g i x j := by
  by_cases e : j = i
  · subst e; rw [Function.update_self, Function.update_self]
  · rw [Function.update_of_ne e, Function.update_of_ne e]; exact h

theorem tryStage_sim {t : ℕ} (ht : t < P.T) {s s' : CSQP P} (h : SimT t s s') :
    (∃ s1 s1', tryStage t s = .ok s1 ∧ tryStage t s' = .ok s1' ∧ SimT (t + 1) s1 s1') ∨
    ∃ s1 s1', tryStage t s = .exn s1 ∧ tryStage t s' = .exn s1' ∧ SimT (t + 1) s1 s1' := by
  obtain ⟨h1, h2, h3, h4, h5, h6⟩ := h
  generalize s'.data = d at *
  generalize s'.q.b = b at *
  generalize s'.w.fs = f at *
  subst h1
  have hres : ∀ (x y : CSQP P), SimT (t + 1) x y → ∀ c : Bool,
      (∃ s1 s1', Res.throwIf c x = .ok s1 ∧ Res.throwIf c y = .ok s1' ∧ SimT (t + 1) s1 s1') ∨
      ∃ s1 s1', Res.throwIf c x = .exn s1 ∧ Res.throwIf c y = .exn s1' ∧ SimT (t + 1) s1 s1' := by
    intro x y hxy c
    cases c
    · exact .inl ⟨x, y, rfl, rfl, hxy⟩
    · exact .inr ⟨x, y, rfl, rfl, hxy⟩
  unfold tryStage
  simp only [alt, Data.calcNode, Function.update_self]
  refine hres _ _ ?_ _
  refine ⟨rfl, ⟨h2.rd, h2.td, ?_⟩, ?_, h4, ?_, ?_⟩
  · intro j hj; exact update_both _ (h2.run j hj)
  · intro j hj
    by_cases e : j = t
    · subst e; simp only [Function.update_self]
    · simp only [Function.update_of_ne e]; exact h3 j (by omega)
  · intro j hj; exact update_le _ h5 j hj
  · intro j hj; exact update_both _ (h6 j hj)

theorem tryLoop_sim (m : ℕ) (hm : m ≤ P.T) {s s' : CSQP P} (h : SimT 0 s s') :
    (∃ s1 s1', forUpR m tryStage s = .ok s1 ∧ forUpR m tryStage s' = .ok s1' ∧ SimT m s1 s1') ∨
    ∃ s1 s1', forUpR m tryStage s = .exn s1 ∧ forUpR m tryStage s' = .exn s1' ∧ Sim s1 s1' := by
  induction m with
  | zero => exact .inl ⟨s, s', rfl, rfl, h⟩
  | succ m ih =>
    rw [forUpR_succ, forUpR_succ]
    rcases ih (by omega) with ⟨s1, s1', h1, h2, h3⟩ | ⟨s1, s1', h1, h2, h3⟩
    · rw [h1, h2]
      simp only [Res.bind_ok]
      rcases tryStage_sim (by omega) h3 with h | ⟨s2, s2', e1, e2, e3⟩
      · exact .inl h
      · exact .inr ⟨s2, s2', e1, e2, e3.sim⟩
    · rw [h1, h2]; exact .inr ⟨s1, s1', rfl, rfl, h3⟩

/-- a completed trial makes datas and trial equal. -/
structure SimOk (s s' : CSQP P) : Prop where
  eq : s' = s.alt s.data s'.q.b s.w
  b : SameB s.q.b s'.q.b

theorem SimOk.sim {s s' : CSQP P} (h : SimOk s s') : Sim s s' := by
  obtain ⟨h1, h2⟩ := h
  generalize s'.q.b = b at *
  subst h1
  exact Sim.of (SimD.refl _) h2 (SimW.refl _)

theorem trialStart_sim (a : F) {s s' : CSQP P} (h : Sim s s') : SimT 0 (trialStart a s) (trialStart a s') := by
  obtain ⟨d, b, w, rfl, hd, hb, hw⟩ := h.ex
  have e : trialStart a (s.alt d b w) = (trialStart a s).alt d b { (trialStart a s).w with fs := w.fs } := by
    unfold trialStart tryMove alt
    simp only [hw.xs, hw.us]
  rw [e]
  refine ⟨rfl, hd, fun j hj => absurd hj (Nat.not_lt_zero j), hb, fun j hj => ?_, hw.fs⟩
  obtain rfl : j = 0 := by omega
  exact hw.fs0

theorem tryTerminal_sim {s s' : CSQP P} (h : SimT P.T s s') :
    (∃ s1 s1', tryTerminal s = .ok s1 ∧ tryTerminal s' = .ok s1' ∧ SimOk s1 s1') ∨
    ∃ s1 s1', tryTerminal s = .exn s1 ∧ tryTerminal s' = .exn s1' ∧ Sim s1 s1' := by
  obtain ⟨h1, h2, h3, h4, h5, h6⟩ := h
  have hf : s'.w.fs = s.w.fs := by
    funext j
    by_cases hj : j ≤ P.T
    · exact h5 j hj
    · exact h6 j (by omega)
  have hd : ∀ x, s'.data.calcTer x = s.data.calcTer x := by
    intro x
    have hr : s'.data.run = s.data.run := by
      funext j
      by_cases hj : j < P.T
      · exact h3 j hj
      · exact h2.run j (by omega)
    unfold Data.calcTer
    rw [hr, h2.rd, h2.td]
  generalize s'.data = d at *
  generalize s'.q.b = b at *
  generalize s'.w.fs = f at *
  subst h1 hf
  have hres : ∀ (x y : CSQP P), SimOk x y → ∀ c : Bool,
      (∃ s1 s1', Res.throwIf c x = .ok s1 ∧ Res.throwIf c y = .ok s1' ∧ SimOk s1 s1') ∨
      ∃ s1 s1', Res.throwIf c x = .exn s1 ∧ Res.throwIf c y = .exn s1' ∧ Sim s1 s1' := by
    intro x y hxy c
    cases c
    · exact .inl ⟨x, y, rfl, rfl, hxy⟩
    · exact .inr ⟨x, y, rfl, rfl, hxy.sim⟩
  unfold tryTerminal
  simp only [alt, hd]
  exact hres _ _ ⟨rfl, h4⟩ _

/-- the sequential trial from states that differ in scratch. -/
theorem tryStep_sim (a : F) {s s' : CSQP P} (h : Sim s s') :
    (∃ s1 s1', tryStep a s = .ok s1 ∧ tryStep a s' = .ok s1' ∧ SimOk s1 s1') ∨
    ∃ s1 s1', tryStep a s = .exn s1 ∧ tryStep a s' = .exn s1' ∧ Sim s1 s1' := by
  unfold tryStep
  simp only []
  split
  · refine .inr ⟨_, _, rfl, rfl, ?_⟩
    obtain ⟨d, b, w, rfl, hd, hb, hw⟩ := h.ex
    exact ⟨rfl, hd, hb, hw⟩
  · rcases tryLoop_sim P.T le_rfl (trialStart_sim a h) with ⟨s1, s1', h1, h2, h3⟩ | ⟨s1, s1', h1, h2, h3⟩
    · rw [show forUpR P.T tryStage _ = Res.ok s1 from h1, show forUpR P.T tryStage _ = Res.ok s1' from h2]
      exact tryTerminal_sim h3
    · rw [show forUpR P.T tryStage _ = Res.exn s1 from h1, show forUpR P.T tryStage _ = Res.exn s1' from h2]
      exact .inr ⟨_, _, rfl, rfl, h3⟩

/-- what any trial does to the state it starts from. -/
structure Touch (s s' : CSQP P) : Prop where
  eq : s' = { s with data := s'.data, w := s'.w }
  data : SimD s.data s'.data
  w : SimW s.w s'.w

theorem Touch.refl (s : CSQP P) : Touch s s := ⟨rfl, SimD.refl _, SimW.refl _⟩
theorem Touch.trans {s s' s'' : CSQP P} (h : Touch s s') (h' : Touch s' s'') : Touch s s'' := by
  obtain ⟨e, hd, hw⟩ := h
  obtain ⟨e', hd', hw'⟩ := h'
  refine ⟨?_, hd.trans hd', hw.trans hw'⟩
  generalize s''.data = d at *
  generalize s''.w = w at *
  subst e'
  generalize s'.data = d at *
  generalize s'.w = w at *
  subst e
  rfl

theorem Touch.sim {s s' : CSQP P} (h : Touch s s') : Sim s s' := by
  obtain ⟨e, hd, hw⟩ := h
  generalize s'.data = d at *
  generalize s'.w = w at *
  subst e
  exact ⟨rfl, hd, SameB.refl _, hw⟩

theorem tryStage_touch {t : ℕ} (ht : t < P.T) (s : CSQP P) : Touch s (tryStage t s).st := by
  unfold tryStage
  simp only [Res.throwIf_st]
  refine ⟨rfl, ⟨rfl, rfl, fun j hj => ?_⟩, ⟨rfl, rfl, ?_, fun j hj => ?_⟩⟩
  · exact Function.update_of_ne (by omega) _ _
  · simp [Function.update]
  · exact Function.update_of_ne (by omega) _ _

theorem tryLoop_touch (m : ℕ) (hm : m ≤ P.T) (s : CSQP P) : Touch s (forUpR m tryStage s).st := by
  induction m with
  | zero => exact Touch.refl s
  | succ m ih =>
    rw [forUpR_succ]
    have := ih (by omega)
    cases hr : forUpR m tryStage s with
    | exn s1 => rw [hr] at this; exact this
    | ok s1 => rw [hr] at this; exact this.trans (tryStage_touch (by omega) s1)

theorem tryTerminal_touch (s : CSQP P) : Touch s (tryTerminal s).st := by
  unfold tryTerminal
  simp only [Res.throwIf_st]
  exact ⟨rfl, ⟨rfl, rfl, fun j hj => rfl⟩, ⟨rfl, rfl, rfl, fun j hj => rfl⟩⟩

theorem tryStep_touch (a : F) (s : CSQP P) (hr : (ltb 1 a || ltb a 0) = false) : Touch (trialStart a s) (tryStep a s).st := by
  unfold tryStep
  simp only [hr, Bool.false_eq_true, if_false]
  have := tryLoop_touch P.T le_rfl (trialStart a s)
  revert this
  change Touch _ (forUpR P.T tryStage (trialStart a s)).st → Touch _ ((forUpR P.T tryStage (trialStart a s)).bind tryTerminal).st
  intro this
  cases hr : forUpR P.T tryStage (trialStart a s) with
  | exn s1 => rw [hr] at this; exact this
  | ok s1 => rw [hr] at this; exact this.trans (tryTerminal_touch s1)

theorem shOf_touch (l : List ℕ) (hl : ∀ t ∈ l, t < P.T) (s : CSQP P) : Touch s (shOf l s) := by
  induction l generalizing s with
  | nil => exact Touch.refl s
  | cons t l ih =>
    rw [shOf_cons]
    refine Touch.trans ?_ (ih (fun t ht => hl t (List.mem_cons_of_mem _ ht)) _)
    have ht := hl t List.mem_cons_self
    refine ⟨rfl, ⟨rfl, rfl, fun j hj => ?_⟩, ⟨rfl, rfl, ?_, fun j hj => ?_⟩⟩
    · exact Function.update_of_ne (by omega) _ _
    · rfl
    · exact Function.update_of_ne (by omega) _ _

theorem tryStepMt_touch {n : ℕ} {σ : Sched n TryEv} (hσ : σ.Valid P.T tryOps) (a : F) (s : CSQP P)
    (hr : (ltb 1 a || ltb a 0) = false) {r : Res (CSQP P)} (h : tryStepMt σ a s = some r) : Touch (trialStart a s) r.st := by
  rw [tryStepMt_eq hσ] at h
  simp only [hr, Bool.false_eq_true, if_false] at h
  split at h
  · cases h
  · rw [← Option.some.inj h]
    refine Touch.trans ?_ (tryTerminal_touch _)
    refine (shOf_touch (List.range P.T) (fun t ht => List.mem_range.mp ht) (trialStart a s)).trans ?_
    exact ⟨rfl, ⟨rfl, rfl, fun j hj => rfl⟩, ⟨rfl, rfl, rfl, fun j hj => rfl⟩⟩

/-- both threw. -/
theorem try_exn_sim {n : ℕ} {σ : Sched n TryEv} (hσ : σ.Valid P.T tryOps) {a : F} {s s1 s1' : CSQP P}
    (h : tryStep a s = .exn s1) (h' : tryStepMt σ a s = some (.exn s1')) : Sim s1 s1' := by
  cases hr : (ltb 1 a || ltb a 0) with
  | false =>
    have t1 := tryStep_touch a s hr
    have t2 := tryStepMt_touch hσ a s hr h'
    rw [h] at t1
    exact t1.sim.symm.trans t2.sim
  | true =>
    rw [tryStepMt_eq hσ] at h'
    unfold tryStep at h
    simp only [hr, if_true] at h h'
    cases h
    cases h'
    exact Sim.refl _

end

section
variable {K : Type} [Field K] [LinearOrder K] [IsStrictOrderedRing K] [SqrtOps K] {P : Problem K} {n : ℕ} {M : MtWorld n K}

/-- the result of the multi-threaded run (right) against that of the sequential one (left): the same with related states, or the
program was terminated and `D` holds. -/
inductive Refines (D : Prop) {α : Type} : Option (α × CSQP P) → Run (α × CSQP P) → Prop
  | running : Refines D none .running
  | dead {x : Option (α × CSQP P)} (h : D) : Refines D x .dead
  | val {s s' : CSQP P} (a : α) (h : Sim s s') : Refines D (some (a, s)) (.val (a, s'))

theorem Refines.mono {D D' : Prop} (hD : D → D') {α : Type} {x : Option (α × CSQP P)} {y : Run (α × CSQP P)} (h : Refines D x y) :
    Refines D' x y := by
  cases h with
  | running => exact .running
  | dead h => exact .dead (hD h)
  | val a h => exact .val a h

theorem dead_cost {σ : Sched n TryEv} (hσ : σ.Valid P.T tryOps) (hc : ∀ xs us, NonnegCosts P xs us) {a : K} {s : CSQP P}
    (h : tryStepMt σ a s = none) : 0 ≤ a ∧ a ≤ 1 ∧ (10 : K) ^ 30 ≤ trajCost P (stepX P s.xs s.q.v.dx a) (stepU P s.us s.q.v.du a) := by
  obtain ⟨hr1, hr2, i, l, t, l', he, hb⟩ := (C50_csqp_terminates_iff hσ a s).mp h
  have hb : (10 : K) ^ 30 ≤ partialCost P (stepX P s.xs s.q.v.dx a) (stepU P s.us s.q.v.du a) (l ++ [t]) := by
    simpa [bad, exactOps] using hb
  have h1 := partial_le (hc (stepX P s.xs s.q.v.dx a) (stepU P s.us s.q.v.du a)) hσ (l := l ++ [t]) (l' := l') (i := i)
    (by rw [he]; simp)
  refine ⟨by simpa using hr2, by simpa using hr1, (hb.trans h1).trans (le_add_of_nonneg_right (hc _ (stepU P s.us s.q.v.du a)).2)⟩

/-- one trial. -/
theorem try_refines (hM : M.OK P) (hc : ∀ xs us, NonnegCosts P xs us) (k : ℕ) (a : K) {s s' : CSQP P} (h : Sim s s') :
    (tryStepMt (M.tr k) a s' = none ∧
      0 ≤ a ∧ a ≤ 1 ∧ (10 : K) ^ 30 ≤ trajCost P (stepX P s.xs s.q.v.dx a) (stepU P s.us s.q.v.du a)) ∨
    (∃ s1 s1', tryStep a s = .ok s1 ∧ tryStepMt (M.tr k) a s' = some (.ok s1') ∧ SimOk s1 s1') ∨
    ∃ s1 s1', tryStep a s = .exn s1 ∧ tryStepMt (M.tr k) a s' = some (.exn s1') ∧ Sim s1 s1' := by
  rcases C47_csqp_trial_nonneg (hM.tr k) a s' (hc _ _) with ⟨x, h1, h2⟩ | ⟨⟨x, h1⟩, h2 | ⟨x', h2⟩⟩
  · rcases tryStep_sim a h with ⟨s1, s1', e1, e2, e3⟩ | ⟨s1, s1', e1, e2, e3⟩
    · rw [e2] at h1; cases h1
      exact .inr (.inl ⟨_, _, e1, h2, e3⟩)
    · rw [e2] at h1; cases h1
  · refine .inl ⟨h2, ?_⟩
    have := dead_cost (hM.tr k) hc h2
    rw [h.eq] at this
    exact this
  · rcases tryStep_sim a h with ⟨s1, s1', e1, e2, e3⟩ | ⟨s1, s1', e1, e2, e3⟩
    · rw [e2] at h1; cases h1
    · refine .inr (.inr ⟨_, _, e1, h2, e3.trans ?_⟩)
      exact try_exn_sim (hM.tr k) e2 h2

theorem SimOk.ex {s s' : CSQP P} (h : SimOk s s') : ∃ b, s' = s.alt s.data b s.w ∧ SameB s.q.b b := ⟨_, h.eq, h.b⟩

/-- in the state `s`, some admissible step length leads to a trajectory with cost ≥ 1e30. -/
def Costly (as : List K) (s : CSQP P) : Prop :=
  ∃ a ∈ as, 0 ≤ a ∧ a ≤ 1 ∧ (10 : K) ^ 30 ≤ trajCost P (stepX P s.xs s.q.v.dx a) (stepU P s.us s.q.v.du a)

theorem Costly.up {a : K} {as : List K} {s s1 : CSQP P} (hx : s1.xs = s.xs) (hu : s1.us = s.us) (hq : s1.q = s.q)
    (h : Costly as s1) : Costly (a :: as) s := by
  obtain ⟨b, hb, h⟩ := h
  rw [hx, hu, hq] at h
  exact ⟨b, List.mem_cons_of_mem _ hb, h⟩

theorem lineSearch_refines (hM : M.OK P) (hc : ∀ xs us, NonnegCosts P xs us) (as : List K) {s s' : CSQP P} (h : Sim s s') :
    (lineSearchMt M.tr as s' = none ∧ Costly as s) ∨
    ∃ r s1 s1', lineSearch as s = (r, s1) ∧ lineSearchMt M.tr as s' = some (r, s1') ∧ Sim s1 s1' := by
  induction as generalizing s s' with
  | nil => exact .inr ⟨false, s, s', rfl, rfl, h⟩
  | cons a as ih =>
    rw [lineSearchMt, lineSearch]
    obtain ⟨d0, w0, hst⟩ := tryStep_set a s
    have up : ∀ {s1 s1' : CSQP P}, s1.xs = s.xs → s1.us = s.us → s1.q = s.q → Sim s1 s1' →
        (lineSearchMt M.tr as s1' = none ∧ Costly (a :: as) s) ∨
        ∃ r s2 s2', lineSearch as s1 = (r, s2) ∧ lineSearchMt M.tr as s1' = some (r, s2') ∧ Sim s2 s2' := by
      intro s1 s1' e1 e2 e3 h1
      rcases ih h1 with ⟨h2, h3⟩ | h2
      · exact .inl ⟨h2, h3.up e1 e2 e3⟩
      · exact .inr h2
    rcases try_refines hM hc s'.nTry a h with ⟨h1, h2⟩ | ⟨s1, s1', e1, e2, e3⟩ | ⟨s1, s1', e1, e2, e3⟩
    · rw [h1]; exact .inl ⟨rfl, a, List.mem_cons_self, h2⟩
    · rw [e1] at hst
      have hst : s1 = _ := hst
      rw [e1, e2]
      clear e1 e2
      obtain ⟨b, rfl, hb⟩ := e3.ex
      have hw : (s1.alt s1.data b s1.w).worse = s1.worse := rfl
      simp only [hw]
      rw [show (s1.alt s1.data b s1.w).c = s1.c from rfl, show (s1.alt s1.data b s1.w).m = s1.m from rfl,
        show (s1.alt s1.data b s1.w).w = s1.w from rfl]
      split
      · split
        · exact up (by rw [hst]) (by rw [hst]) (by rw [hst]) ⟨rfl, SimD.refl _, hb, SimW.refl _⟩
        · exact .inr ⟨true, _, _, rfl, rfl, ⟨rfl, SimD.refl _, hb, SimW.refl _⟩⟩
      · split
        · exact .inr ⟨true, _, _, rfl, rfl, ⟨rfl, SimD.refl _, hb, SimW.refl _⟩⟩
        · exact up (by rw [hst]) (by rw [hst]) (by rw [hst]) ⟨rfl, SimD.refl _, hb, SimW.refl _⟩
    · rw [e1] at hst
      have hst : s1 = _ := hst
      rw [e1, e2]; exact up (by rw [hst]) (by rw [hst]) (by rw [hst]) e3

/-! ## the loops -/

theorem Sim.increaseReg {s s' : CSQP P} (h : Sim s s') : Sim s.increaseReg s'.increaseReg := by
  obtain ⟨d, b, w, rfl, hd, hb, hw⟩ := h.ex
  exact ⟨rfl, hd, hb, hw⟩

theorem Sim.decreaseReg {s s' : CSQP P} (h : Sim s s') : Sim s.decreaseReg s'.decreaseReg := by
  obtain ⟨d, b, w, rfl, hd, hb, hw⟩ := h.ex
  exact ⟨rfl, hd, hb, hw⟩

theorem Sim.updateReg {s s' : CSQP P} (h : Sim s s') : s'.updateReg.1 = s.updateReg.1 ∧ Sim s.updateReg.2 s'.updateReg.2 := by
  obtain ⟨d, b, w, rfl, hd, hb, hw⟩ := h.ex
  unfold CSQP.updateReg
  rw [show (s.alt d b w).c = s.c from rfl, show (s.alt d b w).steplength = s.steplength from rfl]
  split
  · exact ⟨rfl, ⟨rfl, hd, hb, hw⟩⟩
  · split
    · exact ⟨rfl, ⟨rfl, hd, hb, hw⟩⟩
    · exact ⟨rfl, ⟨rfl, hd, hb, hw⟩⟩

/-- the environments agree when the datas do. -/
structure SimE (s s' : CSQP P) : Prop where
  eq : s' = s.alt s.data s'.q.b s'.w
  b : SameB s.q.b s'.q.b
  w : SimW s.w s'.w

theorem SimE.sim {s s' : CSQP P} (h : SimE s s') : Sim s s' := by
  obtain ⟨e, hb, hw⟩ := h
  generalize s'.q.b = b at *
  generalize s'.w = w at *
  subst e
  exact ⟨rfl, SimD.refl _, hb, hw⟩

theorem SimE.ex {s s' : CSQP P} (h : SimE s s') : ∃ b w, s' = s.alt s.data b w ∧ SameB s.q.b b ∧ SimW s.w w :=
  ⟨_, _, h.eq, h.b, h.w⟩

theorem SimE.increaseReg {s s' : CSQP P} (h : SimE s s') : SimE s.increaseReg s'.increaseReg := by
  obtain ⟨b, w, rfl, hb, hw⟩ := h.ex
  exact ⟨rfl, hb, hw⟩

theorem Sim.calcEvalE {s s' : CSQP P} (h : Sim s s') : SimE s.calcEval s'.calcEval := by
  obtain ⟨d, b, w, rfl, hd, hb, hw⟩ := h.ex
  have e := calc_data hd s.xs s.us
  have : (s.alt d b w).calcEval = s.calcEval.alt s.calcEval.data b w := by
    unfold CSQP.calcEval alt
    simp only []
    rw [e]
  rw [this]
  exact ⟨rfl, hb, hw⟩

theorem Sim.prepareE {s s' : CSQP P} (h : Sim s s') : SimE s.prepare s'.prepare := by
  have hE := h.calcEvalE
  unfold CSQP.prepare
  simp only []
  revert hE
  generalize s.calcEval = x
  generalize s'.calcEval = y
  intro hE
  obtain ⟨b, w, rfl, hb, hw⟩ := hE.ex
  rw [show (x.alt x.data b w).iter = x.iter from rfl, show (x.alt x.data b w).c = x.c from rfl]
  split
  · exact ⟨rfl, hb, hw⟩
  · exact ⟨rfl, hb, hw⟩

/-- `computeDirection(true)`. -/
theorem dir_sim (hM : M.OK P) (hid : M.idn ≤ negInf) {s s' : CSQP P} (h : SimE s s') :
    (∃ s1 s1', s.dir ⟨M.llt, M.clock, none⟩ = .ok s1 ∧ s'.dirMt M = some (.ok s1') ∧ SimE s1 s1') ∨
    ∃ s1 s1', s.dir ⟨M.llt, M.clock, none⟩ = .exn s1 ∧ s'.dirMt M = some (.exn s1') ∧ SimE s1 s1' := by
  obtain ⟨b, w, rfl, hb, hw⟩ := h.ex
  unfold CSQP.dir CSQP.dirMt
  obtain ⟨r, h1, h2⟩ := direction_sim (E := s.env ⟨M.llt, M.clock, none⟩) hM hid
    (q := s.q) (q' := { s.q with b := b }) ⟨rfl, hb⟩
  rw [show (s.alt s.data b w).q.computeDirectionMt M ((s.alt s.data b w).envMt M) = some r from h1]
  change _ ∨ _
  rw [show (s.env ⟨M.llt, M.clock, none⟩).withSched none = s.env ⟨M.llt, M.clock, none⟩ from rfl] at h2
  generalize s.q.computeDirection M.llt (s.env ⟨M.llt, M.clock, none⟩) = r0 at h2 ⊢
  cases h2 with
  | @ok q q' hq =>
    refine .inl ⟨_, _, rfl, rfl, ?_⟩
    obtain ⟨he, hb⟩ := hq
    generalize q'.b = b at *
    subst he
    exact ⟨rfl, hb, hw⟩
  | @exn q q' hq =>
    refine .inr ⟨_, _, rfl, rfl, ?_⟩
    obtain ⟨he, hb⟩ := hq
    generalize q'.b = b at *
    subst he
    exact ⟨rfl, hb, hw⟩

theorem SimE.reached {s s' : CSQP P} (h : SimE s s') : s'.q.reached = s.q.reached := by rw [h.eq]; rfl
theorem SimE.c {s s' : CSQP P} (h : SimE s s') : s'.c = s.c := by rw [h.eq]; rfl
theorem SimE.preg {s s' : CSQP P} (h : SimE s s') : s'.preg = s.preg := by rw [h.eq]; rfl

/-- results of the direction. -/
inductive RefinesE {α : Type} : Option (α × CSQP P) → Run (α × CSQP P) → Prop
  | running : RefinesE none .running
  | val {s s' : CSQP P} (a : α) (h : SimE s s') : RefinesE (some (a, s)) (.val (a, s'))

theorem retry_refines (hM : M.OK P) (hid : M.idn ≤ negInf) (chk : Bool) (fuel : ℕ) {s s' : CSQP P} (h : SimE s s') :
    RefinesE (retry ⟨M.llt, M.clock, none⟩ chk fuel s) (retryMt M chk fuel s') := by
  induction fuel generalizing s s' with
  | zero => exact .running
  | succ fuel ih =>
    rw [retry, retryMt, h.reached]
    split
    · exact .val _ h
    · rcases dir_sim hM hid h with ⟨s1, s1', e1, e2, e3⟩ | ⟨s1, s1', e1, e2, e3⟩
      · rw [e1, e2]; exact .val _ e3
      · rw [e1, e2]
        have h3 := e3.increaseReg
        simp only [h3.c, h3.preg]
        split
        · exact .val _ h3
        · exact ih h3

theorem direction_refines (hM : M.OK P) (hid : M.idn ≤ negInf) (chk : Bool) (fuel : ℕ) {s s' : CSQP P} (h : SimE s s') :
    RefinesE (direction ⟨M.llt, M.clock, none⟩ fuel chk s) (directionMt M fuel chk s') := by
  unfold direction directionMt
  rw [h.c]
  split
  · rcases dir_sim hM hid h with ⟨s1, s1', e1, e2, e3⟩ | ⟨s1, s1', e1, e2, e3⟩
    · rw [e1, e2]; exact .val _ e3
    · rw [e1, e2]; exact .val _ e3
  · have := retry_refines hM hid chk fuel h
    generalize retry ⟨M.llt, M.clock, none⟩ chk fuel s = x at this ⊢
    generalize retryMt M chk fuel s' = y at this ⊢
    cases this with
    | running => exact .running
    | val a h =>
      cases a
      · exact .val _ h
      · exact .val _ h

theorem advance_refines (hM : M.OK P) (hc : ∀ xs us, NonnegCosts P xs us) {s s' : CSQP P} (h : Sim s s') :
    Refines (Costly s.c.par.alphas s) (some s.advance) (s'.advanceMt M) := by
  have h1 : Sim s.pushFilter.setMerit s'.pushFilter.setMerit := by
    obtain ⟨d, b, w, rfl, hd, hb, hw⟩ := h.ex
    exact ⟨rfl, hd, hb, hw⟩
  have hc' : s'.c = s.c := by rw [h.eq]; rfl
  unfold advance advanceMt
  rw [hc']
  rcases lineSearch_refines hM hc s.c.par.alphas h1 with ⟨h2, h3⟩ | ⟨r, s1, s1', e1, e2, e3⟩
  · rw [h2]; exact .dead h3
  · rw [e1, e2]
    cases r
    · refine .val _ ?_
      obtain ⟨d, b, w, rfl, hd, hb, hw⟩ := e3.ex
      exact ⟨rfl, hd, hb, hw⟩
    · obtain ⟨h4, h5⟩ := e3.updateReg
      simp only [h4]
      exact .val _ h5

theorem SimE.check {s s' : CSQP P} (h : SimE s s') : Sim s.checkKKT.callbacks s'.checkKKT.callbacks := by
  obtain ⟨b, w, rfl, hb, hw⟩ := h.ex
  have hm : (s.alt s.data b w).multipliers = s.multipliers := by
    unfold multipliers alt
    simp only []
    rw [hb.bp.Vx, hb.bp.Vxx]
  have : (s.alt s.data b w).checkKKT.callbacks = s.checkKKT.callbacks.alt s.data b w := by
    unfold checkKKT callbacks
    simp only [hm]
    rfl
  rw [this]
  exact ⟨rfl, SimD.refl _, hb, hw⟩

theorem finish_refines (hM : M.OK P) (hc : ∀ xs us, NonnegCosts P xs us) {s s' : CSQP P} (h : SimE s s') :
    Refines (Costly s.c.par.alphas s) (some s.finish) (s'.finishMt M) := by
  have hq : s'.q.qpIters = s.q.qpIters := by rw [h.eq]; rfl
  unfold finish finishMt
  rw [hq]
  split
  · exact .val _ h.sim
  · have h2 := h.check
    have e1 : s'.checkKKT.callbacks.m.KKT = s.checkKKT.callbacks.m.KKT := by rw [h2.eq]; rfl
    have e2 : s'.checkKKT.callbacks.c = s.checkKKT.callbacks.c := by rw [h2.eq]; rfl
    simp only [e1, e2]
    split
    · exact .val _ h2
    · exact advance_refines hM hc h2

/-- in the iteration that starts in the state `s` a direction is found and some admissible step length along it leads to a
trajectory with cost ≥ 1e30. -/
def CostlyTrial (W : World K) (fuel : ℕ) (s : CSQP P) : Prop :=
  ∃ s1, direction W fuel true ({ s with q := { s.q with tick := s.q.tick + 1 } } : CSQP P).prepare = some (none, s1) ∧
    Costly s1.c.par.alphas s1

/-- the states in which the iterations of the main loop start. -/
def visited (W : World K) (fuel : ℕ) : ℕ → CSQP P → List (CSQP P)
  | 0, _ => []
  | m + 1, s => s :: match body W fuel s with
    | some (.next, s1) => visited W fuel m { s1 with iter := s1.iter + 1 }
    | _ => []

theorem body_refines (hM : M.OK P) (hid : M.idn ≤ negInf) (hc : ∀ xs us, NonnegCosts P xs us) (fuel : ℕ) {s s' : CSQP P}
    (h : Sim s s') : Refines (CostlyTrial ⟨M.llt, M.clock, none⟩ fuel s) (body ⟨M.llt, M.clock, none⟩ fuel s) (bodyMt M fuel s') := by
  have hup : s'.q.timeUp (s'.envMt M) = s.q.timeUp (s.env ⟨M.llt, M.clock, none⟩) := by rw [h.eq]; rfl
  unfold body bodyMt
  simp only []
  rw [hup]
  have h1 : Sim { s with q := { s.q with tick := s.q.tick + 1 } } { s' with q := { s'.q with tick := s'.q.tick + 1 } } := by
    obtain ⟨d, b, w, rfl, hd, hb, hw⟩ := h.ex
    exact ⟨rfl, hd, hb, hw⟩
  split
  · refine .val _ ?_
    obtain ⟨d, b, w, rfl, hd, hb, hw⟩ := h.ex
    exact ⟨rfl, hd, hb, hw⟩
  · have := direction_refines hM hid true fuel h1.prepareE
    unfold CostlyTrial
    generalize direction ⟨M.llt, M.clock, none⟩ fuel true _ = x at this ⊢
    generalize directionMt M fuel true _ = y at this ⊢
    cases this with
    | running => exact .running
    | @val s2 _ a h =>
      cases a with
      | some o => exact .val _ h.sim
      | none => exact (finish_refines hM hc h).mono fun hD => ⟨s2, rfl, hD⟩

theorem iterate_refines (hM : M.OK P) (hid : M.idn ≤ negInf) (hc : ∀ xs us, NonnegCosts P xs us) (fuel m : ℕ) {s s' : CSQP P}
    (h : Sim s s') : Refines (∃ s2 ∈ visited ⟨M.llt, M.clock, none⟩ fuel m s, CostlyTrial ⟨M.llt, M.clock, none⟩ fuel s2)
      (iterate ⟨M.llt, M.clock, none⟩ fuel m s) (iterateMt M fuel m s') := by
  induction m generalizing s s' with
  | zero => exact .val _ h
  | succ m ih =>
    rw [iterate, iterateMt, visited]
    have := body_refines hM hid hc fuel h
    generalize body ⟨M.llt, M.clock, none⟩ fuel s = x at this ⊢
    generalize bodyMt M fuel s' = y at this ⊢
    cases this with
    | running => exact .running
    | dead h => exact .dead ⟨s, List.mem_cons_self, h⟩
    | val a h =>
      cases a with
      | fin o => exact .val _ h
      | brk => exact .val _ h
      | next =>
        refine (ih ?_).mono fun ⟨s2, h1, h2⟩ => ⟨s2, List.mem_cons_of_mem _ h1, h2⟩
        obtain ⟨d, b, w, rfl, hd, hb, hw⟩ := h.ex
        exact ⟨rfl, hd, hb, hw⟩

theorem extra_refines (hM : M.OK P) (hid : M.idn ≤ negInf) (fuel : ℕ) {s s' : CSQP P}
    (h : Sim s s') : Refines False (extraIter ⟨M.llt, M.clock, none⟩ fuel s) (extraIterMt M fuel s') := by
  have hc' : s'.c = s.c := by rw [h.eq]; rfl
  have hr : s'.q.reached = s.q.reached := by rw [h.eq]; rfl
  unfold extraIter extraIterMt
  rw [hc', hr]
  split
  · have := direction_refines hM hid false fuel h.calcEvalE
    generalize direction ⟨M.llt, M.clock, none⟩ fuel false _ = x at this ⊢
    generalize directionMt M fuel false _ = y at this ⊢
    cases this with
    | running => exact .running
    | val a h =>
      cases a with
      | some o => exact .val _ h.sim
      | none =>
        have h2 := h.check
        have e1 : ∀ x y : CSQP P, Sim x y → y.m.KKT = x.m.KKT ∧ y.c = x.c := fun x y h => by rw [h.eq]; exact ⟨rfl, rfl⟩
        simp only [(e1 _ _ h2).1, (e1 _ _ h2).2]
        exact .val _ h2
  · exact .val _ h

/-- the whole solve. -/
theorem solve_refines (hM : M.OK P) (hid : M.idn ≤ negInf) (hc : ∀ xs us, NonnegCosts P xs us) (fuel : ℕ)
    (initXs : Option (Traj P)) (initUs : Option (Ctrls P)) (maxiter : ℕ) (reginit : K) (s : CSQP P) :
    Refines (∃ s2 ∈ visited ⟨M.llt, M.clock, none⟩ fuel maxiter (s.start ⟨M.llt, M.clock, none⟩ initXs initUs maxiter reginit),
        CostlyTrial ⟨M.llt, M.clock, none⟩ fuel s2)
      (solve ⟨M.llt, M.clock, none⟩ fuel initXs initUs maxiter reginit s) (solveMt M fuel initXs initUs maxiter reginit s) := by
  unfold solve solveMt
  have := iterate_refines hM hid hc fuel maxiter (Sim.refl (s.start ⟨M.llt, M.clock, none⟩ initXs initUs maxiter reginit))
  rw [show s.start ⟨M.llt, M.clock, some M.pass⟩ initXs initUs maxiter reginit =
    s.start ⟨M.llt, M.clock, none⟩ initXs initUs maxiter reginit from rfl]
  generalize iterate ⟨M.llt, M.clock, none⟩ fuel maxiter (s.start ⟨M.llt, M.clock, none⟩ initXs initUs maxiter reginit) = x at this ⊢
  generalize iterateMt M fuel maxiter (s.start ⟨M.llt, M.clock, none⟩ initXs initUs maxiter reginit) = y at this ⊢
  cases this with
  | running => exact .running
  | dead h => exact .dead h
  | val a h =>
    cases a with
    | some o => exact .val _ h
    | none => exact (extra_refines hM hid fuel h).mono fun h => h.elim

end
end CSQP
end Mim
