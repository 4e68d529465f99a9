import Verif.Lemmas.SQPSearch

/-!
# What a direction computation leaves behind; reachable solver states
-/
set_option linter.unusedSectionVars false
set_option linter.unusedSimpArgs false

namespace Mim
open Spec
namespace SQP
variable {F : Type} [Add F] [Sub F] [Mul F] [Div F] [Neg F] [Zero F] [One F] [FloatOps F] {P : Problem F}

/-- data, cost and gaps after `computeDirection` (also when it throws). -/
theorem computeDirection_eval (llt : LLT F) (r : Bool) (s : SQP P) :
    let s0 := if r then s.calcDiff else s
    let s1 := (computeDirection llt r s).st
    s1.data = s0.data ∧ s1.cost = s0.cost ∧ s1.fs = s0.fs ∧ s1.gap = gapNorm s0.fs ∧
      s1.merit = s0.cost + s.mu * gapNorm s0.fs := by
  have hfd : ∀ s : SQP P, (forwardPass s).data = s.data := forwardPass_frame data fun _ _ _ _ _ _ => rfl
  have hfc : ∀ s : SQP P, (forwardPass s).cost = s.cost := forwardPass_frame cost fun _ _ _ _ _ _ => rfl
  have hff : ∀ s : SQP P, (forwardPass s).fs = s.fs := forwardPass_frame fs fun _ _ _ _ _ _ => rfl
  have hfg : ∀ s : SQP P, (forwardPass s).gap = s.gap := forwardPass_frame gap fun _ _ _ _ _ _ => rfl
  have hfm : ∀ s : SQP P, (forwardPass s).merit = s.merit := forwardPass_frame merit fun _ _ _ _ _ _ => rfl
  have hmu : (if r then s.calcDiff else s).mu = s.mu := by cases r <;> rfl
  unfold computeDirection
  simp only []
  split
  · simp only [Res.st, hfd, hfc, hff, hfg, hfm, hmu, and_self]
  · simp only [Res.st, hmu, and_self]

/-- what `retry` leaves in place of data, cost, gaps, gap norm and merit. -/
theorem retry_eval {llt : LLT F} {fuel : ℕ} {r : Bool} {s s1 : SQP P} {b : Bool}
    (h : retry llt fuel r s = some (b, s1)) :
    let s0 := if r then s.calcDiff else s
    s1.data = s0.data ∧ s1.cost = s0.cost ∧ s1.fs = s0.fs ∧ s1.gap = gapNorm s0.fs ∧
      s1.merit = s0.cost + s.mu * gapNorm s0.fs := by
  induction fuel generalizing r s with
  | zero => cases h
  | succ n ih =>
    unfold retry at h
    have e := computeDirection_eval llt r s
    simp only [] at e
    split at h
    · rename_i s2 hs2
      rw [hs2] at e
      simp only [Option.some.injEq, Prod.mk.injEq] at h
      rw [← h.2]; exact e
    · rename_i s2 hs2
      have hmu := computeDirection_frame (P := P) mu (fun _ _ _ _ _ _ _ _ _ _ _ _ => rfl) llt r s
      rw [hs2] at e hmu
      change s2.mu = s.mu at hmu
      simp only [Res.st] at e
      simp only [] at h
      split at h
      · simp only [Option.some.injEq, Prod.mk.injEq] at h
        rw [← h.2]; exact e
      · have := ih h
        simp only [Bool.false_eq_true, if_false] at this
        obtain ⟨e1, e2, e3, e4, e5⟩ := e
        obtain ⟨t1, t2, t3, t4, t5⟩ := this
        have u1 : s2.increaseReg.data = s2.data := rfl
        have u2 : s2.increaseReg.cost = s2.cost := rfl
        have u3 : s2.increaseReg.fs = s2.fs := rfl
        have u4 : s2.increaseReg.mu = s2.mu := rfl
        refine ⟨?_, ?_, ?_, ?_, ?_⟩
        · rw [t1, u1, e1]
        · rw [t2, u2, e2]
        · rw [t3, u3, e3]
        · rw [t4, u3, e3]
        · rw [t5, u2, e2, u3, e3, u4, hmu]

/-- `forwardPass` never writes `dx_[0]`. -/
theorem forwardPass_dx0 (s : SQP P) : (forwardPass s).dx 0 = s.dx 0 := by
  unfold forwardPass
  simp only []
  refine (forUp_proj (fun s : SQP P => s.dx 0) P.T forwardStage _ ?_).trans rfl
  intro t s
  simp only [forwardStage]
  rw [Function.update_of_ne (Nat.succ_ne_zero t).symm]

theorem computeDirection_dx0 (llt : LLT F) (r : Bool) (s : SQP P) :
    (computeDirection llt r s).st.dx 0 = s.dx 0 := by
  have h0 : (if r then s.calcDiff else s).dx = s.dx := by cases r <;> rfl
  unfold computeDirection
  simp only []
  split
  · simp only [Res.st, forwardPass_dx0, h0]
  · simp only [Res.st, h0]

theorem retry_dx0 {llt : LLT F} {fuel : ℕ} {r : Bool} {s s1 : SQP P} {b : Bool}
    (h : retry llt fuel r s = some (b, s1)) : s1.dx 0 = s.dx 0 := by
  induction fuel generalizing r s with
  | zero => cases h
  | succ n ih =>
    unfold retry at h
    have e := computeDirection_dx0 llt r s
    split at h
    · rename_i s2 hs2
      rw [hs2] at e
      simp only [Option.some.injEq, Prod.mk.injEq] at h
      rw [← h.2]; exact e
    · rename_i s2 hs2
      rw [hs2] at e
      simp only [] at h
      split at h
      · simp only [Option.some.injEq, Prod.mk.injEq] at h
        rw [← h.2]; exact e
      · exact (ih h).trans e

/-- the observation "first state, first direction block, trial's first state". -/
theorem retry_xs {llt : LLT F} {fuel : ℕ} {r : Bool} {s s1 : SQP P} {b : Bool}
    (h : retry llt fuel r s = some (b, s1)) : s1.xs = s.xs ∧ s1.us = s.us ∧ s1.par = s.par :=
  ⟨retry_frame xs (fun _ _ _ _ _ _ _ _ _ _ _ _ => rfl) (fun _ _ _ => rfl) _ _ _ _ _ _ h,
   retry_frame us (fun _ _ _ _ _ _ _ _ _ _ _ _ => rfl) (fun _ _ _ => rfl) _ _ _ _ _ _ h,
   retry_frame par (fun _ _ _ _ _ _ _ _ _ _ _ _ => rfl) (fun _ _ _ => rfl) _ _ _ _ _ _ h⟩

theorem search_dx (s : SQP P) : (search s).dx = s.dx :=
  search_frame dx (fun _ _ _ _ _ _ _ _ _ => rfl) (fun _ _ _ _ _ _ => rfl) (fun _ _ => rfl) s

theorem updateReg_xs (s : SQP P) : (updateReg s).2.xs = s.xs ∧ (updateReg s).2.us = s.us ∧ (updateReg s).2.dx = s.dx ∧
    (updateReg s).2.data = s.data :=
  ⟨updateReg_frame xs (fun _ _ _ => rfl) s, updateReg_frame us (fun _ _ _ => rfl) s,
   updateReg_frame dx (fun _ _ _ => rfl) s, updateReg_frame data (fun _ _ _ => rfl) s⟩

/-- The state of the solver after any sequence of public calls on a freshly constructed solver: parameter changes, changes
of the filter size, direct calls to `computeDirection` and `tryStep` (whether they throw or not) and completed solves
with any arguments and any linear solver. -/
inductive Reachable : SQP P → Prop
  | new (d : Data P) : Reachable (SQP.new d)
  | setParams (s : SQP P) (par : Params F) (tol mu : F) (uf ex : Bool) (ncb : ℕ) :
      Reachable s → Reachable { s with par := par, tol := tol, mu := mu, useFilter := uf, extra := ex, ncb := ncb }
  | setFilterSize (s : SQP P) (n : ℕ) : Reachable s → Reachable (s.setFilterSize n)
  | computeDirection (s : SQP P) (llt : LLT F) (r : Bool) : Reachable s → Reachable (computeDirection llt r s).st
  | tryStep (s : SQP P) (a : F) : Reachable s → Reachable (tryStep a s).st
  | solve (s s' : SQP P) (llt : LLT F) (fuel : ℕ) (xs : Option (Traj P)) (us : Option (Ctrls P)) (m : ℕ) (ri : F)
      (b : Bool) : Reachable s → solve llt fuel xs us m ri s = some (b, s') → Reachable s'

theorem solve_dx0 {llt : LLT F} {fuel : ℕ} {xs : Option (Traj P)} {us : Option (Ctrls P)} {m : ℕ} {ri : F}
    {s s' : SQP P} {b : Bool} (h : solve llt fuel xs us m ri s = some (b, s')) : s'.dx 0 = s.dx 0 := by
  have hb : ∀ (s s1 : SQP P) r, body llt fuel s = some (r, s1) → s1.dx 0 = s.dx 0 := by
    intro s s1 r h
    cases body_cases h with
    | gaveUp hr hb => exact retry_dx0 hr
    | converged s2 hr hk hs hb => rw [hs]; exact (retry_dx0 hr :)
    | searched s2 hr hk hs hb => rw [hs, (updateReg_xs _).2.2.1, search_dx]; exact (retry_dx0 hr :)
  have key := fun r s1 => iterate_inv llt fuel (fun _ s1 => s1.dx 0 = s.dx 0) (fun _ s1 => s1.dx 0 = s.dx 0)
    (fun n s1 s2 hI h => (hb _ _ _ h).trans hI) (fun n s1 b s2 hI h => (hb _ _ _ h).trans hI)
    m (s.start xs us ri) rfl r s1
  rcases solve_cases h with h | ⟨s1, h1, h2⟩
  · rcases key _ _ h with ⟨h', _⟩ | ⟨b', _, h'⟩
    · cases h'
    · exact h'
  · have e1 : s1.dx 0 = s.dx 0 := by
      rcases key _ _ h1 with ⟨_, h'⟩ | ⟨b', h', _⟩
      · exact h'
      · cases h'
    cases extra_cases h2 with
    | off he hb' hs => rw [hs]; exact e1
    | gaveUp he hr hb' => exact (retry_dx0 hr).trans e1
    | checked he s2 hr hs hb' => rw [hs]; exact (retry_dx0 hr).trans e1

theorem Reachable.dx0 {s : SQP P} (h : Reachable s) : s.dx 0 = zeroV F P.ndx := by
  induction h with
  | new d => rfl
  | setParams s _ _ _ _ _ _ _ ih => exact ih
  | setFilterSize s n _ ih => exact ih
  | computeDirection s llt r _ ih => exact (computeDirection_dx0 llt r s).trans ih
  | tryStep s a _ ih =>
    exact (congrFun (tryStep_frame (P := P) dx (fun _ _ _ _ _ _ _ _ _ => rfl) a s) 0).trans ih
  | solve s s' llt fuel xs us m ri b _ h ih => exact (solve_dx0 h).trans ih

end SQP
end Mim
