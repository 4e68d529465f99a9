import Verif.Props.Logger
import Verif.Props.SQPLine

/-!
# C99: what the callbacks of a call of `SolverSQP::solve` see
-/
set_option linter.unusedSectionVars false
set_option linter.unusedSimpArgs false
set_option autoImplicit false

namespace Mim
open Spec SQP
section
variable {F : Type} [Add F] [Sub F] [Mul F] [Div F] [Neg F] [Zero F] [One F] [FloatOps F] {P : Problem F}
variable {llt : LLT F} {fuel : ℕ} {xs : Option (Traj P)} {us : Option (Ctrls P)} {m : ℕ} {ri : F} {s : SQP P} {b : Bool} {s' : SQP P}
namespace SQP

/-- the events of the callbacks that run in a state. -/
def eventsAt (ncb : ℕ) (v : SQP P) : List (CbEvent F) := (List.range ncb).map fun c => ⟨c, v.iter, v.KKT, v.cost, v.gap⟩

theorem mem_bodyCb {s v : SQP P} (h : v ∈ bodyCb llt fuel s) : ∃ s2, retry llt fuel true s = some (true, s2) ∧ v = s2.checkKKT := by
  unfold bodyCb at h
  split at h
  · rename_i s2 hs
    simp only [List.mem_singleton] at h
    exact ⟨s2, hs, h⟩
  · cases h

theorem mem_iterateCb (n : ℕ) : ∀ {s v : SQP P}, v ∈ iterateCb llt fuel n s → ∃ k s1 s2, k < n ∧ iterate llt fuel k s = some (none, s1) ∧
    retry llt fuel true s1 = some (true, s2) ∧ v = s2.checkKKT := by
  induction n with
  | zero => intro s v h; cases h
  | succ n ih =>
    intro s v h
    unfold iterateCb at h
    rcases List.mem_append.mp h with h | h
    · obtain ⟨s2, h1, h2⟩ := mem_bodyCb h
      exact ⟨0, s, s2, Nat.succ_pos n, rfl, h1, h2⟩
    · split at h
      · rename_i s3 hb
        obtain ⟨k, s1, s2, hk, h1, h2, h3⟩ := ih h
        refine ⟨k + 1, s1, s2, Nat.succ_lt_succ hk, ?_, h2, h3⟩
        unfold iterate
        rw [hb]
        exact h1
      · cases h

theorem mem_solveCb {v : SQP P} (h : v ∈ solveCb llt fuel xs us m ri s) : ∃ k s1 s2, k ≤ m ∧
    iterate llt fuel k (s.start xs us ri) = some (none, s1) ∧ retry llt fuel true s1 = some (true, s2) ∧ v = s2.checkKKT := by
  unfold solveCb at h
  rcases List.mem_append.mp h with h | h
  · obtain ⟨k, s1, s2, hk, h⟩ := mem_iterateCb m h
    exact ⟨k, s1, s2, hk.le, h⟩
  · split at h
    · rename_i s1 hi
      split at h
      · obtain ⟨s2, h⟩ := mem_bodyCb h
        exact ⟨m, s1, s2, le_rfl, hi, h⟩
      · cases h
    · cases h

theorem body_log {s s' : SQP P} {r : Option Bool} (h : body llt fuel s = some (r, s')) :
    s'.log = s.log ++ (bodyCb llt fuel s).flatMap (eventsAt s.ncb) ∧ s'.ncb = s.ncb := by
  have rl : ∀ {s1 : SQP P} {b}, retry llt fuel true s = some (b, s1) → s1.log = s.log ∧ s1.ncb = s.ncb := fun hr =>
    ⟨retry_frame log (fun _ _ _ _ _ _ _ _ _ _ _ _ => rfl) (fun _ _ _ => rfl) _ _ _ _ _ _ hr,
      retry_frame ncb (fun _ _ _ _ _ _ _ _ _ _ _ _ => rfl) (fun _ _ _ => rfl) _ _ _ _ _ _ hr⟩
  have ck : ∀ s1 : SQP P, retry llt fuel true s = some (true, s1) →
      (checked s1).log = s.log ++ (bodyCb llt fuel s).flatMap (eventsAt s.ncb) := fun s1 hr => by
    have e : bodyCb llt fuel s = [s1.checkKKT] := by unfold bodyCb; rw [hr]
    rw [e]
    simp only [List.flatMap_cons, List.flatMap_nil, List.append_nil]
    have : (checked s1).log = s1.log ++ eventsAt s1.ncb s1.checkKKT := rfl
    rw [this, (rl hr).1, (rl hr).2]
  cases body_cases h with
  | gaveUp hr hb =>
    have e : bodyCb llt fuel s = [] := by unfold bodyCb; rw [hr]
    rw [e]
    exact ⟨by simpa using (rl hr).1, (rl hr).2⟩
  | converged s1 hr hk hs hb =>
    rw [hs]
    exact ⟨ck s1 hr, (rl hr).2⟩
  | searched s1 hr hk hs hb =>
    have fr := fun {A : Type} (π : SQP P → A) (h1 : ∀ s data xsTry usTry fsTry c g m n,
        π (wTry s data xsTry usTry fsTry c g m n) = π s)
        (h2 : ∀ (s : SQP P) a b xs us fe,
          π { s with steplength := a, isWorse := b, xs := xs, us := us, feas := fe } = π s)
        (h3 : ∀ (s : SQP P) n, π { s with nRej := n } = π s)
        (h4 : ∀ (s : SQP P) p d, π { s with preg := p, dreg := d } = π s) =>
      (updateReg_frame π h4 (checked s1).pushFilter.search).trans (search_frame π h1 h2 h3 (checked s1).pushFilter)
    have e1 := fr ncb (fun _ _ _ _ _ _ _ _ _ => rfl) (fun _ _ _ _ _ _ => rfl) (fun _ _ => rfl) (fun _ _ _ => rfl)
    have e5 := fr log (fun _ _ _ _ _ _ _ _ _ => rfl) (fun _ _ _ _ _ _ => rfl) (fun _ _ => rfl) (fun _ _ _ => rfl)
    rw [← hs] at e1 e5
    change s'.ncb = s1.ncb at e1
    change s'.log = (checked s1).log at e5
    exact ⟨e5.trans (ck s1 hr), e1.trans (rl hr).2⟩

theorem iterate_log (n : ℕ) : ∀ {s s' : SQP P} {r : Option Bool}, iterate llt fuel n s = some (r, s') →
    s'.log = s.log ++ (iterateCb llt fuel n s).flatMap (eventsAt s.ncb) ∧ s'.ncb = s.ncb := by
  induction n with
  | zero =>
    intro s s' r h
    simp only [iterate, Option.some.injEq, Prod.mk.injEq] at h
    obtain ⟨rfl, rfl⟩ := h
    simp [iterateCb]
  | succ n ih =>
    intro s s' r h
    unfold iterate at h
    unfold iterateCb
    cases hb : body llt fuel s with
    | none => rw [hb] at h; cases h
    | some q =>
      obtain ⟨q, s1⟩ := q
      rw [hb] at h
      obtain ⟨l1, l2⟩ := body_log hb
      cases q with
      | some q =>
        simp only [Option.some.injEq, Prod.mk.injEq] at h
        obtain ⟨_, rfl⟩ := h
        simp only [List.append_nil]
        exact ⟨l1, l2⟩
      | none =>
        obtain ⟨i1, i2⟩ := ih h
        change s'.log = s1.log ++ List.flatMap (eventsAt s1.ncb) _ at i1
        change s'.ncb = s1.ncb at i2
        simp only [List.flatMap_append]
        rw [i1, l1, l2, i2, l2, List.append_assoc]
        exact ⟨rfl, rfl⟩

theorem solve_log (h : solve llt fuel xs us m ri s = some (b, s')) :
    s'.log = s.log ++ (solveCb llt fuel xs us m ri s).flatMap (eventsAt s.ncb) := by
  unfold solveCb
  rcases solve_cases h with h | ⟨s1, h1, h2⟩
  · rw [h]
    simp only [List.append_nil]
    exact (iterate_log m h).1
  · rw [h1]
    obtain ⟨i1, i2⟩ := iterate_log m h1
    change s1.log = s.log ++ List.flatMap (eventsAt s.ncb) _ at i1
    change s1.ncb = s.ncb at i2
    cases extra_cases h2 with
    | off he hb hs => simp only [he, hs, Bool.false_eq_true, if_false, List.append_nil]; exact i1
    | gaveUp he hr hb =>
      have e : bodyCb llt fuel s1 = [] := by unfold bodyCb; rw [hr]
      simp only [he, if_true, e, List.append_nil]
      exact (retry_frame log (fun _ _ _ _ _ _ _ _ _ _ _ _ => rfl) (fun _ _ _ => rfl) _ _ _ _ _ _ hr).trans i1
    | checked he s2 hr hs hb =>
      have e : bodyCb llt fuel s1 = [s2.checkKKT] := by unfold bodyCb; rw [hr]
      simp only [he, if_true, e, List.flatMap_append, List.flatMap_cons, List.flatMap_nil, List.append_nil]
      have r1 : s2.log = s1.log := retry_frame log (fun _ _ _ _ _ _ _ _ _ _ _ _ => rfl) (fun _ _ _ => rfl) _ _ _ _ _ _ hr
      have r2 : s2.ncb = s1.ncb := retry_frame ncb (fun _ _ _ _ _ _ _ _ _ _ _ _ => rfl) (fun _ _ _ => rfl) _ _ _ _ _ _ hr
      have : s'.log = s2.log ++ eventsAt s2.ncb s2.checkKKT := by rw [hs]; rfl
      rw [this, r1, r2, i1, i2, List.append_assoc]

end SQP

/-- **C99 (e), SolverSQP.**  Let `l` be the states in which the callbacks of a call of `solve` run (`C38` counts them).  In each of them the merit is formed
from the cost and the gaps seen with it; and as long as no line search of the call has failed, cost and gaps are those of the trajectory `xs`, `us` seen
with them.  (After a failed line search the problem data is that of the last trial; see C17.) -/
theorem C99_sqp_rows (hT : 0 < P.T) (h : solve llt fuel xs us m ri s = some (b, s')) :
    s'.log = s.log ++ (solveCb llt fuel xs us m ri s).flatMap (fun v => (List.range s.ncb).map fun c => ⟨c, v.iter, v.KKT, v.cost, v.gap⟩) ∧
    ∀ v ∈ solveCb llt fuel xs us m ri s, v.merit = v.cost + s.mu * v.gap ∧ v.KKT = kktResidual v.data v.fs v.lagMul ∧
      (v.nRej = s.nRej → v.cost = trajCost P v.xs v.us ∧ v.fs 0 = P.diff (v.xs 0) P.x0 ∧
        (∀ t, t < P.T → v.fs (t + 1) = shootGap P v.xs v.us t) ∧
        FreshCalc P v.data v.xs v.us ∧ FreshDiff P v.data v.xs v.us) := by
  refine ⟨SQP.solve_log h, fun v hv => ?_⟩
  obtain ⟨k, s1, s2, _, h1, h2, rfl⟩ := SQP.mem_solveCb hv
  have e := retry_eval h2
  simp only [if_true] at e
  obtain ⟨d1, d2, d3, d4, d5⟩ := e
  have hmu : s1.mu = s.mu := by
    rcases iterate_inv llt fuel (fun _ s1 => s1.mu = s.mu) (fun _ _ => True)
      (fun n s1 s2 hI h => (body_frame mu (fun _ _ _ _ _ _ _ _ _ _ _ _ => rfl) (fun _ _ _ => rfl) (fun _ _ _ _ _ _ _ _ _ => rfl)
        (fun _ _ _ _ _ _ => rfl) (fun _ _ _ _ => rfl) (fun _ _ _ _ => rfl) (fun _ _ => rfl) h).trans hI)
      (fun _ _ _ _ _ _ => trivial) k (s.start xs us ri) rfl none s1 h1 with ⟨_, h⟩ | ⟨_, h, _⟩
    · exact h
    · cases h
  refine ⟨?_, rfl, fun hacc => ?_⟩
  · change s2.merit = s2.cost + s.mu * s2.gap
    rw [d5, d2, d4, hmu]
  · have hn : s2.nRej = s1.nRej := retry_frame nRej (fun _ _ _ _ _ _ _ _ _ _ _ _ => rfl) (fun _ _ _ => rfl) _ _ _ _ _ _ h2
    change s2.nRej = s.nRej at hacc
    obtain ⟨f1, f2, f3, f4, f5⟩ := C17_sqp_directions_fresh hT k h1 (hn.symm.trans hacc) h2
    exact ⟨f3, f4, f5, f1, f2⟩
end
end Mim
