import Verif.Lemmas.CSQPCalls
import Verif.Props.SQPReturn
import Verif.Props.CSQPReturn
import Verif.Spec.ExamplesC

/-!
# Callbacks of SolverCSQP (C38)
-/
set_option linter.unusedSectionVars false
set_option linter.unusedSimpArgs false

namespace Mim
open Spec QP Matrix
section
variable {F : Type} [Add F] [Sub F] [Mul F] [Div F] [Neg F] [Zero F] [One F] [FloatOps F] [SqrtOps F] {P : Problem F}
variable {W : World F} {fuel : ℕ} {xs : Option (Traj P)} {us : Option (Ctrls P)} {m : ℕ} {ri : F} {s0 : CSQP P}
namespace CSQP

/-- the part of the state the callbacks see or write. -/
abbrev cpart (s : CSQP P) := (s.c, s.log, s.nKKT, s.m.KKT, s.iter)

theorem direction_cpart {chk : Bool} {s s' : CSQP P} {o : Option Out} (h : direction W fuel chk s = some (o, s')) :
    cpart s' = cpart s := by
  obtain ⟨q, p, d, rfl⟩ := direction_set h
  rfl

theorem calcEval_cpart (s : CSQP P) : cpart s.calcEval = cpart s := rfl

theorem entry_cpart (s : CSQP P) : cpart (entry s) = cpart s := by
  unfold entry prepare; simp only []; split <;> rfl

theorem advance_cpart {s s' : CSQP P} {r : Step} (h : AdvCase s r s') : cpart s' = cpart s ∧
    (r = .brk → s'.nRej = s.nRej + 1) := by
  obtain ⟨_, _, _, _, _, _, _, _, _, e⟩ := lineSearch_set s.c.par.alphas s.pushFilter.setMerit
  cases h with
  | rejected s2 hl hs hr =>
    rw [hl] at e
    change s2 = _ at e
    subst hs e; exact ⟨rfl, fun _ => rfl⟩
  | accepted s2 hl hs hr =>
    rw [hl] at e
    change s2 = _ at e
    obtain ⟨p, d, h⟩ := updateReg_set s2
    rw [h] at hs
    subst hs e
    refine ⟨rfl, fun hb => ?_⟩
    rw [hb] at hr
    split at hr <;> cases hr

theorem start_cpart (W : World F) (xs : Option (Traj P)) (us : Option (Ctrls P)) (m : ℕ) (ri : F) (s : CSQP P) :
    cpart (s.start W xs us m ri) = (s.c, s.log, s.nKKT, s.m.KKT, 0) := by
  unfold start
  by_cases h : m = 0
  · subst h; rfl
  · simp only [if_neg h]

/-- the checks of the main loop up to a state. -/
structure Logged (s0 : CSQP P) (main : List (F × F × F)) (s : CSQP P) : Prop where
  n : s.nKKT = s0.nKKT + main.length
  log : s.log = s0.log ++ main.zipIdx.flatMap (callbackEvents s0.c.ncb)
  last : ∀ c, main.getLast? = some c → c.1 = s.m.KKT

theorem Logged.congr {main : List (F × F × F)} {s s' : CSQP P} (h : Logged s0 main s) (e : cpart s' = cpart s) : Logged s0 main s' := by
  simp only [cpart, Prod.mk.injEq] at e
  obtain ⟨_, e2, e3, e4, _⟩ := e
  exact ⟨by rw [e3]; exact h.n, by rw [e2]; exact h.log, by rw [e4]; exact h.last⟩

theorem Logged.check {main : List (F × F × F)} {s : CSQP P} (h : Logged s0 main s) (hi : s.iter = main.length) (hc : s.c = s0.c) :
    Logged s0 (main ++ [((checked s).m.KKT, s.e.cost, s.e.gap)]) (checked s) := by
  refine ⟨?_, ?_, ?_⟩
  · change s.nKKT + 1 = _
    rw [h.n, List.length_append]; rfl
  · change s.log ++ (List.range s.c.ncb).map (fun c => (⟨c, s.iter, s.checkKKT.m.KKT, s.e.cost, s.e.gap⟩ : CbEvent F)) = _
    rw [h.log, hc, hi, List.zipIdx_append, List.flatMap_append, List.append_assoc]
    simp [callbackEvents]
    exact fun _ _ => rfl
  · intro c hc
    simp only [List.getLast?_append, List.getLast?_singleton, Option.some_or, Option.some.injEq] at hc
    rw [← hc]

/-- state of the checks at the head of an iteration. -/
theorem AtHead.logged {s : CSQP P} (h : AtHead W fuel xs us m ri s0 s) :
    ∃ main : List (F × F × F), s.iter = main.length ∧ Logged s0 main s ∧ ∀ c ∈ main, leb c.1 s0.c.tol = false := by
  induction h with
  | start =>
    have e := start_cpart W xs us m ri s0
    simp only [cpart, Prod.mk.injEq] at e
    obtain ⟨_, e2, e3, e4, e5⟩ := e
    exact ⟨[], e5, ⟨by rw [e3]; rfl, by rw [e2]; simp, by simp⟩, by simp⟩
  | @next s s' h hi hb ih =>
    obtain ⟨main, h1, h2, h3⟩ := ih
    cases body_cases hb with
    | timeUp hu hs hr => cases hr
    | ended hu o hd hr => cases hr
    | noQP hu hd hq hr => cases hr
    | converged hu s1 hd hq hk hs hr => cases hr
    | searched hu s1 hd hq hk ha =>
      have e := (direction_cpart hd).trans (entry_cpart s)
      have e' := e
      simp only [cpart, Prod.mk.injEq] at e'
      have hc : s1.c = s0.c := e'.1.trans h.conf
      have hL := (h2.congr e).check (e'.2.2.2.2.trans h1) hc
      have ea := (advance_cpart ha).1
      have ei : s'.iter = s1.iter := by
        simp only [cpart, Prod.mk.injEq] at ea
        exact ea.2.2.2.2
      refine ⟨_, ?_, ⟨(hL.congr ea).n, (hL.congr ea).log, (hL.congr ea).last⟩, ?_⟩
      · change s'.iter + 1 = _
        rw [List.length_append, ei, e'.2.2.2.2, h1]; rfl
      · intro c hc'
        rcases List.mem_append.mp hc' with hc' | hc'
        · exact h3 c hc'
        · rw [List.mem_singleton] at hc'
          rw [hc', ← hc]; exact hk

/-- state of the checks when the main loop is left. -/
theorem LeftLoop.logged {s : CSQP P} (h : LeftLoop W fuel xs us m ri s0 s) :
    ∃ main : List (F × F × F), Logged s0 main s ∧ (∀ c ∈ main, leb c.1 s0.c.tol = false) ∧
      ((main.length = m ∧ s.iter = m) ∨ s.q.reached = true ∨ main.length = s.iter + 1) := by
  cases h with
  | done h hi =>
    obtain ⟨main, h1, h2, h3⟩ := h.logged
    exact ⟨main, h2, h3, .inl ⟨h1.symm.trans hi, hi⟩⟩
  | @brk s s' h hi hb =>
    obtain ⟨main, h1, h2, h3⟩ := h.logged
    cases body_cases hb with
    | timeUp hu hs hr => subst hs; exact ⟨main, h2.congr rfl, h3, .inr (.inl rfl)⟩
    | ended hu o hd hr => cases hr
    | noQP hu hd hq hr => cases hr
    | converged hu s1 hd hq hk hs hr => cases hr
    | searched hu s1 hd hq hk ha =>
      have e := (direction_cpart hd).trans (entry_cpart s)
      have e' := e
      simp only [cpart, Prod.mk.injEq] at e'
      have hc : s1.c = s0.c := e'.1.trans h.conf
      have hL := (h2.congr e).check (e'.2.2.2.2.trans h1) hc
      have ea := (advance_cpart ha).1
      have ei := ea
      simp only [cpart, Prod.mk.injEq] at ei
      refine ⟨_, hL.congr ea, ?_, .inr (.inr ?_)⟩
      · intro c hc'
        rcases List.mem_append.mp hc' with hc' | hc'
        · exact h3 c hc'
        · rw [List.mem_singleton] at hc'
          rw [hc', ← hc]; exact hk
      · rw [List.length_append, ei.2.2.2.2]
        change _ = s1.iter + 1
        rw [e'.2.2.2.2, h1]; rfl

theorem direction_not_true {chk : Bool} {s s' : CSQP P} {o : Out} (h : direction W fuel chk s = some (some o, s')) :
    o ≠ .ret true := by
  rintro rfl
  cases direction_cases h with
  | escaped hr hd ho => cases ho
  | plain hr hd ho => cases ho
  | found hr hd ho => cases ho
  | gaveUp hr hd ho => cases ho

/-- the conclusion of C38. -/
def CbPost (s0 : CSQP P) (m : ℕ) (o : Out) (s' : CSQP P) : Prop :=
    ∃ (main : List (F × F × F)) (extra : Option (F × F × F)),
      s'.nKKT = s0.nKKT + (main ++ extra.toList).length ∧
      s'.log = s0.log ++ main.zipIdx.flatMap (callbackEvents s0.c.ncb) ++
        extra.toList.flatMap (fun c => callbackEvents s0.c.ncb (c, s'.iter)) ∧
      (∀ c ∈ (main ++ extra.toList).dropLast, leb c.1 s0.c.tol = false) ∧
      (o = .ret true ↔ ∃ c, (main ++ extra.toList).getLast? = some c ∧ leb c.1 s0.c.tol = true) ∧
      (∀ c, (main ++ extra.toList).getLast? = some c → c.1 = s'.m.KKT) ∧
      (extra.isSome = true → s0.c.extra = true ∧ (main.length = m ∧ s'.iter = m ∨ main.length = s'.iter + 1))

end CSQP
open CSQP

/-- **C38 (CSQP).**  The callbacks run exactly once, in order, for every KKT check of the call, with the residual, cost and gap
norm of that check.  `main` lists the checks of the main loop (numbered from 0), `extra` the check of the extra iteration, if
any; its callbacks see the number `m` of iterations done or, when the line search failed, that of the failed iteration again.
Every check but the last had a residual above the tolerance, and `solve` returns true iff the last check's residual is within
tolerance: the last callback of a successful solve sees the final residual. -/
theorem C38_csqp_callbacks {s' : CSQP P} {o : Out} (h : solve W fuel xs us m ri s0 = some (o, s')) :
    ∃ (main : List (F × F × F)) (extra : Option (F × F × F)),
      s'.nKKT = s0.nKKT + (main ++ extra.toList).length ∧
      s'.log = s0.log ++ main.zipIdx.flatMap (callbackEvents s0.c.ncb) ++
        extra.toList.flatMap (fun c => callbackEvents s0.c.ncb (c, s'.iter)) ∧
      (∀ c ∈ (main ++ extra.toList).dropLast, leb c.1 s0.c.tol = false) ∧
      (o = .ret true ↔ ∃ c, (main ++ extra.toList).getLast? = some c ∧ leb c.1 s0.c.tol = true) ∧
      (∀ c, (main ++ extra.toList).getLast? = some c → c.1 = s'.m.KKT) ∧
      (extra.isSome = true → s0.c.extra = true ∧ (main.length = m ∧ s'.iter = m ∨ main.length = s'.iter + 1)) := by
  have hno : ∀ (main : List (F × F × F)) (o : Out) (s1 : CSQP P), Logged s0 main s1 → (∀ c ∈ main, leb c.1 s0.c.tol = false) →
      o ≠ .ret true → CbPost s0 m o s1 := by
    intro main o s1 hL hm ho
    refine ⟨main, none, by simpa using hL.n, by simpa using hL.log, ?_, ?_, by simpa using hL.last, by simp⟩
    · intro c hc
      simp only [Option.toList_none, List.append_nil] at hc
      exact hm c (List.mem_of_mem_dropLast hc)
    · refine ⟨fun h => absurd h ho, ?_⟩
      rintro ⟨c, hc, hc'⟩
      simp only [Option.toList_none, List.append_nil] at hc
      rw [hm c (List.mem_of_getLast? hc)] at hc'
      cases hc'
  refine solve_heads (CbPost s0 m)
    ?_ ?_ h
  · intro s o s1 hh hi hb
    obtain ⟨main, h1, h2, h3⟩ := hh.logged
    cases body_cases hb with
    | timeUp hu hs hr => cases hr
    | ended hu o' hd hr =>
      cases hr
      exact hno main o s1 (h2.congr ((direction_cpart hd).trans (entry_cpart s))) h3 (direction_not_true hd)
    | noQP hu hd hq hr =>
      cases hr
      exact hno main _ s1 (h2.congr ((direction_cpart hd).trans (entry_cpart s))) h3 (by simp)
    | converged hu s2 hd hq hk hs hr =>
      cases hr
      subst hs
      have e := (direction_cpart hd).trans (entry_cpart s)
      have e' := e
      simp only [cpart, Prod.mk.injEq] at e'
      have hc : s2.c = s0.c := e'.1.trans hh.conf
      have hL := (h2.congr e).check (e'.2.2.2.2.trans h1) hc
      refine ⟨main ++ [((checked s2).m.KKT, s2.e.cost, s2.e.gap)], none, by simpa using hL.n, by simpa using hL.log, ?_, ?_, by simpa using hL.last, by simp⟩
      · intro c hc'
        simp only [Option.toList_none, List.append_nil, List.dropLast_concat] at hc'
        exact h3 c hc'
      · refine ⟨fun _ => ⟨((checked s2).m.KKT, s2.e.cost, s2.e.gap), by simp, ?_⟩, fun _ => rfl⟩
        rw [← hc]; exact hk
    | searched hu s2 hd hq hk ha =>
      have e := (direction_cpart hd).trans (entry_cpart s)
      have e' := e
      simp only [cpart, Prod.mk.injEq] at e'
      have hc : s2.c = s0.c := e'.1.trans hh.conf
      have hL := (h2.congr e).check (e'.2.2.2.2.trans h1) hc
      refine hno _ o s1 (hL.congr (advance_cpart ha).1) ?_ ?_
      · intro c hc'
        rcases List.mem_append.mp hc' with hc' | hc'
        · exact h3 c hc'
        · rw [List.mem_singleton] at hc'
          rw [hc', ← hc]; exact hk
      · rintro rfl
        cases ha with
        | rejected s3 hl hs hr => cases hr
        | accepted s3 hl hs hr => split at hr <;> cases hr
  · intro s o s1 hh hx
    obtain ⟨main, h2, h3, h1⟩ := hh.logged
    cases extra_cases hx with
    | off he ho hs => subst hs; subst ho; exact hno main _ _ h2 h3 (by simp)
    | ended he hr hd =>
      exact hno main o s1 (h2.congr ((direction_cpart hd).trans (calcEval_cpart s))) h3 (direction_not_true hd)
    | checked he hr s2 hd hs ho =>
      subst hs ho
      have e := (direction_cpart hd).trans (calcEval_cpart s)
      have e' := e
      simp only [cpart, Prod.mk.injEq] at e'
      have hc : s2.c = s0.c := e'.1.trans hh.conf
      have hL := h2.congr (s' := s2) e
      refine ⟨main, some ((checked s2).m.KKT, s2.e.cost, s2.e.gap), ?_, ?_, ?_, ?_, ?_, ?_⟩
      · change s2.nKKT + 1 = _
        rw [hL.n, List.length_append]; rfl
      · change s2.log ++ (List.range s2.c.ncb).map (fun c => (⟨c, s2.iter, s2.checkKKT.m.KKT, s2.e.cost, s2.e.gap⟩ : CbEvent F)) = _
        rw [hL.log, hc]
        simp [callbackEvents]
        exact fun _ _ => ⟨rfl, rfl⟩
      · intro c hc'
        simp only [Option.toList_some, List.dropLast_concat] at hc'
        exact h3 c hc'
      · simp only [Option.toList_some, List.getLast?_append, List.getLast?_singleton, Option.some_or, Option.some.injEq,
          exists_eq_left', Out.ret.injEq]
        rw [← hc]
        rfl
      · intro c hc'
        simp only [Option.toList_some, List.getLast?_append, List.getLast?_singleton, Option.some_or, Option.some.injEq] at hc'
        rw [← hc']
      · intro _
        refine ⟨by rw [← hh.conf]; exact he, ?_⟩
        change _ ∧ s2.iter = m ∨ _ = s2.iter + 1
        rw [e'.2.2.2.2]
        rcases h1 with h1 | h1 | h1
        · exact .inl h1
        · rw [h1] at hr; cases hr
        · exact .inr h1

end

namespace Ex
/-- two callbacks and the extra iteration: one check in the main loop, one afterwards, four calls. -/
example : (CSQP.solve world 20 none none 1 0 { clqSolver with c := { clqSolver.c with ncb := 2, extra := true } }).map
    (fun r => (r.2.nKKT, r.2.log.map fun e => (e.idx, e.iter))) = some (2, [(0, 0), (1, 0), (0, 1), (1, 1)]) := by
  decide +kernel
end Ex
end Mim
