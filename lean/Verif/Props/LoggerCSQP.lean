import Verif.Props.Logger
import Verif.Spec.ExamplesC

/-!
# C99: what the callbacks of a call of `SolverCSQP::solve` see
-/
set_option linter.unusedSectionVars false
set_option linter.unusedSimpArgs false
set_option autoImplicit false

namespace Mim
open Spec QP
section
variable {F : Type} [Add F] [Sub F] [Mul F] [Div F] [Neg F] [Zero F] [One F] [FloatOps F] [SqrtOps F] {P : Problem F}
variable {W : World F} {fuel : ℕ} {xs : Option (Traj P)} {us : Option (Ctrls P)} {m : ℕ} {ri : F} {s0 : CSQP P}
namespace CSQP

/-- the events of the callbacks that run in a state. -/
def eventsAt (ncb : ℕ) (v : CSQP P) : List (CbEvent F) := (List.range ncb).map fun c => ⟨c, v.iter, v.m.KKT, v.e.cost, v.e.gap⟩

/-- what links the callback before (`last`) to a later state of the same call. -/
structure Lag (s0 : CSQP P) (l : List (CSQP P)) (s : CSQP P) : Prop where
  conf : s.c = s0.c
  step : s.steplength = s0.steplength
  log : s.log = s0.log ++ l.flatMap (eventsAt s0.c.ncb)
  rows : ∀ v ∈ l, Evald v ∧ v.steplength = s0.steplength ∧ v.c = s0.c
  merit : match l.getLast? with
    | none => s.m.merit = s0.m.merit
    | some v => ∃ lam, s.m.merit = meritOf s0.c lam v.e.cost v.e.gap v.e.con
  first : ∀ v, l.head? = some v → v.m.merit = s0.m.merit
  chain : ∀ k v v', l[k]? = some v → l[k + 1]? = some v' → ∃ lam, v'.m.merit = meritOf s0.c lam v.e.cost v.e.gap v.e.con

/-- what `Lag` looks at. -/
abbrev lpart (s : CSQP P) := (s.c, s.steplength, s.log, s.m.merit)

theorem Lag.congr {l : List (CSQP P)} {s s' : CSQP P} (h : Lag s0 l s) (e : lpart s' = lpart s) : Lag s0 l s' := by
  simp only [lpart, Prod.mk.injEq] at e
  obtain ⟨e1, e2, e3, e4⟩ := e
  exact ⟨e1.trans h.conf, e2.trans h.step, e3.trans h.log, h.rows, by rw [e4]; exact h.merit, h.first, h.chain⟩

theorem direction_lpart {chk : Bool} {s s' : CSQP P} {o : Option Out} (h : direction W fuel chk s = some (o, s')) : lpart s' = lpart s := by
  obtain ⟨q, p, d, rfl⟩ := direction_set h
  rfl

theorem entry_lpart (s : CSQP P) : lpart (entry s) = lpart s := by
  unfold entry prepare; simp only []; split <;> rfl

/-- a callback. -/
theorem Lag.check {l : List (CSQP P)} {s : CSQP P} (h : Lag s0 l s) (he : Evald s) : Lag s0 (l ++ [s.checkKKT]) { checked s with m :=
    { (checked s).m with merit := (checked s).pushFilter.setMerit.m.merit } } := by
  refine ⟨h.conf, h.step, ?_, ?_, ?_, ?_, ?_⟩
  · change s.log ++ (List.range s.c.ncb).map (fun c => (⟨c, s.iter, s.checkKKT.m.KKT, s.e.cost, s.e.gap⟩ : CbEvent F)) = _
    rw [h.log, h.conf, List.flatMap_append, List.append_assoc]
    simp only [List.flatMap_cons, List.flatMap_nil, List.append_nil]
    rfl
  · intro v hv
    rcases List.mem_append.mp hv with hv | hv
    · exact h.rows v hv
    · rw [List.mem_singleton] at hv
      subst hv
      exact ⟨he.congr rfl rfl rfl rfl, h.step, h.conf⟩
  · rw [List.getLast?_append, List.getLast?_singleton]
    simp only [Option.some_or]
    refine ⟨(checked s).pushFilter.setMerit.m.lagInf, ?_⟩
    rw [← h.conf]; rfl
  · intro v hv
    cases l with
    | nil =>
      simp only [List.nil_append, List.head?_cons, Option.some.injEq] at hv
      subst hv
      exact h.merit
    | cons a l => exact h.first v hv
  · intro k v v' h1 h2
    rcases lt_trichotomy (k + 1) l.length with hk | hk | hk
    · rw [List.getElem?_append_left (by omega)] at h1
      rw [List.getElem?_append_left hk] at h2
      exact h.chain k v v' h1 h2
    · rw [List.getElem?_append_left (by omega)] at h1
      rw [List.getElem?_append_right (by omega), hk, Nat.sub_self] at h2
      simp only [List.getElem?_cons_zero, Option.some.injEq] at h2
      have hl : l.getLast? = some v := by rw [List.getLast?_eq_getElem?, ← hk]; exact h1
      have := h.merit
      rw [hl] at this
      subst h2
      exact this
    · rw [List.getElem?_eq_none (by simp; omega)] at h2
      cases h2

/-- … at its end, without the later computation of the merit. -/
theorem Lag.last {l : List (CSQP P)} {s s' : CSQP P} (h : Lag s0 l s) (he : Evald s) (hs : s' = checked s) :
    s'.log = s0.log ++ (l ++ [s.checkKKT]).flatMap (eventsAt s0.c.ncb) ∧
    (∀ v ∈ l ++ [s.checkKKT], Evald v ∧ v.steplength = s0.steplength ∧ v.c = s0.c) ∧
    (∀ v, (l ++ [s.checkKKT]).head? = some v → v.m.merit = s0.m.merit) ∧
    ∀ k v v', (l ++ [s.checkKKT])[k]? = some v → (l ++ [s.checkKKT])[k + 1]? = some v' →
      ∃ lam, v'.m.merit = meritOf s0.c lam v.e.cost v.e.gap v.e.con := by
  have := h.check he
  exact ⟨by rw [hs]; exact this.log, this.rows, this.first, this.chain⟩

theorem bodyCb_eq {s : CSQP P} (hu : s.q.timeUp (s.env W) = false) : bodyCb W fuel s =
    match direction W fuel true (entry s) with
    | some (none, s) => if s.q.qpIters = 0 then [] else [s.checkKKT]
    | _ => [] := by
  unfold bodyCb
  rw [if_neg (by rw [hu]; simp)]
  rfl

/-- the conclusion. -/
def RowsPost (s0 : CSQP P) (l : List (CSQP P)) (s' : CSQP P) : Prop :=
  s'.log = s0.log ++ l.flatMap (eventsAt s0.c.ncb) ∧
  (∀ v ∈ l, Evald v ∧ v.steplength = s0.steplength ∧ v.c = s0.c) ∧
  (∀ v, l.head? = some v → v.m.merit = s0.m.merit) ∧
  ∀ k v v', l[k]? = some v → l[k + 1]? = some v' → ∃ lam, v'.m.merit = meritOf s0.c lam v.e.cost v.e.gap v.e.con

theorem Lag.post {l : List (CSQP P)} {s : CSQP P} (h : Lag s0 l s) : RowsPost s0 l s := ⟨h.log, h.rows, h.first, h.chain⟩

theorem body_lag {l : List (CSQP P)} {s s' : CSQP P} {r : Step} (h : Lag s0 l s) (hb : body W fuel s = some (r, s')) :
    RowsPost s0 (l ++ bodyCb W fuel s) s' ∧ ((∀ o, r ≠ .fin o) → Lag s0 (l ++ bodyCb W fuel s) s') := by
  cases body_cases hb with
  | timeUp hu hs hr =>
    have e : bodyCb W fuel s = [] := by unfold bodyCb; rw [if_pos hu]
    rw [e, List.append_nil]
    have := h.congr (s' := s') (by subst hs; rfl)
    exact ⟨this.post, fun _ => this⟩
  | ended hu o hd hr =>
    have e : bodyCb W fuel s = [] := by rw [bodyCb_eq hu, hd]
    rw [e, List.append_nil]
    exact ⟨(h.congr ((direction_lpart hd).trans (entry_lpart s))).post, fun hn => absurd hr (hn _)⟩
  | noQP hu hd hq hr =>
    have e : bodyCb W fuel s = [] := by rw [bodyCb_eq hu, hd]; simp only [hq, if_true]
    rw [e, List.append_nil]
    exact ⟨(h.congr ((direction_lpart hd).trans (entry_lpart s))).post, fun hn => absurd hr (hn _)⟩
  | converged hu s1 hd hq hk hs hr =>
    have e : bodyCb W fuel s = [s1.checkKKT] := by rw [bodyCb_eq hu, hd]; simp only [hq, if_false]
    rw [e]
    exact ⟨(h.congr ((direction_lpart hd).trans (entry_lpart s))).last (direction_evald hd (entry_evald s)) hs, fun hn => absurd hr (hn _)⟩
  | searched hu s1 hd hq hk ha =>
    have e : bodyCb W fuel s = [s1.checkKKT] := by rw [bodyCb_eq hu, hd]; simp only [hq, if_false]
    rw [e]
    have h1 := (h.congr ((direction_lpart hd).trans (entry_lpart s))).check (direction_evald hd (entry_evald s))
    have ea : lpart s' = lpart (checked s1).pushFilter.setMerit := by
      obtain ⟨_, _, _, _, _, _, _, _, _, e⟩ := lineSearch_set (checked s1).c.par.alphas (checked s1).pushFilter.setMerit
      cases ha with
      | rejected s2 hl hs hr =>
        rw [hl] at e
        change s2 = _ at e
        subst hs e; rfl
      | accepted s2 hl hs hr =>
        rw [hl] at e
        change s2 = _ at e
        obtain ⟨p, d, h⟩ := updateReg_set s2
        rw [h] at hs
        subst hs e; rfl
    have h2 : Lag s0 (l ++ [s1.checkKKT]) s' := h1.congr (ea.trans rfl)
    exact ⟨h2.post, fun _ => h2⟩

theorem iterate_lag (n : ℕ) : ∀ {l : List (CSQP P)} {s s' : CSQP P} {o : Option Out}, Lag s0 l s → iterate W fuel n s = some (o, s') →
    RowsPost s0 (l ++ iterateCb W fuel n s) s' ∧ (o = none → Lag s0 (l ++ iterateCb W fuel n s) s') := by
  induction n with
  | zero =>
    intro l s s' o h hi
    simp only [iterate, Option.some.injEq, Prod.mk.injEq] at hi
    obtain ⟨rfl, rfl⟩ := hi
    simp only [iterateCb, List.append_nil]
    exact ⟨h.post, fun _ => h⟩
  | succ n ih =>
    intro l s s' o h hi
    unfold iterate at hi
    unfold iterateCb
    rw [← List.append_assoc]
    cases hb : body W fuel s with
    | none => rw [hb] at hi; cases hi
    | some r =>
      obtain ⟨r, s1⟩ := r
      rw [hb] at hi
      obtain ⟨h1, h2⟩ := body_lag h hb
      cases r with
      | fin o' =>
        simp only [Option.some.injEq, Prod.mk.injEq] at hi
        obtain ⟨rfl, rfl⟩ := hi
        simp only [List.append_nil]
        exact ⟨h1, fun e => (by cases e)⟩
      | brk =>
        simp only [Option.some.injEq, Prod.mk.injEq] at hi
        obtain ⟨rfl, rfl⟩ := hi
        simp only [List.append_nil]
        exact ⟨h1, fun _ => h2 fun _ e => (by cases e)⟩
      | next =>
        have h3 := (h2 fun _ e => (by cases e)).congr (s' := { s1 with iter := s1.iter + 1 }) rfl
        exact ih h3 hi

theorem start_lag (W : World F) (xs : Option (Traj P)) (us : Option (Ctrls P)) (m : ℕ) (ri : F) (s : CSQP P) : Lag s [] (s.start W xs us m ri) := by
  have e : lpart (s.start W xs us m ri) = lpart s := by
    unfold start
    by_cases h : m = 0
    · subst h; rfl
    · simp only [if_neg h]
  simp only [lpart, Prod.mk.injEq] at e
  obtain ⟨e1, e2, e3, e4⟩ := e
  exact ⟨e1, e2, by simp [e3], by simp, by simpa using e4, by simp, by simp⟩

theorem calcEval_lpart (s : CSQP P) : lpart s.calcEval = lpart s := rfl

theorem extra_lag {l : List (CSQP P)} {s s' : CSQP P} {o : Out} (h : Lag s0 l s) (hx : extraIter W fuel s = some (o, s')) :
    RowsPost s0 (l ++ extraCb W fuel s) s' := by
  cases extra_cases hx with
  | off he ho hs =>
    have e : extraCb W fuel s = [] := by
      unfold extraCb
      rw [if_neg (by rcases he with he | he <;> rw [he] <;> simp)]
    rw [e, List.append_nil, hs]
    exact h.post
  | ended he hr hd =>
    have e : extraCb W fuel s = [] := by
      unfold extraCb
      rw [if_pos (by rw [he, hr]; rfl), hd]
    rw [e, List.append_nil]
    exact (h.congr ((direction_lpart hd).trans (calcEval_lpart s))).post
  | checked he hr s1 hd hs ho =>
    have e : extraCb W fuel s = [s1.checkKKT] := by
      unfold extraCb
      rw [if_pos (by rw [he, hr]; rfl), hd]
    rw [e]
    have hl : Lag s0 l s1 := h.congr ((direction_lpart hd).trans (calcEval_lpart s))
    exact hl.last (direction_evald hd (calcEval_evald s)) hs

theorem solve_rows {s' : CSQP P} {o : Out} (h : solve W fuel xs us m ri s0 = some (o, s')) :
    RowsPost s0 (solveCb W fuel xs us m ri s0) s' := by
  unfold solve at h
  unfold solveCb
  cases hi : iterate W fuel m (s0.start W xs us m ri) with
  | none => rw [hi] at h; cases h
  | some r =>
    obtain ⟨o', s1⟩ := r
    rw [hi] at h
    obtain ⟨h1, h2⟩ := iterate_lag m (start_lag W xs us m ri s0) hi
    rw [List.nil_append] at h1 h2
    cases o' with
    | some o' =>
      simp only [Option.some.injEq, Prod.mk.injEq] at h
      obtain ⟨rfl, rfl⟩ := h
      simp only [List.append_nil]
      exact h1
    | none =>
      exact extra_lag (h2 rfl) h

end CSQP
open CSQP

/-- **C99 (d), CSQP.**  Let `l` be the states in which the callbacks of a call of `solve` run (`C38` counts them).  In each of them cost, gap norm and
constraint norm are those of the trajectory `xs`, `us` seen with them, and the step length is the constant of the constructor.  But the merit seen in
each callback is that of the callback *before* (formed from the cost, gap norm and constraint norm seen then): the k-th entry of the log does not belong
to the k-th trajectory, and the first one is what the solver was left with before the call. -/
theorem C99_csqp_rows {s' : CSQP P} {o : Out} (h : solve W fuel xs us m ri s0 = some (o, s')) :
    s'.log = s0.log ++ (solveCb W fuel xs us m ri s0).flatMap (fun v => (List.range s0.c.ncb).map fun c => ⟨c, v.iter, v.m.KKT, v.e.cost, v.e.gap⟩) ∧
    (∀ v ∈ solveCb W fuel xs us m ri s0, v.e.cost = trajCost P v.xs v.us ∧ v.e.gap = shootGapNorm P v.xs v.us ∧
      v.e.con = conViol P v.xs v.us ∧ (∀ t, t < P.T → v.e.fs (t + 1) = shootGap P v.xs v.us t) ∧ v.steplength = s0.steplength) ∧
    (∀ v, (solveCb W fuel xs us m ri s0).head? = some v → v.m.merit = s0.m.merit) ∧
    (∀ k v v', (solveCb W fuel xs us m ri s0)[k]? = some v → (solveCb W fuel xs us m ri s0)[k + 1]? = some v' →
      ∃ lam, v'.m.merit = Spec.merit P s0.c lam v.xs v.us) ∧
    (ltb s0.c.muDyn 0 = false → ltb s0.c.muCon 0 = false → ∀ k v v', (solveCb W fuel xs us m ri s0)[k]? = some v →
      (solveCb W fuel xs us m ri s0)[k + 1]? = some v' → v'.m.merit = v.e.cost + s0.c.muDyn * v.e.gap + s0.c.muCon * v.e.con) := by
  obtain ⟨h1, h2, h3, h4⟩ := solve_rows h
  refine ⟨h1, fun v hv => ?_, h3, fun k v v' a b => ?_, fun c1 c2 k v v' a b => ?_⟩
  · obtain ⟨he, hs, -⟩ := h2 v hv
    exact ⟨he.cost, he.gap, he.con, he.fs, hs⟩
  · obtain ⟨lam, hm⟩ := h4 k v v' a b
    obtain ⟨he, -, -⟩ := h2 v (List.mem_of_getElem? a)
    refine ⟨lam, ?_⟩
    rw [hm]
    unfold meritOf Spec.merit
    rw [he.cost, he.gap, he.con]
  · obtain ⟨lam, hm⟩ := h4 k v v' a b
    rw [hm]
    unfold meritOf
    rw [if_neg (by rw [c1, c2]; simp)]

end
end Mim

namespace Mim.Ex
open Spec QP CSQP

/-- the rows of a solve with one iteration and the extra one: (merit, what the merit of the row would be). -/
noncomputable def loggedMerits : List (ℚ × ℚ) :=
  (CSQP.solveCb world 20 none none 1 0 { clqSolver with c := { clqSolver.c with ncb := 2, extra := true } }).map
    fun v => (v.m.merit, v.e.cost + v.c.muDyn * v.e.gap + v.c.muCon * v.e.con)

/-- two rows; neither merit is that of its own row, the second row shows that of the first. -/
example : (loggedMerits.length, loggedMerits.map (fun r => decide (r.1 = r.2)), decide ((loggedMerits.map Prod.fst)[1]? = (loggedMerits.map Prod.snd)[0]?)) =
    (2, [false, false], true) := by decide +kernel
end Mim.Ex
