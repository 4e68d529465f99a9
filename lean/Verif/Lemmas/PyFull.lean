import Verif.Model.PyDense
import Verif.Props.PyCSQP
import Verif.Spec.Stacked

/-!
# The main loop of the Python `CSQP` with a dense QP back end
-/
set_option linter.unusedSectionVars false
set_option linter.unusedSimpArgs false

namespace Mim
open Spec

namespace PyFull
section
variable {F : Type} [Add F] [Sub F] [Mul F] [Div F] [Neg F] [Zero F] [One F] [FloatOps F] [SqrtOps F]
variable {P : Problem F} {B : PyDense.Backend F P}
open PySQP (halve)
open PyCSQP (Trials Took Good keep keep_all keep_evaluate search_spec search_keep)

/-- `calc` and the QP. -/
def dirAt (s : PyFull B) : Res (PyFull B) := computeDirection { s with p := s.p.evaluate }

theorem dirAt_ok {s s1 : PyFull B} (h : dirAt s = .ok s1) :
    ∃ lam y dx du it m, s1 = ⟨{ s.p.evaluate with lagMul := lam, q := { s.p.q with y := y, dx := dx, du := du, qpIters := it } }, m, s.nQP + 1⟩ ∧
      dx 0 = zeroV F P.ndx := by
  unfold dirAt computeDirection at h
  simp only [] at h
  split at h
  · cases h
  · cases h
    exact ⟨_, _, _, _, _, _, rfl, rfl⟩

theorem dirAt_exn {s s1 : PyFull B} (h : dirAt s = .exn s1) :
    (B.run s.m (PyDense.inputs s.p.evaluate.data s.p.evaluate.gap)).1 = none ∧ ∃ m, s1 = ⟨s.p.evaluate, m, s.nQP + 1⟩ := by
  unfold dirAt computeDirection at h
  simp only [] at h
  split at h
  · rename_i m e
    cases h
    exact ⟨by rw [e], _, rfl⟩
  · cases h

theorem keep_dirAt {s s1 : PyFull B} (h : dirAt s = .ok s1) : keep s1.p = keep s.p := by
  obtain ⟨_, _, _, _, _, _, rfl, -⟩ := dirAt_ok h
  exact (keep_evaluate s.p :)

/-- the check after the direction: the residual is below the tolerance. -/
def passes (s : PyFull B) : Bool := ltb s.kktCheck.p.KKT s.p.tol

/-- what one iteration does when `solve` goes on. -/
structure Step (iter : ℕ) (s s' : PyFull B) : Prop where
  intro ::
  run : ∃ s1, dirAt s = .ok s1 ∧ passes s1 = false ∧
    ∃ r q, PyCSQP.search iter 10 (halve 0) s1.kktCheck.p.pushFilter = (r, q) ∧ r ≠ .gaveUp ∧ s' = { s1.kktCheck with p := q }

/-- how `solve` can end inside the loop. -/
inductive Ends (iter : ℕ) (s : PyFull B) : Option Bool → PyFull B → Prop
  /-- the back end raised an exception -/
  | raised {s1} (h : dirAt s = .exn s1) : Ends iter s none s1
  /-- the convergence test succeeded -/
  | conv {s1} (h : dirAt s = .ok s1) (hk : passes s1 = true) : Ends iter s (some true) s1.kktCheck
  /-- the merit function did not decrease -/
  | gaveUp {s1 q} (h : dirAt s = .ok s1) (hk : passes s1 = false)
      (hs : PyCSQP.search iter 10 (halve 0) s1.kktCheck.p.pushFilter = (.gaveUp, q)) : Ends iter s (some false) { s1.kktCheck with p := q }

theorem head_inr {s s1 : PyFull B} (h : head s = .inr s1) : ∃ q, dirAt s = .ok q ∧ s1 = q.kktCheck ∧ passes q = false := by
  unfold head at h
  split at h
  · cases h
  · rename_i q hq
    simp only [] at h
    split at h
    · cases h
    · rename_i hk
      cases h
      exact ⟨q, hq, rfl, (Bool.eq_false_iff.mpr hk :)⟩

theorem head_inl {s s' : PyFull B} {o : Option Bool} {iter : ℕ} (h : head s = .inl (o, s')) : Ends iter s o s' := by
  unfold head at h
  split at h
  · rename_i q hq
    cases h
    exact .raised hq
  · rename_i q hq
    simp only [] at h
    split at h
    · rename_i hk
      cases h
      exact .conv hq hk
    · cases h

/-- the states at the beginning of the iterations. -/
inductive Heads (s0 : PyFull B) : ℕ → PyFull B → Prop
  | zero : Heads s0 0 s0
  | succ {i s s'} (h : Heads s0 i s) (hs : Step i s s') : Heads s0 (i + 1) s'

theorem iterate_cases {s0 : PyFull B} (n i : ℕ) {s : PyFull B} (h : Heads s0 i s) :
    (∃ o s', iterate n i s = .inl (o, s') ∧ ∃ j q, i ≤ j ∧ j < i + n ∧ Heads s0 j q ∧ Ends j q o s') ∨
    (∃ s', iterate n i s = .inr s' ∧ Heads s0 (i + n) s') := by
  induction n generalizing i s with
  | zero => exact .inr ⟨s, rfl, h⟩
  | succ n ih =>
    unfold iterate
    split
    · rename_i r hr
      obtain ⟨o, s'⟩ := r
      exact .inl ⟨o, s', rfl, i, s, le_rfl, by omega, h, head_inl hr⟩
    · rename_i p1 hp1
      obtain ⟨q, hq, rfl, hk⟩ := head_inr hp1
      split
      · rename_i p2 hs
        exact .inl ⟨_, _, rfl, i, s, le_rfl, by omega, h, .gaveUp hq hk hs⟩
      · rename_i r p2 hne hs
        have hstep : Step i s { q.kktCheck with p := p2 } := ⟨q, hq, hk, r, p2, hs, hne, rfl⟩
        rcases ih (i + 1) (.succ h hstep) with ⟨o, p', e, j, q', h1, h2, h3, h4⟩ | ⟨p', e, h3⟩
        · exact .inl ⟨o, p', e, j, q', by omega, by omega, h3, h4⟩
        · exact .inr ⟨p', e, by rw [show i + (n + 1) = i + 1 + n by omega]; exact h3⟩

theorem Heads.keep {s0 s : PyFull B} {i : ℕ} (h : Heads s0 i s) : PyCSQP.keep s.p = PyCSQP.keep s0.p := by
  induction h with
  | zero => rfl
  | @succ i s s' h hs ih =>
    obtain ⟨s1, h1, -, r, q, h2, h3, rfl⟩ := hs.run
    have e1 : PyCSQP.keep s1.kktCheck.p.pushFilter = PyCSQP.keep s.p := (keep_dirAt h1 :)
    exact ((search_keep h2).trans e1).trans ih

theorem Ends.keep {i : ℕ} {s s' : PyFull B} {o : Option Bool} (h : Ends i s o s') : PyCSQP.keep s'.p = PyCSQP.keep s.p := by
  cases h with
  | raised h => obtain ⟨-, _, rfl⟩ := dirAt_exn h; exact keep_evaluate s.p
  | conv h hk => exact (keep_dirAt h :)
  | @gaveUp s1 q h hk hs =>
    have e1 : PyCSQP.keep s1.kktCheck.p.pushFilter = PyCSQP.keep s.p := (keep_dirAt h :)
    exact (search_keep hs).trans e1

/-- one QP per iteration. -/
theorem Heads.nQP {s0 s : PyFull B} {i : ℕ} (h : Heads s0 i s) : s.nQP = s0.nQP + i := by
  induction h with
  | zero => rfl
  | @succ i s s' h hs ih =>
    obtain ⟨s1, h1, -, r, q, h2, h3, rfl⟩ := hs.run
    obtain ⟨_, _, _, _, _, _, rfl, -⟩ := dirAt_ok h1
    change s.nQP + 1 = _
    rw [ih]; omega

theorem Ends.nQP {i : ℕ} {s s' : PyFull B} {o : Option Bool} (h : Ends i s o s') : s'.nQP = s.nQP + 1 := by
  cases h with
  | raised h => obtain ⟨-, _, rfl⟩ := dirAt_exn h; rfl
  | conv h hk => obtain ⟨_, _, _, _, _, _, rfl, -⟩ := dirAt_ok h; rfl
  | gaveUp h hk hs => obtain ⟨_, _, _, _, _, _, rfl, -⟩ := dirAt_ok h; rfl

/-- `start` of the loop. -/
def begin_ (xs : Option (Traj P)) (us : Option (Ctrls P)) (s : PyFull B) : PyFull B := { s with p := s.p.start xs us }

/-- how a call of `solve` ends. -/
theorem solve_cases {xs : Option (Traj P)} {us : Option (Ctrls P)} {m : ℕ} {s s' : PyFull B} {o : Option Bool}
    (h : solve xs us m s = (o, s')) :
    (∃ j q, j < m ∧ Heads (s.begin_ xs us) j q ∧ Ends j q o s') ∨
    (∃ q, Heads (s.begin_ xs us) m q ∧
      ((s.p.extra = false ∧ o = some false ∧ s' = q) ∨
       (s.p.extra = true ∧ ∃ q1, dirAt q = .exn q1 ∧ o = none ∧ s' = q1) ∨
       (s.p.extra = true ∧ ∃ q1, dirAt q = .ok q1 ∧ o = some (passes q1) ∧ s' = q1.kktCheck))) := by
  unfold solve at h
  rcases iterate_cases m 0 (.zero (s0 := s.begin_ xs us)) with ⟨o1, p1, e, j, q, h1, h2, h3, h4⟩ | ⟨q, e, h3⟩
  · have e' : iterate m 0 { s with p := s.p.start xs us } = .inl (o1, p1) := e
    rw [e'] at h
    cases h
    exact .inl ⟨j, q, by omega, h3, h4⟩
  · have e' : iterate m 0 { s with p := s.p.start xs us } = .inr q := e
    rw [e'] at h
    rw [Nat.zero_add] at h3
    simp only [] at h
    have hx : q.p.extra = s.p.extra := (keep_all (h3.keep.trans (rfl : PyCSQP.keep (s.begin_ xs us).p = PyCSQP.keep s.p))).2.2.2.2.2.2.2.1
    right
    refine ⟨q, h3, ?_⟩
    rw [← hx]
    split at h
    · rename_i hext
      have hd : computeDirection { q with p := q.p.evaluate } = dirAt q := rfl
      rw [hd] at h
      split at h
      · rename_i q1 hq1
        cases h
        exact .inr (.inl ⟨hext, _, hq1, rfl, rfl⟩)
      · rename_i q1 hq1
        cases h
        exact .inr (.inr ⟨hext, _, hq1, rfl, rfl⟩)
    · rename_i hext
      simp only [Prod.mk.injEq] at h
      obtain ⟨rfl, rfl⟩ := h
      exact .inl ⟨by simpa using hext, rfl, rfl⟩

theorem solve_keep {xs : Option (Traj P)} {us : Option (Ctrls P)} {m : ℕ} {s s' : PyFull B} {o : Option Bool}
    (h : solve xs us m s = (o, s')) : PyCSQP.keep s'.p = PyCSQP.keep s.p := by
  have hs : PyCSQP.keep (s.begin_ xs us).p = PyCSQP.keep s.p := rfl
  rcases solve_cases h with ⟨j, q, -, hq, he⟩ | ⟨q, hq, ⟨-, -, rfl⟩ | ⟨-, q1, h1, -, rfl⟩ | ⟨-, q1, h1, -, rfl⟩⟩
  · rw [he.keep, hq.keep, hs]
  · rw [hq.keep, hs]
  · obtain ⟨-, _, rfl⟩ := dirAt_exn h1
    rw [← hs, ← hq.keep]; exact keep_evaluate q.p
  · rw [show PyCSQP.keep q1.kktCheck.p = PyCSQP.keep q.p from (keep_dirAt h1 :), hq.keep, hs]

/-- the states of a `CSQP` object with a dense back end that a program can bring about by constructing it, assigning its options,
multipliers, candidate or the back end's memory, calling its methods in any order (also after exceptions), and evaluating the shared
problem elsewhere. -/
inductive Reachable : PyFull B → Prop
  | new (f : Bool) (d : Data P) (m : B.Mem) : Reachable (new f d m)
  | options (s : PyFull B) (c : PyConf F) (mu1 mu2 lc tol : F) (f : Bool) (n : ℕ) (x : Bool) (h : Reachable s) :
      Reachable { s with
        p := { s.p with
          c := c, mu1 := mu1, mu2 := mu2, lagCoef := lc, tol := tol, useFilter := f, filterSize := n, extra := x } }
  | problemData (s : PyFull B) (d : Data P) (h : Reachable s) : Reachable { s with p := { s.p with data := d } }
  | candidate (s : PyFull B) (xs : Traj P) (us : Ctrls P) (h : Reachable s) : Reachable { s with p := { s.p with xs := xs, us := us } }
  | multipliers (s : PyFull B) (lam : ℕ → Vec F P.ndx) (y : (t : ℕ) → Vec F (P.ng t)) (h : Reachable s) :
      Reachable { s with p := { s.p with lagMul := lam, q := { s.p.q with y := y } } }
  | memory (s : PyFull B) (m : B.Mem) (h : Reachable s) : Reachable { s with m := m }
  | calc_ (s : PyFull B) (h : Reachable s) : Reachable { s with p := s.p.evaluate }
  | direction (s s1 : PyFull B) (h : Reachable s) (e : computeDirection s = .ok s1 ∨ computeDirection s = .exn s1) : Reachable s1
  | check (s : PyFull B) (h : Reachable s) : Reachable s.kktCheck
  | tryStep (s : PyFull B) (a : F) (h : Reachable s) : Reachable { s with p := PyCSQP.tryStep a s.p }
  | acceptStep (s : PyFull B) (a : F) (h : Reachable s) : Reachable { s with p := s.p.acceptStep a }
  | solve (s s' : PyFull B) (xs : Option (Traj P)) (us : Option (Ctrls P)) (m : ℕ) (o : Option Bool) (h : Reachable s)
      (e : solve xs us m s = (o, s')) : Reachable s'

/-- the gap arrays have one entry more than there are gaps; nobody ever writes it. -/
theorem Reachable.clean {s : PyFull B} (h : Reachable s) : s.p.gap P.T = zeroV F P.ndx ∧ s.p.gapTry P.T = zeroV F P.ndx := by
  have of : ∀ {p p' : PyCSQP P}, p.gap P.T = zeroV F P.ndx ∧ p.gapTry P.T = zeroV F P.ndx → PyCSQP.keep p' = PyCSQP.keep p →
      p'.gap P.T = zeroV F P.ndx ∧ p'.gapTry P.T = zeroV F P.ndx := by
    intro p p' h hk
    obtain ⟨-, -, -, -, -, -, -, -, h1, h2⟩ := keep_all hk
    exact ⟨h1.trans h.1, h2.trans h.2⟩
  induction h with
  | new f d m => exact ⟨rfl, rfl⟩
  | options s c mu1 mu2 lc tol f n x h ih => exact ih
  | problemData s d h ih => exact ih
  | candidate s xs us h ih => exact ih
  | multipliers s lam y h ih => exact ih
  | memory s m h ih => exact ih
  | calc_ s h ih => exact of ih (keep_evaluate s.p)
  | direction s s1 h e ih =>
    unfold computeDirection at e
    generalize B.run s.m (PyDense.inputs s.p.data s.p.gap) = r at e
    obtain ⟨a, m⟩ := r
    cases a with
    | none => rcases e with e | e <;> cases e; exact ih
    | some a => rcases e with e | e <;> cases e; exact ih
  | check s h ih => exact ih
  | tryStep s a h ih => exact of ih (PyCSQP.try_trials a s.p).keep
  | acceptStep s a h ih =>
    obtain ⟨X, U, e, -⟩ := PyCSQP.trialPoint_spec a s.p
    unfold PyCSQP.acceptStep
    rw [e]
    exact ih
  | solve s s' xs us m o h e ih => exact of ih (solve_keep e)

theorem dirAt_atPoint {s s1 : PyFull B} (h : dirAt s = .ok s1) : PyCSQP.AtPoint s1.p ∧ s1.p.xs = s.p.xs ∧ s1.p.us = s.p.us := by
  obtain ⟨_, _, _, _, _, _, rfl, -⟩ := dirAt_ok h
  refine ⟨⟨(PyCSQP.evaluate_fresh s.p).1, (PyCSQP.evaluate_fresh s.p).2, PyCSQP.evaluate_cost s.p, (PyCSQP.evaluate_gap s.p).1, ?_,
    PyCSQP.evaluate_con s.p, rfl⟩, rfl, rfl⟩
  have := PyCSQP.evaluate_gapNorm s.p
  rw [← (PyCSQP.evaluate_gap s.p).2] at this
  exact this

end

section
variable {K : Type} [Field K] [LinearOrder K] [IsStrictOrderedRing K] [SqrtOps K] {P : Problem K} {B : PyDense.Backend K P}
open Matrix PySQP
open PyCSQP (Trials Took Good keep keep_all keep_evaluate search_spec search_keep)

/-- the candidate starts at the initial state of the problem as long as steps of length zero do not move it. -/
theorem Heads.x0 (hint : ∀ x, P.integrate x 0 = x) {s0 s : PyFull B} {i : ℕ} (h : Heads s0 i s) (hx : s0.p.xs 0 = P.x0) : s.p.xs 0 = P.x0 := by
  induction h with
  | zero => exact hx
  | @succ i s s' h hs ih =>
    obtain ⟨s1, h1, -, r, q, h2, h3, rfl⟩ := hs.run
    have e1 := (dirAt_atPoint h1).2.1
    have hd : s1.p.q.dx 0 = 0 := by
      obtain ⟨_, _, _, _, _, _, rfl, e⟩ := dirAt_ok h1
      exact e
    rcases search_spec i 10 (Trials.refl s1.kktCheck.p.pushFilter) 0 h2 with ⟨-, k, -, -, -, -, -, e⟩ | ⟨-, -, -, e⟩ | ⟨e, -⟩
    · change q.xs 0 = _
      rw [e.xs 0 (by omega)]
      change P.integrate (s1.p.xs 0) (sv _ (s1.p.q.dx 0)) = _
      rw [hd, sv_exact, smul_zero, hint, e1, ih]
    · obtain ⟨_, _, _, _, _, _, _, _, _, rfl, -⟩ := e
      exact (congrFun e1 0).trans ih
    · exact absurd e h3

/-- the residual as a maximum. -/
theorem kktCheck_le (s : PyFull B) (c : K) (h0 : 0 ≤ c) :
    s.kktCheck.p.KKT ≤ c ↔
      (∀ t, 0 < t → t < P.T → ∀ i, |((s.p.data.rd t).Lx + (s.p.data.rd t).Fxᵀ *ᵥ s.p.lagMul (t + 1) - s.p.lagMul t +
        (s.p.data.rd t).Gxᵀ *ᵥ s.p.q.y t) i| ≤ c) ∧
      (∀ t, t < P.T → ∀ i, |((s.p.data.rd t).Lu + (s.p.data.rd t).Fuᵀ *ᵥ s.p.lagMul (t + 1) + (s.p.data.rd t).Guᵀ *ᵥ s.p.q.y t) i| ≤ c) ∧
      (∀ i, |(s.p.data.td.Lx - s.p.lagMul P.T + s.p.data.td.Gxᵀ *ᵥ s.p.q.y P.T) i| ≤ c) ∧
      (∀ t, t ≤ P.T → ∀ i, |s.p.gap t i| ≤ c) ∧ s.p.con ≤ c := by
  have hl : ∀ n (f g : ℕ → K) (a : K), forUp n (fun t k => if t = 0 then max k (g t) else max (max k (f t)) (g t)) a ≤ c ↔
      a ≤ c ∧ (∀ t, 0 < t → t < n → f t ≤ c) ∧ ∀ t, t < n → g t ≤ c := by
    intro n f g a
    induction n with
    | zero => simp
    | succ n ih =>
      rw [forUp_succ]
      by_cases hn : n = 0
      · subst hn
        simp only [forUp, if_true, max_le_iff]
        refine and_congr Iff.rfl ⟨fun h => ⟨fun t h1 h2 => by omega, fun t ht => ?_⟩, fun h => h.2 0 (by omega)⟩
        obtain rfl : t = 0 := by omega
        exact h
      · rw [if_neg hn, max_le_iff, max_le_iff, ih]
        constructor
        · rintro ⟨⟨⟨h1, h2, h3⟩, h4⟩, h5⟩
          refine ⟨h1, fun t ht hT => ?_, fun t ht => ?_⟩
          · by_cases e : t = n
            · subst e; exact h4
            · exact h2 t ht (by omega)
          · by_cases e : t = n
            · subst e; exact h5
            · exact h3 t (by omega)
        · rintro ⟨h1, h2, h3⟩
          exact ⟨⟨⟨h1, fun t ht hT => h2 t ht (by omega), fun t ht => h3 t (by omega)⟩, h2 n (by omega) (by omega)⟩, h3 n (by omega)⟩
  unfold kktCheck
  simp only [cppMax_exact, normInf_exact, mv_exact]
  rw [max_le_iff, max_le_iff, max_le_iff, hl, forUp_max_le]
  simp only [exactNormInf_le, h0, true_and]
  constructor
  · rintro ⟨⟨⟨⟨h1, h2⟩, h3⟩, h4⟩, h5⟩
    exact ⟨h1, h2, h3, fun t ht => h4 t (Nat.lt_succ_of_le ht), h5⟩
  · rintro ⟨h1, h2, h3, h4, h5⟩
    exact ⟨⟨⟨⟨h1, h2⟩, h3⟩, fun t ht => h4 t (Nat.le_of_lt_succ ht)⟩, h5⟩

theorem kktCheck_nonneg (s : PyFull B) : 0 ≤ s.kktCheck.p.KKT := by
  unfold kktCheck
  simp only [cppMax_exact]
  refine le_trans ?_ (le_max_left _ _)
  refine le_trans ?_ (le_max_right _ _)
  exact ((forUp_max_le (P.T + 1) (fun t => normInf (s.p.gap t)) 0 _).1 le_rfl).1

/-- the residual after a direction is the least bound of the optimality conditions of the nonlinear problem. -/
theorem passes_cert {s s1 : PyFull B} (hg : s.p.gap P.T = 0) (h : dirAt s = .ok s1) (c : K) (hc : 0 ≤ c) :
    s1.kktCheck.p.KKT ≤ c ↔ IsPKKT P c s1.p.xs s1.p.us s1.p.lagMul s1.p.q.y := by
  obtain ⟨ha, -, -⟩ := dirAt_atPoint h
  have hgT : s1.p.gap P.T = 0 := (keep_all (keep_dirAt h)).2.2.2.2.2.2.2.2.1.trans hg
  rw [kktCheck_le s1 c hc, ha.con, conViol_exact]
  constructor
  · rintro ⟨m1, m2, m3, m4, m5⟩
    refine ⟨fun t hp ht i => ?_, fun t ht i => ?_, fun i => ?_, fun t ht i => ?_, m5⟩
    · rw [← ha.diff.run t ht]; exact m1 t hp ht i
    · rw [← ha.diff.run t ht]; exact m2 t ht i
    · rw [← ha.diff.ter]; exact m3 i
    · rw [← ha.gaps t ht]; exact m4 t ht.le i
  · rintro ⟨m1, m2, m3, m4, m5⟩
    refine ⟨fun t hp ht i => ?_, fun t ht i => ?_, fun i => ?_, fun t ht i => ?_, m5⟩
    · rw [ha.diff.run t ht]; exact m1 t hp ht i
    · rw [ha.diff.run t ht]; exact m2 t ht i
    · rw [ha.diff.ter]; exact m3 i
    · rcases Nat.eq_or_lt_of_le ht with rfl | ht
      · rw [hgT, Pi.zero_apply, abs_zero]; exact hc
      · rw [ha.gaps t ht]; exact m4 t ht i

end
end PyFull
end Mim
