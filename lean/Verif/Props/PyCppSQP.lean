import Verif.Lemmas.PyCppSQP
import Verif.Props.SQPAffine

/-!
# The Python class `SQP_CPP`: return value, direction, certificate (C78, C79)
-/
set_option linter.unusedSectionVars false
set_option linter.unusedSimpArgs false

namespace Mim
open Spec Matrix

namespace SQPCpp
section
variable {F : Type} [Add F] [Sub F] [Mul F] [Div F] [Neg F] [Zero F] [One F] [FloatOps F] {P : Problem F}

/-- the state in which the current candidate has been evaluated and the residual of the *stored* multipliers computed. -/
structure Checked (s q : SQPCpp P) : Prop where
  xs : q.xs = s.xs
  us : q.us = s.us
  calc_ : FreshCalc P q.data s.xs s.us
  diff : FreshDiff P q.data s.xs s.us
  fs : q.fs = gapsOf q.data s.xs
  cost : q.cost = trajCost P s.xs s.us
  gapNorm : q.gapNorm = rowsNorm q.fs
  merit : q.merit = q.cost + s.mu * q.gapNorm
  KKT : q.KKT = kktResidual q.data q.fs s.lagMul
  cLists : q.costList = s.costList ∧ q.gapList = s.gapList
  keep : SQPCpp.keep q = SQPCpp.keep s

/-- how a direction computation ends. -/
inductive DirCase (llt : LLT F) (s : SQPCpp P) : Res (SQPCpp P) → Prop
  /-- the residual of the stored multipliers is below the tolerance: multipliers and direction are those of an earlier call. -/
  | stop {q} (hq : Checked s q) (hk : ltb q.KKT s.tol = true) (hd : q.dx = s.dx) (hu : q.du = s.du) (hl : q.lagMul = s.lagMul)
      (hn : q.nRej = s.nRej) : DirCase llt s (.ok q)
  | go {q} (hq : Checked s q) (hk : ltb q.KKT s.tol = false) (b0 b : BP P)
      (hb : backwardPass llt q.data q.fs false s.preg s.dreg b0 = .ok b) (hbp : q.bp = b)
      (hd0 : q.dx 0 = s.dx 0)
      (hdu : ∀ t, t < P.T → q.du t = mv (-(b.K t)) (q.dx t) - b.k t)
      (hdx : ∀ t, t < P.T → q.dx (t + 1) = mv ((q.data.rd t).Fx + mm (-(q.data.rd t).Fu) (b.K t)) (q.dx t) +
        mv (-(q.data.rd t).Fu) (b.k t) + q.fs (t + 1))
      (hlam : ∀ t, t ≤ P.T → q.lagMul t = mv (b.Vxx t) (q.dx t - q.fs t) + b.Vx t) (hn : q.nRej = s.nRej) : DirCase llt s (.ok q)
  | fail {q} (hq : Checked s q) (hk : ltb q.KKT s.tol = false) (b0 b : BP P)
      (hb : backwardPass llt q.data q.fs false s.preg s.dreg b0 = .exn b) : DirCase llt s (.exn q)

theorem direction_cases (llt : LLT F) (s : SQPCpp P) : DirCase llt s (computeDirection llt s) := by
  have hc : Checked s s.evaluate.kktCheck :=
    ⟨rfl, rfl, (evaluate_fresh s).1, (evaluate_fresh s).2, rfl, evaluate_cost s, rfl, rfl, rfl, ⟨rfl, rfl⟩, rfl⟩
  unfold computeDirection
  simp only []
  split
  · rename_i hk
    exact .stop hc hk rfl rfl rfl rfl
  · rename_i hk
    have hk : ltb s.evaluate.kktCheck.KKT s.tol = false := Bool.eq_false_iff.mpr hk
    split
    · rename_i b hb
      obtain ⟨dx, du, lam, xg, ug, e, h0, h1, h2, h3⟩ := computeUpdates_spec { s.evaluate.kktCheck with bp := b }
      rw [e]
      refine .go ⟨hc.xs, hc.us, hc.calc_, hc.diff, hc.fs, hc.cost, hc.gapNorm, hc.merit, hc.KKT, hc.cLists, ?_⟩ hk _ b hb rfl h0 h1 h2 h3 rfl
      unfold SQPCpp.keep
      simp only [h0]
      rfl
    · rename_i b hb
      exact .fail ⟨hc.xs, hc.us, hc.calc_, hc.diff, hc.fs, hc.cost, hc.gapNorm, hc.merit, hc.KKT, hc.cLists, rfl⟩ hk _ b hb

theorem direction_checked {llt : LLT F} {s q : SQPCpp P} (h : computeDirection llt s = .ok q) : Checked s q := by
  have := direction_cases llt s
  rw [h] at this
  cases this with
  | stop hq => exact hq
  | go hq => exact hq

theorem direction_checked_exn {llt : LLT F} {s q : SQPCpp P} (h : computeDirection llt s = .exn q) : Checked s q := by
  have := direction_cases llt s
  rw [h] at this
  cases this with
  | fail hq => exact hq

/-- one iteration after which the loop goes on. -/
structure Step (llt : LLT F) (iter : ℕ) (s q : SQPCpp P) : Prop where
  intro ::
  run : ∃ s1, computeDirection llt s = .ok s1 ∧ ∃ r a, search iter 10 (PySQP.halve 0) s1.pushFilter = (r, a, q) ∧ r ≠ .gaveUp ∧
    ltb q.KKT q.tol = false

/-- the states at the beginning of the iterations. -/
inductive Heads (llt : LLT F) (s0 : SQPCpp P) : ℕ → SQPCpp P → Prop
  | zero : Heads llt s0 0 s0
  | succ {i s q} (h : Heads llt s0 i s) (hs : Step llt i s q) : Heads llt s0 (i + 1) q

/-- how the iteration that starts in `s` ends the call. -/
inductive Ends (llt : LLT F) (iter : ℕ) (s : SQPCpp P) : PyOut → SQPCpp P → Prop
  | raised {q} (h : computeDirection llt s = .exn q) : Ends llt iter s (.raised .linAlg) q
  | gaveUp {s1 a q} (h : computeDirection llt s = .ok s1) (hs : search iter 10 (PySQP.halve 0) s1.pushFilter = (.gaveUp, a, q)) :
      Ends llt iter s (.ret false) q
  | stopped {s1 r a q} (h : computeDirection llt s = .ok s1) (hs : search iter 10 (PySQP.halve 0) s1.pushFilter = (r, a, q))
      (hr : r ≠ .gaveUp) (hk : ltb q.KKT q.tol = true) : Ends llt iter s (.ret true) q

theorem iterate_cases (llt : LLT F) {s0 : SQPCpp P} (n i : ℕ) {s : SQPCpp P} (h : Heads llt s0 i s) {o : PyOut} {s' : SQPCpp P}
    (e : iterate llt n i s = (o, s')) :
    (∃ j q, i ≤ j ∧ j < i + n ∧ Heads llt s0 j q ∧ Ends llt j q o s') ∨ (o = .ret true ∧ Heads llt s0 (i + n) s') := by
  induction n generalizing i s with
  | zero =>
    unfold iterate at e
    cases e
    exact .inr ⟨rfl, h⟩
  | succ n ih =>
    unfold iterate at e
    split at e
    · rename_i q hq
      cases e
      exact .inl ⟨i, s, le_rfl, by omega, h, .raised hq⟩
    · rename_i s1 hs1
      split at e
      · rename_i a q hs
        cases e
        exact .inl ⟨i, s, le_rfl, by omega, h, .gaveUp hs1 hs⟩
      · rename_i r a q hne hs
        split at e
        · rename_i hk
          cases e
          exact .inl ⟨i, s, le_rfl, by omega, h, .stopped hs1 hs hne hk⟩
        · rename_i hk
          rcases ih (i + 1) (.succ h ⟨s1, hs1, r, a, hs, hne, Bool.eq_false_iff.mpr hk⟩) e with ⟨j, q', h1, h2, h3⟩ | ⟨h1, h2⟩
          · exact .inl ⟨j, q', by omega, by omega, h3⟩
          · exact .inr ⟨h1, by rw [show i + (n + 1) = i + 1 + n by omega]; exact h2⟩

theorem solve_cases {llt : LLT F} {xs : Option (Traj P)} {us : Option (Ctrls P)} {m : ℕ} {s s' : SQPCpp P} {o : PyOut}
    (h : solve llt xs us m s = (o, s')) :
    (∃ j q, j < m ∧ Heads llt (s.start xs us) j q ∧ Ends llt j q o s') ∨ (o = .ret true ∧ Heads llt (s.start xs us) m s') := by
  rcases iterate_cases llt m 0 (.zero (llt := llt)) h with ⟨j, q, -, h1, h2, h3⟩ | ⟨h1, h2⟩
  · exact .inl ⟨j, q, by omega, h2, h3⟩
  · exact .inr ⟨h1, by rw [Nat.zero_add] at h2; exact h2⟩

theorem search_keep {iter n j : ℕ} {p q : SQPCpp P} {r : PySQP.Search} {a : F} (h : search iter n (PySQP.halve j) p = (r, a, q)) :
    SQPCpp.keep q = SQPCpp.keep p := by
  rcases search_spec iter n (Trials.refl p) j h with ⟨-, k, -, -, -, -, -, -, e⟩ | ⟨-, -, -, -, e⟩ | ⟨-, -, -, -, -, e⟩ <;> exact e.keep

theorem Heads.keep {llt : LLT F} {s0 : SQPCpp P} {i : ℕ} {q : SQPCpp P} (hq : Heads llt s0 i q) : SQPCpp.keep q = SQPCpp.keep s0 := by
  induction hq with
  | zero => rfl
  | @succ i s q h hs ih =>
    obtain ⟨s1, h1, r, a, h2, -, -⟩ := hs.run
    exact ((search_keep h2).trans ((direction_checked h1).keep :)).trans ih

theorem Ends.keep {llt : LLT F} {i : ℕ} {q s' : SQPCpp P} {o : PyOut} (h : Ends llt i q o s') : SQPCpp.keep s' = SQPCpp.keep q := by
  cases h with
  | raised h => exact (direction_checked_exn h).keep
  | gaveUp h hs => exact (search_keep hs).trans ((direction_checked h).keep :)
  | stopped h hs hr hk => exact (search_keep hs).trans ((direction_checked h).keep :)

theorem solve_keep {llt : LLT F} {xs : Option (Traj P)} {us : Option (Ctrls P)} {m : ℕ} {s s' : SQPCpp P} {o : PyOut}
    (h : solve llt xs us m s = (o, s')) : SQPCpp.keep s' = SQPCpp.keep s := by
  have e0 : SQPCpp.keep (s.start xs us) = SQPCpp.keep s := rfl
  rcases solve_cases h with ⟨j, q, -, hq, he⟩ | ⟨-, hq⟩
  · rw [he.keep, hq.keep, e0]
  · rw [hq.keep, e0]

/-- the states of an `SQP_CPP` object that a program can bring about by constructing it, assigning its options (not the
regularization of the base class), calling its methods in any order (also after exceptions), and evaluating the shared problem
elsewhere. -/
inductive Reachable : SQPCpp P → Prop
  | new (f : Bool) (d : Data P) : Reachable (new f d)
  | options (s : SQPCpp P) (mu tol : F) (f : Bool) (n : ℕ) (h : Reachable s) :
      Reachable { s with mu := mu, tol := tol, useFilter := f, filterSize := n }
  | problemData (s : SQPCpp P) (d : Data P) (h : Reachable s) : Reachable { s with data := d }
  | candidate (s : SQPCpp P) (xs : Traj P) (us : Ctrls P) (h : Reachable s) : Reachable { s with xs := xs, us := us }
  | calc_ (s : SQPCpp P) (h : Reachable s) : Reachable s.evaluate
  | direction (s q : SQPCpp P) (llt : LLT F) (h : Reachable s) (e : computeDirection llt s = .ok q) : Reachable q
  | directionExn (s q : SQPCpp P) (llt : LLT F) (h : Reachable s) (e : computeDirection llt s = .exn q) : Reachable q
  | check (s : SQPCpp P) (h : Reachable s) : Reachable s.kktCheck
  | tryStep (s : SQPCpp P) (a : F) (h : Reachable s) : Reachable (tryStep a s)
  | acceptStep (s : SQPCpp P) (h : Reachable s) : Reachable s.acceptStep
  | solve (s q : SQPCpp P) (llt : LLT F) (xs : Option (Traj P)) (us : Option (Ctrls P)) (m : ℕ) (o : PyOut) (h : Reachable s)
      (e : solve llt xs us m s = (o, q)) : Reachable q

/-- no regularization, first block of the direction and unused last trial gap zero. -/
theorem Reachable.clean {s : SQPCpp P} (h : Reachable s) :
    s.preg = 0 ∧ s.dreg = 0 ∧ s.dx 0 = zeroV F P.ndx ∧ s.gapTry P.T = zeroV F P.ndx := by
  have tr : ∀ {p q : SQPCpp P}, SQPCpp.keep q = SQPCpp.keep p →
      (p.preg = 0 ∧ p.dreg = 0 ∧ p.dx 0 = zeroV F P.ndx ∧ p.gapTry P.T = zeroV F P.ndx) →
      (q.preg = 0 ∧ q.dreg = 0 ∧ q.dx 0 = zeroV F P.ndx ∧ q.gapTry P.T = zeroV F P.ndx) := by
    intro p q hk h
    obtain ⟨-, -, -, -, h1, h2, h3, h4⟩ := keep_all hk
    rw [h1, h2, h3, h4]; exact h
  induction h with
  | new f d => exact ⟨rfl, rfl, rfl, rfl⟩
  | options s mu tol f n h ih => exact ih
  | problemData s d h ih => exact ih
  | candidate s xs us h ih => exact ih
  | calc_ s h ih => exact ih
  | direction s q llt h e ih => exact tr (direction_checked e).keep ih
  | directionExn s q llt h e ih => exact tr (direction_checked_exn e).keep ih
  | check s h ih => exact ih
  | tryStep s a h ih => exact tr (keep_try a s) ih
  | acceptStep s h ih => exact ih
  | solve s q llt xs us m o h e ih => exact tr (solve_keep e) ih

/-- **C78 (return value).**  With the filter line search (the default) `solve` of `SQP_CPP` returns true whatever happens - also
when the iterations run out, when every line search fails, and for `maxiter = 0` - or raises the exception of a failed
factorisation; with the merit function it returns false exactly when a line search finds no step among its first nine trials. -/
theorem C78_cpp_return {llt : LLT F} {xs : Option (Traj P)} {us : Option (Ctrls P)} {m : ℕ} {s s' : SQPCpp P} {o : PyOut}
    (h : solve llt xs us m s = (o, s')) :
    (s.useFilter = true → o = .ret true ∨ o = .raised .linAlg) ∧
    (o = .ret false → s.useFilter = false ∧ ∃ j q s1, j < m ∧ Heads llt (s.start xs us) j q ∧ computeDirection llt q = .ok s1 ∧
      s'.xs = q.xs ∧ s'.us = q.us ∧ ∀ i, i < 9 → ¬ Good s1.pushFilter j (PySQP.halve i)) ∧
    (o = .raised .linAlg → ∃ j q, j < m ∧ Heads llt (s.start xs us) j q ∧ computeDirection llt q = .exn s') ∧
    (o = .ret true ∨ o = .ret false ∨ o = .raised .linAlg) := by
  rcases solve_cases h with ⟨j, q, hj, hq, he⟩ | ⟨rfl, hq⟩
  · have hf : q.useFilter = s.useFilter := (keep_all hq.keep).2.2.1
    cases he with
    | raised h => exact ⟨fun _ => .inr rfl, fun h => (by cases h), fun _ => ⟨j, q, hj, hq, h⟩, .inr (.inr rfl)⟩
    | stopped h hs hr hk => exact ⟨fun _ => .inl rfl, fun h => (by cases h), fun h => (by cases h), .inl rfl⟩
    | @gaveUp s1 a _ h1 hs =>
      have hf1 : s1.pushFilter.useFilter = q.useFilter := (keep_all (direction_checked h1).keep).2.2.1
      rcases search_spec j 10 (Trials.refl s1.pushFilter) 0 hs with ⟨e, -⟩ | ⟨e, -⟩ | ⟨-, e1, -, -, e2, e3⟩
      · cases e
      · cases e
      have hff : s.useFilter = false := by rw [← hf, ← hf1, e1]
      refine ⟨fun hx => ?_, fun _ => ⟨hff, j, q, s1, hj, hq, h1, ?_, ?_, fun i hi => e2 i (Nat.zero_le _) (by omega)⟩,
        fun h => (by cases h), .inr (.inl rfl)⟩
      · rw [hff] at hx; cases hx
      · obtain ⟨_, _, _, _, _, _, _, _, rfl, -⟩ := e3; exact (direction_checked h1).xs
      · obtain ⟨_, _, _, _, _, _, _, _, rfl, -⟩ := e3; exact (direction_checked h1).us
  · exact ⟨fun _ => .inl rfl, fun h => (by cases h), fun h => (by cases h), .inl rfl⟩

/-- `maxiter = 0`: `solve` returns true at the guess without evaluating anything. -/
theorem C78_cpp_maxiter_zero (llt : LLT F) (xs : Option (Traj P)) (us : Option (Ctrls P)) (s : SQPCpp P) :
    solve llt xs us 0 s = (.ret true, s.start xs us) := rfl

end

section
variable {K : Type} [Field K] [LinearOrder K] [IsStrictOrderedRing K] {P : Problem K} {llt : LLT K}

theorem rowsNorm_zero {g : ℕ → Vec K P.ndx} (h : ∀ t, t ≤ P.T → g t = 0) : rowsNorm g = 0 := by
  unfold rowsNorm
  exact sumUp_zero_of fun t ht => by rw [h t (by omega)]; simp

/-- the gaps of a checked state, node by node. -/
theorem Checked.gaps {s q : SQPCpp P} (h : Checked s q) : q.fs 0 = P.diff (s.xs 0) P.x0 ∧
    ∀ t, t < P.T → q.fs (t + 1) = shootGap P s.xs s.us t := by
  rw [h.fs]
  exact gapsOf_fresh h.calc_

/-- the residual of a checked state is the smallest tolerance for which the *stored* multipliers certify the candidate. -/
theorem Checked.residual {s q : SQPCpp P} (h : Checked s q) : 0 ≤ q.KKT ∧ ∀ c, 0 ≤ c → (q.KKT ≤ c ↔ IsKKT P c s.xs s.us s.lagMul) := by
  have hnn : (0 : K) ≤ q.KKT := by
    rw [h.KKT]
    unfold kktResidual
    simp only [cppMax_exact]
    exact le_trans ((forUp_max_le (P.T + 1) (fun t => normInf (q.fs t)) 0 _).1 le_rfl).1 (le_max_right _ _)
  refine ⟨hnn, fun c hc => ?_⟩
  rw [h.KKT, C02_sqp_residual_meaning _ _ _ _ hc]
  obtain ⟨g0, g1⟩ := h.gaps
  constructor
  · rintro ⟨r1, r2, r3, r4⟩
    refine ⟨fun t ht => ?_, fun t ht => ?_, ?_, ?_, fun t ht => ?_⟩
    · have := r1 t ht; rw [h.diff.run t ht] at this; exact this
    · have := r2 t ht; rw [h.diff.run t ht] at this; exact this
    · have := r3; rw [h.diff.ter] at this; exact this
    · have := r4 0 (Nat.zero_le _); rw [g0] at this; exact this
    · have := r4 (t + 1) ht; rw [g1 t ht] at this; exact this
  · intro hk
    refine ⟨fun t ht => ?_, fun t ht => ?_, ?_, fun t ht => ?_⟩
    · rw [h.diff.run t ht]; exact hk.stat_x t ht
    · rw [h.diff.run t ht]; exact hk.stat_u t ht
    · rw [h.diff.ter]; exact hk.stat_T
    · cases t with
      | zero => rw [g0]; exact hk.init
      | succ t => rw [g1 t ht]; exact hk.gaps t ht

/-- the last iteration of a call that stops on the tolerance. -/
theorem certificate_core {xs : Option (Traj P)} {us : Option (Ctrls P)} {m j : ℕ} {s q s' : SQPCpp P}
    (h : solve llt xs us m s = (.ret true, s')) (hq : Heads llt (s.start xs us) j q) (he : Ends llt j q (.ret true) s') :
    s'.KKT < s.tol ∧ IsKKT P s'.KKT q.xs q.us s'.lagMul ∧ (∀ c, 0 ≤ c → IsKKT P c q.xs q.us s'.lagMul → s'.KKT ≤ c) ∧
    s'.dx = q.dx ∧ s'.du = q.du ∧ s'.lagMul = q.lagMul ∧
    ((s'.xs = q.xs ∧ s'.us = q.us) ∨
     ∃ k, k < 10 ∧ (∀ t, t ≤ P.T → s'.xs t = stepX P q.xs q.dx ((1 / 2) ^ k) t) ∧
      ∀ t, t < P.T → s'.us t = stepU P q.us q.du ((1 / 2) ^ k) t) := by
  have hh : ∀ k, (PySQP.halve k : K) = (1 / 2) ^ k := by
    intro k
    induction k with
    | zero => simp [PySQP.halve]
    | succ k ih => rw [PySQP.halve, ih, pow_succ]; simp
  have htol : q.tol = s.tol := (keep_all hq.keep).2.1
  have htol' : s'.tol = s.tol := (keep_all (solve_keep h)).2.1
  cases he with
  | @stopped s1 r a _ h1 hs hr hk =>
    have hc := direction_checked h1
    have hcase := direction_cases llt q
    rw [h1] at hcase
    have hk1 : s'.KKT = s1.KKT := by
      rcases search_spec j 10 (Trials.refl s1.pushFilter) 0 hs with ⟨-, k, -, -, -, -, -, -, e⟩ | ⟨-, -, -, -, e⟩ | ⟨e, -⟩
      · obtain ⟨_, _, _, _, _, _, _, _, _, _, rfl, -⟩ := e.frame; rfl
      · obtain ⟨_, _, _, _, _, _, _, _, rfl, -⟩ := e; rfl
      · exact absurd e hr
    cases hcase with
    | go hq' hk2 =>
      rw [hk1, htol', ← htol, hk2] at hk
      cases hk
    | stop hq' hk2 hd hu hl hn =>
      have hlt : s'.KKT < s.tol := by rw [hk1]; rw [htol] at hk2; simpa using hk2
      obtain ⟨r0, r1⟩ := hc.residual
      rcases search_spec j 10 (Trials.refl s1.pushFilter) 0 hs with ⟨-, k, -, k1, -, ka, -, -, e⟩ | ⟨-, -, -, -, e⟩ | ⟨e, -⟩
      · have hsame : s'.lagMul = q.lagMul ∧ s'.dx = q.dx ∧ s'.du = q.du := by
          obtain ⟨_, _, _, _, _, _, _, _, _, _, rfl, -⟩ := e.frame
          exact ⟨hl, hd, hu⟩
        refine ⟨hlt, ?_, ?_, hsame.2.1, hsame.2.2, hsame.1, .inr ⟨k, by omega, fun t ht => ?_, fun t ht => ?_⟩⟩
        · rw [hk1, hsame.1]; exact (r1 _ r0).1 le_rfl
        · intro c hc0 hkk; rw [hk1]; rw [hsame.1] at hkk; exact (r1 c hc0).2 hkk
        · rw [e.xs t ht, ka, hh]
          change stepX P s1.xs s1.dx _ t = _
          rw [hc.xs, hd]
        · rw [e.us t ht, ka, hh]
          change stepU P s1.us s1.du _ t = _
          rw [hc.us, hu]
      · have hsame : s'.lagMul = q.lagMul ∧ s'.dx = q.dx ∧ s'.du = q.du ∧ s'.xs = q.xs ∧ s'.us = q.us := by
          obtain ⟨_, _, _, _, _, _, _, _, rfl, -⟩ := e
          exact ⟨hl, hd, hu, hc.xs, hc.us⟩
        refine ⟨hlt, ?_, ?_, hsame.2.1, hsame.2.2.1, hsame.1, .inl ⟨hsame.2.2.2.1, hsame.2.2.2.2⟩⟩
        · rw [hk1, hsame.1]; exact (r1 _ r0).1 le_rfl
        · intro c hc0 hkk; rw [hk1]; rw [hsame.1] at hkk; exact (r1 c hc0).2 hkk
      · exact absurd e hr

/-- a call that makes at least one iteration and returns true either stopped on the tolerance or ran out of iterations with a
residual that is not below it. -/
theorem stopped_of_small {xs : Option (Traj P)} {us : Option (Ctrls P)} {m : ℕ} {s s' : SQPCpp P} (hm : 0 < m)
    (h : solve llt xs us m s = (.ret true, s')) (hk : s'.KKT < s.tol) :
    ∃ j q, j < m ∧ Heads llt (s.start xs us) j q ∧ Ends llt j q (.ret true) s' := by
  rcases solve_cases h with ⟨j, q, hj, hq, he⟩ | ⟨-, hq⟩
  · exact ⟨j, q, hj, hq, he⟩
  · have htol : s'.tol = s.tol := (keep_all (solve_keep h)).2.1
    cases hq with
    | zero => omega
    | succ h1 hs =>
      obtain ⟨_, _, _, _, _, _, h2⟩ := hs.run
      rw [htol] at h2
      simp only [ltb_exact, decide_eq_false_iff_not] at h2
      exact absurd hk h2

/-- **C78 (what an early return certifies).**  If a call of `solve` with `maxiter ≥ 1` returns true and the residual it leaves is
below the tolerance, then there is a candidate `(X, U)` - the one at the beginning of the last iteration - that satisfies the
optimality conditions with the multipliers it leaves up to that residual, which is the least such bound.  The returned trajectory is
not that candidate but the candidate moved by one more step `1, 1/2, ..., 1/512` along the stored direction, which was computed at an
earlier candidate or in an earlier call; it is `(X, U)` itself only if all ten trials were rejected. -/
theorem C78_cpp_certificate {xs : Option (Traj P)} {us : Option (Ctrls P)} {m : ℕ} {s s' : SQPCpp P} (hm : 0 < m)
    (h : solve llt xs us m s = (.ret true, s')) (hk : s'.KKT < s.tol) :
    ∃ (X : Traj P) (U : Ctrls P), IsKKT P s'.KKT X U s'.lagMul ∧ (∀ c, 0 ≤ c → IsKKT P c X U s'.lagMul → s'.KKT ≤ c) ∧
      ((s'.xs = X ∧ s'.us = U) ∨
       ∃ k, k < 10 ∧ (∀ t, t ≤ P.T → s'.xs t = stepX P X s'.dx ((1 / 2) ^ k) t) ∧
        ∀ t, t < P.T → s'.us t = stepU P U s'.du ((1 / 2) ^ k) t) := by
  obtain ⟨j, q, -, hq, he⟩ := stopped_of_small hm h hk
  obtain ⟨-, h1, h2, h3, h4, -, h5⟩ := certificate_core h hq he
  rw [← h3, ← h4] at h5
  exact ⟨q.xs, q.us, h1, h2, h5⟩

/-- the direction of an iteration that does not stop. -/
theorem direction_riccati (hllt : LLTExact llt) {s q : SQPCpp P} (h : computeDirection llt s = .ok q) (hk : ¬ q.KKT < s.tol)
    (hp : s.preg = 0) (hd : s.dreg = 0) (hsym : SymHess q.data) :
    Riccati (lqOf q.data q.fs 0 0) q.bp.Vxx (fun t => q.bp.Vx t - q.bp.Vxx t *ᵥ q.fs t) q.bp.K q.bp.k q.bp.Quu ∧
      (∀ t, t < P.T → PosDef (q.bp.Quu t)) ∧ (lqOf q.data q.fs 0 0).Dyn q.dx q.du ∧
      (∀ t, t < P.T → q.du t = -(q.bp.K t *ᵥ q.dx t) - q.bp.k t) ∧
      (∀ t, t ≤ P.T → q.lagMul t = q.bp.Vxx t *ᵥ q.dx t + (q.bp.Vx t - q.bp.Vxx t *ᵥ q.fs t)) := by
  have hc := direction_cases llt s
  rw [h] at hc
  cases hc with
  | stop hq hk' => simp only [ltb_exact, decide_eq_true_eq] at hk'; exact absurd hk' hk
  | go hq hk' b0 b hb hbp hd0 hdu hdx hlam hn =>
    rw [hp, hd] at hb
    obtain ⟨hr, hpd⟩ := backward_riccati hllt hsym hb
    simp only [Bool.false_eq_true, if_false] at hr
    subst hbp
    simp only [mv_exact, mm_exact] at hdu hdx hlam
    have hdu' : ∀ t, t < P.T → q.du t = -(q.bp.K t *ᵥ q.dx t) - q.bp.k t := fun t ht => by rw [hdu t ht, Matrix.neg_mulVec]
    refine ⟨hr, hpd, fun t ht => ?_, hdu', fun t ht => ?_⟩
    · rw [hdx t ht, hdu' t ht]
      simp only [lqOf, Matrix.add_mulVec, Matrix.neg_mul, Matrix.neg_mulVec, Matrix.mulVec_sub, Matrix.mulVec_neg, Matrix.mulVec_mulVec]
      abel
    · rw [hlam t ht, Matrix.mulVec_sub]; abel

/-- **C79 (direction).**  Where the residual of the old multipliers is not below the tolerance, a direction computation that succeeds
solves the KKT system of the quadratic model without regularization at the current candidate, with the current gaps, and its first
block is zero: it is the direction of the C++ `SolverSQP` without regularization. -/
theorem C79_cpp_direction (hllt : LLTExact llt) {s q : SQPCpp P} (hr : Reachable s) (h : computeDirection llt s = .ok q)
    (hk : ¬ q.KKT < s.tol) (hsym : SymHess q.data) :
    (lqOf q.data q.fs 0 0).KKT q.dx q.du q.lagMul ∧ q.dx 0 = 0 ∧ FreshDiff P q.data q.xs q.us ∧
      ∀ t, t < P.T → q.fs (t + 1) = shootGap P q.xs q.us t := by
  obtain ⟨c1, c2, c3, c4⟩ := hr.clean
  obtain ⟨a1, a2, a3, a4, a5⟩ := direction_riccati hllt h hk c1 c2 hsym
  have hc := direction_checked h
  refine ⟨a1.kkt a3 a4 a5, ?_, ?_, ?_⟩
  · rw [(keep_all hc.keep).2.2.2.2.2.2.1, c3]; rfl
  · rw [hc.xs, hc.us]; exact hc.diff
  · rw [hc.xs, hc.us]; exact hc.gaps.2

/-- **C79 (early stop).**  Where the residual of the old multipliers is below the tolerance, `computeDirection` leaves the direction and
the multipliers as they are. -/
theorem C79_cpp_stale {s q : SQPCpp P} (h : computeDirection llt s = .ok q) (hk : q.KKT < s.tol) :
    q.dx = s.dx ∧ q.du = s.du ∧ q.lagMul = s.lagMul := by
  have hc := direction_cases llt s
  rw [h] at hc
  cases hc with
  | stop hq hk' hd hu hl => exact ⟨hd, hu, hl⟩
  | go hq hk' => simp only [ltb_exact, decide_eq_false_iff_not] at hk'; exact absurd hk hk'

end
end SQPCpp
end Mim
