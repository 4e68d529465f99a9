import Verif.Lemmas.PyCSQP
import Verif.Props.CSQPReturn

/-!
# C73: what the return value of the Python prototype `CSQP.solve` certifies
-/
set_option linter.unusedSectionVars false
set_option linter.unusedSimpArgs false

namespace Mim
open Spec Matrix

/-! ## the first block of the direction stays zero -/

section
variable {F : Type} [Add F] [Sub F] [Mul F] [Div F] [Neg F] [Zero F] [One F] [FloatOps F] {P : Problem F}

/-- the first block of the direction and of the trial direction is zero. -/
def PyQP.Zero0 (q : PyQP P) : Prop := q.dx 0 = zeroV F P.ndx ∧ q.dxt 0 = zeroV F P.ndx

theorem PyQP.stageGains_dx (L : PyLLT F) (t : ℕ) (a : Vec F P.ndx) (b : Mat F P.ndx P.ndx) (c : Vec F (P.nu t))
    (d : Mat F (P.nu t) (P.nu t)) (e : Mat F P.ndx (P.nu t)) (q : PyQP P) :
    (PyQP.stageGains L t a b c d e q).dx = q.dx ∧ (PyQP.stageGains L t a b c d e q).dxt = q.dxt := ⟨rfl, rfl⟩

theorem PyQP.backwardPass_dx (L : PyLLT F) (E : PyEnv P) (q : PyQP P) :
    (q.backwardPass L E).dx = q.dx ∧ (q.backwardPass L E).dxt = q.dxt := by
  unfold PyQP.backwardPass
  refine forDown_inv (fun _ (s : PyQP P) => s.dx = q.dx ∧ s.dxt = q.dxt) P.T _ _ ?_ ?_
  · unfold PyQP.terminal
    simp only []
    split <;> exact ⟨rfl, rfl⟩
  · intro t ht s hs
    unfold PyQP.backwardStage
    simp only []
    obtain ⟨a, b⟩ := PyQP.stageGains_dx L t (P := P) _ _ _ _ _ s
    exact ⟨a.trans hs.1, b.trans hs.2⟩

theorem PyQP.plainPass_dx (L : PyLLT F) (E : PyEnv P) (q : PyQP P) :
    (q.plainPass L E).dx = q.dx ∧ (q.plainPass L E).dxt = q.dxt := by
  unfold PyQP.plainPass
  refine forDown_inv (fun _ (s : PyQP P) => s.dx = q.dx ∧ s.dxt = q.dxt) P.T _ _ ⟨rfl, rfl⟩ ?_
  intro t ht s hs
  obtain ⟨a, b⟩ := PyQP.stageGains_dx L t (P := P) _ _ _ _ _ s
  exact ⟨a.trans hs.1, b.trans hs.2⟩

theorem PyQP.fwd_zero (E : PyEnv P) (q : PyQP P) (x : (ℕ → Vec F P.ndx) × ((t : ℕ) → Vec F (P.nu t))) :
    (forUp P.T (PyQP.fwdStage E q) x).1 0 = x.1 0 := by
  refine forUp_inv (fun _ (s : (ℕ → Vec F P.ndx) × ((t : ℕ) → Vec F (P.nu t))) => s.1 0 = x.1 0) P.T _ _ rfl ?_
  intro t ht s hs
  unfold PyQP.fwdStage
  simp only []
  rw [Function.update_of_ne (by omega)]
  exact hs

theorem PyQP.Zero0.backward {L : PyLLT F} {E : PyEnv P} {q : PyQP P} (h : q.Zero0) : (q.backwardPass L E).Zero0 := by
  obtain ⟨a, b⟩ := PyQP.backwardPass_dx L E q
  exact ⟨by rw [a]; exact h.1, by rw [b]; exact h.2⟩

theorem PyQP.Zero0.forward {E : PyEnv P} {q : PyQP P} (h : q.Zero0) : (q.forwardPass E).Zero0 :=
  ⟨h.1, (PyQP.fwd_zero E q _).trans h.2⟩

theorem PyQP.Zero0.lagStage {E : PyEnv P} {it t : ℕ} {q : PyQP P} (h : q.Zero0) : (PyQP.lagStage E it t q).Zero0 := by
  have key : Function.update q.dx t (q.dxt t) 0 = zeroV F P.ndx := by
    by_cases e : 0 = t
    · subst e; rw [Function.update_self]; exact h.2
    · rw [Function.update_of_ne e]; exact h.1
  unfold PyQP.lagStage
  split <;> exact ⟨key, h.2⟩

theorem PyQP.Zero0.updateLag {E : PyEnv P} {it : ℕ} {q : PyQP P} (h : q.Zero0) : (q.updateLag E it).Zero0 := by
  have h1 := forUp_inv (fun _ (s : PyQP P) => s.Zero0) P.T (PyQP.lagStage E it)
    { q with n := ⟨negInf, negInf, negInf, negInf, negInf, negInf, negInf⟩ } h (fun t _ s hs => hs.lagStage)
  unfold PyQP.updateLag
  generalize forUp P.T (PyQP.lagStage E it) _ = s at h1 ⊢
  have key : Function.update s.dx P.T (s.dxt P.T) 0 = zeroV F P.ndx := by
    by_cases e : 0 = P.T
    · rw [← e, Function.update_self]; exact h1.2
    · rw [Function.update_of_ne e]; exact h1.1
  unfold PyQP.lagTerm
  simp only []
  split <;> exact ⟨key, h1.2⟩

theorem PyQP.Zero0.resetRhoVec {c : PyConf F} {q : PyQP P} (h : q.Zero0) : (q.resetRhoVec c).Zero0 := h

theorem PyQP.Zero0.resetParams {c : PyConf F} {q : PyQP P} (h : q.Zero0) : (q.resetParams c).Zero0 := by
  unfold PyQP.resetParams
  simp only []
  split <;> split <;> exact h

theorem PyQP.Zero0.warm {L : PyLLT F} {E : PyEnv P} {q : PyQP P} (h : q.Zero0) : (q.warm L E).Zero0 := by
  unfold PyQP.warm
  split
  · obtain ⟨a, b⟩ := PyQP.plainPass_dx L E q
    exact ⟨(PyQP.fwd_zero E _ _).trans (by rw [a]; exact h.1), by change (q.plainPass L E).dxt 0 = _; rw [b]; exact h.2⟩
  · exact h

variable [SqrtOps F]

theorem PyQP.Zero0.step {L : PyLLT F} {E : PyEnv P} {it : ℕ} {q : PyQP P} (h : q.Zero0) : (q.step L E it).Zero0 := by
  have h1 : (((q.backwardPass L E).forwardPass E).updateLag E it).Zero0 := h.backward.forward.updateLag
  unfold PyQP.step
  generalize ((q.backwardPass L E).forwardPass E).updateLag E it = s at h1
  unfold PyQP.updateRho
  simp only []
  split <;> split <;> exact h1

theorem PyQP.Zero0.loop {L : PyLLT F} {E : PyEnv P} (n : ℕ) {it : ℕ} {q : PyQP P} (h : q.Zero0) : (PyQP.loop L E n it q).Zero0 := by
  induction n generalizing it q with
  | zero => exact h
  | succ n ih =>
    unfold PyQP.loop
    simp only []
    split
    · exact (h.step :)
    · exact ih h.step

theorem PyQP.Zero0.direction {L : PyLLT F} {E : PyEnv P} {q q' : PyQP P} (h : q.Zero0)
    (e : q.computeDirection L E = .ok q' ∨ q.computeDirection L E = .exn q') : q'.Zero0 := by
  have h1 : ((q.resetParams E.c).warm L E).Zero0 := h.resetParams.warm
  unfold PyQP.computeDirection at e
  simp only [] at e
  split at e
  · rcases e with e | e
    · cases e
    · cases e; exact h1
  · rcases e with e | e
    · cases e; exact h1.loop _
    · cases e

end

namespace PyCSQP
section
variable {F : Type} [Add F] [Sub F] [Mul F] [Div F] [Neg F] [Zero F] [One F] [FloatOps F] [SqrtOps F] {P : Problem F}

/-- the states of a Python `CSQP` object that a program can bring about by constructing it, assigning its options, its
multipliers or its candidate, calling its methods in any order (also after exceptions), and evaluating the shared problem
elsewhere. -/
inductive Reachable : PyCSQP P → Prop
  | new (f : Bool) (d : Data P) : Reachable (new f d)
  | options (p : PyCSQP P) (c : PyConf F) (mu1 mu2 lc tol : F) (f : Bool) (n : ℕ) (x : Bool) (h : Reachable p) :
      Reachable { p with
        c := c, mu1 := mu1, mu2 := mu2, lagCoef := lc, tol := tol, useFilter := f, filterSize := n, extra := x }
  | problemData (p : PyCSQP P) (d : Data P) (h : Reachable p) : Reachable { p with data := d }
  | candidate (p : PyCSQP P) (xs : Traj P) (us : Ctrls P) (h : Reachable p) : Reachable { p with xs := xs, us := us }
  | multipliers (p : PyCSQP P) (y : (t : ℕ) → Vec F (P.ng t)) (h : Reachable p) : Reachable { p with q := { p.q with y := y } }
  | calc_ (p : PyCSQP P) (h : Reachable p) : Reachable p.evaluate
  | resetRho (p : PyCSQP P) (h : Reachable p) : Reachable { p with q := p.q.resetRhoVec p.c }
  | direction (p q : PyCSQP P) (L : PyLLT F) (h : Reachable p) (e : computeDirection L p = .ok q ∨ computeDirection L p = .exn q) :
      Reachable q
  | check (p : PyCSQP P) (h : Reachable p) : Reachable p.kktCheck
  | tryStep (p : PyCSQP P) (a : F) (h : Reachable p) : Reachable (tryStep a p)
  | acceptStep (p : PyCSQP P) (a : F) (h : Reachable p) : Reachable (p.acceptStep a)
  | solve (p q : PyCSQP P) (L : PyLLT F) (xs : Option (Traj P)) (us : Option (Ctrls P)) (m : ℕ) (o : PyOut) (h : Reachable p)
      (e : solve L xs us m p = (o, q)) : Reachable q

/-- the first blocks of the direction and the unused last gaps are zero. -/
structure Clean (p : PyCSQP P) : Prop where
  zero0 : p.q.Zero0
  gap : p.gap P.T = zeroV F P.ndx
  gapTry : p.gapTry P.T = zeroV F P.ndx

theorem Clean.of {p p' : PyCSQP P} (h : Clean p) (hk : keep p' = keep p) (hz : p'.q.Zero0) : Clean p' := by
  obtain ⟨-, -, -, -, -, -, -, -, h1, h2⟩ := keep_all hk
  exact ⟨hz, h1.trans h.gap, h2.trans h.gapTry⟩

theorem zero_dirAt {L : PyLLT F} {iter : ℕ} {p p1 : PyCSQP P} (h : p.q.Zero0)
    (e : dirAt L iter p = .ok p1 ∨ dirAt L iter p = .exn p1) : p1.q.Zero0 := by
  have h1 : (p.evaluate.resetFirst iter).q.Zero0 := by
    unfold resetFirst
    split
    · exact (h : p.evaluate.q.Zero0).resetRhoVec
    · exact h
  unfold dirAt at e
  generalize p.evaluate.resetFirst iter = s at h1 e
  unfold computeDirection at e
  cases hd : s.q.computeDirection L s.env with
  | ok q => rw [hd] at e; simp only [Res.map] at e; rcases e with e | e <;> cases e; exact h1.direction (.inl hd)
  | exn q => rw [hd] at e; simp only [Res.map] at e; rcases e with e | e <;> cases e; exact h1.direction (.inr hd)

theorem search_q {iter n : ℕ} {p q : PyCSQP P} {r : PySQP.Search} (e : search iter n (PySQP.halve 0) p = (r, q)) : q.q = p.q := by
  rcases search_spec iter n (Trials.refl p) 0 e with ⟨-, k, -, -, -, -, -, e⟩ | ⟨-, -, -, e⟩ | ⟨-, -, -, -, e⟩
  · obtain ⟨xs, us, _, _, _, _, _, _, _, _, _, rfl, -⟩ := e.frame; rfl
  · obtain ⟨_, _, _, _, _, _, _, _, _, rfl, -⟩ := e; rfl
  · obtain ⟨_, _, _, _, _, _, _, _, _, rfl, -⟩ := e; rfl

theorem Heads.zero0 {L : PyLLT F} {p0 q : PyCSQP P} {i : ℕ} (h0 : p0.q.Zero0) (hq : Heads L p0 i q) : q.q.Zero0 := by
  induction hq with
  | zero => exact h0
  | @succ i p q h hs ih =>
    obtain ⟨p1, h1, -, r, h2, -⟩ := hs.run
    rw [search_q h2]
    exact (zero_dirAt ih (.inl h1) :)

theorem Ends.zero0 {L : PyLLT F} {i : ℕ} {q p' : PyCSQP P} {o : PyOut} (h : Ends L i q o p') (h0 : q.q.Zero0) : p'.q.Zero0 := by
  cases h with
  | zeroDiv h => exact zero_dirAt h0 (.inr h)
  | conv h hk => exact (zero_dirAt h0 (.inl h) :)
  | gaveUp h hk hs => rw [search_q hs]; exact (zero_dirAt h0 (.inl h) :)

theorem solve_zero0 {L : PyLLT F} {xs : Option (Traj P)} {us : Option (Ctrls P)} {m : ℕ} {p p' : PyCSQP P} {o : PyOut}
    (h : solve L xs us m p = (o, p')) (h0 : p.q.Zero0) : p'.q.Zero0 := by
  have hs : (p.start xs us).q.Zero0 := h0
  rcases solve_cases h with ⟨j, q, -, hq, he⟩ | ⟨q, hq, ⟨-, -, rfl⟩ | ⟨-, q1, h1, -, rfl⟩ | ⟨-, q1, h1, -, rfl⟩⟩
  · exact he.zero0 (hq.zero0 hs)
  · exact hq.zero0 hs
  · exact zero_dirAt (hq.zero0 hs) (.inr h1)
  · exact (zero_dirAt (hq.zero0 hs) (.inl h1) :)

theorem Reachable.clean {p : PyCSQP P} (h : Reachable p) : Clean p := by
  induction h with
  | new f d => exact ⟨⟨rfl, rfl⟩, rfl, rfl⟩
  | options p c mu1 mu2 lc tol f n x h ih => exact ⟨ih.zero0, ih.gap, ih.gapTry⟩
  | problemData p d h ih => exact ⟨ih.zero0, ih.gap, ih.gapTry⟩
  | candidate p xs us h ih => exact ⟨ih.zero0, ih.gap, ih.gapTry⟩
  | multipliers p y h ih => exact ⟨ih.zero0, ih.gap, ih.gapTry⟩
  | calc_ p h ih => exact ih.of (keep_evaluate p) ih.zero0
  | resetRho p h ih => exact ⟨ih.zero0.resetRhoVec, ih.gap, ih.gapTry⟩
  | direction p q L h e ih =>
    unfold computeDirection at e
    cases hd : p.q.computeDirection L p.env with
    | ok q => rw [hd] at e; simp only [Res.map] at e; rcases e with e | e <;> cases e; exact ⟨ih.zero0.direction (.inl hd), ih.gap, ih.gapTry⟩
    | exn q => rw [hd] at e; simp only [Res.map] at e; rcases e with e | e <;> cases e; exact ⟨ih.zero0.direction (.inr hd), ih.gap, ih.gapTry⟩
  | check p h ih => exact ⟨ih.zero0, ih.gap, ih.gapTry⟩
  | tryStep p a h ih =>
    have ht := try_trials a p
    refine ih.of ht.keep ?_
    obtain ⟨_, _, _, _, _, _, _, _, _, e, -⟩ := ht
    rw [e]; exact ih.zero0
  | acceptStep p a h ih =>
    obtain ⟨X, U, e, -⟩ := trialPoint_spec a p
    unfold PyCSQP.acceptStep
    rw [e]
    exact ⟨ih.zero0, ih.gap, ih.gapTry⟩
  | solve p q L xs us m o h e ih => exact ih.of (solve_keep e) (solve_zero0 e ih.zero0)

/-- **`assert np.linalg.norm(self.dx[0]) < 1e-6` never fails**: in every reachable state the first blocks of the direction are
exactly zero. -/
theorem Reachable.zero0 {p : PyCSQP P} (h : Reachable p) : p.q.dx 0 = zeroV F P.ndx ∧ p.q.dxt 0 = zeroV F P.ndx := h.clean.zero0

/-- the state in which a direction has been computed: everything refers to the current candidate. -/
structure AtPoint (p : PyCSQP P) : Prop where
  calc_ : FreshCalc P p.data p.xs p.us
  diff : FreshDiff P p.data p.xs p.us
  cost : p.cost = trajCost P p.xs p.us
  gaps : ∀ t, t < P.T → p.gap t = shootGap P p.xs p.us t
  gapNorm : p.gapNorm = shootGapNorm P p.xs p.us + norm1 (p.gap P.T)
  con : p.con = conViol P p.xs p.us
  merit : p.merit = p.meritOf p.cost p.gapNorm p.con

theorem dirAt_atPoint {L : PyLLT F} {iter : ℕ} {p q : PyCSQP P} (h : dirAt L iter p = .ok q) : AtPoint q ∧ q.xs = p.xs ∧ q.us = p.us := by
  obtain ⟨r, rfl⟩ := dirAt_ok h
  refine ⟨⟨(evaluate_fresh p).1, (evaluate_fresh p).2, evaluate_cost p, (evaluate_gap p).1, ?_, evaluate_con p, rfl⟩, rfl, rfl⟩
  have := evaluate_gapNorm p
  rw [← (evaluate_gap p).2] at this
  exact this

end

section
variable {K : Type} [Field K] [LinearOrder K] [IsStrictOrderedRing K] [SqrtOps K] {P : Problem K} {L : PyLLT K}

/-- the candidate starts at the initial state of the problem as long as steps of length zero do not move it. -/
theorem Heads.x0 (hint : ∀ x, P.integrate x 0 = x) {p0 q : PyCSQP P} {i : ℕ} (h0 : p0.q.Zero0) (hq : Heads L p0 i q)
    (hx : p0.xs 0 = P.x0) : q.xs 0 = P.x0 := by
  induction hq with
  | zero => exact hx
  | @succ i p q h hs ih =>
    obtain ⟨p1, h1, -, r, h2, h3⟩ := hs.run
    have e1 := (dirAt_atPoint h1).2.1
    have hd : p1.q.dx 0 = 0 := (zero_dirAt (h.zero0 h0) (.inl h1)).1
    rcases search_spec i 10 (Trials.refl p1.kktCheck.pushFilter) 0 h2 with ⟨-, k, -, -, -, -, -, e⟩ | ⟨-, -, -, e⟩ | ⟨e, -⟩
    · rw [e.xs 0 (by omega)]
      change P.integrate (p1.xs 0) (sv _ (p1.q.dx 0)) = _
      rw [hd, sv_exact, smul_zero, hint, e1, ih]
    · obtain ⟨_, _, _, _, _, _, _, _, _, rfl, -⟩ := e
      exact (congrFun e1 0).trans ih
    · exact absurd e h3

/-- **The meaning of the residual** stored by `KKT_check`: it is within `c` iff every component of the stationarity conditions
(except those of the state of node 0), every gap component and the constraint norm are. -/
theorem kktCheck_le (p : PyCSQP P) (c : K) (h0 : 0 ≤ c) :
    p.kktCheck.KKT ≤ c ↔
      (∀ t, 0 < t → t < P.T → ∀ i, |((p.data.rd t).Lx + (p.data.rd t).Fxᵀ *ᵥ p.kktCheck.lagMul (t + 1) - p.kktCheck.lagMul t +
        (p.data.rd t).Gxᵀ *ᵥ p.q.y t) i| ≤ c) ∧
      (∀ t, t < P.T → ∀ i, |((p.data.rd t).Lu + (p.data.rd t).Fuᵀ *ᵥ p.kktCheck.lagMul (t + 1) + (p.data.rd t).Guᵀ *ᵥ p.q.y t) i| ≤ c) ∧
      (∀ i, |(p.data.td.Lx - p.kktCheck.lagMul P.T + p.data.td.Gxᵀ *ᵥ p.q.y P.T) i| ≤ c) ∧
      (∀ t, t ≤ P.T → ∀ i, |p.gap t i| ≤ c) ∧ p.con ≤ c := by
  have hl : ∀ n (f g : ℕ → K) (a : K), forUp n (fun t k => if t = 0 then max k (g t) else max (max k (f t)) (g t)) a ≤ c ↔
      a ≤ c ∧ (∀ t, 0 < t → t < n → f t ≤ c) ∧ ∀ t, t < n → g t ≤ c := by
    intro n f g a
    induction n with
    | zero => simp
    | succ n ih =>
      rw [forUp_succ]
      by_cases hn : n = 0
      · subst hn
        simp only [forUp, if_true, max_le_iff]
        refine and_congr Iff.rfl ⟨fun h => ⟨fun t h1 h2 => by omega, fun t ht => ?_⟩, fun h => h.2 0 (by omega)⟩
        obtain rfl : t = 0 := by omega
        exact h
      · rw [if_neg hn, max_le_iff, max_le_iff, ih]
        constructor
        · rintro ⟨⟨⟨h1, h2, h3⟩, h4⟩, h5⟩
          refine ⟨h1, fun t ht hT => ?_, fun t ht => ?_⟩
          · by_cases e : t = n
            · subst e; exact h4
            · exact h2 t ht (by omega)
          · by_cases e : t = n
            · subst e; exact h5
            · exact h3 t (by omega)
        · rintro ⟨h1, h2, h3⟩
          exact ⟨⟨⟨h1, fun t ht hT => h2 t ht (by omega), fun t ht => h3 t (by omega)⟩, h2 n (by omega) (by omega)⟩, h3 n (by omega)⟩
  unfold kktCheck
  simp only [cppMax_exact, normInf_exact, mv_exact]
  rw [max_le_iff, max_le_iff, max_le_iff, hl, forUp_max_le]
  simp only [exactNormInf_le, h0, true_and]
  constructor
  · rintro ⟨⟨⟨⟨h1, h2⟩, h3⟩, h4⟩, h5⟩
    exact ⟨h1, h2, h3, fun t ht => h4 t (Nat.lt_succ_of_le ht), h5⟩
  · rintro ⟨h1, h2, h3, h4, h5⟩
    exact ⟨⟨⟨⟨h1, h2⟩, h3⟩, fun t ht => h4 t (Nat.le_of_lt_succ ht)⟩, h5⟩

theorem kktCheck_nonneg (p : PyCSQP P) : 0 ≤ p.kktCheck.KKT := by
  unfold kktCheck
  simp only [cppMax_exact]
  refine le_trans ?_ (le_max_left _ _)
  refine le_trans ?_ (le_max_right _ _)
  exact ((forUp_max_le (P.T + 1) (fun t => normInf (p.gap t)) 0 _).1 le_rfl).1

/-- the multipliers of the certificate: those of the solver, except at node 0, where the value is the one that makes the state
equation of node 0 hold (the multiplier of the initial condition; `KKT_check` does not look at it). -/
def certLam (P : Problem K) (xs : Traj P) (us : Ctrls P) (lam : ℕ → Vec K P.ndx) (y : (t : ℕ) → Vec K (P.ng t)) : ℕ → Vec K P.ndx :=
  Function.update lam 0 ((P.calcDiffR 0 (xs 0) (us 0)).Lx + (P.calcDiffR 0 (xs 0) (us 0)).Fxᵀ *ᵥ lam 1 +
    (P.calcDiffR 0 (xs 0) (us 0)).Gxᵀ *ᵥ y 0)

/-- a state in which the check succeeded carries the certificate. -/
theorem passes_cert (hT : 0 < P.T) {iter : ℕ} {p p1 : PyCSQP P} (hg : p.gap P.T = 0) (h : dirAt L iter p = .ok p1)
    (c : K) (hc : 0 ≤ c) :
    p1.kktCheck.KKT ≤ c ↔ IsCKKT P c p1.xs p1.us (certLam P p1.xs p1.us p1.kktCheck.lagMul p1.q.y) p1.q.y := by
  obtain ⟨ha, -, -⟩ := dirAt_atPoint h
  have hgT : p1.gap P.T = 0 := (keep_all (keep_dirAt h)).2.2.2.2.2.2.2.2.1.trans hg
  rw [kktCheck_le p1 c hc, ha.con, conViol_exact]
  have hs : ∀ t, certLam P p1.xs p1.us p1.kktCheck.lagMul p1.q.y (t + 1) = p1.kktCheck.lagMul (t + 1) := fun t =>
    Function.update_of_ne (Nat.succ_ne_zero t) _ _
  have hs' : ∀ t, 0 < t → certLam P p1.xs p1.us p1.kktCheck.lagMul p1.q.y t = p1.kktCheck.lagMul t := fun t ht =>
    Function.update_of_ne (by omega) _ _
  constructor
  · rintro ⟨m1, m2, m3, m4, m5⟩
    refine ⟨?_, ?_, ?_, ?_, m5⟩
    · intro t ht i
      rw [hs]
      rcases Nat.eq_zero_or_pos t with rfl | hp
      · unfold certLam
        rw [Function.update_self]
        simp only [Pi.add_apply, Pi.sub_apply]
        rw [show ∀ a b c : K, a + b - (a + b + c) + c = 0 by intros; ring, abs_zero]
        exact hc
      · rw [hs' t hp, ← ha.diff.run t ht]
        exact m1 t hp ht i
    · intro t ht i
      rw [hs, ← ha.diff.run t ht]
      exact m2 t ht i
    · intro i
      rw [hs' _ hT, ← ha.diff.ter]
      exact m3 i
    · intro t ht i
      rw [← ha.gaps t ht]
      exact m4 t ht.le i
  · rintro ⟨m1, m2, m3, m4, m5⟩
    refine ⟨?_, ?_, ?_, ?_, m5⟩
    · intro t hp ht i
      have := m1 t ht i
      rw [hs, hs' t hp, ← ha.diff.run t ht] at this
      exact this
    · intro t ht i
      have := m2 t ht i
      rw [hs, ← ha.diff.run t ht] at this
      exact this
    · intro i
      have := m3 i
      rw [hs' _ hT, ← ha.diff.ter] at this
      exact this
    · intro t ht i
      rcases Nat.eq_or_lt_of_le ht with rfl | ht
      · rw [hgT, Pi.zero_apply, abs_zero]; exact hc
      · rw [ha.gaps t ht]; exact m4 t ht i

/-- **C73.**  If `solve` of the Python class `CSQP` returns true, then the candidate it leaves, with the constraint multipliers it
holds, satisfies stationarity and feasibility of the *nonlinear* constrained problem (not the sign and complementarity conditions)
up to the residual it stores, which is strictly below the tolerance and the least such bound; the candidate starts at the
problem's initial state, and the problem's datas, cost, gap norm and constraint norm are those of that candidate. -/
theorem C73_pycsqp_certificate {xs : Option (Traj P)} {us : Option (Ctrls P)} {m : ℕ} {p p' : PyCSQP P} (hT : 0 < P.T)
    (hr : Reachable p) (hint : ∀ x, P.integrate x 0 = x) (h : solve L xs us m p = (.ret true, p')) :
    p'.KKT < p.tol ∧
    (∀ c, 0 ≤ c → (p'.KKT ≤ c ↔ IsCKKT P c p'.xs p'.us (certLam P p'.xs p'.us p'.lagMul p'.q.y) p'.q.y)) ∧
    IsCKKT P p.tol p'.xs p'.us (certLam P p'.xs p'.us p'.lagMul p'.q.y) p'.q.y ∧
    p'.xs 0 = P.x0 ∧ FreshCalc P p'.data p'.xs p'.us ∧ FreshDiff P p'.data p'.xs p'.us ∧ p'.cost = trajCost P p'.xs p'.us ∧
    p'.gapNorm = shootGapNorm P p'.xs p'.us ∧ p'.con = violation P p'.xs p'.us := by
  have hs : (p.start xs us).q.Zero0 := hr.clean.zero0
  have key : ∃ i q q1, Heads L (p.start xs us) i q ∧ ∃ j, dirAt L j q = .ok q1 ∧ passes q1 = true ∧ p' = q1.kktCheck := by
    rcases solve_cases h with ⟨j, q, -, hq, he⟩ | ⟨q, hq, ⟨-, ho, -⟩ | ⟨-, q1, -, ho, -⟩ | ⟨-, q1, h1, ho, rfl⟩⟩
    · generalize ho : PyOut.ret true = o at he
      cases he with
      | zeroDiv h => cases ho
      | gaveUp h hk hs => cases ho
      | @conv q1 h1 hk => exact ⟨j, q, q1, hq, j, h1, hk, rfl⟩
    · cases ho
    · cases ho
    · cases ho' : passes q1 with
      | false => rw [ho'] at ho; cases ho
      | true => exact ⟨m, q, q1, hq, 1, h1, ho', rfl⟩
  obtain ⟨i, q, q1, hq, j, h1, hk, rfl⟩ := key
  obtain ⟨ha, ex, eu⟩ := dirAt_atPoint h1
  have hx := hq.x0 hint hs (by simp only [start, Function.update_self])
  have hkeep : keep q = keep p := hq.keep
  have hg : q.gap P.T = 0 := (keep_all hkeep).2.2.2.2.2.2.2.2.1.trans hr.clean.gap
  have htol : q1.tol = p.tol := (keep_all (keep_dirAt h1)).2.2.2.2.1.trans (keep_all hkeep).2.2.2.2.1
  have hlt : q1.kktCheck.KKT < p.tol := by
    unfold passes at hk
    rw [htol] at hk
    simpa using hk
  have hc := fun c hc => passes_cert hT hg h1 c hc
  refine ⟨hlt, hc, (hc _ (le_trans (kktCheck_nonneg q1) hlt.le)).1 hlt.le, ?_, ha.calc_, ha.diff, ha.cost, ?_, ?_⟩
  · exact (congrFun ex 0).trans hx
  · have hgT : q1.gap P.T = 0 := (keep_all (keep_dirAt h1)).2.2.2.2.2.2.2.2.1.trans hg
    have := ha.gapNorm
    rw [hgT] at this
    have h2 : q1.gapNorm = shootGapNorm P q1.xs q1.us := by simpa using this
    exact h2
  · have := ha.con
    rw [conViol_exact] at this
    exact this

end
end PyCSQP
end Mim
