import Verif.Model.PyCppSQP
import Verif.Lemmas.PySQPLoop

/-!
# The Python class `SQP_CPP`: what each function writes
-/
set_option linter.unusedSectionVars false
set_option linter.unusedSimpArgs false

namespace Mim
open Spec Matrix

namespace SQPCpp
section
variable {F : Type} [Add F] [Sub F] [Mul F] [Div F] [Neg F] [Zero F] [One F] [FloatOps F] {P : Problem F}

/-! ### calc -/

theorem evaluate_fresh (s : SQPCpp P) :
    FreshCalc P s.evaluate.data s.xs s.us ∧ FreshDiff P s.evaluate.data s.xs s.us := by
  refine ⟨⟨fun t ht => ?_, rfl⟩, ⟨fun t ht => ?_, rfl⟩⟩
  · simp only [evaluate, Data.calcDiffAll, Data.calcAll, ht, if_true]
  · simp only [evaluate, Data.calcDiffAll, Data.calcAll, ht, if_true]

theorem evaluate_cost (s : SQPCpp P) : s.evaluate.cost = trajCost P s.xs s.us := by
  simp only [evaluate, Data.totalCost, Data.calcDiffAll, Data.calcAll]
  unfold trajCost
  congr 1
  exact sumUp_congr _ _ _ fun t ht => by simp only [ht, if_true]; rfl

/-! ### computeUpdates -/

theorem computeUpdates_spec (p : SQPCpp P) :
    ∃ dx du lam xg ug, computeUpdates p = { p with dx := dx, du := du, lagMul := lam, xGrad := xg, uGrad := ug } ∧
      dx 0 = p.dx 0 ∧
      (∀ t, t < P.T → du t = mv (-(p.bp.K t)) (dx t) - p.bp.k t) ∧
      (∀ t, t < P.T → dx (t + 1) = mv ((p.data.rd t).Fx + mm (-(p.data.rd t).Fu) (p.bp.K t)) (dx t) +
        mv (-(p.data.rd t).Fu) (p.bp.k t) + p.fs (t + 1)) ∧
      (∀ t, t ≤ P.T → lam t = mv (p.bp.Vxx t) (dx t - p.fs t) + p.bp.Vx t) := by
  have key : ∀ n, n ≤ P.T → ∃ dx du lam, forUp n updateStage p = { p with dx := dx, du := du, lagMul := lam } ∧
      dx 0 = p.dx 0 ∧
      (∀ t, t < n → du t = mv (-(p.bp.K t)) (dx t) - p.bp.k t) ∧
      (∀ t, t < n → dx (t + 1) = mv ((p.data.rd t).Fx + mm (-(p.data.rd t).Fu) (p.bp.K t)) (dx t) +
        mv (-(p.data.rd t).Fu) (p.bp.k t) + p.fs (t + 1)) ∧
      (∀ t, t < n → lam t = mv (p.bp.Vxx t) (dx t - p.fs t) + p.bp.Vx t) := by
    intro n
    induction n with
    | zero => intro _; exact ⟨p.dx, p.du, p.lagMul, rfl, rfl, fun t h => by omega, fun t h => by omega, fun t h => by omega⟩
    | succ n ih =>
      intro hn
      obtain ⟨dx, du, lam, e, a0, a1, a2, a3⟩ := ih (by omega)
      refine ⟨_, _, _, by rw [forUp_succ, e]; rfl, ?_, ?_, ?_, ?_⟩
      · rw [Function.update_of_ne (by omega)]; exact a0
      · intro t ht
        rcases Nat.lt_succ_iff_lt_or_eq.mp ht with h | rfl
        · rw [Function.update_of_ne (by omega), Function.update_of_ne (by omega)]; exact a1 t h
        · rw [Function.update_self, Function.update_of_ne (by omega)]
      · intro t ht
        rcases Nat.lt_succ_iff_lt_or_eq.mp ht with h | rfl
        · rw [Function.update_of_ne (by omega), Function.update_of_ne (by omega)]; exact a2 t h
        · rw [Function.update_self, Function.update_of_ne (by omega)]
      · intro t ht
        rcases Nat.lt_succ_iff_lt_or_eq.mp ht with h | rfl
        · rw [Function.update_of_ne (by omega), Function.update_of_ne (by omega)]; exact a3 t h
        · rw [Function.update_self, Function.update_of_ne (by omega)]
  obtain ⟨dx, du, lam, e, a0, a1, a2, a3⟩ := key P.T le_rfl
  refine ⟨dx, du, _, _, _, by unfold computeUpdates; rw [e], a0, a1, a2, ?_⟩
  intro t ht
  rcases Nat.eq_or_lt_of_le ht with rfl | ht
  · simp only [Function.update_self]
  · simp only []
    rw [Function.update_of_ne (by omega)]; exact a3 t ht

/-! ### tryStep -/

theorem trialPoint_spec (a : F) (p : SQPCpp P) :
    ∃ X U, trialPoint a p = { p with xsTry := X, usTry := U } ∧ (∀ t, t ≤ P.T → X t = stepX P p.xs p.dx a t) ∧
      ∀ t, t < P.T → U t = stepU P p.us p.du a t := by
  have key : ∀ n, ∃ X U, forUp n (fun t (p : SQPCpp P) => { p with
      xsTry := Function.update p.xsTry t (P.integrate (p.xs t) (sv a (p.dx t)))
      usTry := Function.update p.usTry t (p.us t + sv a (p.du t)) }) p = { p with xsTry := X, usTry := U } ∧
      (∀ t, t < n → X t = stepX P p.xs p.dx a t) ∧ ∀ t, t < n → U t = stepU P p.us p.du a t := by
    intro n
    induction n with
    | zero => exact ⟨p.xsTry, p.usTry, rfl, fun t h => by omega, fun t h => by omega⟩
    | succ n ih =>
      obtain ⟨X, U, e, a1, a2⟩ := ih
      refine ⟨_, _, by rw [forUp_succ, e], ?_, ?_⟩
      · intro t ht
        by_cases et : t = n
        · subst et; rw [Function.update_self]; rfl
        · rw [Function.update_of_ne et]; exact a1 t (by omega)
      · intro t ht
        by_cases et : t = n
        · subst et; rw [Function.update_self]; rfl
        · rw [Function.update_of_ne et]; exact a2 t (by omega)
  obtain ⟨X, U, e, a1, a2⟩ := key P.T
  refine ⟨_, U, by unfold trialPoint; simp only []; rw [e], ?_, a2⟩
  intro t ht
  rcases Nat.eq_or_lt_of_le ht with rfl | ht
  · simp only [Function.update_self]; rfl
  · simp only []
    rw [Function.update_of_ne (by omega)]; exact a1 t ht

theorem tryStep_spec (a : F) (p : SQPCpp P) :
    let X := stepX P p.xs p.dx a
    let U := stepU P p.us p.du a
    ∃ xt ut d g, tryStep a p = { p with
        xsTry := xt, usTry := ut, data := d, gapTry := g
        costTry := trajCost P X U, gapNormTry := (shootGapNorm P X U + norm1 (p.gapTry P.T)) / lit (P.T : ℚ)
        meritTry := trajCost P X U + p.mu * ((shootGapNorm P X U + norm1 (p.gapTry P.T)) / lit (P.T : ℚ)) } ∧
      (∀ t, t ≤ P.T → xt t = X t) ∧ (∀ t, t < P.T → ut t = U t) ∧ FreshCalc P d X U ∧ d.rd = p.data.rd ∧ d.td = p.data.td ∧
      g P.T = p.gapTry P.T := by
  simp only []
  obtain ⟨xt, ut, e, hx, hu⟩ := trialPoint_spec a { p with meritTry := 0, costTry := 0 }
  have key : ∀ n, n ≤ P.T → ∃ d g, forUp n tryNode ({ p with meritTry := 0, costTry := 0, xsTry := xt, usTry := ut } : SQPCpp P) =
      { p with
        meritTry := 0, xsTry := xt, usTry := ut, data := d, gapTry := g
        costTry := sumUp n (nodeCost P (stepX P p.xs p.dx a) (stepU P p.us p.du a)) } ∧
      (∀ t, t < n → d.run t = P.calcR t (stepX P p.xs p.dx a t) (stepU P p.us p.du a t)) ∧ d.rd = p.data.rd ∧
      d.td = p.data.td ∧ (∀ t, t < n → g t = shootGap P (stepX P p.xs p.dx a) (stepU P p.us p.du a) t) ∧
      ∀ t, n ≤ t → g t = p.gapTry t := by
    intro n
    induction n with
    | zero => intro _; exact ⟨p.data, p.gapTry, rfl, fun t h => by omega, rfl, rfl, fun t h => by omega, fun t _ => rfl⟩
    | succ n ih =>
      intro hn
      obtain ⟨d, g, e, a1, a2, a3, a4, a5⟩ := ih (by omega)
      have hxn := hx n (by omega)
      have hxn1 := hx (n + 1) (by omega)
      have hun := hu n (by omega)
      simp only [] at hxn hxn1 hun
      refine ⟨d.calcNode n (stepX P p.xs p.dx a n) (stepU P p.us p.du a n),
        Function.update g n (shootGap P (stepX P p.xs p.dx a) (stepU P p.us p.du a) n), ?_, ?_, a2, a3, ?_, ?_⟩
      · rw [forUp_succ, e, sumUp_succ]
        simp only [tryNode, hxn, hxn1, hun, Data.calcNode, Function.update_self]
        rfl
      · intro t ht
        simp only [Data.calcNode]
        by_cases et : t = n
        · subst et; rw [Function.update_self]
        · rw [Function.update_of_ne et]; exact a1 t (by omega)
      · intro t ht
        by_cases et : t = n
        · subst et; rw [Function.update_self]
        · rw [Function.update_of_ne et]; exact a4 t (by omega)
      · intro t ht
        rw [Function.update_of_ne (by omega)]; exact a5 t (by omega)
  obtain ⟨d, g, e2, a1, a2, a3, a4, a5⟩ := key P.T le_rfl
  have hxT := hx P.T le_rfl
  have hg : rowsNorm g = shootGapNorm P (stepX P p.xs p.dx a) (stepU P p.us p.du a) + norm1 (p.gapTry P.T) := by
    unfold rowsNorm shootGapNorm
    rw [sumUp_succ, a5 P.T le_rfl]
    congr 1
    exact sumUp_congr _ _ _ fun t ht => by rw [a4 t ht]
  refine ⟨xt, ut, d.calcTer (stepX P p.xs p.dx a P.T), g, ?_, hx, hu, ⟨a1, rfl⟩, a2, a3, a5 P.T le_rfl⟩
  unfold tryStep
  simp only []
  rw [e, e2]
  simp only [hg, hxT, Data.calcTer]
  rfl

/-- what the parts of `solve` leave alone. -/
def keep (p : SQPCpp P) := (p.mu, p.tol, p.useFilter, p.filterSize, p.preg, p.dreg, p.dx 0, p.gapTry P.T)

theorem keep_all {p q : SQPCpp P} (h : keep p = keep q) : p.mu = q.mu ∧ p.tol = q.tol ∧ p.useFilter = q.useFilter ∧
    p.filterSize = q.filterSize ∧ p.preg = q.preg ∧ p.dreg = q.dreg ∧ p.dx 0 = q.dx 0 ∧ p.gapTry P.T = q.gapTry P.T := by
  simpa only [keep, Prod.mk.injEq] using h

theorem keep_try (a : F) (p : SQPCpp P) : keep (tryStep a p) = keep p := by
  obtain ⟨xt, ut, d, g, e, -, -, -, -, -, hg⟩ := tryStep_spec a p
  rw [e]
  unfold keep
  simp only [hg]

/-- a point with cost `c` and gap norm `g` is strictly worse, in both, than one of the filter entries in use. -/
def Dominated (p : SQPCpp P) (iter : ℕ) (c g : F) : Prop :=
  ∃ j, j < p.filterSize ∧ j ≤ iter ∧ ltb (p.costList.get (p.filterSize - 1 - j)) c = true ∧
    ltb (p.gapList.get (p.filterSize - 1 - j)) g = true

theorem worse_iff (iter : ℕ) (p : SQPCpp P) : p.worse iter = true ↔ Dominated p iter p.costTry p.gapNormTry := by
  unfold worse Dominated
  rw [PySQP.filterLoop_iff]
  constructor
  · rintro ⟨j, -, -, h1, h2, h3, h4⟩
    exact ⟨j, h1, h2, h3, h4⟩
  · rintro ⟨j, h1, h2, h3, h4⟩
    exact ⟨j, Nat.zero_le _, by omega, h1, h2, h3, h4⟩

/-! ### the line search -/

/-- gap norm of the trial of step length `a` as `tryStep` measures it. -/
def trialGap (p : SQPCpp P) (a : F) : F :=
  (shootGapNorm P (stepX P p.xs p.dx a) (stepU P p.us p.du a) + norm1 (p.gapTry P.T)) / lit (P.T : ℚ)

/-- cost of the trial of step length `a`. -/
def trialCost (p : SQPCpp P) (a : F) : F := trajCost P (stepX P p.xs p.dx a) (stepU P p.us p.du a)

/-- the line search would take the step length `a`. -/
def Good (p : SQPCpp P) (iter : ℕ) (a : F) : Prop :=
  if p.useFilter then ¬ Dominated p iter (trialCost p a) (trialGap p a)
  else ltb (trialCost p a + p.mu * trialGap p a) p.merit = true

/-- `q` differs from `p` in what trials write only. -/
def Trials (p q : SQPCpp P) : Prop :=
  ∃ xt ut d g ct gt mt nr, q = { p with
      xsTry := xt, usTry := ut, data := d, gapTry := g, costTry := ct, gapNormTry := gt, meritTry := mt, nRej := nr } ∧
    d.rd = p.data.rd ∧ d.td = p.data.td ∧ g P.T = p.gapTry P.T

theorem Trials.refl (p : SQPCpp P) : Trials p p := ⟨_, _, _, _, _, _, _, _, rfl, rfl, rfl, rfl⟩

theorem Trials.trans {p q r : SQPCpp P} (h : Trials p q) (h' : Trials q r) : Trials p r := by
  obtain ⟨_, _, _, _, _, _, _, _, rfl, a1, a2, a3⟩ := h
  obtain ⟨_, _, _, _, _, _, _, _, rfl, b1, b2, b3⟩ := h'
  exact ⟨_, _, _, _, _, _, _, _, rfl, b1.trans a1, b2.trans a2, b3.trans a3⟩

theorem Trials.keep {p q : SQPCpp P} (h : Trials p q) : SQPCpp.keep q = SQPCpp.keep p := by
  obtain ⟨_, _, _, _, _, _, _, _, rfl, -, -, h⟩ := h
  unfold SQPCpp.keep
  simp only [h]

theorem Trials.good {p q : SQPCpp P} (h : Trials p q) (iter : ℕ) (a : F) : Good q iter a ↔ Good p iter a := by
  obtain ⟨_, _, _, _, _, _, _, _, rfl, -, -, h⟩ := h
  unfold Good Dominated trialCost trialGap
  simp only [h]

theorem try_trials (a : F) (p : SQPCpp P) : Trials p (tryStep a p) := by
  obtain ⟨xt, ut, d, g, e, -, -, -, h1, h2, h3⟩ := tryStep_spec a p
  rw [e]
  exact ⟨_, _, _, _, _, _, _, _, rfl, h1, h2, h3⟩

/-- `q` is the result of taking the step of length `a` from `p`. -/
structure Took (p : SQPCpp P) (a : F) (q : SQPCpp P) : Prop where
  xs : ∀ t, t ≤ P.T → q.xs t = stepX P p.xs p.dx a t
  us : ∀ t, t < P.T → q.us t = stepU P p.us p.du a t
  calc_ : FreshCalc P q.data q.xs q.us
  costTry : q.costTry = trialCost p a
  gapNormTry : q.gapNormTry = trialGap p a
  frame : ∃ xs us, Trials { p with xs := xs, us := us } q

theorem Took.keep {p q : SQPCpp P} {a : F} (h : Took p a q) : SQPCpp.keep q = SQPCpp.keep p := by
  obtain ⟨xs, us, h⟩ := h.frame
  exact h.keep

theorem accept_took {p q : SQPCpp P} (h : Trials p q) (a : F) : Took p a (tryStep a q).acceptStep := by
  have h3 : q.gapTry P.T = p.gapTry P.T := (keep_all h.keep).2.2.2.2.2.2.2
  obtain ⟨xt, ut, d, g, e, hx, hu, hc, h1, h2, hg⟩ := tryStep_spec a q
  rw [hg.symm.trans (hg.trans rfl)] at hg
  obtain ⟨_, _, _, _, _, _, _, _, rfl, a1, a2, a3⟩ := h
  simp only [] at hx hu hc h1 h2 hg h3
  refine ⟨?_, ?_, ?_, ?_, ?_, xt, ut, ?_⟩
  · rw [e]; exact hx
  · rw [e]; exact hu
  · rw [e]
    refine ⟨fun t ht => ?_, ?_⟩
    · simp only [acceptStep]; rw [hx t ht.le, hu t ht]; exact hc.run t ht
    · simp only [acceptStep]; rw [hx _ le_rfl]; exact hc.ter
  · rw [e]; rfl
  · rw [e]
    simp only [acceptStep, trialGap, h3]
  · rw [e]
    exact ⟨_, _, _, _, _, _, _, _, rfl, h1.trans a1, h2.trans a2, hg.trans h3⟩

theorem try_good (a : F) (iter : ℕ) {p q : SQPCpp P} (h : Trials p q) :
    (q.useFilter = true → ((tryStep a q).worse iter = true ↔ ¬ Good p iter a)) ∧
    (q.useFilter = false → (ltb (tryStep a q).meritTry (tryStep a q).merit = true ↔ Good p iter a)) := by
  rw [← h.good]
  obtain ⟨xt, ut, d, g, e, -⟩ := tryStep_spec a q
  constructor
  · intro hf
    rw [worse_iff]
    unfold Good
    rw [if_pos hf, not_not, e]
    exact Iff.rfl
  · intro hf
    unfold Good
    rw [hf, if_neg Bool.false_ne_true, e]
    exact Iff.rfl

/-- **the line search**: it takes the first acceptable step length, among the first ten (filter) or nine (merit). -/
theorem search_spec (iter n : ℕ) {p q : SQPCpp P} (h : Trials p q) (j : ℕ) {r : PySQP.Search} {a : F} {q' : SQPCpp P}
    (e : search iter n (PySQP.halve j) q = (r, a, q')) :
    (r = .accepted ∧ ∃ k, j ≤ k ∧ k < j + n ∧ (p.useFilter = false → k + 1 < j + n) ∧ a = PySQP.halve k ∧ Good p iter a ∧
      (∀ i, j ≤ i → i < k → ¬ Good p iter (PySQP.halve i)) ∧ Took p a q') ∨
    (r = .exhausted ∧ (p.useFilter = true ∨ n = 0) ∧ a = PySQP.halve (j + n) ∧ (∀ i, j ≤ i → i < j + n → ¬ Good p iter (PySQP.halve i)) ∧ Trials p q') ∨
    (r = .gaveUp ∧ p.useFilter = false ∧ 0 < n ∧ a = PySQP.halve (j + n - 1) ∧
      (∀ i, j ≤ i → i + 1 < j + n → ¬ Good p iter (PySQP.halve i)) ∧ Trials p q') := by
  induction n generalizing j q with
  | zero =>
    unfold search at e
    simp only [Prod.mk.injEq] at e
    obtain ⟨rfl, rfl, rfl⟩ := e
    refine .inr (.inl ⟨rfl, .inr rfl, rfl, fun i h1 h2 => by omega, ?_⟩)
    obtain ⟨_, _, _, _, _, _, _, _, rfl, a1, a2, a3⟩ := h
    exact ⟨_, _, _, _, _, _, _, _, rfl, a1, a2, a3⟩
  | succ n ih =>
    have ht : Trials p (tryStep (PySQP.halve j) q) := h.trans (try_trials _ _)
    obtain ⟨g1, g2⟩ := try_good (PySQP.halve j) iter h
    have hu : (tryStep (PySQP.halve j) q).useFilter = p.useFilter := (keep_all ht.keep).2.2.1
    have hq : q.useFilter = p.useFilter := (keep_all h.keep).2.2.1
    unfold search at e
    simp only [] at e
    rw [hu] at e
    rw [hq] at g1 g2
    have rec_ : ∀ (_ : ¬ Good p iter (PySQP.halve j)) (_ : p.useFilter = false → 0 < n), search iter n (PySQP.halve (j + 1)) (tryStep (PySQP.halve j) q) = (r, a, q') →
        (r = .accepted ∧ ∃ k, j ≤ k ∧ k < j + (n + 1) ∧ (p.useFilter = false → k + 1 < j + (n + 1)) ∧ a = PySQP.halve k ∧ Good p iter a ∧
          (∀ i, j ≤ i → i < k → ¬ Good p iter (PySQP.halve i)) ∧ Took p a q') ∨
        (r = .exhausted ∧ (p.useFilter = true ∨ n + 1 = 0) ∧ a = PySQP.halve (j + (n + 1)) ∧ (∀ i, j ≤ i → i < j + (n + 1) → ¬ Good p iter (PySQP.halve i)) ∧
          Trials p q') ∨
        (r = .gaveUp ∧ p.useFilter = false ∧ 0 < n + 1 ∧ a = PySQP.halve (j + (n + 1) - 1) ∧
          (∀ i, j ≤ i → i + 1 < j + (n + 1) → ¬ Good p iter (PySQP.halve i)) ∧ Trials p q') := by
      intro hb hn e
      rcases ih ht (j + 1) e with ⟨rfl, k, k1, k2, k3, k4, k5, k6, k7⟩ | ⟨rfl, i1, i2, i3, i4⟩ | ⟨rfl, i1, i2, i3, i4, i5⟩
      · refine .inl ⟨rfl, k, by omega, by omega, fun hx => by have := k3 hx; omega, k4, k5, fun i h1 h2 => ?_, k7⟩
        by_cases ei : i = j
        · subst ei; exact hb
        · exact k6 i (by omega) h2
      · refine .inr (.inl ⟨rfl, ?_, ?_, fun i h1 h2 => ?_, i4⟩)
        · cases hf : p.useFilter with
          | true => exact .inl rfl
          | false =>
            rcases i1 with i1 | i1
            · rw [hf] at i1; cases i1
            · have := hn hf; omega
        · rw [i2]; congr 1; omega
        · by_cases ei : i = j
          · subst ei; exact hb
          · exact i3 i (by omega) (by omega)
      · refine .inr (.inr ⟨rfl, i1, by omega, ?_, fun i h1 h2 => ?_, i5⟩)
        · rw [i3]; congr 1; omega
        · by_cases ei : i = j
          · subst ei; exact hb
          · exact i4 i (by omega) (by omega)
    cases hf : p.useFilter with
    | true =>
      rw [hf] at e
      simp only [if_true] at e
      split at e
      · rename_i hw
        exact hf ▸ rec_ ((g1 hf).1 hw) (fun hx => by rw [hf] at hx; cases hx) e
      · rename_i hw
        simp only [Prod.mk.injEq] at e
        obtain ⟨rfl, rfl, rfl⟩ := e
        refine .inl ⟨rfl, j, le_rfl, by omega, (fun hx => by cases hx), rfl, ?_, fun i h1 h2 => by omega, accept_took h _⟩
        by_contra hb
        exact hw ((g1 hf).2 hb)
    | false =>
      rw [hf] at e
      simp only [Bool.false_eq_true, if_false] at e
      split at e
      · rename_i hn
        simp only [Prod.mk.injEq] at e
        obtain ⟨rfl, rfl, rfl⟩ := e
        subst hn
        exact .inr (.inr ⟨rfl, rfl, by omega, rfl, fun i h1 h2 => by omega, ht⟩)
      · rename_i hn
        split at e
        · rename_i hm
          simp only [Prod.mk.injEq] at e
          obtain ⟨rfl, rfl, rfl⟩ := e
          exact .inl ⟨rfl, j, le_rfl, by omega, fun _ => by omega, rfl, (g2 hf).1 hm, fun i h1 h2 => by omega, accept_took h _⟩
        · rename_i hm
          exact hf ▸ rec_ (fun hg => hm ((g2 hf).2 hg)) (fun _ => by omega) e

end
end SQPCpp
end Mim
