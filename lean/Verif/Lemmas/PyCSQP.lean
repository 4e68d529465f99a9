import Verif.Model.PyCSQP
import Verif.Lemmas.PySQPLoop
import Verif.Spec.Constrained

/-!
# The main loop of the Python `CSQP`
-/
set_option linter.unusedSectionVars false
set_option linter.unusedSimpArgs false

namespace Mim
open Spec

namespace PyCSQP
section
variable {F : Type} [Add F] [Sub F] [Mul F] [Div F] [Neg F] [Zero F] [One F] [FloatOps F] {P : Problem F}

/-- options and the array entries that only the constructor writes. -/
def keep (p : PyCSQP P) :=
  (p.c, p.mu1, p.mu2, p.lagCoef, p.tol, p.useFilter, p.filterSize, p.extra, p.gap P.T, p.gapTry P.T)

theorem keep_all {p q : PyCSQP P} (h : keep p = keep q) : p.c = q.c ∧ p.mu1 = q.mu1 ∧ p.mu2 = q.mu2 ∧ p.lagCoef = q.lagCoef ∧
    p.tol = q.tol ∧ p.useFilter = q.useFilter ∧ p.filterSize = q.filterSize ∧ p.extra = q.extra ∧ p.gap P.T = q.gap P.T ∧
    p.gapTry P.T = q.gapTry P.T := by
  unfold keep at h
  simpa using h

theorem keep_evaluate (p : PyCSQP P) : keep p.evaluate = keep p := by
  unfold keep
  have : p.evaluate.gap P.T = p.gap P.T := PySQP.gaps_ter _ _ _
  rw [this]
  rfl

/-! ### `calc` -/

theorem evaluate_fresh (p : PyCSQP P) :
    FreshCalc P p.evaluate.data p.xs p.us ∧ FreshDiff P p.evaluate.data p.xs p.us := by
  refine ⟨⟨fun t ht => ?_, rfl⟩, ⟨fun t ht => ?_, rfl⟩⟩
  · simp only [evaluate, Data.calcDiffAll, Data.calcAll, ht, if_true]
  · simp only [evaluate, Data.calcDiffAll, Data.calcAll, ht, if_true]

theorem evaluate_cost (p : PyCSQP P) : p.evaluate.cost = trajCost P p.xs p.us := by
  simp only [evaluate, Data.totalCost, Data.calcDiffAll, Data.calcAll]
  unfold trajCost
  congr 1
  exact sumUp_congr _ _ _ fun t ht => by simp only [ht, if_true]; rfl

theorem evaluate_gap (p : PyCSQP P) : (∀ t, t < P.T → p.evaluate.gap t = shootGap P p.xs p.us t) ∧
    p.evaluate.gap P.T = p.gap P.T := by
  refine ⟨fun t ht => ?_, PySQP.gaps_ter _ _ _⟩
  have h := PySQP.gaps_run p.evaluate.data p.xs p.gap t ht
  rw [(evaluate_fresh p).1.run t ht] at h
  exact h

theorem evaluate_gapNorm (p : PyCSQP P) :
    p.evaluate.gapNorm = shootGapNorm P p.xs p.us + norm1 (p.gap P.T) := by
  have : p.evaluate.gapNorm = rowsNorm p.evaluate.gap := rfl
  rw [this, rowsNorm, sumUp_succ, (evaluate_gap p).2]
  unfold shootGapNorm
  congr 1
  exact sumUp_congr _ _ _ fun t ht => by rw [(evaluate_gap p).1 t ht]

theorem forUp_congr {S : Type*} (n : ℕ) (f g : ℕ → S → S) (s : S) (h : ∀ t, t < n → ∀ s, f t s = g t s) :
    forUp n f s = forUp n g s := by
  induction n with
  | zero => rfl
  | succ n ih => rw [forUp_succ, forUp_succ, ih fun t ht => h t (by omega), h n (by omega)]

theorem conNorm_fresh {d : Data P} {xs : Traj P} {us : Ctrls P} (h : FreshCalc P d xs us) : conNorm d = conViol P xs us := by
  unfold conNorm conViol
  rw [h.ter, forUp_congr P.T _ _ _ fun t ht s => by rw [h.run t ht]]

theorem evaluate_con (p : PyCSQP P) : p.evaluate.con = conViol P p.xs p.us :=
  (conNorm_fresh (evaluate_fresh p).1 :)

/-- the weight both merit functions use: a multiple of the multipliers' norm, or the two constants. -/
theorem meritOf_eq (p : PyCSQP P) (c g v : F) : p.meritOf c g v =
    if p.auto then c + p.lagCoef * p.lagInf * (g + v) else c + p.mu1 * g + p.mu2 * v := rfl

theorem evaluate_merit (p : PyCSQP P) :
    p.evaluate.merit = p.evaluate.meritOf (trajCost P p.xs p.us) (shootGapNorm P p.xs p.us + norm1 (p.gap P.T)) (conViol P p.xs p.us) := by
  rw [← evaluate_gapNorm, ← evaluate_cost, ← evaluate_con]
  rfl

/-! ### `tryStep` -/

theorem trialPoint_spec (a : F) (p : PyCSQP P) :
    ∃ X U, trialPoint a p = { p with xsTry := X, usTry := U } ∧ (∀ t, t ≤ P.T → X t = stepX P p.xs p.q.dx a t) ∧
      ∀ t, t < P.T → U t = stepU P p.us p.q.du a t := by
  have key : ∀ n, ∃ X U, forUp n (fun t (p : PyCSQP P) => { p with
      xsTry := Function.update p.xsTry t (P.integrate (p.xs t) (sv a (p.q.dx t)))
      usTry := Function.update p.usTry t (p.us t + sv a (p.q.du t)) }) p = { p with xsTry := X, usTry := U } ∧
      (∀ t, t < n → X t = stepX P p.xs p.q.dx a t) ∧ ∀ t, t < n → U t = stepU P p.us p.q.du a t := by
    intro n
    induction n with
    | zero => exact ⟨p.xsTry, p.usTry, rfl, fun t h => by omega, fun t h => by omega⟩
    | succ n ih =>
      obtain ⟨X, U, e, a1, a2⟩ := ih
      refine ⟨_, _, by rw [forUp_succ, e], ?_, ?_⟩
      · intro t ht
        by_cases et : t = n
        · subst et; rw [Function.update_self]; rfl
        · rw [Function.update_of_ne et]; exact a1 t (by omega)
      · intro t ht
        by_cases et : t = n
        · subst et; rw [Function.update_self]; rfl
        · rw [Function.update_of_ne et]; exact a2 t (by omega)
  obtain ⟨X, U, e, a1, a2⟩ := key P.T
  refine ⟨_, U, by unfold trialPoint; simp only []; rw [e], ?_, a2⟩
  intro t ht
  rcases Nat.eq_or_lt_of_le ht with rfl | ht
  · simp only [Function.update_self]; rfl
  · simp only []
    rw [Function.update_of_ne (by omega)]; exact a1 t ht

theorem tryStep_spec (a : F) (p : PyCSQP P) :
    let X := stepX P p.xs p.q.dx a
    let U := stepU P p.us p.q.du a
    ∃ xt ut d g, tryStep a p = { p with
        xsTry := xt, usTry := ut, data := d, gapTry := g
        costTry := trajCost P X U, gapNormTry := shootGapNorm P X U + norm1 (p.gapTry P.T), conTry := conViol P X U
        meritTry := p.meritOf (trajCost P X U) (shootGapNorm P X U + norm1 (p.gapTry P.T)) (conViol P X U) } ∧
      (∀ t, t ≤ P.T → xt t = X t) ∧ (∀ t, t < P.T → ut t = U t) ∧ FreshCalc P d X U ∧ d.rd = p.data.rd ∧ d.td = p.data.td ∧
      g P.T = p.gapTry P.T := by
  simp only []
  obtain ⟨xt, ut, e, hx, hu⟩ := trialPoint_spec a { p with meritTry := 0, conTry := 0, costTry := 0 }
  have key : ∀ n, n ≤ P.T → ∃ d g, forUp n tryNode ({ p with meritTry := 0, conTry := 0, costTry := 0, xsTry := xt, usTry := ut } : PyCSQP P) =
      { p with
        meritTry := 0, xsTry := xt, usTry := ut, data := d, gapTry := g
        costTry := sumUp n (nodeCost P (stepX P p.xs p.q.dx a) (stepU P p.us p.q.du a))
        conTry := forUp n (fun t acc => addViol (P.lb t) (P.ub t)
          (P.calcR t (stepX P p.xs p.q.dx a t) (stepU P p.us p.q.du a t)).g acc) 0 } ∧
      (∀ t, t < n → d.run t = P.calcR t (stepX P p.xs p.q.dx a t) (stepU P p.us p.q.du a t)) ∧ d.rd = p.data.rd ∧
      d.td = p.data.td ∧ (∀ t, t < n → g t = shootGap P (stepX P p.xs p.q.dx a) (stepU P p.us p.q.du a) t) ∧
      ∀ t, n ≤ t → g t = p.gapTry t := by
    intro n
    induction n with
    | zero => intro _; exact ⟨p.data, p.gapTry, rfl, fun t h => by omega, rfl, rfl, fun t h => by omega, fun t _ => rfl⟩
    | succ n ih =>
      intro hn
      obtain ⟨d, g, e, a1, a2, a3, a4, a5⟩ := ih (by omega)
      have hxn := hx n (by omega)
      have hxn1 := hx (n + 1) (by omega)
      have hun := hu n (by omega)
      simp only [] at hxn hxn1 hun
      refine ⟨d.calcNode n (stepX P p.xs p.q.dx a n) (stepU P p.us p.q.du a n),
        Function.update g n (shootGap P (stepX P p.xs p.q.dx a) (stepU P p.us p.q.du a) n), ?_, ?_, a2, a3, ?_, ?_⟩
      · rw [forUp_succ, e, sumUp_succ, forUp_succ]
        simp only [tryNode, hxn, hxn1, hun, Data.calcNode, Function.update_self]
        rfl
      · intro t ht
        simp only [Data.calcNode]
        by_cases et : t = n
        · subst et; rw [Function.update_self]
        · rw [Function.update_of_ne et]; exact a1 t (by omega)
      · intro t ht
        by_cases et : t = n
        · subst et; rw [Function.update_self]
        · rw [Function.update_of_ne et]; exact a4 t (by omega)
      · intro t ht
        rw [Function.update_of_ne (by omega)]; exact a5 t (by omega)
  obtain ⟨d, g, e2, a1, a2, a3, a4, a5⟩ := key P.T le_rfl
  have hxT := hx P.T le_rfl
  have hg : rowsNorm g = shootGapNorm P (stepX P p.xs p.q.dx a) (stepU P p.us p.q.du a) + norm1 (p.gapTry P.T) := by
    unfold rowsNorm shootGapNorm
    rw [sumUp_succ, a5 P.T le_rfl]
    congr 1
    exact sumUp_congr _ _ _ fun t ht => by rw [a4 t ht]
  refine ⟨xt, ut, d.calcTer (stepX P p.xs p.q.dx a P.T), g, ?_, hx, hu, ⟨a1, rfl⟩, a2, a3, a5 P.T le_rfl⟩
  unfold tryStep
  simp only []
  rw [e, e2]
  simp only [hg, hxT, Data.calcTer]
  rfl

/-! ### the line search -/

/-- gap norm of the trial of step length `a`. -/
def trialGap (p : PyCSQP P) (a : F) : F := shootGapNorm P (stepX P p.xs p.q.dx a) (stepU P p.us p.q.du a) + norm1 (p.gapTry P.T)

/-- cost of the trial. -/
def trialCost (p : PyCSQP P) (a : F) : F := trajCost P (stepX P p.xs p.q.dx a) (stepU P p.us p.q.du a)

/-- constraint violation of the trial. -/
def trialCon (p : PyCSQP P) (a : F) : F := conViol P (stepX P p.xs p.q.dx a) (stepU P p.us p.q.du a)

/-- a point with cost `c` and gap norm `g` is strictly worse, in both, than one of the filter entries in use. -/
def Dominated (p : PyCSQP P) (iter : ℕ) (c g : F) : Prop :=
  ∃ j, j < p.filterSize ∧ j ≤ iter ∧ ltb (p.costList.get (p.filterSize - 1 - j)) c = true ∧
    ltb (p.gapList.get (p.filterSize - 1 - j)) g = true

theorem worse_iff (iter : ℕ) (p : PyCSQP P) : p.worse iter = true ↔ Dominated p iter p.costTry p.gapNormTry := by
  unfold worse Dominated
  rw [PySQP.filterLoop_iff]
  constructor
  · rintro ⟨j, -, -, h1, h2, h3, h4⟩
    exact ⟨j, h1, h2, h3, h4⟩
  · rintro ⟨j, h1, h2, h3, h4⟩
    exact ⟨j, Nat.zero_le _, by omega, h1, h2, h3, h4⟩

/-- the line search would take the step length `a`. -/
def Good (p : PyCSQP P) (iter : ℕ) (a : F) : Prop :=
  if p.useFilter then ¬ Dominated p iter (trialCost p a) (trialGap p a)
  else ltb (p.meritOf (trialCost p a) (trialGap p a) (trialCon p a)) p.merit = true

/-- `q` differs from `p` in what trials write only. -/
def Trials (p q : PyCSQP P) : Prop :=
  ∃ xt ut d g ct gt vt mt nr, q = { p with
      xsTry := xt, usTry := ut, data := d, gapTry := g, costTry := ct, gapNormTry := gt, conTry := vt, meritTry := mt, nRej := nr } ∧
    d.rd = p.data.rd ∧ d.td = p.data.td ∧ g P.T = p.gapTry P.T

theorem Trials.refl (p : PyCSQP P) : Trials p p := ⟨_, _, _, _, _, _, _, _, _, rfl, rfl, rfl, rfl⟩

theorem Trials.trans {p q r : PyCSQP P} (h : Trials p q) (h' : Trials q r) : Trials p r := by
  obtain ⟨_, _, _, _, _, _, _, _, _, rfl, a1, a2, a3⟩ := h
  obtain ⟨_, _, _, _, _, _, _, _, _, rfl, b1, b2, b3⟩ := h'
  exact ⟨_, _, _, _, _, _, _, _, _, rfl, b1.trans a1, b2.trans a2, b3.trans a3⟩

theorem Trials.keep {p q : PyCSQP P} (h : Trials p q) : PyCSQP.keep q = PyCSQP.keep p := by
  obtain ⟨_, _, _, _, _, _, _, _, _, rfl, -, -, h⟩ := h
  unfold PyCSQP.keep
  simp only [h]

theorem Trials.good {p q : PyCSQP P} (h : Trials p q) (iter : ℕ) (a : F) : Good q iter a ↔ Good p iter a := by
  obtain ⟨_, _, _, _, _, _, _, _, _, rfl, -, -, h⟩ := h
  unfold Good Dominated trialCost trialGap trialCon meritOf auto
  simp only [h]

theorem try_trials (a : F) (p : PyCSQP P) : Trials p (tryStep a p) := by
  obtain ⟨xt, ut, d, g, e, -, -, -, h1, h2, h3⟩ := tryStep_spec a p
  rw [e]
  exact ⟨_, _, _, _, _, _, _, _, _, rfl, h1, h2, h3⟩

/-- `q` is the result of taking the step of length `a` from `p`. -/
structure Took (p : PyCSQP P) (a : F) (q : PyCSQP P) : Prop where
  xs : ∀ t, t ≤ P.T → q.xs t = stepX P p.xs p.q.dx a t
  us : ∀ t, t < P.T → q.us t = stepU P p.us p.q.du a t
  calc_ : FreshCalc P q.data q.xs q.us
  costTry : q.costTry = trialCost p a
  gapNormTry : q.gapNormTry = trialGap p a
  conTry : q.conTry = trialCon p a
  frame : ∃ xs us, Trials { p with xs := xs, us := us } q

theorem Took.keep {p q : PyCSQP P} {a : F} (h : Took p a q) : PyCSQP.keep q = PyCSQP.keep p := by
  obtain ⟨xs, us, h⟩ := h.frame
  exact h.keep

theorem accept_took {p q : PyCSQP P} (h : Trials p q) (a : F) : Took p a ((tryStep a q).acceptStep a) := by
  have h3 : q.gapTry P.T = p.gapTry P.T := (keep_all h.keep).2.2.2.2.2.2.2.2.2
  obtain ⟨xt, ut, d, g, e, hx, hu, hc, h1, h2, hg⟩ := tryStep_spec a q
  obtain ⟨_, _, _, _, _, _, _, _, _, rfl, a1, a2, a3⟩ := h
  simp only [] at e hx hu hc h1 h2 hg h3
  rw [e]
  unfold acceptStep
  obtain ⟨X, U, e', hX, hU⟩ := trialPoint_spec a (tryStep a _)
  rw [e] at e'
  simp only [e'] at *
  rw [e] at hX hU
  simp only [] at hX hU
  refine ⟨hX, hU, ⟨fun t ht => ?_, ?_⟩, rfl, ?_, rfl, X, U, ?_⟩
  · simp only []
    rw [hX t ht.le, hU t ht]; exact hc.run t ht
  · simp only []
    rw [hX _ le_rfl]; exact hc.ter
  · simp only [trialGap, h3]
  · exact ⟨_, _, _, _, _, _, _, _, _, rfl, h1.trans a1, h2.trans a2, hg.trans h3⟩

theorem try_good (a : F) (iter : ℕ) {p q : PyCSQP P} (h : Trials p q) :
    (q.useFilter = true → ((tryStep a q).worse iter = true ↔ ¬ Good p iter a)) ∧
    (q.useFilter = false → (ltb (tryStep a q).meritTry (tryStep a q).merit = true ↔ Good p iter a)) := by
  rw [← h.good]
  obtain ⟨xt, ut, d, g, e, -⟩ := tryStep_spec a q
  constructor
  · intro hf
    rw [worse_iff]
    unfold Good
    rw [if_pos hf, not_not, e]
    exact Iff.rfl
  · intro hf
    unfold Good
    rw [hf, if_neg Bool.false_ne_true, e]
    exact Iff.rfl

open PySQP (halve)

/-- **the line search**: it takes the first acceptable step length, among the first ten (filter) or nine (merit). -/
theorem search_spec (iter n : ℕ) {p q : PyCSQP P} (h : Trials p q) (j : ℕ) {r : PySQP.Search} {q' : PyCSQP P}
    (e : search iter n (halve j) q = (r, q')) :
    (r = .accepted ∧ ∃ k, j ≤ k ∧ k < j + n ∧ (p.useFilter = false → k + 1 < j + n) ∧ Good p iter (halve k) ∧
      (∀ i, j ≤ i → i < k → ¬ Good p iter (halve i)) ∧ Took p (halve k) q') ∨
    (r = .exhausted ∧ (p.useFilter = true ∨ n = 0) ∧ (∀ i, j ≤ i → i < j + n → ¬ Good p iter (halve i)) ∧ Trials p q') ∨
    (r = .gaveUp ∧ p.useFilter = false ∧ 0 < n ∧
      (∀ i, j ≤ i → i + 1 < j + n → ¬ Good p iter (halve i)) ∧ Trials p q') := by
  induction n generalizing j q with
  | zero =>
    unfold search at e
    simp only [Prod.mk.injEq] at e
    obtain ⟨rfl, rfl⟩ := e
    refine .inr (.inl ⟨rfl, .inr rfl, fun i h1 h2 => by omega, ?_⟩)
    obtain ⟨_, _, _, _, _, _, _, _, _, rfl, a1, a2, a3⟩ := h
    exact ⟨_, _, _, _, _, _, _, _, _, rfl, a1, a2, a3⟩
  | succ n ih =>
    have ht : Trials p (tryStep (halve j) q) := h.trans (try_trials _ _)
    obtain ⟨g1, g2⟩ := try_good (halve j) iter h
    have hu : (tryStep (halve j) q).useFilter = p.useFilter := (keep_all ht.keep).2.2.2.2.2.1
    have hq : q.useFilter = p.useFilter := (keep_all h.keep).2.2.2.2.2.1
    unfold search at e
    simp only [] at e
    rw [hu] at e
    rw [hq] at g1 g2
    have rec_ : ∀ (_ : ¬ Good p iter (halve j)) (_ : p.useFilter = false → 0 < n), search iter n (halve (j + 1)) (tryStep (halve j) q) = (r, q') →
        (r = .accepted ∧ ∃ k, j ≤ k ∧ k < j + (n + 1) ∧ (p.useFilter = false → k + 1 < j + (n + 1)) ∧ Good p iter (halve k) ∧
          (∀ i, j ≤ i → i < k → ¬ Good p iter (halve i)) ∧ Took p (halve k) q') ∨
        (r = .exhausted ∧ (p.useFilter = true ∨ n + 1 = 0) ∧ (∀ i, j ≤ i → i < j + (n + 1) → ¬ Good p iter (halve i)) ∧
          Trials p q') ∨
        (r = .gaveUp ∧ p.useFilter = false ∧ 0 < n + 1 ∧
          (∀ i, j ≤ i → i + 1 < j + (n + 1) → ¬ Good p iter (halve i)) ∧ Trials p q') := by
      intro hb hn e
      rcases ih ht (j + 1) e with ⟨rfl, k, k1, k2, k3, k5, k6, k7⟩ | ⟨rfl, i1, i3, i4⟩ | ⟨rfl, i1, i2, i4, i5⟩
      · refine .inl ⟨rfl, k, by omega, by omega, fun hx => by have := k3 hx; omega, k5, fun i h1 h2 => ?_, k7⟩
        by_cases ei : i = j
        · subst ei; exact hb
        · exact k6 i (by omega) h2
      · refine .inr (.inl ⟨rfl, ?_, fun i h1 h2 => ?_, i4⟩)
        · cases hf : p.useFilter with
          | true => exact .inl rfl
          | false =>
            rcases i1 with i1 | i1
            · rw [hf] at i1; cases i1
            · have := hn hf; omega
        · by_cases ei : i = j
          · subst ei; exact hb
          · exact i3 i (by omega) (by omega)
      · refine .inr (.inr ⟨rfl, i1, by omega, fun i h1 h2 => ?_, i5⟩)
        by_cases ei : i = j
        · subst ei; exact hb
        · exact i4 i (by omega) (by omega)
    cases hf : p.useFilter with
    | true =>
      rw [hf] at e
      simp only [if_true] at e
      split at e
      · rename_i hw
        exact hf ▸ rec_ ((g1 hf).1 hw) (fun hx => by rw [hf] at hx; cases hx) e
      · rename_i hw
        simp only [Prod.mk.injEq] at e
        obtain ⟨rfl, rfl⟩ := e
        refine .inl ⟨rfl, j, le_rfl, by omega, (fun hx => by cases hx), ?_, fun i h1 h2 => by omega, accept_took h _⟩
        by_contra hb
        exact hw ((g1 hf).2 hb)
    | false =>
      rw [hf] at e
      simp only [Bool.false_eq_true, if_false] at e
      split at e
      · rename_i hn
        simp only [Prod.mk.injEq] at e
        obtain ⟨rfl, rfl⟩ := e
        subst hn
        exact .inr (.inr ⟨rfl, rfl, by omega, fun i h1 h2 => by omega, ht⟩)
      · rename_i hn
        split at e
        · rename_i hm
          simp only [Prod.mk.injEq] at e
          obtain ⟨rfl, rfl⟩ := e
          exact .inl ⟨rfl, j, le_rfl, by omega, fun _ => by omega, (g2 hf).1 hm, fun i h1 h2 => by omega, accept_took h _⟩
        · rename_i hm
          exact hf ▸ rec_ (fun hg => hm ((g2 hf).2 hg)) (fun _ => by omega) e

/-! ### the main loop -/

variable [SqrtOps F]

/-- `calc`, the reset of the penalties in the first iteration, and the QP. -/
def dirAt (L : PyLLT F) (iter : ℕ) (p : PyCSQP P) : Res (PyCSQP P) := (p.evaluate.resetFirst iter).computeDirection L

/-- the state after `dirAt` differs from `calc`'s in the QP variables only. -/
theorem dirAt_frame (L : PyLLT F) (iter : ℕ) (p : PyCSQP P) :
    (∃ q, dirAt L iter p = .ok { p.evaluate with q := q }) ∨ ∃ q, dirAt L iter p = .exn { p.evaluate with q := q } := by
  have h1 : ∃ q, p.evaluate.resetFirst iter = { p.evaluate with q := q } := by
    unfold resetFirst
    split
    · exact ⟨_, rfl⟩
    · exact ⟨p.evaluate.q, rfl⟩
  obtain ⟨q, e⟩ := h1
  unfold dirAt computeDirection
  rw [e]
  cases ({ p.evaluate with q := q } : PyCSQP P).q.computeDirection L ({ p.evaluate with q := q } : PyCSQP P).env with
  | ok q1 => exact .inl ⟨q1, rfl⟩
  | exn q1 => exact .inr ⟨q1, rfl⟩

theorem dirAt_ok {L : PyLLT F} {iter : ℕ} {p p1 : PyCSQP P} (h : dirAt L iter p = .ok p1) : ∃ q, p1 = { p.evaluate with q := q } := by
  rcases dirAt_frame L iter p with ⟨q, e⟩ | ⟨q, e⟩
  · rw [h] at e; cases e; exact ⟨q, rfl⟩
  · rw [h] at e; cases e

theorem dirAt_exn {L : PyLLT F} {iter : ℕ} {p p1 : PyCSQP P} (h : dirAt L iter p = .exn p1) : ∃ q, p1 = { p.evaluate with q := q } := by
  rcases dirAt_frame L iter p with ⟨q, e⟩ | ⟨q, e⟩
  · rw [h] at e; cases e
  · rw [h] at e; cases e; exact ⟨q, rfl⟩

theorem keep_dirAt {L : PyLLT F} {iter : ℕ} {p p1 : PyCSQP P} (h : dirAt L iter p = .ok p1) : keep p1 = keep p := by
  obtain ⟨q, rfl⟩ := dirAt_ok h
  exact keep_evaluate p

theorem extra_eq (L : PyLLT F) (p : PyCSQP P) : p.evaluate.computeDirection L = dirAt L 1 p := by
  unfold dirAt resetFirst
  rw [if_neg (by simp)]

/-- the check after the direction: the residual is below the tolerance. -/
def passes (p : PyCSQP P) : Bool := ltb p.kktCheck.KKT p.tol

/-- what one iteration does when `solve` goes on. -/
structure Step (L : PyLLT F) (iter : ℕ) (p : PyCSQP P) (q : PyCSQP P) : Prop where
  intro ::
  run : ∃ p1, dirAt L iter p = .ok p1 ∧ passes p1 = false ∧
    ∃ r, search iter 10 (halve 0) p1.kktCheck.pushFilter = (r, q) ∧ r ≠ .gaveUp

/-- how `solve` can end inside the loop, or in the extra iteration. -/
inductive Ends (L : PyLLT F) (iter : ℕ) (p : PyCSQP P) : PyOut → PyCSQP P → Prop
  /-- `rho_update_interval = 0` -/
  | zeroDiv {q} (h : dirAt L iter p = .exn q) : Ends L iter p (.raised .zeroDiv) q
  /-- the convergence test succeeded -/
  | conv {q} (h : dirAt L iter p = .ok q) (hk : passes q = true) : Ends L iter p (.ret true) q.kktCheck
  /-- the merit function did not decrease -/
  | gaveUp {q q'} (h : dirAt L iter p = .ok q) (hk : passes q = false)
      (hs : search iter 10 (halve 0) q.kktCheck.pushFilter = (.gaveUp, q')) : Ends L iter p (.ret false) q'

theorem head_inr {L : PyLLT F} {iter : ℕ} {p p1 : PyCSQP P} (h : head L iter p = .inr p1) :
    ∃ q, dirAt L iter p = .ok q ∧ p1 = q.kktCheck ∧ passes q = false := by
  unfold head at h
  split at h
  · cases h
  · rename_i q hq
    simp only [] at h
    split at h
    · cases h
    · rename_i hk
      cases h
      exact ⟨q, hq, rfl, (Bool.eq_false_iff.mpr hk :)⟩

theorem head_inl {L : PyLLT F} {iter : ℕ} {p p' : PyCSQP P} {o : PyOut} (h : head L iter p = .inl (o, p')) : Ends L iter p o p' := by
  unfold head at h
  split at h
  · rename_i q hq
    cases h
    exact .zeroDiv hq
  · rename_i q hq
    simp only [] at h
    split at h
    · rename_i hk
      cases h
      exact .conv hq hk
    · cases h

/-- the states at the beginning of the iterations. -/
inductive Heads (L : PyLLT F) (p0 : PyCSQP P) : ℕ → PyCSQP P → Prop
  | zero : Heads L p0 0 p0
  | succ {i p q} (h : Heads L p0 i p) (hs : Step L i p q) : Heads L p0 (i + 1) q

theorem iterate_cases (L : PyLLT F) {p0 : PyCSQP P} (n i : ℕ) {p : PyCSQP P} (h : Heads L p0 i p) :
    (∃ o p', iterate L n i p = .inl (o, p') ∧ ∃ j q, i ≤ j ∧ j < i + n ∧ Heads L p0 j q ∧ Ends L j q o p') ∨
    (∃ p', iterate L n i p = .inr p' ∧ Heads L p0 (i + n) p') := by
  induction n generalizing i p with
  | zero => exact .inr ⟨p, rfl, h⟩
  | succ n ih =>
    unfold iterate
    split
    · rename_i r hr
      obtain ⟨o, p'⟩ := r
      exact .inl ⟨o, p', rfl, i, p, le_rfl, by omega, h, head_inl hr⟩
    · rename_i p1 hp1
      obtain ⟨q, hq, rfl, hk⟩ := head_inr hp1
      split
      · rename_i p2 hs
        exact .inl ⟨_, p2, rfl, i, p, le_rfl, by omega, h, .gaveUp hq hk hs⟩
      · rename_i r p2 hne hs
        have hstep : Step L i p p2 := ⟨q, hq, hk, r, hs, hne⟩
        rcases ih (i + 1) (.succ h hstep) with ⟨o, p', e, j, q', h1, h2, h3, h4⟩ | ⟨p', e, h3⟩
        · exact .inl ⟨o, p', e, j, q', by omega, by omega, h3, h4⟩
        · exact .inr ⟨p', e, by rw [show i + (n + 1) = i + 1 + n by omega]; exact h3⟩

theorem search_keep {iter n : ℕ} {p q : PyCSQP P} {r : PySQP.Search} (e : search iter n (halve 0) p = (r, q)) : keep q = keep p := by
  rcases search_spec iter n (Trials.refl p) 0 e with ⟨-, k, -, -, -, -, -, e⟩ | ⟨-, -, -, e⟩ | ⟨-, -, -, -, e⟩ <;> exact e.keep

theorem Heads.keep {L : PyLLT F} {p0 : PyCSQP P} {i : ℕ} {q : PyCSQP P} (hq : Heads L p0 i q) : PyCSQP.keep q = PyCSQP.keep p0 := by
  induction hq with
  | zero => rfl
  | @succ i p q h hs ih =>
    obtain ⟨p1, h1, -, r, h2, h3⟩ := hs.run
    have e1 : PyCSQP.keep p1.kktCheck.pushFilter = PyCSQP.keep p := (keep_dirAt h1 :)
    exact ((search_keep h2).trans e1).trans ih

theorem Ends.keep {L : PyLLT F} {i : ℕ} {q p' : PyCSQP P} {o : PyOut} (h : Ends L i q o p') : PyCSQP.keep p' = PyCSQP.keep q := by
  cases h with
  | zeroDiv h => obtain ⟨_, rfl⟩ := dirAt_exn h; exact keep_evaluate q
  | conv h hk => exact (keep_dirAt h :)
  | @gaveUp q1 _ h hk hs =>
    have e1 : PyCSQP.keep q1.kktCheck.pushFilter = PyCSQP.keep q := (keep_dirAt h :)
    exact (search_keep hs).trans e1

/-- how a call of `solve` ends. -/
theorem solve_cases {L : PyLLT F} {xs : Option (Traj P)} {us : Option (Ctrls P)} {m : ℕ} {p p' : PyCSQP P} {o : PyOut}
    (h : solve L xs us m p = (o, p')) :
    (∃ j q, j < m ∧ Heads L (p.start xs us) j q ∧ Ends L j q o p') ∨
    (∃ q, Heads L (p.start xs us) m q ∧
      ((p.extra = false ∧ o = .ret false ∧ p' = q) ∨
       (p.extra = true ∧ ∃ q1, dirAt L 1 q = .exn q1 ∧ o = .raised .zeroDiv ∧ p' = q1) ∨
       (p.extra = true ∧ ∃ q1, dirAt L 1 q = .ok q1 ∧ o = .ret (passes q1) ∧ p' = q1.kktCheck))) := by
  unfold solve at h
  rcases iterate_cases L m 0 (.zero (L := L) (p0 := p.start xs us)) with ⟨o1, p1, e, j, q, h1, h2, h3, h4⟩ | ⟨q, e, h3⟩
  · rw [e] at h
    cases h
    exact .inl ⟨j, q, by omega, h3, h4⟩
  · rw [e] at h
    rw [Nat.zero_add] at h3
    simp only [] at h
    have hx : q.extra = p.extra := (keep_all (h3.keep.trans (rfl : keep (p.start xs us) = keep p))).2.2.2.2.2.2.2.1
    right
    refine ⟨q, h3, ?_⟩
    rw [← hx]
    split at h
    · rename_i hext
      rw [extra_eq] at h
      split at h
      · rename_i q1 hq1
        cases h
        exact .inr (.inl ⟨hext, _, hq1, rfl, rfl⟩)
      · rename_i q1 hq1
        cases h
        exact .inr (.inr ⟨hext, _, hq1, rfl, rfl⟩)
    · rename_i hext
      simp only [Prod.mk.injEq] at h
      obtain ⟨rfl, rfl⟩ := h
      exact .inl ⟨by simpa using hext, rfl, rfl⟩

theorem solve_keep {L : PyLLT F} {xs : Option (Traj P)} {us : Option (Ctrls P)} {m : ℕ} {p p' : PyCSQP P} {o : PyOut}
    (h : solve L xs us m p = (o, p')) : keep p' = keep p := by
  have hs : keep (p.start xs us) = keep p := rfl
  rcases solve_cases h with ⟨j, q, -, hq, he⟩ | ⟨q, hq, ⟨-, -, rfl⟩ | ⟨-, q1, h1, -, rfl⟩ | ⟨-, q1, h1, -, rfl⟩⟩
  · rw [he.keep, hq.keep, hs]
  · rw [hq.keep, hs]
  · obtain ⟨_, rfl⟩ := dirAt_exn h1
    rw [← hs, ← hq.keep]; exact keep_evaluate q
  · rw [show keep q1.kktCheck = keep q from (keep_dirAt h1 :), hq.keep, hs]

end
end PyCSQP
end Mim
