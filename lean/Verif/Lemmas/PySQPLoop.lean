import Verif.Lemmas.PySQP
import Verif.Lemmas.Filter

/-!
# The Python prototype `SQP`: frames, filter test, line search, main loop
-/
set_option linter.unusedSectionVars false
set_option linter.unusedSimpArgs false

namespace Mim
open Spec
namespace PySQP

section
variable {F : Type} [Add F] [Sub F] [Mul F] [Div F] [Neg F] [Zero F] [One F] [FloatOps F] {P : Problem F}

/-- what no method changes: the parameters, and the three blocks that stay as `allocateData` left them. -/
def keep (p : PySQP P) := (p.mu, p.tol, p.useFilter, p.filterSize, p.withCb, p.extra, p.dx 0, p.gap P.T, p.gapTry P.T)

theorem keep_all {p q : PySQP P} (h : keep p = keep q) : p.mu = q.mu ∧ p.tol = q.tol ∧ p.useFilter = q.useFilter ∧
    p.filterSize = q.filterSize ∧ p.withCb = q.withCb ∧ p.extra = q.extra ∧ p.dx 0 = q.dx 0 ∧ p.gap P.T = q.gap P.T ∧
    p.gapTry P.T = q.gapTry P.T := by
  simpa only [keep, Prod.mk.injEq] using h

theorem keep_evaluate (p : PySQP P) : keep p.evaluate = keep p := by
  have h := (evaluate_gap p).2
  unfold keep
  rw [h]
  rfl

theorem keep_bwd {p q : PySQP P} (h : OnlyBwd p q) : keep q = keep p := by
  obtain ⟨S, s, L, l, rfl⟩ := h
  rfl

theorem keep_direction {llt : LLT F} {p q : PySQP P} (h : computeDirection llt p = .ok q) : keep q = keep p := by
  obtain ⟨r, dx, du, lam, xg, ug, -, hb, rfl, h0, -⟩ := computeDirection_ok h
  rw [← keep_evaluate p, ← keep_bwd hb]
  have : dx 0 = r.dx 0 := by
    obtain ⟨S, s, L, l, rfl⟩ := hb
    exact h0
  unfold keep
  simp only [this]

theorem keep_direction_exn {llt : LLT F} {p q : PySQP P} (h : computeDirection llt p = .exn q) : keep q = keep p := by
  unfold computeDirection at h
  cases hb : backwardPass llt p.evaluate with
  | ok r => rw [hb] at h; cases h
  | exn r =>
    rw [hb] at h
    cases h
    rw [keep_bwd (backwardPass_exn hb), keep_evaluate]

theorem keep_kkt (p : PySQP P) : keep p.kktCheck = keep p := rfl

theorem keep_try (a : F) (p : PySQP P) : keep (tryStep a p) = keep p := by
  obtain ⟨xt, ut, d, g, e, -, -, -, -, -, hg⟩ := tryStep_spec a p
  rw [e]
  unfold keep
  simp only [hg]

/-- `kktCheck` changes the residual only. -/
theorem kktCheck_eq (p : PySQP P) : ∃ k, p.kktCheck = { p with KKT := k } := ⟨_, rfl⟩

/-! ### the filter test -/

theorem filterLoop_iff (c g : CBuf F) (fsz iter : ℕ) (ct gt : F) (n count : ℕ) :
    filterLoop c g fsz iter ct gt n count = true ↔
      ∃ j, count ≤ j ∧ j < count + n ∧ j < fsz ∧ j ≤ iter ∧ ltb (c.get (fsz - 1 - j)) ct = true ∧
        ltb (g.get (fsz - 1 - j)) gt = true := by
  induction n generalizing count with
  | zero =>
    simp only [filterLoop, Bool.false_eq_true, false_iff]
    rintro ⟨j, h1, h2, -⟩
    omega
  | succ n ih =>
    unfold filterLoop
    split
    · rename_i hc
      split
      · rename_i hb
        simp only [Bool.and_eq_true] at hb
        exact ⟨fun _ => ⟨count, le_rfl, by omega, hc.1, hc.2, hb.1, hb.2⟩, fun _ => rfl⟩
      · rename_i hb
        rw [ih]
        constructor
        · rintro ⟨j, h1, h2, h3⟩
          exact ⟨j, by omega, by omega, h3⟩
        · rintro ⟨j, h1, h2, h3, h4, h5, h6⟩
          refine ⟨j, ?_, by omega, h3, h4, h5, h6⟩
          by_contra hlt
          have : j = count := by omega
          subst this
          exact hb (by rw [h5, h6]; rfl)
    · rename_i hc
      simp only [Bool.false_eq_true, false_iff]
      rintro ⟨j, h1, h2, h3, h4, -⟩
      exact hc ⟨by omega, by omega⟩

/-- a point with cost `c` and gap norm `g` is strictly worse, in both, than one of the filter entries in use. -/
def Dominated (p : PySQP P) (iter : ℕ) (c g : F) : Prop :=
  ∃ j, j < p.filterSize ∧ j ≤ iter ∧ ltb (p.costList.get (p.filterSize - 1 - j)) c = true ∧
    ltb (p.gapList.get (p.filterSize - 1 - j)) g = true

theorem worse_iff (iter : ℕ) (p : PySQP P) : p.worse iter = true ↔ Dominated p iter p.costTry p.gapNormTry := by
  unfold worse Dominated
  rw [filterLoop_iff]
  constructor
  · rintro ⟨j, -, -, h1, h2, h3, h4⟩
    exact ⟨j, h1, h2, h3, h4⟩
  · rintro ⟨j, h1, h2, h3, h4⟩
    exact ⟨j, Nat.zero_le _, by omega, h1, h2, h3, h4⟩

/-! ### the line search -/

/-- the `k`-th trial step length. -/
def halve : ℕ → F
  | 0 => lit 1
  | k + 1 => halve k * lit (1 / 2)

/-- gap norm of the trial of step length `a` as `tryStep` measures it. -/
def trialGap (p : PySQP P) (a : F) : F := shootGapNorm P (stepX P p.xs p.dx a) (stepU P p.us p.du a) + norm1 (p.gapTry P.T)

/-- cost of the trial of step length `a`. -/
def trialCost (p : PySQP P) (a : F) : F := trajCost P (stepX P p.xs p.dx a) (stepU P p.us p.du a)

/-- the line search would take the step length `a`. -/
def Good (p : PySQP P) (iter : ℕ) (a : F) : Prop :=
  if p.useFilter then ¬ Dominated p iter (trialCost p a) (trialGap p a)
  else ltb (trialCost p a + p.mu * trialGap p a) p.merit = true

/-- `q` differs from `p` in what trials write only. -/
def Trials (p q : PySQP P) : Prop :=
  ∃ xt ut d g ct gt mt nr, q = { p with
      xsTry := xt, usTry := ut, data := d, gapTry := g, costTry := ct, gapNormTry := gt, meritTry := mt, nRej := nr } ∧
    d.rd = p.data.rd ∧ d.td = p.data.td ∧ g P.T = p.gapTry P.T

theorem Trials.refl (p : PySQP P) : Trials p p := ⟨_, _, _, _, _, _, _, _, rfl, rfl, rfl, rfl⟩

theorem Trials.trans {p q r : PySQP P} (h : Trials p q) (h' : Trials q r) : Trials p r := by
  obtain ⟨_, _, _, _, _, _, _, _, rfl, a1, a2, a3⟩ := h
  obtain ⟨_, _, _, _, _, _, _, _, rfl, b1, b2, b3⟩ := h'
  exact ⟨_, _, _, _, _, _, _, _, rfl, b1.trans a1, b2.trans a2, b3.trans a3⟩

theorem Trials.keep {p q : PySQP P} (h : Trials p q) : PySQP.keep q = PySQP.keep p := by
  obtain ⟨_, _, _, _, _, _, _, _, rfl, -, -, h⟩ := h
  unfold PySQP.keep
  simp only [h]

theorem Trials.good {p q : PySQP P} (h : Trials p q) (iter : ℕ) (a : F) : Good q iter a ↔ Good p iter a := by
  obtain ⟨_, _, _, _, _, _, _, _, rfl, -, -, h⟩ := h
  unfold Good Dominated trialCost trialGap
  simp only [h]

theorem try_trials (a : F) (p : PySQP P) : Trials p (tryStep a p) := by
  obtain ⟨xt, ut, d, g, e, -, -, -, h1, h2, h3⟩ := tryStep_spec a p
  rw [e]
  exact ⟨_, _, _, _, _, _, _, _, rfl, h1, h2, h3⟩

/-- `q` is the result of taking the step of length `a` from `p`. -/
structure Took (p : PySQP P) (a : F) (q : PySQP P) : Prop where
  xs : ∀ t, t ≤ P.T → q.xs t = stepX P p.xs p.dx a t
  us : ∀ t, t < P.T → q.us t = stepU P p.us p.du a t
  calc_ : FreshCalc P q.data q.xs q.us
  costTry : q.costTry = trialCost p a
  gapNormTry : q.gapNormTry = trialGap p a
  frame : ∃ xs us, Trials { p with xs := xs, us := us } q

theorem Took.keep {p q : PySQP P} {a : F} (h : Took p a q) : PySQP.keep q = PySQP.keep p := by
  obtain ⟨xs, us, h⟩ := h.frame
  exact h.keep

theorem accept_took {p q : PySQP P} (h : Trials p q) (a : F) : Took p a (tryStep a q).acceptStep := by
  have h3 : q.gapTry P.T = p.gapTry P.T := (keep_all h.keep).2.2.2.2.2.2.2.2
  obtain ⟨xt, ut, d, g, e, hx, hu, hc, h1, h2, hg⟩ := tryStep_spec a q
  rw [hg.symm.trans (hg.trans rfl)] at hg
  obtain ⟨_, _, _, _, _, _, _, _, rfl, a1, a2, a3⟩ := h
  simp only [] at hx hu hc h1 h2 hg h3
  refine ⟨?_, ?_, ?_, ?_, ?_, xt, ut, ?_⟩
  · rw [e]; exact hx
  · rw [e]; exact hu
  · rw [e]
    refine ⟨fun t ht => ?_, ?_⟩
    · simp only [acceptStep]; rw [hx t ht.le, hu t ht]; exact hc.run t ht
    · simp only [acceptStep]; rw [hx _ le_rfl]; exact hc.ter
  · rw [e]; rfl
  · rw [e]
    simp only [acceptStep, trialGap, h3]
  · rw [e]
    exact ⟨_, _, _, _, _, _, _, _, rfl, h1.trans a1, h2.trans a2, hg.trans h3⟩

theorem try_good (a : F) (iter : ℕ) {p q : PySQP P} (h : Trials p q) :
    (q.useFilter = true → ((tryStep a q).worse iter = true ↔ ¬ Good p iter a)) ∧
    (q.useFilter = false → (ltb (tryStep a q).meritTry (tryStep a q).merit = true ↔ Good p iter a)) := by
  rw [← h.good]
  obtain ⟨xt, ut, d, g, e, -⟩ := tryStep_spec a q
  constructor
  · intro hf
    rw [worse_iff]
    unfold Good
    rw [if_pos hf, not_not, e]
    exact Iff.rfl
  · intro hf
    unfold Good
    rw [hf, if_neg Bool.false_ne_true, e]
    exact Iff.rfl

/-- **the line search**: it takes the first acceptable step length, among the first ten (filter) or nine (merit). -/
theorem search_spec (iter n : ℕ) {p q : PySQP P} (h : Trials p q) (j : ℕ) {r : Search} {a : F} {q' : PySQP P}
    (e : search iter n (halve j) q = (r, a, q')) :
    (r = .accepted ∧ ∃ k, j ≤ k ∧ k < j + n ∧ (p.useFilter = false → k + 1 < j + n) ∧ a = halve k ∧ Good p iter a ∧
      (∀ i, j ≤ i → i < k → ¬ Good p iter (halve i)) ∧ Took p a q') ∨
    (r = .exhausted ∧ (p.useFilter = true ∨ n = 0) ∧ a = halve (j + n) ∧ (∀ i, j ≤ i → i < j + n → ¬ Good p iter (halve i)) ∧ Trials p q') ∨
    (r = .gaveUp ∧ p.useFilter = false ∧ 0 < n ∧ a = halve (j + n - 1) ∧
      (∀ i, j ≤ i → i + 1 < j + n → ¬ Good p iter (halve i)) ∧ Trials p q') := by
  induction n generalizing j q with
  | zero =>
    unfold search at e
    simp only [Prod.mk.injEq] at e
    obtain ⟨rfl, rfl, rfl⟩ := e
    refine .inr (.inl ⟨rfl, .inr rfl, rfl, fun i h1 h2 => by omega, ?_⟩)
    obtain ⟨_, _, _, _, _, _, _, _, rfl, a1, a2, a3⟩ := h
    exact ⟨_, _, _, _, _, _, _, _, rfl, a1, a2, a3⟩
  | succ n ih =>
    have ht : Trials p (tryStep (halve j) q) := h.trans (try_trials _ _)
    obtain ⟨g1, g2⟩ := try_good (halve j) iter h
    have hu : (tryStep (halve j) q).useFilter = p.useFilter := (keep_all ht.keep).2.2.1
    have hq : q.useFilter = p.useFilter := (keep_all h.keep).2.2.1
    unfold search at e
    simp only [] at e
    rw [hu] at e
    rw [hq] at g1 g2
    have rec_ : ∀ (_ : ¬ Good p iter (halve j)) (_ : p.useFilter = false → 0 < n), search iter n (halve (j + 1)) (tryStep (halve j) q) = (r, a, q') →
        (r = .accepted ∧ ∃ k, j ≤ k ∧ k < j + (n + 1) ∧ (p.useFilter = false → k + 1 < j + (n + 1)) ∧ a = halve k ∧ Good p iter a ∧
          (∀ i, j ≤ i → i < k → ¬ Good p iter (halve i)) ∧ Took p a q') ∨
        (r = .exhausted ∧ (p.useFilter = true ∨ n + 1 = 0) ∧ a = halve (j + (n + 1)) ∧ (∀ i, j ≤ i → i < j + (n + 1) → ¬ Good p iter (halve i)) ∧
          Trials p q') ∨
        (r = .gaveUp ∧ p.useFilter = false ∧ 0 < n + 1 ∧ a = halve (j + (n + 1) - 1) ∧
          (∀ i, j ≤ i → i + 1 < j + (n + 1) → ¬ Good p iter (halve i)) ∧ Trials p q') := by
      intro hb hn e
      rcases ih ht (j + 1) e with ⟨rfl, k, k1, k2, k3, k4, k5, k6, k7⟩ | ⟨rfl, i1, i2, i3, i4⟩ | ⟨rfl, i1, i2, i3, i4, i5⟩
      · refine .inl ⟨rfl, k, by omega, by omega, fun hx => by have := k3 hx; omega, k4, k5, fun i h1 h2 => ?_, k7⟩
        by_cases ei : i = j
        · subst ei; exact hb
        · exact k6 i (by omega) h2
      · refine .inr (.inl ⟨rfl, ?_, ?_, fun i h1 h2 => ?_, i4⟩)
        · cases hf : p.useFilter with
          | true => exact .inl rfl
          | false =>
            rcases i1 with i1 | i1
            · rw [hf] at i1; cases i1
            · have := hn hf; omega
        · rw [i2]; congr 1; omega
        · by_cases ei : i = j
          · subst ei; exact hb
          · exact i3 i (by omega) (by omega)
      · refine .inr (.inr ⟨rfl, i1, by omega, ?_, fun i h1 h2 => ?_, i5⟩)
        · rw [i3]; congr 1; omega
        · by_cases ei : i = j
          · subst ei; exact hb
          · exact i4 i (by omega) (by omega)
    cases hf : p.useFilter with
    | true =>
      rw [hf] at e
      simp only [if_true] at e
      split at e
      · rename_i hw
        exact hf ▸ rec_ ((g1 hf).1 hw) (fun hx => by rw [hf] at hx; cases hx) e
      · rename_i hw
        simp only [Prod.mk.injEq] at e
        obtain ⟨rfl, rfl, rfl⟩ := e
        refine .inl ⟨rfl, j, le_rfl, by omega, (fun hx => by cases hx), rfl, ?_, fun i h1 h2 => by omega, accept_took h _⟩
        by_contra hb
        exact hw ((g1 hf).2 hb)
    | false =>
      rw [hf] at e
      simp only [Bool.false_eq_true, if_false] at e
      split at e
      · rename_i hn
        simp only [Prod.mk.injEq] at e
        obtain ⟨rfl, rfl, rfl⟩ := e
        subst hn
        exact .inr (.inr ⟨rfl, rfl, by omega, rfl, fun i h1 h2 => by omega, ht⟩)
      · rename_i hn
        split at e
        · rename_i hm
          simp only [Prod.mk.injEq] at e
          obtain ⟨rfl, rfl, rfl⟩ := e
          exact .inl ⟨rfl, j, le_rfl, by omega, fun _ => by omega, rfl, (g2 hf).1 hm, fun i h1 h2 => by omega, accept_took h _⟩
        · rename_i hm
          exact hf ▸ rec_ (fun hg => hm ((g2 hf).2 hg)) (fun _ => by omega) e

/-! ### the main loop -/

/-- what one iteration does when `solve` goes on. -/
structure Step (llt : LLT F) (iter : ℕ) (p : PySQP P) (a : F) (q : PySQP P) : Prop where
  intro ::
  run : ∃ p1, computeDirection llt p = .ok p1 ∧ ltb p1.kktCheck.KKT p1.tol = false ∧
    ∃ r, search iter 10 (halve 0) p1.kktCheck.pushFilter = (r, a, q) ∧ r ≠ .gaveUp

theorem head_inr {llt : LLT F} {al : Option F} {p p1 : PySQP P} (h : head llt al p = .inr p1) :
    ∃ q, computeDirection llt p = .ok q ∧ p1 = q.kktCheck ∧ ltb q.kktCheck.KKT q.tol = false := by
  unfold head at h
  split at h
  · cases h
  · rename_i q hq
    simp only [] at h
    split at h
    · cases h
    · rename_i hk
      cases h
      exact ⟨q, hq, rfl, (Bool.eq_false_iff.mpr hk :)⟩

/-- how `solve` can end inside the loop, or in the extra iteration. -/
inductive Ends (llt : LLT F) (p : PySQP P) : PyOut → PySQP P → Prop
  /-- factorisation failure -/
  | linAlg {q} (h : computeDirection llt p = .exn q) : Ends llt p (.raised .linAlg) q
  /-- the convergence test succeeded -/
  | conv {q o} (h : computeDirection llt p = .ok q) (hk : ltb q.kktCheck.KKT q.tol = true)
      (ho : o = .ret true ∨ (p.withCb = true ∧ (o = .raised .type ∨ o = .raised .unbound))) : Ends llt p o q.kktCheck
  /-- the merit function did not decrease -/
  | gaveUp {q iter a q'} (h : computeDirection llt p = .ok q) (hk : ltb q.kktCheck.KKT q.tol = false)
      (hs : search iter 10 (halve 0) q.kktCheck.pushFilter = (.gaveUp, a, q')) : Ends llt p (.ret false) q'

theorem head_inl {llt : LLT F} {al : Option F} {p p' : PySQP P} {o : PyOut} (h : head llt al p = .inl (o, p')) : Ends llt p o p' := by
  unfold head at h
  split at h
  · rename_i q hq
    cases h
    exact .linAlg hq
  · rename_i q hq
    simp only [] at h
    split at h
    · rename_i hk
      simp only [Sum.inl.injEq, Prod.mk.injEq] at h
      obtain ⟨ho, rfl⟩ := h
      refine .conv hq hk ?_
      have hw : q.withCb = p.withCb := (keep_all (keep_direction hq)).2.2.2.2.1
      split at ho
      · rename_i hc
        simp only [Bool.and_eq_true] at hc
        exact .inr ⟨hw ▸ hc.1, .inl ho.symm⟩
      · exact .inl ho.symm
    · cases h

/-- the states at the beginning of the iterations. -/
inductive Heads (llt : LLT F) (p0 : PySQP P) : ℕ → PySQP P → Prop
  | zero : Heads llt p0 0 p0
  | succ {i p a q} (h : Heads llt p0 i p) (hs : Step llt i p a q) : Heads llt p0 (i + 1) q

theorem iterate_cases (llt : LLT F) {p0 : PySQP P} (n i : ℕ) (al : Option F) {p : PySQP P} (h : Heads llt p0 i p) :
    (∃ o p', iterate llt n i al p = .inl (o, p') ∧ ∃ j q, i ≤ j ∧ j < i + n ∧ Heads llt p0 j q ∧ Ends llt q o p') ∨
    (∃ al' p', iterate llt n i al p = .inr (al', p') ∧ Heads llt p0 (i + n) p') := by
  induction n generalizing i al p with
  | zero => exact .inr ⟨al, p, rfl, h⟩
  | succ n ih =>
    unfold iterate
    split
    · rename_i r hr
      obtain ⟨o, p'⟩ := r
      exact .inl ⟨o, p', rfl, i, p, le_rfl, by omega, h, head_inl hr⟩
    · rename_i p1 hp1
      obtain ⟨q, hq, rfl, hk⟩ := head_inr hp1
      split
      · rename_i a p2 hs
        exact .inl ⟨_, p2, rfl, i, p, le_rfl, by omega, h, .gaveUp hq hk hs⟩
      · rename_i r a p2 hne hs
        have hstep : Step llt i p a p2 := ⟨q, hq, hk, r, hs, hne⟩
        rcases ih (i + 1) (some a) (.succ h hstep) with ⟨o, p', e, j, q', h1, h2, h3, h4⟩ | ⟨al', p', e, h3⟩
        · exact .inl ⟨o, p', e, j, q', by omega, by omega, h3, h4⟩
        · exact .inr ⟨al', p', e, by rw [show i + (n + 1) = i + 1 + n by omega]; exact h3⟩

theorem Heads.keep {llt : LLT F} {p0 : PySQP P} {i : ℕ} {q : PySQP P} (hq : Heads llt p0 i q) : PySQP.keep q = PySQP.keep p0 := by
  induction hq with
  | zero => rfl
  | @succ i p a q h hs ih =>
    obtain ⟨p1, h1, -, r, h2, h3⟩ := hs.run
    have e := search_spec i 10 (Trials.refl p1.kktCheck.pushFilter) 0 h2
    have e1 : PySQP.keep p1.kktCheck.pushFilter = PySQP.keep p := (keep_direction h1 :)
    rcases e with ⟨-, k, -, -, -, -, -, -, e⟩ | ⟨-, -, -, -, e⟩ | ⟨-, -, -, -, -, e⟩ <;> exact (e.keep.trans e1).trans ih

/-- how a call of `solve` ends. -/
theorem solve_cases {llt : LLT F} {xs : Option (Traj P)} {us : Option (Ctrls P)} {m : ℕ} {p p' : PySQP P} {o : PyOut}
    (h : solve llt xs us m p = (o, p')) :
    (∃ j q, j ≤ m ∧ (j = m → p.extra = true) ∧ Heads llt (p.start xs us) j q ∧ Ends llt q o p') ∨
    (∃ q, o = .ret false ∧ Heads llt (p.start xs us) m q ∧
      ((p.extra = false ∧ p' = q) ∨ ∃ q1, computeDirection llt q = .ok q1 ∧ p' = q1.kktCheck ∧ ltb p'.KKT q1.tol = false)) := by
  unfold solve at h
  rcases iterate_cases llt m 0 none (.zero (llt := llt) (p0 := p.start xs us)) with ⟨o1, p1, e, j, q, h1, h2, h3, h4⟩ | ⟨al, q, e, h3⟩
  · rw [e] at h
    cases h
    exact .inl ⟨j, q, by omega, fun ej => by omega, h3, h4⟩
  · rw [e] at h
    rw [Nat.zero_add] at h3
    simp only [] at h
    have hx : q.extra = p.extra := (keep_all (h3.keep.trans (rfl : keep (p.start xs us) = keep p))).2.2.2.2.2.1
    split at h
    · rename_i hext
      split at h
      · rename_i q1 hq1
        cases h
        exact .inl ⟨m, q, le_rfl, fun _ => hx ▸ hext, h3, .linAlg hq1⟩
      · rename_i q1 hq1
        split at h
        · rename_i hk
          simp only [Prod.mk.injEq] at h
          obtain ⟨ho, rfl⟩ := h
          refine .inl ⟨m, q, le_rfl, fun _ => hx ▸ hext, h3, .conv hq1 hk ?_⟩
          have hw : q1.withCb = q.withCb := (keep_all (keep_direction hq1)).2.2.2.2.1
          split at ho
          · rename_i hc
            simp only [Bool.and_eq_true] at hc
            exact .inr ⟨hw ▸ hc.1, .inr ho.symm⟩
          · exact .inl ho.symm
        · rename_i hk
          cases h
          exact .inr ⟨q, rfl, h3, .inr ⟨q1, hq1, rfl, (Bool.eq_false_iff.mpr hk :)⟩⟩
    · rename_i hext
      simp only [Prod.mk.injEq] at h
      obtain ⟨rfl, rfl⟩ := h
      exact .inr ⟨_, rfl, h3, .inl ⟨by rw [← hx]; simpa using hext, rfl⟩⟩

end
end PySQP
end Mim
