import Verif.Lemmas.ProxReach
import Verif.Props.CSQPReturn

/-!
# What a return of `SolverPROXQP::solve` guarantees (C05, C07, C08, C16, C17, C38, C42)

`PROX.solve … = some (b, s')` says that the call returned `b` and left the solver in state `s'`.  ProxSuite is an arbitrary
function `qp` of the call number and the data handed to it.
-/
set_option linter.unusedSectionVars false
set_option linter.unusedSimpArgs false

namespace Mim
open Spec Matrix
namespace PROX

section
variable {F : Type} [Add F] [Sub F] [Mul F] [Div F] [Neg F] [Zero F] [One F] [FloatOps F] {P : Problem F}
variable {qp : PSolve F} {fuel : ℕ} {xs : Option (Traj P)} {us : Option (Ctrls P)} {m : ℕ} {ri : F} {s s' s0 : PROX P} {b : Bool}

theorem readAnswer_lam (a : PAns F) (s : PROX P) : (readAnswer a s).lam = lamAfter P s.lam a.y := by
  funext t
  unfold lamAfter
  cases t with
  | zero => rfl
  | succ t =>
    change (if t < P.T then -seg (t * P.ndx) P.ndx a.y else s.lam (t + 1)) = _
    by_cases h : t < P.T
    · rw [if_pos h, if_pos ⟨by omega, by omega⟩]; rfl
    · rw [if_neg h, if_neg (by omega)]

theorem readAnswer_y (a : PAns F) (s : PROX P) : (readAnswer a s).y = yAfter P s.y a.z := rfl

theorem lamLast_append (base : ℕ → Vec F P.ndx) (l : List (PAns F)) (a : PAns F) :
    lamAfter P (lamLast P base l) a.y = lamLast P base (l ++ [a]) := by
  funext t
  unfold lamLast
  rw [List.getLast?_append]
  simp only [List.getLast?_singleton, Option.some_or, Option.elim_some]
  unfold lamAfter
  split
  · rfl
  · rename_i h
    cases hl : l.getLast? with
    | none => rfl
    | some b => simp only [Option.elim_some]; rw [if_neg h]

theorem yLast_append (base : (t : ℕ) → Vec F (P.ng t)) (l : List (PAns F)) (a : PAns F) :
    yAfter P (yLast P base l) a.z = yLast P base (l ++ [a]) := by
  funext t
  unfold yLast
  rw [List.getLast?_append]
  simp only [List.getLast?_singleton, Option.some_or, Option.elim_some]
  unfold yAfter
  split
  · rfl
  · rename_i h
    cases hl : l.getLast? with
    | none => rfl
    | some b => simp only [Option.elim_some]; rw [if_neg h]

/-- the multipliers held after `l` further answers since `s0`. -/
structure Mults (s0 : PROX P) (l : List (PAns F)) (s : PROX P) : Prop where
  ans : s.ans = s0.ans ++ l
  lam : s.lam = lamLast P s0.lam l
  y : s.y = yLast P s0.y l

theorem Mults.congr {l : List (PAns F)} (h : Mults s0 l s) (h1 : s'.ans = s.ans) (h2 : s'.lam = s.lam) (h3 : s'.y = s.y) : Mults s0 l s' :=
  ⟨h1.trans h.ans, h2.trans h.lam, h3.trans h.y⟩

theorem Mults.read {l : List (PAns F)} (h : Mults s0 l s) (a : PAns F) : Mults s0 (l ++ [a]) (readAnswer a s) := by
  refine ⟨?_, ?_, ?_⟩
  · change s.ans ++ [a] = _; rw [h.ans, List.append_assoc]
  · rw [readAnswer_lam, h.lam, lamLast_append]
  · rw [readAnswer_y, h.y, yLast_append]

theorem body_mults {l : List (PAns F)} {r : Option Bool} (h : Mults s0 l s) (hb : body qp fuel s = some (r, s')) : ∃ l', Mults s0 (l ++ l') s' := by
  have hd : ∀ b s1, retry qp fuel true { s with wasFeas := false } = some (b, s1) → ∃ l', Mults s0 (l ++ l') s1 := by
    intro b s1 h1
    cases retry_post h1 with
    | found j a _ _ _ _ hs =>
      subst hs
      have h2 : Mults s0 l (asked (head s) j) := h.congr rfl rfl rfl
      exact ⟨[a], h2.read a⟩
    | gaveUp j _ _ _ _ hs => subst hs; exact ⟨[], by rw [List.append_nil]; exact h.congr rfl rfl rfl⟩
  cases body_cases hb with
  | gaveUp hr hb => exact hd _ _ hr
  | converged s1 hr hk hs hb =>
    subst hs
    obtain ⟨l', h'⟩ := hd _ _ hr
    exact ⟨l', h'.congr rfl rfl rfl⟩
  | searched s1 hr hk hs hb =>
    obtain ⟨d, w, iw, n, r', xs, us, fe, ac, sl, cl, gl, kl, hi, p, dr, lg, _, e⟩ := after_set s1 s1.pushFilter.search.updateReg.1
    obtain ⟨l', h'⟩ := hd _ _ hr
    rw [hs, e]
    exact ⟨l', h'.congr rfl rfl rfl⟩

theorem AtHead.mults (h : AtHead qp fuel xs us m ri s0 s) : ∃ l, Mults s0 l s := by
  refine h.pred (fun s => ∃ l, Mults s0 l s) ⟨[], by rw [List.append_nil]; rfl, rfl, rfl⟩ ?_ ?_
  · rintro s n ⟨l, h⟩; exact ⟨l, h.congr rfl rfl rfl⟩
  · rintro s s' r ⟨l, h⟩ _ hb
    obtain ⟨l', h'⟩ := body_mults h hb
    exact ⟨_, h'⟩

/-- **C05 (soundness).**  If `SolverPROXQP::solve` returns true, the stored residual is `<=` the tolerance (which the call does not
change) and is that of derivatives, gaps and constraint violation evaluated at the *returned* trajectory — with the multipliers of
the *last but one* QP answered in this call (`old`; the multipliers the solver held before if there was none), whereas the
multipliers `solve` leaves are those of the last answer `a`.  No assumption on the arithmetic or on the QP solver. -/
theorem C05_prox_true_sound (h : solve qp fuel xs us m ri s = some (true, s')) :
    leb s'.KKT s'.c.tol = true ∧ s'.c = s.c ∧ FreshCalc P s'.data s'.xs s'.us ∧ FreshDiff P s'.data s'.xs s'.us ∧
    (∀ t, t < P.T → s'.e.fs (t + 1) = shootGap P s'.xs s'.us t) ∧ s'.e.con = conViol P s'.xs s'.us ∧
    ∃ old a, s'.ans = s.ans ++ (old ++ [a]) ∧
      s'.KKT = residual s'.data s'.e.fs (lamLast P s.lam old) (yLast P s.y old) s'.e.con ∧
      s'.lam = lamAfter P s.lam a.y ∧ s'.y = yAfter P s.y a.z := by
  rcases solve_end h with ⟨h1, _⟩ | ⟨s1, h1, _, hb⟩
  · cases h1
  · obtain ⟨old, hm⟩ := h1.mults
    cases body_cases hb with
    | gaveUp hr hb => cases hb
    | searched s2 hr hk hs hb => split at hb <;> cases hb
    | converged s2 hr hk hs hb =>
      cases retry_post hr with
      | gaveUp j _ _ _ hb' hs' => cases hb'
      | found j a _ _ _ _ hs' =>
        have he := head_evald s1
        have h2 : Mults s (old ++ [a]) s2 := by
          have h3 : Mults s old (asked (head s1) j) := hm.congr rfl rfl rfl
          rw [hs']; exact h3.read a
        have hlast : ∀ (l : List (PAns F)), (l ++ [a]).getLast? = some a := fun l => by simp
        subst hs
        subst hs'
        refine ⟨hk, h1.conf, he.fresh, he.diff, he.fs, he.con, old, a, h2.ans, ?_, ?_, ?_⟩
        · change residual _ _ s1.lam s1.y _ = _
          rw [hm.lam, hm.y]
          rfl
        · have := h2.lam
          unfold lamLast at this
          rw [hlast] at this
          exact this
        · have := h2.y
          unfold yLast at this
          rw [hlast] at this
          exact this

/-- **C17 (PROXQP).**  In every iteration of every solve, costs, derivatives, gaps and constraint violation held when the QP is
asked are those of the current iterate, and the QP handed to ProxSuite is the one assembled from them. -/
theorem C17_prox_directions_fresh {s1 : PROX P} (hd : retry qp fuel true { s with wasFeas := false } = some (true, s1)) :
    s1.xs = s.xs ∧ s1.us = s.us ∧ Evald s1 ∧ s1.m = assemble s1.data s1.e.fs s.m ∧
    ∃ n a, qp n s1.m = some a ∧ s1.lam = lamAfter P s.lam a.y ∧ s1.y = yAfter P s.y a.z ∧
      (∀ t, t < P.T → s1.dx (t + 1) = seg (t * P.ndx) P.ndx a.x) ∧
      (∀ t, t < P.T → s1.du t = seg (P.T * P.ndx + offs P.nu t) (P.nu t) a.x) := by
  cases retry_post hd with
  | gaveUp j _ _ _ hb' hs' => cases hb'
  | found j a _ ha _ _ hs' =>
    have he := head_evald s
    subst hs'
    refine ⟨rfl, rfl, he.congr rfl rfl rfl rfl rfl rfl, rfl, _, a, ha, readAnswer_lam a _, rfl, ?_, ?_⟩
    · intro t ht
      change (if t < P.T then _ else _) = _
      rw [if_pos ht]
    · intro t ht
      change (if t < P.T then _ else _) = _
      rw [if_pos ht]; rfl

/-- counters of one iteration. -/
theorem body_counts {r : Option Bool} (h : body qp fuel s = some (r, s')) :
    s'.nTry ≤ s.nTry + s.c.par.alphas.length ∧ s'.nKKT - s.nKKT = s'.nQP - s.nQP ∧ s.nKKT ≤ s'.nKKT ∧ s.nQP ≤ s'.nQP := by
  have hd : ∀ b s1, retry qp fuel true { s with wasFeas := false } = some (b, s1) → s1.nTry = s.nTry ∧ s1.c = s.c ∧
      s1.nKKT - s.nKKT = s1.nQP - s.nQP ∧ s.nKKT ≤ s1.nKKT ∧ s.nQP ≤ s1.nQP := by
    intro b s1 h1
    cases retry_post h1 with
    | found j a _ _ _ _ hs =>
      subst hs
      refine ⟨rfl, rfl, ?_, ?_, ?_⟩
      · change s.nKKT + j + 1 - s.nKKT = s.nQP + j + 1 - s.nQP; omega
      · change s.nKKT ≤ s.nKKT + j + 1; omega
      · change s.nQP ≤ s.nQP + j + 1; omega
    | gaveUp j _ _ _ _ hs =>
      subst hs
      refine ⟨rfl, rfl, ?_, ?_, ?_⟩
      · change s.nKKT + (j + 1) - s.nKKT = s.nQP + (j + 1) - s.nQP; omega
      · change s.nKKT ≤ s.nKKT + (j + 1); omega
      · change s.nQP ≤ s.nQP + (j + 1); omega
  cases body_cases h with
  | gaveUp hr hb => obtain ⟨h1, h2, h3, h4, h5⟩ := hd _ _ hr; exact ⟨by omega, h3, h4, h5⟩
  | converged s1 hr hk hs hb =>
    obtain ⟨h1, h2, h3, h4, h5⟩ := hd _ _ hr
    subst hs
    exact ⟨by change s1.nTry ≤ _; omega, h3, h4, h5⟩
  | searched s1 hr hk hs hb =>
    obtain ⟨d, w, iw, n, r', xs, us, fe, ac, sl, cl, gl, kl, hi, p, dr, lg, hn, e⟩ := after_set s1 s1.pushFilter.search.updateReg.1
    obtain ⟨h1, h2, h3, h4, h5⟩ := hd _ _ hr
    rw [hs, e]
    rw [h1, h2] at hn
    exact ⟨hn, h3, h4, h5⟩

theorem AtHead.counts (h : AtHead qp fuel xs us m ri s0 s) :
    s.nTry ≤ s0.nTry + s.iter * s0.c.par.alphas.length ∧ s.nKKT - s0.nKKT = s.nQP - s0.nQP ∧ s0.nKKT ≤ s.nKKT ∧ s0.nQP ≤ s.nQP := by
  induction h with
  | start => exact ⟨by change s0.nTry ≤ s0.nTry + 0 * _; omega, by change s0.nKKT - s0.nKKT = s0.nQP - s0.nQP; omega, le_refl s0.nKKT, le_refl s0.nQP⟩
  | @next s s' hh hi hb ih =>
    obtain ⟨i1, i2, i3, i4⟩ := ih
    obtain ⟨h1, h2, h3, h4⟩ := body_counts hb
    rw [hh.conf] at h1
    have hit := (body_iter hb).1
    refine ⟨?_, ?_, ?_, ?_⟩
    · change s'.nTry ≤ s0.nTry + (s'.iter + 1) * _
      rw [hit, Nat.succ_mul]
      omega
    · change s'.nKKT - s0.nKKT = s'.nQP - s0.nQP; omega
    · change s0.nKKT ≤ s'.nKKT; omega
    · change s0.nQP ≤ s'.nQP; omega

/-- **C08 (PROXQP).**  `get_iter() <= maxiter` (and `< maxiter` if the loop was left early), at most `maxiter * |alphas|` `tryStep`
calls, and exactly one KKT check per call of the QP solver. -/
theorem C08_prox_counts (h : solve qp fuel xs us m ri s = some (b, s')) :
    s'.iter ≤ m ∧ (b = true → s'.iter < m) ∧ s'.nTry ≤ s.nTry + m * s.c.par.alphas.length ∧
    s'.nKKT - s.nKKT = s'.nQP - s.nQP := by
  rcases solve_end h with ⟨hb, h1, h2⟩ | ⟨s1, h1, h2, h3⟩
  · obtain ⟨c1, c2, _⟩ := h1.counts
    rw [h2] at c1
    exact ⟨h2.le, fun e => (by rw [hb] at e; cases e), c1, c2⟩
  · obtain ⟨c1, c2, c3, c4⟩ := h1.counts
    obtain ⟨d1, d2, d3, d4⟩ := body_counts h3
    rw [h1.conf] at d1
    have hit := (body_iter h3).1
    refine ⟨by omega, fun _ => by omega, ?_, by omega⟩
    have h4 : s'.nTry ≤ s.nTry + (s1.iter + 1) * s.c.par.alphas.length := by rw [Nat.succ_mul]; omega
    refine h4.trans (Nat.add_le_add_left (Nat.mul_le_mul_right _ (by omega)) _)

/-- **C16 (PROXQP).**  The line search either accepts the first acceptable step length (in `set_alphas` order) and the new trajectory
is its trial; or no step length is acceptable and `xs`, `us` are unchanged. -/
theorem C16_prox_first_acceptable (s : PROX P) :
    (∃ pre a post, s.c.par.alphas = pre ++ a :: post ∧ (∀ b ∈ pre, ¬ Acceptable s b) ∧ Acceptable s a ∧
      (∀ t, t ≤ P.T → s.search.xs t = stepX P s.xs s.dx a t) ∧ (∀ t, t < P.T → s.search.us t = stepU P s.us s.du a t) ∧
      s.search.acc = s.acc ++ [a] ∧ s.search.nRej = s.nRej ∧ s.search.steplength = a) ∨
    ((∀ b ∈ s.c.par.alphas, ¬ Acceptable s b) ∧ s.search.xs = s.xs ∧ s.search.us = s.us ∧ s.search.acc = s.acc ∧
      s.search.nRej = s.nRej + 1 ∧ s.search.steplength = s.c.par.alphas.getLast?.getD s.steplength) := by
  obtain ⟨l1, l2⟩ := lineSearch_spec s.c.par.alphas s
  obtain ⟨d, w, iw, n, xs, us, fe, ac, sl, hn, e⟩ := lineSearch_set s.c.par.alphas s
  unfold search
  cases hl : lineSearch s.c.par.alphas s with
  | mk found s1 =>
    rw [hl] at l1 l2 e
    cases found with
    | true =>
      obtain ⟨pre, a, post, h1, h2, h3, h4⟩ := l1 rfl
      refine .inl ⟨pre, a, post, h1, h2, h3, h4.xs, h4.us, h4.acc, ?_, h4.step⟩
      change s1 = _ at e
      simp only [if_true]
      rw [e]
    | false =>
      obtain ⟨h1, h2, h3, h4, h5⟩ := l2 rfl
      refine .inr ⟨h1, h2, h3, h4, ?_, h5⟩
      change s1 = _ at e
      simp only [Bool.false_eq_true, if_false]
      rw [e]

/-- **C07 (PROXQP).**  However `solve` returns, from every reachable solver state and for every initial guess and QP solver, the
trajectory starts at the problem's initial state, provided that integrating a multiple of the zero displacement from it returns it. -/
theorem C07_prox_initial_state (hs : Reachable s)
    (hint : ∀ a ∈ s.c.par.alphas, P.integrate P.x0 (sv a (zeroV F P.ndx)) = P.x0)
    (h : solve qp fuel xs us m ri s = some (b, s')) : s'.xs 0 = P.x0 := by
  have hI : (fun s1 : PROX P => s1.c = s.c ∧ s1.dx 0 = zeroV F P.ndx ∧ s1.xs 0 = P.x0) s' := by
    refine solve_pred (fun s1 : PROX P => s1.c = s.c ∧ s1.dx 0 = zeroV F P.ndx ∧ s1.xs 0 = P.x0) (fun _ _ h => h)
      ⟨rfl, hs.dx0, ?_⟩ ?_ h
    · change Function.update (β := fun _ => P.X) (xs.getD fun _ => P.zeroX) 0 P.x0 0 = P.x0; simp
    · intro s1 s2 r h1 _ hb
      refine body_pred (fun s1 : PROX P => s1.c = s.c ∧ s1.dx 0 = zeroV F P.ndx ∧ s1.xs 0 = P.x0) (fun h => h) (fun _ _ _ _ _ _ h => h)
        (fun _ _ h => h) (fun _ h => h) ?_ (fun _ _ _ h => h) (fun _ h => h) h1 hb
      rintro s3 _ ⟨i1, i2, i3⟩
      obtain ⟨d, w, iw, n, r, xs, us, fe, ac, sl, _, _, e⟩ := search_set s3
      refine ⟨by rw [e]; exact i1, by rw [e]; exact i2, ?_⟩
      rcases C16_prox_first_acceptable s3 with ⟨pre, a, post, ha, _, _, hx, _⟩ | ⟨_, hx, _⟩
      · rw [hx 0 (Nat.zero_le _)]
        change P.integrate (s3.xs 0) (sv a (s3.dx 0)) = P.x0
        rw [i3, i2]
        apply hint
        rw [← i1, ha]; simp
      · rw [hx]; exact i3
  exact hI.2.2

/-- one line per finished iteration. -/
structure Logged (s0 : PROX P) (l : List (F × F × F)) (s : PROX P) : Prop where
  log : s.log = s0.log ++ if s0.c.cb then l.zipIdx.map fun c => ⟨0, c.2, c.1.1, c.1.2.1, c.1.2.2⟩ else []

theorem body_log {r : Option Bool} (hc : s.c = s0.c) {l : List (F × F × F)} (hl : Logged s0 l s) (hi : s.iter = l.length)
    (h : body qp fuel s = some (r, s')) :
    (r = some false ∧ Logged s0 l s') ∨
    (r ≠ some false ∧ ∃ K, Logged s0 (l ++ [(K, trajCost P s.xs s.us, shootGapNorm P s.xs s.us)]) s' ∧ s'.KKT = K ∧
      (r = some true ↔ leb K s0.c.tol = true)) := by
  have hd : ∀ b s1, retry qp fuel true { s with wasFeas := false } = some (b, s1) → s1.log = s.log ∧ s1.c = s.c ∧ s1.iter = s.iter ∧
      s1.e.cost = trajCost P s.xs s.us ∧ s1.e.gap = shootGapNorm P s.xs s.us := by
    intro b s1 h1
    have he := head_evald s
    cases retry_post h1 with
    | found j a _ _ _ _ hs => subst hs; exact ⟨rfl, rfl, rfl, he.cost, he.gap⟩
    | gaveUp j _ _ _ _ hs => subst hs; exact ⟨rfl, rfl, rfl, he.cost, he.gap⟩
  have hcb : ∀ (s2 : PROX P) (K : F), s2.log = s.log → s2.c = s.c → s2.iter = s.iter → s2.e.cost = trajCost P s.xs s.us →
      s2.e.gap = shootGapNorm P s.xs s.us → s2.KKT = K →
      Logged s0 (l ++ [(K, trajCost P s.xs s.us, shootGapNorm P s.xs s.us)]) s2.callbacks := by
    intro s2 K h1 h2 h3 h4 h5 h6
    refine ⟨?_⟩
    change (if s2.c.cb then s2.log ++ [⟨0, s2.iter, s2.KKT, s2.e.cost, s2.e.gap⟩] else s2.log) = _
    rw [h1, h2, h3, h4, h5, h6, hc, hl.log, hi]
    split
    · rw [List.zipIdx_append, List.map_append, List.append_assoc]
      simp
    · rfl
  cases body_cases h with
  | gaveUp hr hb =>
    obtain ⟨h1, h2, h3, _⟩ := hd _ _ hr
    exact .inl ⟨hb, ⟨h1.trans hl.log⟩⟩
  | converged s1 hr hk hs hb =>
    obtain ⟨h1, h2, h3, h4, h5⟩ := hd _ _ hr
    subst hs
    refine .inr ⟨by rw [hb]; simp, s1.KKT, hcb s1 _ h1 h2 h3 h4 h5 rfl, rfl, ?_⟩
    rw [h2, hc] at hk
    simp [hb, hk]
  | searched s1 hr hk hs hb =>
    obtain ⟨h1, h2, h3, h4, h5⟩ := hd _ _ hr
    obtain ⟨d, w, iw, n, r', xs, us, fe, ac, sl, _, _, e⟩ := search_set s1.pushFilter
    obtain ⟨p, dr, e2⟩ := updateReg_set s1.pushFilter.search
    cases hu : s1.pushFilter.search.updateReg.1 with
    | true =>
      rw [hu] at hs hb
      simp only [if_true] at hs hb
      rw [hs, e2, e]
      exact .inl ⟨hb, ⟨h1.trans hl.log⟩⟩
    | false =>
      rw [hu] at hs hb
      simp only [Bool.false_eq_true, if_false] at hs hb
      rw [hs, e2, e]
      refine .inr ⟨by rw [hb]; simp, s1.KKT, hcb _ _ h1 h2 h3 h4 h5 rfl, rfl, ?_⟩
      rw [h2, hc] at hk
      simp [hb, hk]

/-- **C38 (PROXQP).**  With callbacks on, `solve` prints one line for every iteration that ran to its end, numbered from 0, with the
residual checked in that iteration and the cost and gap norm of the iterate it started from: `get_iter()` lines if it returns
false, one more if it returns true.  An iteration that ends the call with `false` prints nothing.  Every line but the last of a
successful call shows a residual above the tolerance. -/
theorem C38_prox_callbacks (h : solve qp fuel xs us m ri s = some (b, s')) :
    ∃ l : List (F × F × F),
      s'.log = s.log ++ (if s.c.cb then l.zipIdx.map fun c => ⟨0, c.2, c.1.1, c.1.2.1, c.1.2.2⟩ else []) ∧
      l.length = s'.iter + (if b then 1 else 0) ∧
      (∀ i c, l[i]? = some c → (leb c.1 s.c.tol = true ↔ b = true ∧ i = s'.iter)) ∧
      (b = true → ∃ c, l.getLast? = some c ∧ c.1 = s'.KKT ∧ c.2.1 = trajCost P s'.xs s'.us ∧ c.2.2 = shootGapNorm P s'.xs s'.us) := by
  have key : ∀ s1, AtHead qp fuel xs us m ri s s1 → ∃ l : List (F × F × F), Logged s l s1 ∧ s1.iter = l.length ∧
      ∀ c ∈ l, leb c.1 s.c.tol = false := by
    intro s1 h1
    induction h1 with
    | start => exact ⟨[], ⟨by simp [PROX.start]⟩, rfl, by simp⟩
    | next hh hi hb ih =>
      obtain ⟨l, i1, i2, i3⟩ := ih
      rcases body_log hh.conf i1 i2 hb with ⟨h1, _⟩ | ⟨_, K, h2, _, h3⟩
      · cases h1
      · refine ⟨_, ⟨h2.log⟩, ?_, ?_⟩
        · have := (body_iter hb).1
          simp [this, i2]
        · intro c hc
          rcases List.mem_append.mp hc with hc | hc
          · exact i3 c hc
          · rw [List.mem_singleton] at hc
            subst hc
            simpa using h3
  have hout : ∀ (l : List (F × F × F)) (n : ℕ), l.length = n → (∀ c ∈ l, leb c.1 s.c.tol = false) →
      ∀ i c, l[i]? = some c → (leb c.1 s.c.tol = true ↔ false = true ∧ i = n) := by
    intro l n _ hl i c hc
    simp [hl c (List.mem_of_getElem? hc)]
  rcases solve_end h with ⟨hb, h1, h2⟩ | ⟨s1, h1, h2, h3⟩
  · obtain ⟨l, i1, i2, i3⟩ := key _ h1
    subst hb
    exact ⟨l, i1.log, by simp [i2], hout l _ i2.symm i3, fun e => by cases e⟩
  · obtain ⟨l, i1, i2, i3⟩ := key _ h1
    have hit := (body_iter h3).1
    rcases body_log h1.conf i1 i2 h3 with ⟨e1, e2⟩ | ⟨e1, K, e2, e3, e4⟩
    · cases e1
      exact ⟨l, e2.log, by simp [hit, i2], hout l _ (by omega) i3, fun e => by cases e⟩
    · cases b with
      | false => exact absurd rfl e1
      | true =>
        refine ⟨_, e2.log, by simp [hit, i2], ?_, ?_⟩
        · intro i c hc
          rw [List.getElem?_append] at hc
          split at hc
          · rename_i hi
            have := i3 c (List.mem_of_getElem? hc)
            simp [this]; omega
          · rename_i hi
            rw [List.getElem?_singleton] at hc
            split at hc
            · rename_i h0
              cases hc
              have : i = s'.iter := by omega
              simp [this]; exact e4.mp rfl
            · cases hc
        · intro _
          have hx : s'.xs = s1.xs ∧ s'.us = s1.us := by
            cases body_cases h3 with
            | gaveUp hr hb => cases hb
            | searched s2 hr hk hs hb => split at hb <;> cases hb
            | converged s2 hr hk hs hb =>
              subst hs
              cases retry_post hr with
              | gaveUp j _ _ _ hb' hs' => cases hb'
              | found j a _ _ _ _ hs' => subst hs'; exact ⟨rfl, rfl⟩
          rw [hx.1, hx.2]
          exact ⟨_, List.getLast?_concat, e3.symm, rfl, rfl⟩

/-- **C42 (PROXQP).**  The constructor throws iff the test on the numbers of Crocoddyl equality constraints is positive. -/
theorem C42_prox_construct (nh : ℕ → ℕ) (d : Data P) :
    (construct nh d = none ↔ nEqCrocoddyl P.T nh ≠ 0) ∧ (nEqCrocoddyl P.T nh = 0 → construct nh d = some (new d)) := by
  unfold construct
  by_cases h : nEqCrocoddyl P.T nh = 0 <;> simp [h]

end

section Exact
variable {K : Type} [Field K] [LinearOrder K] [IsStrictOrderedRing K] {P : Problem K}
variable {qp : PSolve K} {fuel : ℕ} {xs : Option (Traj P)} {us : Option (Ctrls P)} {m : ℕ} {ri : K} {s s' : PROX P} {b : Bool}

/-- **C05 (meaning).**  In exact arithmetic, for a non-negative tolerance, the residual is within the tolerance iff every stationarity
component of the nodes after the first and of all controls, every gap component and the constraint violation are. -/
theorem C05_prox_residual_meaning (d : Data P) (fs lam : ℕ → Vec K P.ndx) (y : (t : ℕ) → Vec K (P.ng t)) (con tol : K) (h0 : 0 ≤ tol) :
    residual d fs lam y con ≤ tol ↔
      (∀ t, 0 < t → t < P.T → ∀ i, |((d.rd t).Lx + (d.rd t).Fxᵀ *ᵥ lam (t + 1) - lam t + (d.rd t).Gxᵀ *ᵥ y t) i| ≤ tol) ∧
      (∀ t, t < P.T → ∀ i, |((d.rd t).Lu + (d.rd t).Fuᵀ *ᵥ lam (t + 1) + (d.rd t).Guᵀ *ᵥ y t) i| ≤ tol) ∧
      (∀ i, |(d.td.Lx - lam P.T + d.td.Gxᵀ *ᵥ y P.T) i| ≤ tol) ∧
      (∀ t, t < P.T → ∀ i, |fs (t + 1) i| ≤ tol) ∧ con ≤ tol := by
  have e : (fun t (k : K) =>
      cppMax (if t = 0 then k
        else cppMax k (normInf ((d.rd t).Lx + mv (d.rd t).Fx.transpose (lam (t + 1)) - lam t + mv (d.rd t).Gx.transpose (y t))))
        (normInf ((d.rd t).Lu + mv (d.rd t).Fu.transpose (lam (t + 1)) + mv (d.rd t).Gu.transpose (y t)))) =
      fun t k => max k (max (if t = 0 then 0
        else normInf ((d.rd t).Lx + mv (d.rd t).Fx.transpose (lam (t + 1)) - lam t + mv (d.rd t).Gx.transpose (y t)))
        (normInf ((d.rd t).Lu + mv (d.rd t).Fu.transpose (lam (t + 1)) + mv (d.rd t).Gu.transpose (y t)))) := by
    funext t k
    by_cases h : t = 0
    · simp only [h, if_true, cppMax_exact]
      rw [max_eq_right (a := (0 : K))]
      rw [normInf_exact]
      exact exactNormInf_nonneg _
    · simp only [h, if_false, cppMax_exact, max_assoc]
  unfold residual
  simp only [] at e ⊢
  rw [e]
  simp only [cppMax_exact, normInf_exact, mv_exact, max_assoc]
  rw [max_le_iff, max_le_iff, max_le_iff, forUp_max_le, forUp_max_le]
  simp only [max_le_iff, exactNormInf_le, h0, true_and]
  constructor
  · rintro ⟨h1, h2, h3, h4⟩
    refine ⟨fun t h0 ht i => ?_, fun t ht => (h1 t ht).2, h2, h3, h4⟩
    have h5 := (h1 t ht).1
    rw [if_neg (by omega), exactNormInf_le] at h5
    exact h5.2 i
  · rintro ⟨h2, h3, h4, h5, h6⟩
    refine ⟨fun t ht => ⟨?_, h3 t ht⟩, h4, h5, h6⟩
    rcases Nat.eq_zero_or_pos t with rfl | hp
    · simpa using h0
    · rw [if_neg (by omega), exactNormInf_le]; exact ⟨h0, h2 t hp ht⟩

/-- **C05 (what is certified).**  In exact arithmetic a true return certifies, up to the tolerance, stationarity and feasibility of the
returned trajectory for the nonlinear constrained problem, with the multipliers of the last but one QP answer. -/
theorem C05_prox_true_is_pkkt (h0 : 0 ≤ s.c.tol) (h : solve qp fuel xs us m ri s = some (true, s')) :
    ∃ old a, s'.ans = s.ans ++ (old ++ [a]) ∧ IsPKKT P s.c.tol s'.xs s'.us (lamLast P s.lam old) (yLast P s.y old) := by
  obtain ⟨h1, h2, _, h4, h5, h6, old, a, h7, h8, _⟩ := C05_prox_true_sound h
  rw [h2, h8] at h1
  have h1' : residual s'.data s'.e.fs (lamLast P s.lam old) (yLast P s.y old) s'.e.con ≤ s.c.tol := by simpa using h1
  rw [C05_prox_residual_meaning _ _ _ _ _ _ h0] at h1'
  obtain ⟨m2, m3, m4, m5, m6⟩ := h1'
  refine ⟨old, a, h7, ?_, ?_, ?_, ?_, ?_⟩
  · intro t hp ht i
    rw [← h4.run t ht]
    exact m2 t hp ht i
  · intro t ht i
    rw [← h4.run t ht]
    exact m3 t ht i
  · intro i
    rw [← h4.ter]
    exact m4 i
  · intro t ht i
    rw [← h5 t ht]
    exact m5 t ht i
  · letI : SqrtOps K := ⟨id⟩
    rw [← conViol_exact, ← h6]; exact m6

end Exact
end PROX

namespace Ex

/-- a test of the KKT conditions of a dense QP. -/
def denseCheck (nv ne ni : ℕ) (m : PQP ℚ) (x y z : FVec ℚ) : Bool :=
  (List.range nv).all (fun i => decide (prod nv m.P x i + m.q i + prodT ne m.A y i + prodT ni m.C z i = 0)) &&
  (List.range ne).all (fun i => decide (prod nv m.A x i = m.b i)) &&
  (List.range ni).all (fun i => ((m.l i).elim true fun l => decide (l ≤ prod nv m.C x i)) &&
    ((m.u i).elim true fun u => decide (prod nv m.C x i ≤ u)) &&
    (!decide (0 < z i) || decide (m.u i = some (prod nv m.C x i))) && (!decide (z i < 0) || decide (m.l i = some (prod nv m.C x i))))

theorem denseCheck_sound {nv ne ni : ℕ} {m : PQP ℚ} {x y z : FVec ℚ} (h : denseCheck nv ne ni m x y z = true) :
    DenseKKT nv ne ni m x y z := by
  unfold denseCheck at h
  simp only [Bool.and_eq_true, List.all_eq_true, List.mem_range, decide_eq_true_eq, Bool.or_eq_true, Bool.not_eq_true',
    decide_eq_false_iff_not] at h
  obtain ⟨⟨h1, h2⟩, h3⟩ := h
  refine ⟨h1, h2, ?_, ?_, ?_, ?_⟩
  · intro i hi l hl
    have := (h3 i hi).1.1.1
    rw [hl] at this
    simpa using this
  · intro i hi l hl
    have := (h3 i hi).1.1.2
    rw [hl] at this
    simpa using this
  · intro i hi hz
    exact (h3 i hi).1.2.resolve_left (fun h => h hz)
  · intro i hi hz
    exact (h3 i hi).2.resolve_left (fun h => h hz)

/-- An exact QP solver for two variables and one equality `x_0 - x_1 = b`: the solution without inequalities if that satisfies the KKT
conditions, otherwise an exception. -/
def qp2 : PSolve ℚ := fun _ m =>
  let dx := (m.P 1 1 * m.b 0 - m.q 0 - m.q 1) / (m.P 0 0 + m.P 1 1)
  let x : FVec ℚ := fun i => if i = 0 then dx else dx - m.b 0
  let y : FVec ℚ := fun _ => -(m.P 0 0 * dx + m.q 0)
  if denseCheck 2 1 2 m x y (fun _ => 0) then some ⟨x, y, fun _ => 0, 1, 0, 0⟩ else none

theorem qp2_exact : QPExact 2 1 2 qp2 := by
  intro n m a h
  unfold qp2 at h
  simp only [] at h
  split at h
  · rename_i hc
    cases h
    exact denseCheck_sound hc
  · cases h

/-- `x_1 = x_0 + u_0`, cost `50 x_1² + 50 u_0²`, initial state `1e-8`. -/
abbrev stiff : Problem ℚ := clq 1 0 100 100 (1 / 10 ^ 8)

/-- **C05, negative part.**  With default settings and an exact QP solver, `solve` returns true although the residual of the returned
trajectory *with the returned multipliers* is 50 times the tolerance: the multipliers returned are newer than those checked. -/
theorem C05_prox_returned_multipliers_refuted :
    (PROX.solve qp2 5 none none 10 0 (PROX.new (Data.zero stiff))).map
      (fun r => (r.1, r.2.iter, r.2.KKT, r.2.c.tol, PROX.residual r.2.data r.2.e.fs r.2.lam r.2.y r.2.e.con)) =
    some (true, 0, 1 / 10 ^ 8, 1 / 10 ^ 8, 50 / 10 ^ 8) := by decide +kernel

/-- a run of two iterations: the residual of the second check uses the multipliers of the first QP. -/
theorem prox_two : (PROX.solve qp2 5 none none 10 0 (PROX.new (Data.zero (clq 1 1 1 1 1)))).map
    (fun r => (r.1, r.2.iter, r.2.KKT, r.2.nQP, r.2.ans.length, decide (sc (r.2.us 0) = -1 / 2))) = some (true, 1, 0, 2, 2, true) := by
  decide +kernel

/-- C05, C07, C08, C38: the hypotheses are met. -/
example : ∃ s', PROX.solve qp2 5 none none 10 0 (PROX.new (Data.zero (clq 1 1 1 1 1))) = some (true, s') ∧ s'.iter = 1 ∧
    PROX.Reachable (PROX.new (Data.zero (clq 1 1 1 1 1))) ∧ (0 : ℚ) ≤ (PROX.new (Data.zero (clq 1 1 1 1 1))).c.tol ∧ 
    ∀ a ∈ (PROX.new (Data.zero (clq 1 1 1 1 1))).c.par.alphas,
      (clq 1 1 1 1 1).integrate (clq 1 1 1 1 1).x0 (sv a (zeroV ℚ (clq 1 1 1 1 1).ndx)) = (clq 1 1 1 1 1).x0 := by
  have h := prox_two
  cases hr : PROX.solve qp2 5 none none 10 0 (PROX.new (Data.zero (clq 1 1 1 1 1))) with
  | none => rw [hr] at h; cases h
  | some r =>
    obtain ⟨b, s'⟩ := r
    rw [hr] at h
    simp only [Option.map_some, Option.some.injEq, Prod.mk.injEq] at h
    refine ⟨s', by rw [h.1], h.2.1, .new _, by decide +kernel, ?_⟩
    intro a _
    change (1 : ℚ) + a * 0 = 1
    ring

/-- with callbacks: two lines, numbered 0 and 1. -/
example : (PROX.solve qp2 5 none none 10 0
    (let s := PROX.new (Data.zero (clq 1 1 1 1 1)); { s with c := { s.c with cb := true } })).map
    (fun r => r.2.log.map fun e => (e.idx, e.iter, decide (e.KKT = 0))) = some [(0, 0, false), (0, 1, true)] := by decide +kernel

/-- C42: a problem with one terminal equality is rejected, one without is accepted. -/
example : PROX.construct (fun t => if t = 1 then 1 else 0) (Data.zero (clq 1 1 1 1 1)) = none ∧
    (PROX.construct (fun _ => 0) (Data.zero (clq 1 1 1 1 1))).isSome = true := by
  constructor
  · rw [(PROX.C42_prox_construct _ _).1]; decide
  · rw [(PROX.C42_prox_construct _ _).2 (by decide)]; rfl

end Ex
end Mim
