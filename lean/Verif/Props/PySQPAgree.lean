import Verif.Props.PySQPStall
import Verif.Props.SQPDirection
import Verif.Props.DirectionExists

/-!
# C69: the Python prototype `SQP` and the C++ `SolverSQP` do the same iteration

In exact arithmetic, at the same candidate, with regularization zero in the C++ solver.
-/
set_option linter.unusedSectionVars false
set_option linter.unusedSimpArgs false

namespace Mim
open Spec Matrix

section
variable {K : Type} [Field K] [LinearOrder K] [IsStrictOrderedRing K] {P : Problem K} {llt : LLT K}

/-- the same optimality conditions for data that agree on the nodes. -/
theorem lqOf_kkt_congr {d d' : Data P} (h : d.SameD d') {c c' : ℕ → Vec K P.ndx} (hc : ∀ t, t < P.T → c (t + 1) = c' (t + 1)) {a b : K}
    {x : ℕ → Vec K P.ndx} {u : (t : ℕ) → Vec K (P.nu t)} {lam : ℕ → Vec K P.ndx} (hk : (lqOf d c a b).KKT x u lam) :
    (lqOf d' c' a b).KKT x u lam := by
  refine ⟨fun t ht => ?_, fun t ht => ?_, ?_, fun t ht => ?_⟩
  · have := hk.stat_x t ht
    simp only [lqOf] at this ⊢
    rw [h.rd t ht] at this
    exact this
  · have := hk.stat_u t ht
    simp only [lqOf] at this ⊢
    rw [h.rd t ht] at this
    exact this
  · have := hk.stat_T
    simp only [lqOf] at this ⊢
    rw [h.td] at this
    exact this
  · have := hk.dyn t ht
    simp only [lqOf] at this ⊢
    rw [h.rd t ht, hc t ht] at this
    exact this

theorem lqOf_posCurv_congr {d d' : Data P} (h : d.SameD d') {c c' : ℕ → Vec K P.ndx} {a b : K} (hk : (lqOf d c a b).PosCurv) :
    (lqOf d' c' a b).PosCurv := by
  intro x u hd hu
  have h1 := hk x u ⟨hd.init, fun t ht => by have := hd.step t ht; simp only [lqOf] at this ⊢; rw [h.rd t ht]; exact this⟩ hu
  have e : (lqOf d c a b).curv x u = (lqOf d' c' a b).curv x u := by
    unfold LQ.curv
    simp only [lqOf]
    rw [h.td]
    congr 1
    refine Finset.sum_congr rfl fun t ht => ?_
    rw [h.rd t (Finset.mem_range.mp ht)]
  rw [← e]
  exact h1

/-- the C++ and the Python solver hold the same candidate, which starts at the initial state; the C++ solver will evaluate it afresh
or has just evaluated it (its line search did), does not take it for dynamically feasible, and does not regularize. -/
structure SamePoint (s : SQP P) (p : PySQP P) : Prop where
  xs : ∀ t, t ≤ P.T → s.xs t = p.xs t
  us : ∀ t, t < P.T → s.us t = p.us t
  mu : s.mu = p.mu
  x0 : s.xs 0 = P.x0
  fresh : s.iter = 0 ∨ FreshCalc P s.data s.xs s.us
  feas : s.feas = false
  preg : s.preg = 0
  dreg : s.dreg = 0

theorem SamePoint.data {s : SQP P} {p : PySQP P} (h : SamePoint s p) : s.calcDiff.data.SameD p.evaluate.data := by
  have hs : (if s.iter = 0 then s.data.calcAll s.xs s.us else s.data).Same (p.data.calcAll p.xs p.us) := by
    split
    · exact calcAll_same _ _ h.xs h.us
    · rename_i hi
      have hf := h.fresh.resolve_left hi
      refine ⟨fun t ht => ?_, ?_⟩
      · rw [hf.run t ht, h.xs t ht.le, h.us t ht]
        simp only [Data.calcAll, if_pos ht]
      · rw [hf.ter, h.xs _ le_rfl]
        rfl
  exact calcDiffAll_same hs h.xs h.us

theorem SamePoint.gap {s : SQP P} {p : PySQP P} (h : SamePoint s p) (t : ℕ) (ht : t < P.T) : s.calcDiff.fs (t + 1) = p.evaluate.gap t := by
  rw [(PySQP.evaluate_gap p).1 t ht]
  change P.diff (s.xs (t + 1)) (s.calcDiff.data.run t).xnext = _
  rw [h.data.run t ht, (PySQP.evaluate_fresh p).1.run t ht, h.xs (t + 1) ht]
  rfl

/-- what the C++ `computeDirection` leaves of the evaluation. -/
theorem SQP.direction_eval {s s1 : SQP P} (h : SQP.computeDirection llt true s = .ok s1) :
    s1.data = s.calcDiff.data ∧ s1.fs = s.calcDiff.fs ∧ s1.cost = s.calcDiff.cost ∧ s1.gap = gapNorm s.calcDiff.fs ∧
    s1.merit = s.calcDiff.cost + s.mu * gapNorm s.calcDiff.fs ∧ s1.preg = s.preg ∧ s1.dreg = s.dreg ∧ s1.xs = s.xs ∧ s1.us = s.us ∧
    s1.dx 0 = s.dx 0 := by
  unfold SQP.computeDirection at h
  simp only [if_true] at h
  split at h
  · rename_i b hb
    cases h
    have hdx := (SQP.forwardPass_eqs ({ s.calcDiff with gap := gapNorm s.calcDiff.fs, merit := s.calcDiff.cost + s.calcDiff.mu * gapNorm s.calcDiff.fs, bp := b } : SQP P)).1
    refine ⟨SQP.forwardPass_frame SQP.data (fun _ _ _ _ _ _ => rfl) _, SQP.forwardPass_frame SQP.fs (fun _ _ _ _ _ _ => rfl) _,
      SQP.forwardPass_frame SQP.cost (fun _ _ _ _ _ _ => rfl) _, SQP.forwardPass_frame SQP.gap (fun _ _ _ _ _ _ => rfl) _,
      SQP.forwardPass_frame SQP.merit (fun _ _ _ _ _ _ => rfl) _, SQP.forwardPass_frame SQP.preg (fun _ _ _ _ _ _ => rfl) _,
      SQP.forwardPass_frame SQP.dreg (fun _ _ _ _ _ _ => rfl) _, SQP.forwardPass_frame SQP.xs (fun _ _ _ _ _ _ => rfl) _,
      SQP.forwardPass_frame SQP.us (fun _ _ _ _ _ _ => rfl) _, hdx⟩
  · cases h

/-- the gap norms agree. -/
theorem SamePoint.gapNorm_eq {s : SQP P} {p : PySQP P} (h : SamePoint s p) (hdiff : ∀ x, P.diff x x = 0) (hg : p.gap P.T = 0) :
    gapNorm s.calcDiff.fs = p.evaluate.gapNorm := by
  have e0 : s.calcDiff.fs 0 = 0 := by
    change P.diff (s.xs 0) P.x0 = 0
    rw [h.x0, hdiff]
  rw [PySQP.evaluate_gapNorm, hg]
  unfold gapNorm
  rw [← sumUp_succ]
  simp only [norm1_exact, Pi.zero_apply, abs_zero, Finset.sum_const_zero, add_zero]
  have key : ∀ n, n ≤ P.T → sumUp (n + 1) (fun t => ∑ i, |s.calcDiff.fs t i|) = sumUp n fun t => ∑ i, |shootGap P p.xs p.us t i| := by
    intro n
    induction n with
    | zero =>
      intro _
      rw [sumUp_succ, e0]
      simp [sumUp]
    | succ n ih =>
      intro hn
      rw [sumUp_succ, ih (by omega), sumUp_succ, h.gap n hn, (PySQP.evaluate_gap p).1 n hn]
  exact key P.T le_rfl

/-- the residuals agree. -/
theorem kktResidual_shift {d d' : Data P} (h : d.SameD d') {fs g lam lam' : ℕ → Vec K P.ndx} (h0 : fs 0 = 0) (hT : g P.T = 0)
    (hg : ∀ t, t < P.T → fs (t + 1) = g t) (hl : ∀ t, t ≤ P.T → lam t = lam' t) : kktResidual d fs lam = kktResidual d' g lam' := by
  have key : ∀ c : K, 0 ≤ c → (kktResidual d fs lam ≤ c ↔ kktResidual d' g lam' ≤ c) := by
    intro c hc
    rw [C02_sqp_residual_meaning d fs lam c hc, C02_sqp_residual_meaning d' g lam' c hc]
    refine and_congr (forall_congr' fun t => forall_congr' fun ht => ?_) (and_congr (forall_congr' fun t => forall_congr' fun ht => ?_)
      (and_congr ?_ ⟨fun hh t ht i => ?_, fun hh t ht i => ?_⟩))
    · rw [h.rd t ht, hl (t + 1) ht, hl t ht.le]
    · rw [h.rd t ht, hl (t + 1) ht]
    · rw [h.td, hl _ le_rfl]
    · rcases Nat.eq_or_lt_of_le ht with rfl | ht
      · rw [hT]; simpa using hc
      · rw [← hg t ht]; exact hh (t + 1) ht i
    · cases t with
      | zero => rw [h0]; simpa using hc
      | succ t => rw [hg t (by omega)]; exact hh t (by omega) i
  exact le_antisymm ((key _ (kktResidual_nonneg _ _ _)).2 le_rfl) ((key _ (kktResidual_nonneg _ _ _)).1 le_rfl)

/-- **C69, direction.**  At the same candidate, without regularization, in exact arithmetic:
`computeDirection` of the C++ `SolverSQP` succeeds only if that of the Python class does (conversely, Python's success is enough as long as
the value function stays below `10³⁰`); and then both compute the same cost, gap norm, merit value, direction, multipliers and KKT residual. -/
theorem C69_direction_agrees (hllt : LLTExact llt) (hP : SymProblem P) (hdiff : ∀ x, P.diff x x = 0) {s : SQP P} {p : PySQP P}
    (hs : SQP.Reachable s) (hp : PySQP.Reachable p) (h : SamePoint s p) :
    ((∃ s1, SQP.computeDirection llt true s = .ok s1) ↔
      (∃ p1, PySQP.computeDirection llt p = .ok p1) ∧ (lqOf s.calcDiff.data s.calcDiff.fs 0 0).InRange) ∧
    ∀ s1 p1, SQP.computeDirection llt true s = .ok s1 → PySQP.computeDirection llt p = .ok p1 →
      (∀ t, t ≤ P.T → s1.dx t = p1.dx t ∧ s1.lagMul t = p1.lagMul t) ∧ (∀ t, t < P.T → s1.du t = p1.du t) ∧
      s1.cost = p1.cost ∧ s1.gap = p1.gapNorm ∧ s1.merit = p1.merit ∧ s1.checkKKT.KKT = p1.kktCheck.KKT := by
  constructor
  · rw [C57_sqp_direction_iff hllt hP h.feas, PySQP.C68_py_direction_iff hllt hP p, h.preg, h.dreg]
    refine and_congr_left fun _ => ⟨fun hc => lqOf_posCurv_congr h.data hc, fun hc => ?_⟩
    have hsd : p.evaluate.data.SameD s.calcDiff.data :=
      ⟨⟨fun t ht => (h.data.run t ht).symm, h.data.ter.symm⟩, fun t ht => (h.data.rd t ht).symm, h.data.td.symm⟩
    exact lqOf_posCurv_congr hsd hc
  · intro s1 p1 e1 e2
    obtain ⟨a1, a2, a3, a4, a5, a6, a7, a8, a9, a10⟩ := SQP.direction_eval e1
    have hp1 : p1.data = p.evaluate.data ∧ p1.gap = p.evaluate.gap ∧ p1.cost = p.evaluate.cost ∧ p1.gapNorm = p.evaluate.gapNorm ∧
        p1.merit = p.evaluate.merit := by
      obtain ⟨r, _, _, _, _, _, -, ⟨_, _, _, _, rfl⟩, rfl, -⟩ := PySQP.computeDirection_ok e2
      exact ⟨rfl, rfl, rfl, rfl, rfl⟩
    have hd : s1.data.SameD p1.data := by rw [a1, hp1.1]; exact h.data
    have hg : ∀ t, t < P.T → s1.fs (t + 1) = p1.gap t := fun t ht => by rw [a2, hp1.2.1]; exact h.gap t ht
    have hgT : p.gap P.T = 0 := hp.clean.2.1
    have hp1c := (PySQP.Reachable.direction p p1 llt hp e2).clean
    have hsym : SymHess p1.data := symHess_of_fresh hP (PySQP.direction_atPoint e2).1.diff
    have hsym' : SymHess s1.data := by
      refine ⟨fun t ht => ?_, fun t ht => ?_, ?_⟩
      · rw [hd.rd t ht]; exact hsym.xx t ht
      · rw [hd.rd t ht]; exact hsym.uu t ht
      · rw [hd.td]; exact hsym.T
    have hr := (C18_sqp_direction_kkt (fuel := 1) hllt h.feas (by unfold SQP.retry; rw [e1]) hsym').1
    rw [a6, a7, h.preg, h.dreg] at hr
    have hkp : (lqOf p1.data p1.gapAt 0 0).KKT s1.dx s1.du s1.lagMul := lqOf_kkt_congr hd hg hr
    obtain ⟨-, -, huniq⟩ := PySQP.direction_core hllt hp1c.1 e2 hsym
    obtain ⟨u1, u2, u3⟩ := huniq _ _ _ hkp (a10.trans hs.dx0)
    have hcost : s1.cost = p1.cost := by
      rw [a3, hp1.2.2.1]
      exact h.data.cost
    have hgap : s1.gap = p1.gapNorm := by
      rw [a4, hp1.2.2.2.1]
      exact h.gapNorm_eq hdiff hgT
    refine ⟨fun t ht => ⟨u2 t ht, u3 t ht⟩, u1, hcost, hgap, ?_, ?_⟩
    · rw [a5, hp1.2.2.2.2, PySQP.evaluate_merit, h.gapNorm_eq hdiff hgT, h.mu]
      rw [← a3, hcost, hp1.2.2.1]
    · have h0 : s1.fs 0 = 0 := by
        rw [a2]
        change P.diff (s.xs 0) P.x0 = 0
        rw [h.x0, hdiff]
      exact kktResidual_shift hd h0 hp1c.2.1 hg u3

/-- the two solvers hold the same candidate, direction, merit value and filter memory. -/
structure SameSearch (s : SQP P) (p : PySQP P) : Prop where
  xs : ∀ t, t ≤ P.T → s.xs t = p.xs t
  us : ∀ t, t < P.T → s.us t = p.us t
  dx : ∀ t, t ≤ P.T → s.dx t = p.dx t
  du : ∀ t, t < P.T → s.du t = p.du t
  mu : s.mu = p.mu
  merit : s.merit = p.merit
  useFilter : s.useFilter = p.useFilter
  filterSize : s.filterSize = p.filterSize
  gapList : s.gapList = p.gapList
  costList : s.costList = p.costList

theorem halve_exact (k : ℕ) : (PySQP.halve k : K) = (1 / 2) ^ k := by
  induction k with
  | zero => simp [PySQP.halve]
  | succ k ih =>
    simp only [PySQP.halve, ih, lit_exact, pow_succ]
    push_cast
    ring

theorem defaultAlphas_exact : (defaultAlphas : List K) = (List.range 10).map fun k => PySQP.halve k := by
  unfold defaultAlphas
  refine List.map_congr_left fun k _ => ?_
  rw [halve_exact, lit_exact]
  push_cast
  rw [div_pow, one_pow]

/-- the same trial is acceptable to the C++ solver only if it is to the Python class. -/
theorem SameSearch.good {s : SQP P} {p : PySQP P} (h : SameSearch s p) (hg : p.gapTry P.T = 0) {a : K} (ha : SQP.Acceptable s a) :
    PySQP.Good p s.iter a := by
  have hX : ∀ t, t ≤ P.T → stepX P s.xs s.dx a t = stepX P p.xs p.dx a t := fun t ht => by unfold stepX; rw [h.xs t ht, h.dx t ht]
  have hU : ∀ t, t < P.T → stepU P s.us s.du a t = stepU P p.us p.du a t := fun t ht => by unfold stepU; rw [h.us t ht, h.du t ht]
  have hc : trajCost P (stepX P s.xs s.dx a) (stepU P s.us s.du a) = PySQP.trialCost p a := trajCost_congr P hX hU
  have hgn : shootGapNorm P (stepX P s.xs s.dx a) (stepU P s.us s.du a) = PySQP.trialGap p a := by
    unfold PySQP.trialGap
    rw [shootGapNorm_congr P hX hU, hg]
    simp
  obtain ⟨-, -, -, ha⟩ := ha
  rw [hc, hgn] at ha
  unfold PySQP.Good
  cases hf : p.useFilter with
  | true =>
    rw [h.useFilter, hf] at ha
    simp only [if_true] at ha ⊢
    rintro ⟨j, h1, h2, h3, h4⟩
    refine ha ⟨j, by rw [h.filterSize]; exact h1, h2, ?_, ?_⟩
    · rw [h.costList, h.filterSize]
      exact decide_eq_true (le_of_lt (of_decide_eq_true h3))
    · rw [h.gapList, h.filterSize]
      exact decide_eq_true (le_of_lt (of_decide_eq_true h4))
  | false =>
    rw [h.useFilter, hf] at ha
    simp only [Bool.false_eq_true, if_false] at ha ⊢
    rw [h.mu, h.merit] at ha
    exact ha

/-- **C69, line search.**  From the same candidate, direction and filter memory: if the C++ solver with its default step lengths takes
`1/2ᵏ` (and `k < 9` or the filter is on), then the Python class takes a step `1/2ʲ` at least as long, `j ≤ k`; the two differ only if the
Python class accepts a trial that the C++ solver rejects: one whose cost blows up or that ties with a memory entry. -/
theorem C69_line_search (hT : 0 < P.T) {s : SQP P} {p : PySQP P} (h : SameSearch s p) (hg : p.gapTry P.T = 0)
    (ha : s.par.alphas = defaultAlphas) (hf : (SQP.lineSearch s.par.alphas s).1 = true)
    (h9 : s.useFilter = true ∨ (SQP.lineSearch s.par.alphas s).2.steplength ≠ PySQP.halve 9) :
    ∃ k j q, k < 10 ∧ j ≤ k ∧ (SQP.lineSearch s.par.alphas s).2.steplength = PySQP.halve k ∧
      PySQP.search s.iter 10 (lit 1) p = (.accepted, PySQP.halve j, q) ∧ (j = k ∨ ¬ SQP.Acceptable s (PySQP.halve j)) ∧
      (j = k → (∀ t, t ≤ P.T → (SQP.lineSearch s.par.alphas s).2.xs t = q.xs t) ∧
        ∀ t, t < P.T → (SQP.lineSearch s.par.alphas s).2.us t = q.us t) := by
  obtain ⟨pre, a, post, e, hpre, hacc, hst⟩ := (SQP.lineSearch_spec hT s.par.alphas s).1 hf
  rw [ha, defaultAlphas_exact] at e
  obtain ⟨k, hk, hak, hprek⟩ : ∃ k, k < 10 ∧ a = PySQP.halve k ∧ ∀ i, i < k → (PySQP.halve i : K) ∈ pre := by
    have hlen : pre.length < 10 := by
      have := congrArg List.length e
      simp at this
      omega
    refine ⟨pre.length, hlen, ?_, fun i hi => ?_⟩
    · have := congrArg (fun l => l[pre.length]?) e
      simp [hlen] at this
      exact this.symm
    · have := congrArg (fun l => l[i]?) e
      simp only [List.getElem?_map, List.getElem?_range (show i < 10 by omega), Option.map_some] at this
      rw [List.getElem?_append_left hi] at this
      exact List.mem_of_getElem? this.symm
  have hstep : (SQP.lineSearch s.par.alphas s).2.steplength = PySQP.halve k := hst.step.trans hak
  have hgood : PySQP.Good p s.iter (PySQP.halve k) := by
    rw [← hak]; exact h.good hg hacc
  generalize hs : PySQP.search s.iter 10 (lit 1) p = r
  obtain ⟨r, a', q⟩ := r
  have hk9 : p.useFilter = false → k < 9 := by
    intro hpf
    rcases h9 with h9 | h9
    · rw [h.useFilter, hpf] at h9; cases h9
    · rw [hstep] at h9
      by_contra hn
      have : k = 9 := by omega
      exact h9 (by rw [this])
  rcases PySQP.search_spec s.iter 10 (PySQP.Trials.refl p) 0 (show PySQP.search s.iter 10 (PySQP.halve 0) p = _ from hs) with
    ⟨rfl, j, -, j2, j3, rfl, j5, j6, j7⟩ | ⟨-, i2, -, i4, -⟩ | ⟨-, i2, -, -, i4, -⟩
  · have hjk : j ≤ k := by
      by_contra hn
      exact j6 k (by omega) (by omega) hgood
    refine ⟨k, j, q, hk, hjk, hstep, rfl, ?_, ?_⟩
    · rcases Nat.eq_or_lt_of_le hjk with e | e
      · exact .inl e
      · exact .inr (hpre _ (hprek j e))
    · rintro rfl
      refine ⟨fun t ht => ?_, fun t ht => ?_⟩
      · rw [hst.xs t ht, j7.xs t ht, hak]
        unfold stepX
        rw [h.xs t ht, h.dx t ht]
      · rw [hst.us t ht, j7.us t ht, hak]
        unfold stepU
        rw [h.us t ht, h.du t ht]
  · exact absurd hgood (i4 k (by omega) (by omega))
  · exact absurd hgood (i4 k (by omega) (by have := hk9 i2; omega))

end
end Mim
