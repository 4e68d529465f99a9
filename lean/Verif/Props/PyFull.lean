import Verif.Lemmas.PyFull
import Verif.Props.PyDense
import Verif.Props.PyCSQPLine
import Verif.Props.ProxConvex

/-!
# C87, C88: `solve` of the Python `CSQP` with a dense QP back end
-/
set_option linter.unusedSectionVars false
set_option linter.unusedSimpArgs false

namespace Mim
open Spec Matrix

namespace PyFull
section
variable {F : Type} [Add F] [Sub F] [Mul F] [Div F] [Neg F] [Zero F] [One F] [FloatOps F] [SqrtOps F]
variable {P : Problem F} {B : PyDense.Backend F P}
open PyCSQP (Trials Took Good Dominated keep keep_all search_spec search_lists trialCost trialGap trialCon)

/-- **C87 (a), exceptions.**  If the back end raises an exception on every QP, or on none (`R`), then `solve` raises one iff the back end
does and is called at all. -/
theorem C87_dense_raises {R : Prop} (hR : ∀ mem m, (B.run mem m).1 = none ↔ R) (xs : Option (Traj P)) (us : Option (Ctrls P)) (m : ℕ) (s : PyFull B) :
    (∃ s', solve xs us m s = (none, s')) ↔ R ∧ (m ≠ 0 ∨ s.p.extra = true) := by
  have hd : ∀ s : PyFull B, (∃ s1, dirAt s = .exn s1) ↔ R := by
    intro s
    rw [← hR s.m (PyDense.inputs s.p.evaluate.data s.p.evaluate.gap)]
    constructor
    · rintro ⟨s1, h⟩
      exact (dirAt_exn h).1
    · intro h
      unfold dirAt computeDirection
      simp only []
      split
      · exact ⟨_, rfl⟩
      · rename_i a m e
        rw [e] at h
        cases h
  constructor
  · rintro ⟨s', h⟩
    rcases solve_cases h with ⟨j, q, hj, hq, he⟩ | ⟨q, hq, ⟨-, ho, -⟩ | ⟨hx, q2, h1, -⟩ | ⟨-, q2, -, ho, -⟩⟩
    · generalize ho : (none : Option Bool) = o at he
      cases he with
      | raised h => exact ⟨(hd q).1 ⟨_, h⟩, .inl (by omega)⟩
      | conv h hk => cases ho
      | gaveUp h hk hs => cases ho
    · cases ho
    · exact ⟨(hd q).1 ⟨_, h1⟩, .inr hx⟩
    · cases ho
  · rintro ⟨hr, hm⟩
    have none_ok : ∀ {s s1 : PyFull B}, dirAt s ≠ .ok s1 := by
      intro s s1 e
      obtain ⟨s2, e2⟩ := (hd s).2 hr
      rw [e] at e2
      cases e2
    generalize h : solve xs us m s = r
    obtain ⟨o, s'⟩ := r
    have : o = none := by
      rcases solve_cases h with ⟨j, q, hj, hq, he⟩ | ⟨q, hq, ⟨hx, -, -⟩ | ⟨-, q2, -, ho, -⟩ | ⟨-, q2, h1, -⟩⟩
      · cases he with
        | raised h' => rfl
        | conv h' hk => exact absurd h' none_ok
        | gaveUp h' hk hs => exact absurd h' none_ok
      · rcases hm with hm | hm
        · cases m with
          | zero => exact absurd rfl hm
          | succ m =>
            cases hq with
            | succ h hs =>
              obtain ⟨s1, h1, -⟩ := hs.run
              exact absurd h1 none_ok
        · rw [hm] at hx; cases hx
      · exact ho
      · exact absurd h1 none_ok
    subst this
    exact ⟨_, rfl⟩

/-- the back ends written in Python raise exactly with an iteration limit or an update interval of zero. -/
theorem custom_raises (sp : SpSolve F) (c : OConf F) (mem : (PyDense.custom P sp c).Mem) (m : PyDense.Inputs P) :
    ((PyDense.custom P sp c).run mem m).1 = none ↔ c.maxQP = 0 ∨ c.interval = 0 := by
  change OState F P.nVars (P.nEq + P.nIn) at mem
  rw [← OState.C85_osqp_raises (sp := sp) (D := PyDense.toOQP P.nVars P.nEq P.nIn m.dense) mem]
  cases ho : mem.optimize sp c (PyDense.toOQP P.nVars P.nEq P.nIn m.dense) with
  | exn r => simp [PyDense.custom, ho]
  | ok r => simp [PyDense.custom, ho]

theorem boyd_raises (sp : SpSolve F) (c : OConf F) (mem : (PyDense.boyd P sp c).Mem) (m : PyDense.Inputs P) :
    ((PyDense.boyd P sp c).run mem m).1 = none ↔ c.maxQP = 0 ∨ c.interval = 0 := by
  change BState F P.nVars P.nEq P.nIn at mem
  rw [← BState.C86_boyd_raises (sp := sp) (D := PyDense.toBQP P.nVars P.nEq P.nIn m.dense) mem]
  cases ho : mem.optimize sp c (PyDense.toBQP P.nVars P.nEq P.nIn m.dense) with
  | exn r => simp [PyDense.boyd, ho]
  | ok r => simp [PyDense.boyd, ho]

/-- **C87 (a), the solvers written in Python.**  `solve` raises an exception iff the QP iteration limit or the update interval is zero
and a QP is solved at all; no history, problem data or answer of the linear solver makes it raise. -/
theorem C87_python_raises (sp : SpSolve F) (c : OConf F) (xs : Option (Traj P)) (us : Option (Ctrls P)) (m : ℕ) :
    (∀ s : PyFull (PyDense.custom P sp c), (∃ s', solve xs us m s = (none, s')) ↔ (c.maxQP = 0 ∨ c.interval = 0) ∧ (m ≠ 0 ∨ s.p.extra = true)) ∧
    ∀ s : PyFull (PyDense.boyd P sp c), (∃ s', solve xs us m s = (none, s')) ↔ (c.maxQP = 0 ∨ c.interval = 0) ∧ (m ≠ 0 ∨ s.p.extra = true) :=
  ⟨fun s => C87_dense_raises (custom_raises sp c) xs us m s, fun s => C87_dense_raises (boyd_raises sp c) xs us m s⟩

/-- **C87 (b), number of QPs.**  `solve` solves one QP per iteration: at most `maxiter`, and one more with the extra iteration; if it
returns false with the filter, all of them were solved; with the merit function a false return before that means that a line search
failed. -/
theorem C87_dense_qps {xs : Option (Traj P)} {us : Option (Ctrls P)} {m : ℕ} {s s' : PyFull B} {o : Option Bool}
    (h : solve xs us m s = (o, s')) : ∃ k, s'.nQP = s.nQP + k ∧ k ≤ m + (if s.p.extra then 1 else 0) ∧
      (o = some true → 0 < k) ∧ (o = some false → s.p.useFilter = true → k = m + (if s.p.extra then 1 else 0)) ∧
      (m = 0 → s.p.extra = false → o = some false ∧ s'.p = s.p.start xs us) := by
  have hn0 : (s.begin_ xs us).nQP = s.nQP := rfl
  rcases solve_cases h with ⟨j, q, hj, hq, he⟩ | ⟨q, hq, ⟨hx, ho, rfl⟩ | ⟨hx, q1, h1, ho, rfl⟩ | ⟨hx, q1, h1, ho, rfl⟩⟩
  · refine ⟨j + 1, by rw [he.nQP, hq.nQP, hn0]; omega, by omega, fun _ => by omega, fun e hf => ?_, fun e => by omega⟩
    cases he with
    | raised h => cases e
    | conv h hk => cases e
    | @gaveUp s1 q' h1 hk hs =>
      exfalso
      have hpf : s1.kktCheck.p.pushFilter.useFilter = true :=
        (keep_all (keep_dirAt h1)).2.2.2.2.2.1.trans ((keep_all hq.keep).2.2.2.2.2.1.trans hf)
      rcases search_spec j 10 (Trials.refl _) 0 hs with ⟨e, -⟩ | ⟨e, -⟩ | ⟨-, e, -⟩
      · cases e
      · cases e
      · rw [hpf] at e; cases e
  · subst ho
    refine ⟨m, by rw [hq.nQP, hn0], by omega, fun e => (by cases e), fun _ _ => by simp [hx], fun e _ => ⟨rfl, ?_⟩⟩
    subst e
    cases hq
    rfl
  · obtain ⟨-, _, rfl⟩ := dirAt_exn h1
    refine ⟨m + 1, ?_, by simp [hx], fun _ => by omega, fun _ _ => by simp [hx], fun _ e => by rw [hx] at e; cases e⟩
    change q.nQP + 1 = _
    rw [hq.nQP, hn0]; omega
  · obtain ⟨_, _, _, _, _, _, rfl, -⟩ := dirAt_ok h1
    refine ⟨m + 1, ?_, by simp [hx], fun _ => by omega, fun _ _ => by simp [hx], fun _ e => by rw [hx] at e; cases e⟩
    change q.nQP + 1 = _
    rw [hq.nQP, hn0]; omega

/-! ### the filter memory -/

theorem Step.unique {i : ℕ} {p q q' : PyFull B} (h : Step i p q) (h' : Step i p q') : q = q' := by
  obtain ⟨p1, a1, -, r, x, a2, -, rfl⟩ := h.run
  obtain ⟨p1', b1, -, r', x', b2, -, rfl⟩ := h'.run
  rw [a1] at b1
  cases b1
  rw [a2] at b2
  cases b2
  rfl

theorem Heads.unique {p0 : PyFull B} {i : ℕ} {q q' : PyFull B} (h : Heads p0 i q) (h' : Heads p0 i q') : q = q' := by
  induction h generalizing q' with
  | zero => cases h'; rfl
  | succ h hs ih =>
    cases h' with
    | succ h1 hs1 =>
      cases ih h1
      exact hs.unique hs1

/-- the memory at the beginning of iteration `i`. -/
structure Memory (p0 : PyFull B) (i : ℕ) (q : PyFull B) : Prop where
  cost : q.p.costList.Full p0.p.filterSize
  gap : q.p.gapList.Full p0.p.filterSize
  entries : ∀ j qj q1, j < i → i ≤ j + p0.p.filterSize → Heads p0 j qj → dirAt qj = .ok q1 →
    q.p.costList.get (p0.p.filterSize - (i - j)) = q1.p.cost ∧ q.p.gapList.get (p0.p.filterSize - (i - j)) = q1.p.gapNorm

theorem dirAt_lists {q q1 : PyFull B} (h : dirAt q = .ok q1) : q1.p.costList = q.p.costList ∧ q1.p.gapList = q.p.gapList := by
  obtain ⟨_, _, _, _, _, _, rfl, -⟩ := dirAt_ok h
  exact ⟨rfl, rfl⟩

theorem Heads.memory {p : PyFull B} {xs : Option (Traj P)} {us : Option (Ctrls P)} (hm : 0 < p.p.filterSize) {i : ℕ} {q : PyFull B}
    (h : Heads (p.begin_ xs us) i q) : Memory (p.begin_ xs us) i q := by
  induction h with
  | zero => exact ⟨⟨rfl, List.length_replicate⟩, ⟨rfl, List.length_replicate⟩, fun j _ _ hj => absurd hj (Nat.not_lt_zero _)⟩
  | @succ i q q' h hs ih =>
    obtain ⟨q1, a1, -, r, x, a2, -, rfl⟩ := hs.run
    obtain ⟨r1, r2⟩ := search_lists a2
    have hfr := dirAt_lists a1
    have c1 : x.costList = q.p.costList.push q1.p.cost := by
      rw [r1]
      change q1.p.costList.push q1.p.cost = _
      rw [hfr.1]
    have c2 : x.gapList = q.p.gapList.push q1.p.gapNorm := by
      rw [r2]
      change q1.p.gapList.push q1.p.gapNorm = _
      rw [hfr.2]
    have hm' : 0 < (p.begin_ xs us).p.filterSize := hm
    refine ⟨?_, ?_, fun j qj qj1 hj hjm hh hd => ?_⟩
    · change x.costList.Full _
      rw [c1]; exact ih.cost.push _
    · change x.gapList.Full _
      rw [c2]; exact ih.gap.push _
    change x.costList.get _ = _ ∧ x.gapList.get _ = _
    rw [c1, c2]
    rcases Nat.lt_succ_iff_lt_or_eq.mp hj with hlt | rfl
    · have e : (p.begin_ xs us).p.filterSize - (i - j) = (p.begin_ xs us).p.filterSize - (i + 1 - j) + 1 := by omega
      rw [ih.cost.get_prev _ (by omega), ih.gap.get_prev _ (by omega), ← e]
      exact ih.entries j qj qj1 hlt (by omega) hh hd
    · cases h.unique hh
      rw [a1] at hd
      cases hd
      rw [show (p.begin_ xs us).p.filterSize - (j + 1 - j) = (p.begin_ xs us).p.filterSize - 1 by omega, ih.cost.get_last hm', ih.gap.get_last hm']
      exact ⟨rfl, rfl⟩

/-- the beginnings of earlier iterations. -/
theorem Heads.earlier {p0 : PyFull B} {i : ℕ} {q : PyFull B} (h : Heads p0 i q) (j : ℕ) (hj : j < i) :
    ∃ qj q1, Heads p0 j qj ∧ dirAt qj = .ok q1 := by
  induction h with
  | zero => exact absurd hj (Nat.not_lt_zero _)
  | @succ i q q' h hs ih =>
    rcases Nat.lt_succ_iff_lt_or_eq.mp hj with hlt | rfl
    · exact ih hlt
    · obtain ⟨q1, a1, -⟩ := hs.run
      exact ⟨q, q1, h, a1⟩

/-- **C87 (c), the filter.**  In iteration `i` of any call of `solve` with a filter memory of `m ≥ 1` entries, the line search rejects a
trial with cost `c` and gap norm `g` iff one of the last `min(m, i+1)` iterates, the current one included, is strictly better in both; the
violation of the constraints plays no role. -/
theorem C87_dense_filter {p : PyFull B} {xs : Option (Traj P)} {us : Option (Ctrls P)} (hm : 0 < p.p.filterSize)
    (hgap : p.p.gap P.T = zeroV F P.ndx) {i : ℕ}
    {q q1 : PyFull B} (h : Heads (p.begin_ xs us) i q) (hd : dirAt q = .ok q1) (c g : F) :
    PyCSQP.Dominated q1.kktCheck.p.pushFilter i c g ↔
      ∃ j qj, j ≤ i ∧ i < j + p.p.filterSize ∧ Heads (p.begin_ xs us) j qj ∧ ltb (trajCost P qj.p.xs qj.p.us) c = true ∧
        ltb (shootGapNorm P qj.p.xs qj.p.us + norm1 (zeroV F P.ndx)) g = true := by
  have hval : ∀ {j : ℕ} {qj qj1 : PyFull B}, Heads (p.begin_ xs us) j qj → dirAt qj = .ok qj1 →
      qj1.p.cost = trajCost P qj.p.xs qj.p.us ∧ qj1.p.gapNorm = shootGapNorm P qj.p.xs qj.p.us + norm1 (zeroV F P.ndx) := by
    intro j qj qj1 hh hj
    obtain ⟨ha, ex, eu⟩ := dirAt_atPoint hj
    have hg : qj1.p.gap P.T = zeroV F P.ndx :=
      (keep_all (keep_dirAt hj)).2.2.2.2.2.2.2.2.1.trans ((keep_all hh.keep).2.2.2.2.2.2.2.2.1.trans hgap)
    rw [ha.cost, ha.gapNorm, ex, eu, hg]
    exact ⟨rfl, rfl⟩
  have hme := h.memory hm
  have hfr := dirAt_lists hd
  have c1 : q1.kktCheck.p.pushFilter.costList = q.p.costList.push q1.p.cost := congrArg (fun b => b.push q1.p.cost) hfr.1
  have c2 : q1.kktCheck.p.pushFilter.gapList = q.p.gapList.push q1.p.gapNorm := congrArg (fun b => b.push q1.p.gapNorm) hfr.2
  have hfs : q1.kktCheck.p.pushFilter.filterSize = p.p.filterSize :=
    (keep_all (keep_dirAt hd)).2.2.2.2.2.2.1.trans (keep_all h.keep).2.2.2.2.2.2.1
  have hm' : 0 < (p.begin_ xs us).p.filterSize := hm
  have hget : ∀ k, k < p.p.filterSize → k ≤ i → ∀ qj qj1, Heads (p.begin_ xs us) (i - k) qj → dirAt qj = .ok qj1 →
      (q.p.costList.push q1.p.cost).get (p.p.filterSize - 1 - k) = qj1.p.cost ∧
      (q.p.gapList.push q1.p.gapNorm).get (p.p.filterSize - 1 - k) = qj1.p.gapNorm := by
    intro k hk hki qj qj1 hh hj
    rcases Nat.eq_zero_or_pos k with rfl | hpos
    · cases h.unique hh
      have := hd.symm.trans hj
      cases this
      exact ⟨hme.cost.get_last hm' _, hme.gap.get_last hm' _⟩
    · have e : p.p.filterSize - 1 - k + 1 = (p.begin_ xs us).p.filterSize - (i - (i - k)) := by
        change _ = p.p.filterSize - _
        omega
      rw [hme.cost.get_prev _ (by change _ < p.p.filterSize; omega), hme.gap.get_prev _ (by change _ < p.p.filterSize; omega), e]
      exact hme.entries (i - k) qj qj1 (by omega) (by change i ≤ i - k + p.p.filterSize; omega) hh hj
  have hex : ∀ j, j ≤ i → ∃ qj qj1, Heads (p.begin_ xs us) j qj ∧ dirAt qj = .ok qj1 := by
    intro j hj
    rcases Nat.eq_or_lt_of_le hj with rfl | hlt
    · exact ⟨q, q1, h, hd⟩
    · exact h.earlier j hlt
  unfold PyCSQP.Dominated
  rw [c1, c2, hfs]
  constructor
  · rintro ⟨k, h1, h2, h3, h4⟩
    obtain ⟨qj, qj1, hh, hj⟩ := hex (i - k) (Nat.sub_le _ _)
    obtain ⟨g1, g2⟩ := hget k h1 h2 qj qj1 hh hj
    obtain ⟨v1, v2⟩ := hval hh hj
    rw [g1, v1] at h3
    rw [g2, v2] at h4
    exact ⟨i - k, qj, Nat.sub_le _ _, by omega, hh, h3, h4⟩
  · rintro ⟨j, qj, h1, h2, hh, h3, h4⟩
    obtain ⟨qj', qj1, hh', hj⟩ := hex j h1
    cases hh.unique hh'
    have hik : i - (i - j) = j := by omega
    obtain ⟨g1, g2⟩ := hget (i - j) (by omega) (by omega) qj qj1 (by rw [hik]; exact hh) hj
    obtain ⟨v1, v2⟩ := hval hh hj
    refine ⟨i - j, by omega, by omega, ?_, ?_⟩
    · rw [g1, v1]; exact h3
    · rw [g2, v2]; exact h4

end

section
variable {K : Type} [Field K] [LinearOrder K] [IsStrictOrderedRing K] [SqrtOps K] {P : Problem K} {B : PyDense.Backend K P}
open PyCSQP (Trials Took Good Dominated keep keep_all search_spec trialCost trialGap trialCon meritOf_eq)
open PySQP (halve)

/-- a true return comes from a direction at a state of the main loop. -/
theorem solve_true {xs : Option (Traj P)} {us : Option (Ctrls P)} {m : ℕ} {s s' : PyFull B} (h : solve xs us m s = (some true, s')) :
    ∃ i q q1, i ≤ m ∧ Heads (s.begin_ xs us) i q ∧ dirAt q = .ok q1 ∧ passes q1 = true ∧ s' = q1.kktCheck := by
  rcases solve_cases h with ⟨j, q, hj, hq, he⟩ | ⟨q, hq, ⟨-, ho, -⟩ | ⟨-, q1, -, ho, -⟩ | ⟨-, q1, h1, ho, rfl⟩⟩
  · generalize ho : some true = o at he
    cases he with
    | raised h => cases ho
    | gaveUp h hk hs => cases ho
    | @conv q1 h1 hk => exact ⟨j, q, q1, hj.le, hq, h1, hk, rfl⟩
  · cases ho
  · cases ho
  · cases ho' : passes q1 with
    | false => rw [ho'] at ho; cases ho
    | true => exact ⟨m, q, q1, le_rfl, hq, h1, ho', rfl⟩

/-- **C87 (d), the certificate.**  Whatever the back end answers: if `solve` returns true, then the candidate it leaves, with the multipliers
of the last QP, satisfies stationarity (except for the state of node 0) and feasibility of the *nonlinear* constrained problem up to the
residual it stores, which is strictly below the tolerance and the least such bound; the candidate starts at the problem's initial state, and
the problem's datas, cost, gap norm and constraint norm are those of that candidate. -/
theorem C87_dense_certificate {xs : Option (Traj P)} {us : Option (Ctrls P)} {m : ℕ} {s s' : PyFull B}
    (hr : Reachable s) (hint : ∀ x, P.integrate x 0 = x) (h : solve xs us m s = (some true, s')) :
    s'.p.KKT < s.p.tol ∧
    (∀ c, 0 ≤ c → (s'.p.KKT ≤ c ↔ IsPKKT P c s'.p.xs s'.p.us s'.p.lagMul s'.p.q.y)) ∧
    IsPKKT P s.p.tol s'.p.xs s'.p.us s'.p.lagMul s'.p.q.y ∧
    s'.p.xs 0 = P.x0 ∧ FreshCalc P s'.p.data s'.p.xs s'.p.us ∧ FreshDiff P s'.p.data s'.p.xs s'.p.us ∧
    s'.p.cost = trajCost P s'.p.xs s'.p.us ∧ s'.p.gapNorm = shootGapNorm P s'.p.xs s'.p.us ∧ s'.p.con = violation P s'.p.xs s'.p.us := by
  obtain ⟨i, q, q1, -, hq, h1, hk, rfl⟩ := solve_true h
  obtain ⟨ha, ex, eu⟩ := dirAt_atPoint h1
  have hx := hq.x0 hint (by simp only [begin_, PyCSQP.start, Function.update_self])
  have hkeep : keep q.p = keep s.p := hq.keep
  have hg : q.p.gap P.T = 0 := (keep_all hkeep).2.2.2.2.2.2.2.2.1.trans hr.clean.1
  have htol : q1.p.tol = s.p.tol := (keep_all (keep_dirAt h1)).2.2.2.2.1.trans (keep_all hkeep).2.2.2.2.1
  have hlt : q1.kktCheck.p.KKT < s.p.tol := by
    unfold passes at hk
    rw [htol] at hk
    simpa using hk
  have hc := fun c hc => passes_cert hg h1 c hc
  refine ⟨hlt, hc, (hc _ (le_trans (kktCheck_nonneg q1) hlt.le)).1 hlt.le, ?_, ha.calc_, ha.diff, ha.cost, ?_, ?_⟩
  · exact (congrFun ex 0).trans hx
  · have hgT : q1.p.gap P.T = 0 := (keep_all (keep_dirAt h1)).2.2.2.2.2.2.2.2.1.trans hg
    have := ha.gapNorm
    rw [hgT] at this
    have h2 : q1.p.gapNorm = shootGapNorm P q1.p.xs q1.p.us := by simpa using this
    exact h2
  · have := ha.con
    rw [conViol_exact] at this
    exact this

/-- **C87 (e), the merit line search.**  With fixed weights every iteration of a solve that goes on strictly decreases
`cost + mu1 · gaps + mu2 · violation`. -/
theorem C87_dense_merit {xs : Option (Traj P)} {us : Option (Ctrls P)} {s : PyFull B} (hr : Reachable s) (hf : s.p.useFilter = false)
    (h1 : 0 ≤ s.p.mu1) (h2 : 0 ≤ s.p.mu2) {i : ℕ} {q q' : PyFull B} (hq : Heads (s.begin_ xs us) i q) (hs : Step i q q') :
    trajCost P q'.p.xs q'.p.us + s.p.mu1 * shootGapNorm P q'.p.xs q'.p.us + s.p.mu2 * violation P q'.p.xs q'.p.us <
      trajCost P q.p.xs q.p.us + s.p.mu1 * shootGapNorm P q.p.xs q.p.us + s.p.mu2 * violation P q.p.xs q.p.us := by
  obtain ⟨s1, hd, -, r, x, hse, hne, rfl⟩ := hs.run
  obtain ⟨ha, ex, eu⟩ := dirAt_atPoint hd
  have hkeep : keep s1.p = keep s.p := (keep_dirAt hd).trans hq.keep
  obtain ⟨-, k2, k3, -, -, k6, -, -, k9, k10⟩ := keep_all hkeep
  have hgt : s1.p.gapTry P.T = 0 := k10.trans hr.clean.2
  have hgT : s1.p.gap P.T = 0 := k9.trans hr.clean.1
  have hauto : s1.p.auto = false := by
    unfold PyCSQP.auto
    rw [k2, k3]
    simp [h1, h2]
  have n0 : norm1 (0 : Vec K P.ndx) = 0 := by simp [norm1_exact]
  have hmer : s1.p.merit = trajCost P q.p.xs q.p.us + s.p.mu1 * shootGapNorm P q.p.xs q.p.us + s.p.mu2 * violation P q.p.xs q.p.us := by
    rw [ha.merit, meritOf_eq, if_neg (by rw [hauto]; exact Bool.false_ne_true), ha.cost, ha.gapNorm, ha.con, hgT, conViol_exact, k2, k3, ex, eu,
      n0, add_zero]
  rcases search_spec i 10 (Trials.refl s1.kktCheck.p.pushFilter) 0 hse with ⟨-, k, -, -, -, hgood, -, e⟩ | ⟨-, e, -⟩ | ⟨e, -⟩
  · have hu : s1.kktCheck.p.pushFilter.useFilter = false := k6.trans hf
    unfold Good at hgood
    rw [hu, if_neg Bool.false_ne_true, meritOf_eq, if_neg (by rw [show s1.kktCheck.p.pushFilter.auto = false from hauto]; exact Bool.false_ne_true)] at hgood
    have hg2 : trialCost s1.p (halve k) + s1.p.mu1 * trialGap s1.p (halve k) + s1.p.mu2 * trialCon s1.p (halve k) < s1.p.merit := by
      rw [ltb_exact, decide_eq_true_eq] at hgood
      exact hgood
    rw [hmer, k2, k3] at hg2
    have e1 : trajCost P x.xs x.us = trialCost s1.p (halve k) := trajCost_congr P e.xs e.us
    have e2 : shootGapNorm P x.xs x.us = trialGap s1.p (halve k) := by
      have : shootGapNorm P x.xs x.us = shootGapNorm P (stepX P s1.p.xs s1.p.q.dx (halve k)) (stepU P s1.p.us s1.p.q.du (halve k)) :=
        shootGapNorm_congr P e.xs e.us
      unfold trialGap
      rw [this, hgt, n0, add_zero]
    have e3 : violation P x.xs x.us = trialCon s1.p (halve k) := by
      have : conViol P x.xs x.us = conViol P (stepX P s1.p.xs s1.p.q.dx (halve k)) (stepU P s1.p.us s1.p.q.du (halve k)) := by
        unfold conViol
        rw [e.xs _ le_rfl]
        rw [PyCSQP.forUp_congr P.T _ _ 0 fun t ht a => by rw [e.xs t ht.le, e.us t ht]]
        rfl
      rw [← conViol_exact, this]
      rfl
    change trajCost P x.xs x.us + s.p.mu1 * shootGapNorm P x.xs x.us + s.p.mu2 * violation P x.xs x.us < _
    rw [e1, e2, e3]
    exact hg2
  · rcases e with e | e
    · rw [show s1.kktCheck.p.pushFilter.useFilter = false from k6.trans hf] at e; cases e
    · cases e
  · exact absurd e hne

end
end PyFull
end Mim
