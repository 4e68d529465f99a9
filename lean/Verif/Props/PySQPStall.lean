import Verif.Props.PySQP
import Verif.Lemmas.PySQPHist
import Verif.Lemmas.RiccatiExist
import Verif.Props.SQPAffine
import Verif.Props.DDPReturn

/-!
# C68 (history, when a direction exists) and C70 (how the Python prototype `SQP` fails) 
-/
set_option linter.unusedSectionVars false
set_option linter.unusedSimpArgs false

namespace Mim
open Spec Matrix

namespace PySQP
section
variable {F : Type} [Add F] [Sub F] [Mul F] [Div F] [Neg F] [Zero F] [One F] [FloatOps F] {P : Problem F}

/-- same options. -/
structure SameOptions (p q : PySQP P) : Prop where
  mu : p.mu = q.mu
  tol : p.tol = q.tol
  useFilter : p.useFilter = q.useFilter
  filterSize : p.filterSize = q.filterSize
  withCb : p.withCb = q.withCb
  extra : p.extra = q.extra

/-- **C68, history.**  A call of `solve` on a Python `SQP` object depends on its options and its arguments only: two objects with
any histories and the same options end with the same value or exception and the same candidate, and if they return true with the
same residual, cost, gaps, gap norm, merit value, direction, gains and multipliers. -/
theorem C68_py_history (llt : LLT F) (xs : Option (Traj P)) (us : Option (Ctrls P)) (m : ℕ) {p q : PySQP P} (hp : Reachable p)
    (hq : Reachable q) (h : SameOptions p q) :
    ∃ o p' q', solve llt xs us m p = (o, p') ∧ solve llt xs us m q = (o, q') ∧
      (∀ t, t ≤ P.T → p'.xs t = q'.xs t) ∧ (∀ t, t < P.T → p'.us t = q'.us t) ∧
      (o = .ret true → p'.KKT = q'.KKT ∧ p'.cost = q'.cost ∧ p'.gapNorm = q'.gapNorm ∧ p'.merit = q'.merit ∧
        (∀ t, t ≤ P.T → p'.gap t = q'.gap t ∧ p'.dx t = q'.dx t ∧ p'.lagMul t = q'.lagMul t ∧ p'.S t = q'.S t ∧ p'.s t = q'.s t) ∧
        (∀ t, t < P.T → p'.du t = q'.du t ∧ p'.L t = q'.L t ∧ p'.l t = q'.l t)) := by
  have hk : PySQP.keep p = PySQP.keep q := by
    obtain ⟨a1, a2, a3⟩ := hp.clean
    obtain ⟨b1, b2, b3⟩ := hq.clean
    unfold PySQP.keep
    rw [h.mu, h.tol, h.useFilter, h.filterSize, h.withCb, h.extra, a1, a2, a3, b1, b2, b3]
  obtain ⟨o, p', q', e1, e2, ha, hd⟩ := solve_alike llt xs us m hk
  refine ⟨o, p', q', e1, e2, ha.xs, ha.us, fun ho => ?_⟩
  obtain ⟨hd, hK⟩ := hd ho
  exact ⟨hK, hd.cost, hd.gapNorm, hd.merit, fun t ht => ⟨hd.gap t ht, hd.dx t ht, hd.lam t ht, hd.S t ht, hd.s t ht⟩,
    fun t ht => ⟨hd.du t ht, hd.L t ht, hd.l t ht⟩⟩

/-! ### no progress -/

/-- the newest entry of a full buffer. -/
theorem get_push {b : CBuf F} {n : ℕ} (h : b.Full n) (hn : 1 ≤ n) (x : F) : (b.push x).get (n - 1) = x := by
  have h1 := (h.holds.push x).get 0 (by omega) (by simp)
  simp only [List.nil_append, List.length_singleton] at h1
  rw [Nat.sub_zero] at h1
  simpa using h1.symm

/-- At the candidate of `q` a direction exists, the residual is not below the tolerance, and all ten trial points along the
direction are strictly worse than the candidate in both cost and gap norm. -/
def Stuck (llt : LLT F) (q : PySQP P) : Prop :=
  ∃ q1, computeDirection llt q = .ok q1 ∧ ltb q1.kktCheck.KKT q1.tol = false ∧
    ∀ k, k < 10 → ltb q1.cost (trialCost q1 (halve k)) = true ∧ ltb q1.gapNorm (trialGap q1 (halve k)) = true

theorem Stuck.alike {llt : LLT F} {p q : PySQP P} (h : Stuck llt p) (ha : Alike p q) : Stuck llt q := by
  obtain ⟨p1, h1, h2, h3⟩ := h
  have hd := direction_alike llt ha
  rw [h1] at hd
  generalize hq : computeDirection llt q = rq at hd
  cases hd with
  | ok hd =>
    refine ⟨_, hq, ?_, fun k hk => ?_⟩
    · rw [← (kktCheck_dirs hd).1, ← (keep_all hd.keep).2.1, h2]
    · rw [← trialCost_same hd, ← trialGap_same hd, ← hd.cost, ← hd.gapNorm]
      exact h3 k hk

/-- one iteration from a stuck candidate. -/
theorem Stuck.step {llt : LLT F} {q : PySQP P} (h : Stuck llt q) (hu : q.useFilter = true) (hn : 1 ≤ q.filterSize)
    (hg : q.gapList.Full q.filterSize) (hc : q.costList.Full q.filterSize) (al : Option F) (iter : ℕ) :
    ∃ q1 a q2, head llt al q = .inr q1 ∧ search iter 10 (lit 1) q1.pushFilter = (.exhausted, a, q2) ∧ Alike q q2 ∧
      q2.gapList.Full q2.filterSize ∧ q2.costList.Full q2.filterSize := by
  obtain ⟨q1, h1, h2, h3⟩ := h
  have k := keep_all (keep_direction h1)
  have ef : q1.filterSize = q.filterSize := k.2.2.2.1
  have e : head llt al q = .inr q1.kktCheck := by
    unfold head
    rw [h1]
    simp only []
    rw [if_neg]
    change ¬ ltb q1.kktCheck.KKT q1.tol = true
    rw [h2]; simp
  have hgl : q1.gapList = q.gapList ∧ q1.costList = q.costList := by
    obtain ⟨r, _, _, _, _, _, -, ⟨_, _, _, _, rfl⟩, rfl, -⟩ := computeDirection_ok h1
    exact ⟨rfl, rfl⟩
  have hxs := (direction_atPoint h1).2
  generalize hs : search iter 10 (lit 1) q1.kktCheck.pushFilter = r
  obtain ⟨r, a, q2⟩ := r
  have hdom : ∀ i, i < 10 → ¬ Good q1.kktCheck.pushFilter iter (halve i) := by
    intro i hi hgood
    unfold Good at hgood
    rw [if_pos (show q1.kktCheck.pushFilter.useFilter = true from k.2.2.1.trans hu)] at hgood
    refine hgood ⟨0, ?_, Nat.zero_le _, ?_, ?_⟩
    · change 0 < q1.filterSize; omega
    · change ltb ((q1.costList.push q1.cost).get (q1.filterSize - 1 - 0)) _ = true
      rw [Nat.sub_zero, ef, hgl.2, get_push hc hn]
      exact (h3 i hi).1
    · change ltb ((q1.gapList.push q1.gapNorm).get (q1.filterSize - 1 - 0)) _ = true
      rw [Nat.sub_zero, ef, hgl.1, get_push hg hn]
      exact (h3 i hi).2
  have hT : r = .exhausted ∧ Trials q1.kktCheck.pushFilter q2 := by
    rcases search_spec iter 10 (Trials.refl q1.kktCheck.pushFilter) 0 hs with ⟨-, k, -, k2, -, k4, k5, -⟩ | ⟨e, -, -, -, e2⟩ | ⟨-, hf, -⟩
    · subst k4
      exact absurd k5 (hdom k (by omega))
    · exact ⟨e, e2⟩
    · have : q1.useFilter = false := hf
      rw [k.2.2.1, hu] at this; cases this
  obtain ⟨rfl, hT⟩ := hT
  refine ⟨_, a, q2, e, hs, ⟨?_, ?_, ?_⟩, ?_⟩
  · rw [hT.keep]; exact (keep_direction h1).symm
  · intro t _
    obtain ⟨_, _, _, _, _, _, _, _, rfl, -⟩ := hT
    exact (congrFun hxs.1 t).symm
  · intro t _
    obtain ⟨_, _, _, _, _, _, _, _, rfl, -⟩ := hT
    exact (congrFun hxs.2 t).symm
  · obtain ⟨_, _, _, _, _, _, _, _, rfl, -⟩ := hT
    change (q1.gapList.push q1.gapNorm).Full q1.filterSize ∧ (q1.costList.push q1.cost).Full q1.filterSize
    rw [hgl.1, hgl.2, ef]
    exact ⟨hg.push _, hc.push _⟩

theorem Stuck.iterate {llt : LLT F} (n iter : ℕ) (al : Option F) {q : PySQP P} (h : Stuck llt q) (hu : q.useFilter = true)
    (hn : 1 ≤ q.filterSize) (hg : q.gapList.Full q.filterSize) (hc : q.costList.Full q.filterSize) :
    ∃ al' q', iterate llt n iter al q = .inr (al', q') ∧ Alike q q' := by
  induction n generalizing iter al q with
  | zero => exact ⟨al, q, rfl, rfl, fun _ _ => rfl, fun _ _ => rfl⟩
  | succ n ih =>
    obtain ⟨q1, a, q2, e1, e2, ha, f1, f2⟩ := h.step hu hn hg hc al iter
    have k := keep_all ha.keep
    obtain ⟨al', q', e3, ha'⟩ := ih (iter + 1) (some a) (h.alike ha) (k.2.2.1 ▸ hu) (k.2.2.2.1 ▸ hn) f1 f2
    refine ⟨al', q', ?_, ha.keep.trans ha'.keep, fun t ht => (ha.xs t ht).trans (ha'.xs t ht), fun t ht => (ha.us t ht).trans (ha'.us t ht)⟩
    unfold PySQP.iterate
    rw [e1]
    simp only []
    rw [e2]
    exact e3

/-- the filter memory is always full with capacity `filter_size`. -/
theorem Heads.full {llt : LLT F} {p : PySQP P} {xs : Option (Traj P)} {us : Option (Ctrls P)} {i : ℕ} {q : PySQP P}
    (h : Heads llt (p.start xs us) i q) : q.gapList.Full q.filterSize ∧ q.costList.Full q.filterSize := by
  induction h with
  | zero => exact ⟨⟨rfl, by simp [start, infDeque]⟩, ⟨rfl, by simp [start, infDeque]⟩⟩
  | @succ i p a q h hs ih =>
    obtain ⟨p1, h1, -, r, h2, h3⟩ := hs.run
    have e : p1.gapList = p.gapList ∧ p1.costList = p.costList ∧ p1.filterSize = p.filterSize := by
      obtain ⟨r, _, _, _, _, _, -, ⟨_, _, _, _, rfl⟩, rfl, -⟩ := computeDirection_ok h1
      exact ⟨rfl, rfl, rfl⟩
    have hp : p1.kktCheck.pushFilter.gapList.Full p1.kktCheck.pushFilter.filterSize ∧
        p1.kktCheck.pushFilter.costList.Full p1.kktCheck.pushFilter.filterSize := by
      change (p1.gapList.push p1.gapNorm).Full p1.filterSize ∧ (p1.costList.push p1.cost).Full p1.filterSize
      rw [e.1, e.2.1, e.2.2]
      exact ⟨ih.1.push _, ih.2.push _⟩
    rcases search_spec i 10 (Trials.refl p1.kktCheck.pushFilter) 0 h2 with ⟨-, k, -, -, -, -, -, -, e⟩ | ⟨-, -, -, -, e⟩ | ⟨e, -⟩
    · obtain ⟨_, _, _, _, _, _, _, _, _, _, rfl, -⟩ := e.frame
      exact hp
    · obtain ⟨_, _, _, _, _, _, _, _, rfl, -⟩ := e
      exact hp
    · exact absurd e h3

theorem iterate_succ (llt : LLT F) (n iter : ℕ) (al : Option F) (p : PySQP P) :
    iterate llt (n + 1) iter al p = match head llt al p with
      | .inl r => .inl r
      | .inr p => match search iter 10 (lit 1) p.pushFilter with
        | (.gaveUp, _, p) => .inl (.ret false, p)
        | (_, a, p) => iterate llt n (iter + 1) (some a) p := rfl

theorem iterate_add (llt : LLT F) (n k iter : ℕ) (al : Option F) (p : PySQP P) :
    iterate llt (n + k) iter al p = match iterate llt n iter al p with
      | .inl r => .inl r
      | .inr (al', p') => iterate llt k (iter + n) al' p' := by
  induction n generalizing iter al p with
  | zero => rw [Nat.zero_add]; rfl
  | succ n ih =>
    rw [Nat.add_right_comm]
    rw [iterate_succ llt (n + k), iterate_succ llt n]
    cases hh : head llt al p with
    | inl r => rfl
    | inr p1 =>
      simp only []
      cases hs : search iter 10 (lit 1) p1.pushFilter with
      | mk r aq =>
        obtain ⟨a, q⟩ := aq
        cases r with
        | gaveUp => rfl
        | accepted =>
          simp only []
          rw [ih]
          cases PySQP.iterate llt n (iter + 1) (some a) q with
          | inl r => rfl
          | inr x =>
            obtain ⟨x1, x2⟩ := x
            have e : iter + 1 + n = iter + (n + 1) := by omega
            simp only [e]
        | exhausted =>
          simp only []
          rw [ih]
          cases PySQP.iterate llt n (iter + 1) (some a) q with
          | inl r => rfl
          | inr x =>
            obtain ⟨x1, x2⟩ := x
            have e : iter + 1 + n = iter + (n + 1) := by omega
            simp only [e]

/-- the state in which the `i`-th iteration begins is the one after `i` iterations. -/
theorem Heads.iterate {llt : LLT F} {p0 : PySQP P} {i : ℕ} {q : PySQP P} (h : Heads llt p0 i q) :
    ∃ al, PySQP.iterate llt i 0 none p0 = .inr (al, q) := by
  induction h with
  | zero => exact ⟨none, rfl⟩
  | @succ i p a q h hs ih =>
    obtain ⟨al, e⟩ := ih
    obtain ⟨p1, h1, h4, r, h2, h3⟩ := hs.run
    refine ⟨some a, ?_⟩
    rw [iterate_add, e, Nat.zero_add]
    simp only []
    have eh : head llt al p = .inr p1.kktCheck := by
      unfold head
      rw [h1]
      simp only []
      rw [if_neg]
      change ¬ ltb p1.kktCheck.KKT p1.tol = true
      rw [h4]; simp
    unfold PySQP.iterate
    rw [eh]
    simp only []
    have h2' : search i 10 (lit 1) p1.kktCheck.pushFilter = (r, a, q) := h2
    rw [h2']
    cases r with
    | gaveUp => exact absurd rfl h3
    | accepted => rfl
    | exhausted => rfl

/-- **C70, stall.**  With the filter line search of the Python class `SQP`, for any filter size ≥ 1: once the candidate is such that
all ten trial points are strictly worse in both cost and gap norm, every further iteration repeats the same computation in vain; for
every larger `maxiter` `solve` returns False with exactly that candidate.  (There is no regularization that could change the
direction, unlike in the C++ solver.) -/
theorem C70_py_stall {llt : LLT F} {xs : Option (Traj P)} {us : Option (Ctrls P)} {p q : PySQP P} {j : ℕ}
    (hq : Heads llt (p.start xs us) j q) (hs : Stuck llt q) (hu : p.useFilter = true) (hn : 1 ≤ p.filterSize) (m : ℕ) (hm : j ≤ m) :
    ∃ p', solve llt xs us m p = (.ret false, p') ∧ (∀ t, t ≤ P.T → p'.xs t = q.xs t) ∧ ∀ t, t < P.T → p'.us t = q.us t := by
  have k := keep_all (hq.keep.trans (rfl : PySQP.keep (p.start xs us) = PySQP.keep p))
  obtain ⟨f1, f2⟩ := hq.full
  obtain ⟨al, e⟩ := hq.iterate
  obtain ⟨al', q', e', ha⟩ := hs.iterate (m - j) (0 + j) al (k.2.2.1.trans hu) (by rw [k.2.2.2.1]; exact hn) f1 f2
  have et : PySQP.iterate llt m 0 none (p.start xs us) = .inr (al', q') := by
    have := iterate_add llt j (m - j) 0 none (p.start xs us)
    rw [show j + (m - j) = m by omega, e] at this
    exact this.trans e'
  unfold solve
  rw [et]
  simp only []
  split
  · obtain ⟨q1, h1, h2, -⟩ := hs.alike ha
    rw [h1]
    simp only []
    rw [if_neg (show ¬ ltb q1.kktCheck.KKT q1.kktCheck.tol = true by
      change ¬ ltb q1.kktCheck.KKT q1.tol = true
      rw [h2]; simp)]
    refine ⟨_, rfl, fun t ht => ?_, fun t ht => ?_⟩
    · exact (congrFun (direction_atPoint h1).2.1 t).trans (ha.xs t ht).symm
    · exact (congrFun (direction_atPoint h1).2.2 t).trans (ha.us t ht).symm
  · exact ⟨_, rfl, fun t ht => (ha.xs t ht).symm, fun t ht => (ha.us t ht).symm⟩

/-- **C70, merit line search.**  The merit line search of the Python class takes the first of the *nine* step lengths `1, 1/2, …, 1/256`
that decreases the merit function; the tenth trial is evaluated but never compared: if none of the nine decreases the merit function,
`solve` returns False with the candidate unchanged, even if the tenth would. -/
theorem C70_py_merit_nine {llt : LLT F} {xs : Option (Traj P)} {us : Option (Ctrls P)} {p q q1 : PySQP P} {j : ℕ}
    (hq : Heads llt (p.start xs us) j q) (hu : p.useFilter = false) (h1 : computeDirection llt q = .ok q1)
    (hk : ltb q1.kktCheck.KKT q1.tol = false)
    (hbad : ∀ k, k < 9 → ltb (trialCost q1 (halve k) + q1.mu * trialGap q1 (halve k)) q1.merit = false) (m : ℕ) (hm : j < m) :
    ∃ p', solve llt xs us m p = (.ret false, p') ∧ p'.xs = q.xs ∧ p'.us = q.us := by
  have k := keep_all (hq.keep.trans (rfl : PySQP.keep (p.start xs us) = PySQP.keep p))
  have k1 := keep_all (keep_direction h1)
  have hu1 : q1.useFilter = false := k1.2.2.1.trans (k.2.2.1.trans hu)
  obtain ⟨al, e⟩ := hq.iterate
  have eh : head llt al q = .inr q1.kktCheck := by
    unfold head
    rw [h1]
    simp only []
    rw [if_neg]
    change ¬ ltb q1.kktCheck.KKT q1.tol = true
    rw [hk]; simp
  generalize hs : search (0 + j) 10 (lit 1) q1.kktCheck.pushFilter = r
  obtain ⟨r, a, q2⟩ := r
  have hgood : ∀ i, i < 9 → ¬ Good q1.kktCheck.pushFilter (0 + j) (halve i) := by
    intro i hi hg
    unfold Good at hg
    rw [if_neg (show ¬ q1.kktCheck.pushFilter.useFilter = true by change ¬ q1.useFilter = true; rw [hu1]; simp)] at hg
    have := hbad i hi
    rw [show ltb (trialCost q1 (halve i) + q1.mu * trialGap q1 (halve i)) q1.merit = true from hg] at this
    cases this
  have hT : r = .gaveUp ∧ Trials q1.kktCheck.pushFilter q2 := by
    rcases search_spec (0 + j) 10 (Trials.refl q1.kktCheck.pushFilter) 0 hs with ⟨-, k, -, k2, k3, k4, k5, -⟩ | ⟨-, e, -⟩ | ⟨e, -, -, -, -, e2⟩
    · subst k4
      have := k3 hu1
      exact absurd k5 (hgood k (by omega))
    · rcases e with e | e
      · have : q1.useFilter = true := e
        rw [hu1] at this; cases this
      · omega
    · exact ⟨e, e2⟩
  obtain ⟨rfl, hT⟩ := hT
  have et : PySQP.iterate llt m 0 none (p.start xs us) = .inl (.ret false, q2) := by
    have := iterate_add llt j (m - j) 0 none (p.start xs us)
    rw [show j + (m - j) = m by omega, e] at this
    rw [this, show m - j = (m - j - 1) + 1 by omega]
    simp only []
    unfold PySQP.iterate
    rw [eh]
    simp only []
    rw [hs]
  unfold solve
  rw [et]
  refine ⟨q2, rfl, ?_, ?_⟩
  · obtain ⟨_, _, _, _, _, _, _, _, rfl, -⟩ := hT
    exact (direction_atPoint h1).2.1
  · obtain ⟨_, _, _, _, _, _, _, _, rfl, -⟩ := hT
    exact (direction_atPoint h1).2.2

/-- **C70, return value.**  `solve` returns True, or raises one of the two formatting errors, only after a successful convergence test;
it never raises a formatting error without callbacks, and never the second one unless `maxiter = 0` with the extra iteration. -/
theorem C70_py_outcomes {llt : LLT F} {xs : Option (Traj P)} {us : Option (Ctrls P)} {m : ℕ} {p p' : PySQP P} {o : PyOut}
    (h : solve llt xs us m p = (o, p')) :
    (o = .ret true ∨ o = .raised .type ∨ o = .raised .unbound → ltb p'.KKT p.tol = true) ∧
    (o = .raised .type ∨ o = .raised .unbound → p.withCb = true) := by
  have hk := keep_all (solve_keep h)
  rcases solve_cases h with ⟨j, q, -, -, hq, he⟩ | ⟨q, rfl, -⟩
  · have kq := keep_all hq.keep
    cases he with
    | linAlg h => exact ⟨fun h => (by rcases h with h | h | h <;> cases h), fun h => (by rcases h with h | h <;> cases h)⟩
    | gaveUp h hk hs => exact ⟨fun h => (by rcases h with h | h | h <;> cases h), fun h => (by rcases h with h | h <;> cases h)⟩
    | @conv q1 _ h1 hlt ho =>
      refine ⟨fun _ => ?_, fun h => ?_⟩
      · rw [← hk.2.1]; exact hlt
      · rcases ho with rfl | ⟨hw, -⟩
        · rcases h with h | h <;> cases h
        · rw [kq.2.2.2.2.1] at hw
          exact hw
  · exact ⟨fun h => (by rcases h with h | h | h <;> cases h), fun h => (by rcases h with h | h <;> cases h)⟩

end

section
variable {K : Type} [Field K] [LinearOrder K] [IsStrictOrderedRing K] {P : Problem K} {llt : LLT K}

/-- **C68, when a direction exists.**  In exact arithmetic `computeDirection` of the Python class succeeds exactly when the
quadratic model has positive curvature along every non-zero direction of the linearized dynamics; otherwise it raises `LinAlgError`. -/
theorem C68_py_direction_iff (hllt : LLTExact llt) (hP : SymProblem P) (p : PySQP P) :
    (∃ p', computeDirection llt p = .ok p') ↔ (lqOf p.evaluate.data p.evaluate.gapAt 0 0).PosCurv := by
  have hsym : SymHess p.evaluate.data := symHess_of_fresh hP (evaluate_fresh p).2
  constructor
  · rintro ⟨p', h⟩
    have hd : p'.data = p.evaluate.data ∧ p'.gapAt = p.evaluate.gapAt := by
      obtain ⟨r, _, _, _, _, _, -, ⟨_, _, _, _, rfl⟩, rfl, -⟩ := computeDirection_ok h
      refine ⟨rfl, ?_⟩
      funext t
      cases t <;> rfl
    obtain ⟨H, hR, hpd, -⟩ := direction_riccati hllt h (by rw [hd.1]; exact hsym)
    rw [hd.1, hd.2] at hR
    exact hR.posCurv hpd
  · intro hc
    have hQ : (lqOf p.evaluate.data p.evaluate.gapAt 0 0).Sym :=
      ⟨fun t ht => by simp only [lqOf, Matrix.transpose_add, sub_reg_transpose, hsym.xx t ht],
       fun t ht => by simp only [lqOf, Matrix.transpose_add, sub_reg_transpose, hsym.uu t ht],
       by simp only [lqOf, Matrix.transpose_add, sub_reg_transpose, hsym.T]⟩
    obtain ⟨V, v, G, k, Quu, hR, hpd⟩ := exists_riccati P.T _ hQ hc
    have key : ∀ n, n ≤ P.T → ∀ a : PySQP P, OnlyBwd p.evaluate a → a.S n = V n → ∃ b, forDownR n (backwardStage llt) a = .ok b := by
      intro n
      induction n with
      | zero => intro _ a _ _; exact ⟨a, rfl⟩
      | succ n ih =>
        intro hn a ho hS
        have hda : a.data = p.evaluate.data := by obtain ⟨_, _, _, _, rfl⟩ := ho; rfl
        have hH : (a.data.rd n).Luu + mm (mm (a.data.rd n).Fu.transpose (a.S (n + 1))) (a.data.rd n).Fu = Quu n := by
          rw [hR.quu n hn, hS, hda]
          simp only [mm_exact, lqOf, zero_smul, add_zero]
        obtain ⟨sol, hsol⟩ := hllt.complete _ (Quu n) (hR.symU n hn) (hpd n hn)
        obtain ⟨-, c2⟩ := stage_cases llt n a
        rw [← hH] at hsol
        obtain ⟨a', e, ho', hst, hoth⟩ := c2 sol hsol
        rw [forDownR_succ, e]
        refine ih (by omega) a' (ho.trans ho') ?_
        have hda' : a'.data = p.evaluate.data := by obtain ⟨_, _, _, _, rfl⟩ := ho'; exact hda
        have hS' : a'.S (n + 1) = V (n + 1) := by rw [(hoth (n + 1) (by omega)).1, hS]
        rw [hH] at hst
        have hL : a'.L n = -G n := by
          have h1 : Quu n * (-a'.L n) = Quu n * G n := by
            rw [hR.gain n hn, hst.L, sm_exact, lit_exact]
            have : (((-1 : ℚ)) : K) = -1 := by push_cast; rfl
            rw [this, neg_smul, one_smul, neg_neg, solveCols_mul (hllt.solves _ _ _ (hR.symU n hn) hst.fac), hda', hS']
            simp only [mm_exact, lqOf, Matrix.transpose_add, Matrix.transpose_mul, Matrix.transpose_transpose, hR.sym (n + 1) hn, Matrix.mul_assoc]
          have hu := posDef_isUnit (hpd n hn)
          obtain ⟨B, hB⟩ := hu.exists_left_inv
          have h2 := congrArg (fun M : Mat K (P.nu n) P.ndx => B * M) h1
          simp only [← Matrix.mul_assoc, hB, Matrix.one_mul] at h2
          rw [← h2, neg_neg]
        have hV : (V n)ᵀ = V n := hR.sym n (by omega)
        rw [hst.S, hda', hS', hL]
        have e1 : (p.evaluate.data.rd n).Lxx + mm (mm (p.evaluate.data.rd n).Fxᵀ (V (n + 1))) (p.evaluate.data.rd n).Fx -
            mm (mm (-G n)ᵀ (Quu n)) (-G n) = V n := by
          rw [hR.hess n hn]
          have e2 := congrArg Matrix.transpose (hR.gain n hn)
          rw [Matrix.transpose_transpose, Matrix.transpose_mul, hR.symU n hn] at e2
          rw [← e2]
          simp only [mm_exact, lqOf, zero_smul, add_zero, Matrix.transpose_neg, Matrix.neg_mul, Matrix.mul_neg, neg_neg]
        rw [e1]
        exact symm_of_sym hV
    have hT : ∃ b, backwardPass llt p.evaluate = .ok b := by
      refine key P.T le_rfl _ ⟨_, _, _, _, rfl⟩ ?_
      simp only [Function.update_self]
      rw [hR.VT]
      simp only [lqOf, zero_smul, add_zero]
    obtain ⟨b, hb⟩ := hT
    exact ⟨computeUpdates b, by unfold computeDirection; rw [hb]; rfl⟩

/-- **C70, formatting errors.**  Started at a point that satisfies the first-order conditions exactly, where a direction exists, the
Python class recognises it at once: without callbacks `solve` returns True with the guess; with callbacks it raises `TypeError` (it formats
the step length, which is `None` before the first line search) – or `UnboundLocalError` when `maxiter = 0` and the extra iteration is on. -/
theorem C70_py_at_solution (hllt : LLTExact llt) (hP : SymProblem P) {p : PySQP P} (hr : Reachable p)
    {X : Traj P} {U : Ctrls P} {lam : ℕ → Vec K P.ndx} (hX : X 0 = P.x0) (hk : IsKKT P 0 X U lam) (htol : 0 < p.tol)
    (hc : (lqOf (p.start (some X) (some U)).evaluate.data (p.start (some X) (some U)).evaluate.gapAt 0 0).PosCurv)
    (m : ℕ) (hm : 0 < m ∨ p.extra = true) :
    ∃ p', solve llt (some X) (some U) m p =
        (if p.withCb = true then (if m = 0 then .raised .unbound else .raised .type) else .ret true, p') ∧
      (∀ t, p'.xs t = X t) ∧ (∀ t, p'.us t = U t) ∧ p'.KKT = 0 ∧ ∀ t, t ≤ P.T → p'.lagMul t = lam t := by
  set p0 := p.start (some X) (some U) with hp0
  have hxs : p0.xs = X := by
    funext t
    rw [hp0]
    simp only [start, Option.getD_some]
    by_cases h : t = 0
    · subst h; rw [Function.update_self, hX]
    · rw [Function.update_of_ne h]
  have hus : p0.us = U := rfl
  obtain ⟨q, hq⟩ := (C68_py_direction_iff hllt hP p0).2 hc
  obtain ⟨ha, ex, eu⟩ := direction_atPoint hq
  rw [hxs] at ex
  rw [hus] at eu
  have kq := keep_all (keep_direction hq)
  have hsym : SymHess q.data := symHess_of_fresh hP ha.diff
  have hgT : q.gap P.T = 0 := kq.2.2.2.2.2.2.2.1.trans hr.clean.2.1
  have hz : ∀ {n : ℕ} {w : Vec K n}, (∀ i, |w i| ≤ 0) → w = 0 := fun h => funext fun i => abs_nonpos_iff.1 (h i)
  have hgap : ∀ t, t < P.T → q.gap t = 0 := fun t ht => by
    rw [ha.gaps t ht, ex, eu]; exact hz (hk.gaps t ht)
  have h0 : q.dx 0 = 0 := kq.2.2.2.2.2.2.1.trans hr.clean.1
  have hkkt : (lqOf q.data q.gapAt 0 0).KKT (fun _ => 0) (fun _ => 0) lam := by
    refine ⟨fun t ht => ?_, fun t ht => ?_, ?_, fun t ht => ?_⟩
    · have e := hz (hk.stat_x t ht)
      simp only [lqOf, Matrix.mulVec_zero, zero_add]
      rw [ha.diff.run t ht, ex, eu]
      exact sub_eq_zero.1 e
    · have e := hz (hk.stat_u t ht)
      simp only [lqOf, Matrix.mulVec_zero, zero_add]
      rw [ha.diff.run t ht, ex, eu]
      exact e
    · have e := hz hk.stat_T
      simp only [lqOf, Matrix.mulVec_zero, zero_add]
      rw [ha.diff.ter, ex]
      exact sub_eq_zero.1 e
    · simp only [lqOf, Matrix.mulVec_zero, zero_add, gapAt]
      exact (hgap t ht).symm
  obtain ⟨-, -, huniq⟩ := direction_core hllt h0 hq hsym
  obtain ⟨-, -, hlam⟩ := huniq _ _ _ hkkt rfl
  have hK : q.kktCheck.KKT = 0 := by
    refine le_antisymm ?_ (kktResidual_nonneg _ _ _)
    refine (C02_sqp_residual_meaning q.data q.gap q.lagMul 0 le_rfl).2 ⟨fun t ht => ?_, fun t ht => ?_, ?_, fun t ht => ?_⟩
    · rw [ha.diff.run t ht, ex, eu, ← hlam (t + 1) ht, ← hlam t ht.le]; exact hk.stat_x t ht
    · rw [ha.diff.run t ht, ex, eu, ← hlam (t + 1) ht]; exact hk.stat_u t ht
    · rw [ha.diff.ter, ex, ← hlam _ le_rfl]; exact hk.stat_T
    · intro i
      rcases Nat.eq_or_lt_of_le ht with rfl | ht
      · rw [hgT]; simp
      · rw [hgap t ht]; simp
  have hconv : ltb q.kktCheck.KKT q.kktCheck.tol = true := by
    change ltb q.kktCheck.KKT q.tol = true
    rw [hK, kq.2.1]
    exact decide_eq_true htol
  have hw : q.kktCheck.withCb = p.withCb := kq.2.2.2.2.1
  refine ⟨q.kktCheck, ?_, fun t => congrFun ex t, fun t => congrFun eu t, hK, fun t ht => (hlam t ht).symm⟩
  unfold solve
  rw [← hp0]
  cases m with
  | zero =>
    have hx : p0.extra = true := hm.resolve_left (by omega)
    simp only [PySQP.iterate, hx, if_true, hq, hconv, hw]
    cases p.withCb <;> rfl
  | succ m =>
    unfold PySQP.iterate head
    rw [hq]
    simp only [hconv, if_true, hw]
    cases p.withCb <;> simp

end
end PySQP
end Mim
