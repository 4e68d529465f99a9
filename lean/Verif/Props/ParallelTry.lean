import Verif.Lemmas.ParallelTry
import Verif.Base.Dbl
import Verif.Spec.ExamplesC
import Mathlib.Algebra.Order.BigOperators.Group.List

/-!
# C47, C50: the multi-threaded `tryStep` of SolverCSQP
-/
set_option linter.unusedSectionVars false
set_option linter.unusedSimpArgs false

namespace Mim
open Omp

namespace Spec
variable {F : Type} [Add F] [Sub F] [Mul F] [Div F] [Neg F] [Zero F] [One F] [FloatOps F] (P : Problem F)

/-- the cost a thread has accumulated after the nodes `l`, in this order. -/
def partialCost (xs : Traj P) (us : Ctrls P) (l : List ℕ) : F := l.foldl (fun c t => c + nodeCost P xs us t) 0

/-- while the threads run their nodes (`chunk`), the accumulated cost of one of them becomes NaN, infinite or huge. -/
def ThreadBlowsUp {n : ℕ} (xs : Traj P) (us : Ctrls P) (chunk : Fin n → List ℕ) : Prop :=
  ∃ i l t l', chunk i = l ++ t :: l' ∧ bad (partialCost P xs us (l ++ [t])) = true

end Spec
open Spec

/-- adding NaN gives NaN (IEEE 754). -/
class NaNAdd (F : Type) [Add F] [FloatOps F] : Prop where
  left : ∀ a b : F, isnan a = true → isnan (a + b) = true
  right : ∀ a b : F, isnan b = true → isnan (a + b) = true

namespace CSQP
section
variable {F : Type} [Add F] [Sub F] [Mul F] [Div F] [Neg F] [Zero F] [One F] [FloatOps F] {P : Problem F} {n : ℕ}

theorem partialBad_iff (xs : Traj P) (us : Ctrls P) (l : List ℕ) (c : F) :
    partialBad P xs us l c = true ↔
      ∃ l1 t l2, l = l1 ++ t :: l2 ∧ bad ((l1 ++ [t]).foldl (fun c t => c + nodeCost P xs us t) c) = true := by
  induction l generalizing c with
  | nil => simp [partialBad]
  | cons t l ih =>
    simp only [partialBad, Bool.or_eq_true, ih]
    constructor
    · rintro (h | ⟨l1, t', l2, rfl, h⟩)
      · exact ⟨[], t, l, rfl, h⟩
      · exact ⟨t :: l1, t', l2, rfl, h⟩
    · rintro ⟨l1, t', l2, he, h⟩
      cases l1 with
      | nil =>
        obtain ⟨rfl, rfl⟩ := List.cons.inj he
        exact .inl h
      | cons a l1 =>
        obtain ⟨rfl, rfl⟩ := List.cons.inj he
        exact .inr ⟨l1, t', l2, rfl, h⟩

theorem any_partialBad (xs : Traj P) (us : Ctrls P) (chunk : Fin n → List ℕ) :
    ((List.finRange n).any fun i => partialBad P xs us (chunk i) 0) = true ↔ ThreadBlowsUp P xs us chunk := by
  simp only [List.any_eq_true, List.mem_finRange, true_and, partialBad_iff]
  rfl

/-- the state in which the evaluation loop of a trial starts. -/
abbrev trialStart (a : F) (s : CSQP P) : CSQP P :=
  ({ s with nTry := s.nTry + 1, w := { s.w with cost := 0, merit := 0, gap := 0, con := 0 } } : CSQP P).tryMove a

theorem trialStart_xs (a : F) (s : CSQP P) : ∀ t, t ≤ P.T → (trialStart a s).w.xs t = stepX P s.xs s.q.v.dx a t := by
  intro t ht
  change (if t ≤ P.T then _ else _) = _
  rw [if_pos ht]; rfl

theorem trialStart_us (a : F) (s : CSQP P) : ∀ t, t < P.T → (trialStart a s).w.us t = stepU P s.us s.q.v.du a t := by
  intro t ht
  change (if t < P.T ∧ P.nu t ≠ 0 then _ else _) = _
  split
  · rfl
  · rename_i h
    exact vec_eq_of_zero (by simpa [ht] using h) _ _

theorem partialCost_congr {xs xs' : Traj P} {us us' : Ctrls P} (hx : ∀ t, t ≤ P.T → xs t = xs' t) (hu : ∀ t, t < P.T → us t = us' t)
    {l : List ℕ} (hl : ∀ t ∈ l, t < P.T) : partialCost P xs us l = partialCost P xs' us' l := by
  unfold partialCost
  refine List.foldl_ext _ _ _ fun c t ht => ?_
  unfold nodeCost
  rw [hx t (hl t ht).le, hu t (hl t ht)]

theorem threadBlowsUp_congr {xs xs' : Traj P} {us us' : Ctrls P} (hx : ∀ t, t ≤ P.T → xs t = xs' t)
    (hu : ∀ t, t < P.T → us t = us' t) {chunk : Fin n → List ℕ} (hc : ∀ i, ∀ t ∈ chunk i, t < P.T) :
    ThreadBlowsUp P xs us chunk ↔ ThreadBlowsUp P xs' us' chunk := by
  have h : ∀ i l t l', chunk i = l ++ t :: l' → partialCost P xs us (l ++ [t]) = partialCost P xs' us' (l ++ [t]) := by
    intro i l t l' he
    refine partialCost_congr hx hu fun t' ht' => hc i t' ?_
    rw [he]
    rcases List.mem_append.mp ht' with h | h
    · exact List.mem_append_left _ h
    · rw [List.mem_singleton.mp h]; exact List.mem_append_right _ List.mem_cons_self
  constructor
  · rintro ⟨i, l, t, l', he, hb⟩; exact ⟨i, l, t, l', he, by rw [← h i l t l' he]; exact hb⟩
  · rintro ⟨i, l, t, l', he, hb⟩; exact ⟨i, l, t, l', he, by rw [h i l t l' he]; exact hb⟩

/-- the result of the multi-threaded trial. -/
theorem tryStepMt_eq {σ : Sched n TryEv} (hσ : σ.Valid P.T tryOps) (a : F) (s : CSQP P) :
    tryStepMt σ a s =
      if ltb 1 a || ltb a 0 then some (.exn { s with nTry := s.nTry + 1 })
      else if (List.finRange n).any fun i => partialBad P (trialStart a s).w.xs (trialStart a s).w.us (σ.chunk i) 0 then none
      else
        let s1 := shOf (List.range P.T) (trialStart a s)
        let A := fun i => accOf P (trialStart a s).w.xs (trialStart a s).w.us (σ.chunk i) ⟨0, 0, 0⟩
        some (tryTerminal { s1 with w := { s1.w with
          cost := (σ.comb 0).eval (· + ·) s1.w.cost fun i => (A i).cost
          gap := (σ.comb 1).eval (· + ·) s1.w.gap fun i => (A i).gap
          con := (σ.comb 2).eval (· + ·) s1.w.con fun i => (A i).con } }) := by
  unfold tryStepMt
  simp only []
  split
  · rfl
  · have := exec_trace hσ (trialStart a s) (fun _ => ⟨0, 0, 0⟩)
    rw [show exec tryEv σ.trace (⟨_, fun _ => (⟨0, 0, 0⟩ : TryAcc F)⟩ : TryMem P n) = _ from this]
    by_cases hb : ((List.finRange n).any fun i => partialBad P (trialStart a s).w.xs (trialStart a s).w.us (σ.chunk i) 0) = true
    · rw [if_pos hb, if_pos hb]
    · rw [if_neg hb, if_neg hb]

/-- **C50.**  In a multi-threaded build, under every schedule: `tryStep` terminates the program exactly when the step length is in
range and the cost accumulated by one of the threads becomes NaN, infinite or ≥ 1e30 (an exception may not leave an OpenMP loop).
Any arithmetic. -/
theorem C50_csqp_terminates_iff {σ : Sched n TryEv} (hσ : σ.Valid P.T tryOps) (a : F) (s : CSQP P) :
    tryStepMt σ a s = none ↔ ltb 1 a = false ∧ ltb a 0 = false ∧
      ThreadBlowsUp P (stepX P s.xs s.q.v.dx a) (stepU P s.us s.q.v.du a) σ.chunk := by
  rw [tryStepMt_eq hσ, ← threadBlowsUp_congr (trialStart_xs a s) (trialStart_us a s) (fun i t ht => hσ.lt ht), ← any_partialBad]
  cases h1 : ltb 1 a <;> cases h2 : ltb a 0 <;> simp

/-- the loop of the sequential trial. -/
theorem seq_loop (s0 : CSQP P) (m : ℕ) (s1 : CSQP P) (h : forUpR m tryStage s0 = .ok s1) :
    let s2 := shOf (List.range m) s0
    let A := accOf P s0.w.xs s0.w.us (List.range m) ⟨s0.w.cost, s0.w.gap, s0.w.con⟩
    s1 = { s2 with w := { s2.w with cost := A.cost, gap := A.gap, con := A.con } } := by
  induction m generalizing s1 with
  | zero => cases h; rfl
  | succ m ih =>
    obtain ⟨s', h1, h2⟩ := Res.bind_eq_ok h
    have e := ih s' h1
    simp only [] at e ⊢
    obtain ⟨-, rfl⟩ := Res.throwIf_eq_ok h2
    rw [List.range_succ, shOf_append, show accOf P s0.w.xs s0.w.us (List.range m ++ [m]) ⟨s0.w.cost, s0.w.gap, s0.w.con⟩ =
      accOf P s0.w.xs s0.w.us [m] (accOf P s0.w.xs s0.w.us (List.range m) ⟨s0.w.cost, s0.w.gap, s0.w.con⟩) from List.foldl_append]
    have hx := shOf_xs (List.range m) s0
    have hu := shOf_us (List.range m) s0
    subst e
    generalize shOf (List.range m) s0 = s2 at hx hu ⊢
    simp only [shOf, forList, List.foldl_cons, List.foldl_nil, accOf, Data.calcNode, Function.update_self, hx, hu]
    rfl

/-- **C47, any arithmetic: the shared memory.**  If neither the multi-threaded nor the sequential trial is cut short, they leave
the same memory except for the accumulated numbers (trial cost, gap norm, constraint norm and merit), under every schedule. -/
theorem C47_csqp_trial_memory {σ : Sched n TryEv} (hσ : σ.Valid P.T tryOps) {a : F} {s s1 s2 : CSQP P}
    (h : tryStepMt σ a s = some (.ok s1)) (h' : tryStep a s = .ok s2) :
    s1 = { s2 with w := { s2.w with cost := s1.w.cost, gap := s1.w.gap, con := s1.w.con, merit := s1.w.merit } } := by
  rw [tryStepMt_eq hσ] at h
  unfold tryStep at h'
  simp only [] at h h'
  split at h
  · cases h
  · rename_i hr
    rw [if_neg hr] at h'
    split at h
    · cases h
    · obtain ⟨s3, h3, h4⟩ := Res.bind_eq_ok h'
      have e := seq_loop (trialStart a s) P.T s3 h3
      simp only [] at e
      subst e
      have h := Option.some.inj h
      obtain ⟨-, rfl⟩ := Res.throwIf_eq_ok h
      obtain ⟨-, rfl⟩ := Res.throwIf_eq_ok h4
      rfl

/-- NaN is absorbing in partial sums. -/
theorem partialCost_nan [NaNAdd F] (xs : Traj P) (us : Ctrls P) (l : List ℕ) {t : ℕ} (h : isnan (nodeCost P xs us t) = true) :
    isnan (partialCost P xs us (l ++ [t])) = true := by
  unfold partialCost
  rw [List.foldl_append]
  exact NaNAdd.right _ _ h

theorem sumUp_nan [NaNAdd F] (f : ℕ → F) {t : ℕ} (h : isnan (f t) = true) {m : ℕ} (ht : t < m) : isnan (sumUp m f) = true := by
  induction m with
  | zero => omega
  | succ m ih =>
    change isnan (sumUp m f + f m) = true
    rcases Nat.lt_succ_iff_lt_or_eq.mp ht with h1 | rfl
    · exact NaNAdd.left _ _ (ih h1)
    · exact NaNAdd.right _ _ h

/-- **C50, NaN.**  If the cost of a running node of the trial is NaN, the multi-threaded trial terminates the program under every
schedule and number of threads, while the sequential trial only throws, and the line search goes on with the next step length. -/
theorem C50_csqp_nan_terminates [IEEE F] [NaNAdd F] {σ : Sched n TryEv} (hσ : σ.Valid P.T tryOps) {a : F} {s : CSQP P}
    (h1 : ltb 1 a = false) (h2 : ltb a 0 = false) {t : ℕ} (ht : t < P.T)
    (hn : isnan (nodeCost P (stepX P s.xs s.q.v.dx a) (stepU P s.us s.q.v.du a) t) = true) :
    tryStepMt σ a s = none ∧ (∃ s', tryStep a s = .exn s') ∧
    (∀ σ' : ℕ → Sched n TryEv, (∀ k, (σ' k).Valid P.T tryOps) → ∀ as, lineSearchMt σ' (a :: as) s = none) ∧
    ∀ as, ∃ s', tryStep a s = .exn s' ∧ lineSearch (a :: as) s = lineSearch as s' := by
  have key : ∀ σ : Sched n TryEv, σ.Valid P.T tryOps → tryStepMt σ a s = none := by
    intro σ hσ
    rw [C50_csqp_terminates_iff hσ]
    refine ⟨h1, h2, ?_⟩
    obtain ⟨i, hi⟩ := hσ.ex ht
    obtain ⟨l, l', he⟩ := List.append_of_mem hi
    exact ⟨i, l, t, l', he, IEEE.bad_nan _ (partialCost_nan _ _ l hn)⟩
  have hseq : ∃ s', tryStep a s = .exn s' := by
    cases hs : tryStep a s with
    | exn s' => exact ⟨s', rfl⟩
    | ok s' =>
      refine absurd ?_ ((tryStep_spec a s).1 s' hs).noBlow
      exact .inl ⟨t, ht, IEEE.bad_nan _ (sumUp_nan _ hn (Nat.lt_succ_self t))⟩
  refine ⟨key σ hσ, hseq, ?_, ?_⟩
  · intro σ' hσ' as
    rw [lineSearchMt, key _ (hσ' _)]
  · intro as
    obtain ⟨s', hs'⟩ := hseq
    exact ⟨s', hs', by rw [lineSearch, hs']⟩

end

section
variable {K : Type} [Field K] [LinearOrder K] [IsStrictOrderedRing K] {P : Problem K} {n : ℕ}

theorem accOf_cost (xs : Traj P) (us : Ctrls P) (l : List ℕ) (a : TryAcc K) :
    (accOf P xs us l a).cost = a.cost + (l.map (nodeCost P xs us)).sum := by
  induction l generalizing a with
  | nil => simp [accOf]
  | cons t l ih =>
    change (accOf P xs us l _).cost = _
    rw [ih]; simp [add_assoc]

theorem accOf_gap (xs : Traj P) (us : Ctrls P) (l : List ℕ) (a : TryAcc K) :
    (accOf P xs us l a).gap = a.gap + (l.map fun t => norm1 (shootGap P xs us t)).sum := by
  induction l generalizing a with
  | nil => simp [accOf]
  | cons t l ih =>
    change (accOf P xs us l _).gap = _
    rw [ih]; simp [add_assoc]

theorem accOf_con (xs : Traj P) (us : Ctrls P) (l : List ℕ) (a : TryAcc K) :
    (accOf P xs us l a).con = a.con + (l.map fun t => addViol (P.lb t) (P.ub t) (P.calcR t (xs t) (us t)).g 0).sum := by
  induction l generalizing a with
  | nil => simp [accOf]
  | cons t l ih =>
    change (accOf P xs us l _).con = _
    rw [ih]; simp [addViol, add_assoc]

theorem sum_chunks {σ : Sched n TryEv} {T : ℕ} (hσ : σ.Valid T tryOps) (f : ℕ → K) :
    ((List.finRange n).map fun i => ((σ.chunk i).map f).sum).sum = ((List.range T).map f).sum := by
  have h := (hσ.chunk.map f).sum_eq
  rw [← h]
  clear h
  induction List.finRange n with
  | nil => rfl
  | cons i l ih => rw [List.flatMap_cons, List.map_append, List.sum_append, List.map_cons, List.sum_cons, ih]

/-- the accumulated numbers after combination. -/
theorem comb_acc {σ : Sched n TryEv} {T : ℕ} (hσ : σ.Valid T tryOps) (xs : Traj P) (us : Ctrls P) (c : TryAcc K) :
    (σ.comb 0).eval (· + ·) c.cost (fun i => (accOf P xs us (σ.chunk i) ⟨0, 0, 0⟩).cost) = (accOf P xs us (List.range T) c).cost ∧
    (σ.comb 1).eval (· + ·) c.gap (fun i => (accOf P xs us (σ.chunk i) ⟨0, 0, 0⟩).gap) = (accOf P xs us (List.range T) c).gap ∧
    (σ.comb 2).eval (· + ·) c.con (fun i => (accOf P xs us (σ.chunk i) ⟨0, 0, 0⟩).con) = (accOf P xs us (List.range T) c).con := by
  refine ⟨?_, ?_, ?_⟩
  · rw [(hσ.comb 0).sum]; simp only [accOf_cost, zero_add, sum_chunks hσ]
  · rw [(hσ.comb 1).sum]; simp only [accOf_gap, zero_add, sum_chunks hσ]
  · rw [(hσ.comb 2).sum]; simp only [accOf_con, zero_add, sum_chunks hσ]

/-- **C47, exact arithmetic.**  If the multi-threaded trial does not terminate the program and the sequential one does not throw,
both give exactly the same result, whatever the number of threads, the assignment of nodes to threads, the interleaving and the
order in which the sums are combined. -/
theorem C47_csqp_trial {σ : Sched n TryEv} (hσ : σ.Valid P.T tryOps) {a : K} {s s2 : CSQP P} {r : Res (CSQP P)}
    (h : tryStepMt σ a s = some r) (h' : tryStep a s = .ok s2) : r = .ok s2 := by
  rw [tryStepMt_eq hσ] at h
  unfold tryStep at h'
  simp only [] at h h'
  split at h
  · rename_i hr; rw [if_pos hr] at h'; cases h'
  · rename_i hr
    rw [if_neg hr] at h'
    split at h
    · cases h
    · obtain ⟨s3, h3, h4⟩ := Res.bind_eq_ok h'
      have e := seq_loop (trialStart a s) P.T s3 h3
      simp only [] at e
      subst e
      have h := Option.some.inj h
      obtain ⟨d, f, hsh⟩ := shOf_w (List.range P.T) (trialStart a s)
      rw [hsh] at h h4
      obtain ⟨e1, e2, e3⟩ := comb_acc hσ (trialStart a s).w.xs (trialStart a s).w.us
        ⟨(trialStart a s).w.cost, (trialStart a s).w.gap, (trialStart a s).w.con⟩
      rw [← h4, ← e1, ← e2, ← e3, h]

/-- non-negative costs along a trajectory. -/
def NonnegCosts (P : Problem K) (xs : Traj P) (us : Ctrls P) : Prop :=
  (∀ t, t < P.T → 0 ≤ nodeCost P xs us t) ∧ 0 ≤ (P.calcT (xs P.T)).cost

theorem partialCost_eq (xs : Traj P) (us : Ctrls P) (l : List ℕ) : partialCost P xs us l = (l.map (nodeCost P xs us)).sum := by
  have := accOf_cost xs us l ⟨0, 0, 0⟩
  rw [zero_add] at this
  rw [← this]
  unfold partialCost accOf
  have h : ∀ (a : TryAcc K) (c : K), a.cost = c → l.foldl (fun c t => c + nodeCost P xs us t) c = (l.foldl (fun (a : TryAcc K) t =>
      ⟨a.cost + nodeCost P xs us t, a.gap + norm1 (shootGap P xs us t), addViol (P.lb t) (P.ub t) (P.calcR t (xs t) (us t)).g a.con⟩) a).cost := by
    clear this
    induction l with
    | nil => intro a c h; exact h.symm
    | cons t l ih => intro a c h; subst h; exact ih _ _ rfl
  exact h _ _ rfl

theorem sumUp_eq_range (f : ℕ → K) (m : ℕ) : sumUp m f = ((List.range m).map f).sum := by
  induction m with
  | zero => rfl
  | succ m ih =>
    rw [List.range_succ, List.map_append, List.sum_append, ← ih]
    simp [sumUp, forUp_succ]

/-- a thread accumulates at most the total cost. -/
theorem partial_le {xs : Traj P} {us : Ctrls P} (h : NonnegCosts P xs us) {σ : Sched n TryEv} (hσ : σ.Valid P.T tryOps) {i : Fin n}
    {l l' : List ℕ} (he : σ.chunk i = l ++ l') : partialCost P xs us l ≤ sumUp P.T (nodeCost P xs us) := by
  rw [partialCost_eq, sumUp_eq_range, ← sum_chunks hσ]
  have hnn : ∀ j, ∀ t ∈ σ.chunk j, 0 ≤ nodeCost P xs us t := fun j t ht => h.1 t (hσ.lt ht)
  have h1 : (l.map (nodeCost P xs us)).sum ≤ ((σ.chunk i).map (nodeCost P xs us)).sum := by
    rw [he, List.map_append, List.sum_append]
    refine le_add_of_nonneg_right (List.sum_nonneg ?_)
    intro x hx
    obtain ⟨t, ht, rfl⟩ := List.mem_map.mp hx
    exact hnn i t (by rw [he]; exact List.mem_append_right _ ht)
  refine h1.trans (List.single_le_sum ?_ _ (List.mem_map.mpr ⟨i, List.mem_finRange i, rfl⟩))
  intro x hx
  obtain ⟨j, _, rfl⟩ := List.mem_map.mp hx
  refine List.sum_nonneg fun y hy => ?_
  obtain ⟨t, ht, rfl⟩ := List.mem_map.mp hy
  exact hnn j t ht

/-- with non-negative costs a trial blows up iff its total cost is ≥ 1e30. -/
theorem blows_iff {xs : Traj P} {us : Ctrls P} (h : NonnegCosts P xs us) :
    CostBlowsUp P xs us ↔ (10 : K) ^ 30 ≤ trajCost P xs us := by
  unfold CostBlowsUp
  have hmono : ∀ m k, m ≤ k → k ≤ P.T → sumUp m (nodeCost P xs us) ≤ sumUp k (nodeCost P xs us) := by
    intro m k hmk
    induction k, hmk using Nat.le_induction with
    | base => intro _; exact le_rfl
    | succ k hk ih => 
      intro hkT
      refine (ih (by omega)).trans ?_
      change _ ≤ sumUp k (nodeCost P xs us) + nodeCost P xs us k
      exact le_add_of_nonneg_right (h.1 k (by omega))
  have hb : ∀ c : K, bad c = true ↔ (10 : K) ^ 30 ≤ c := fun c => by simp [bad, exactOps]
  simp only [hb]
  constructor
  · rintro (⟨t, ht, h1⟩ | h1)
    · exact h1.trans ((hmono _ _ (by omega) le_rfl).trans (le_add_of_nonneg_right h.2))
    · exact h1
  · exact .inr

/-- **C47, exact arithmetic, non-negative costs.**  Either the sequential and the multi-threaded trial both succeed with the same
result, under every schedule, or the total cost is ≥ 1e30 and neither gives an acceptable trial: the sequential one throws, the
multi-threaded one throws or terminates the program. -/
theorem C47_csqp_trial_nonneg {σ : Sched n TryEv} (hσ : σ.Valid P.T tryOps) (a : K) (s : CSQP P)
    (hc : NonnegCosts P (stepX P s.xs s.q.v.dx a) (stepU P s.us s.q.v.du a)) :
    (∃ s', tryStep a s = .ok s' ∧ tryStepMt σ a s = some (.ok s')) ∨
    ((∃ s', tryStep a s = .exn s') ∧ (tryStepMt σ a s = none ∨ ∃ s', tryStepMt σ a s = some (.exn s'))) := by
  cases hs : tryStep a s with
  | ok s' =>
    left
    have hp := (tryStep_spec a s).1 s' hs
    cases hm : tryStepMt σ a s with
    | none =>
      exfalso
      obtain ⟨_, _, i, l, t, l', he, hb⟩ := (C50_csqp_terminates_iff hσ a s).mp hm
      have hb : (10 : K) ^ 30 ≤ partialCost P (stepX P s.xs s.q.v.dx a) (stepU P s.us s.q.v.du a) (l ++ [t]) := by
        simpa [bad, exactOps] using hb
      have h1 := partial_le hc hσ (l := l ++ [t]) (l' := l') (i := i) (by rw [he]; simp)
      refine hp.noBlow ((blows_iff hc).mpr ?_)
      exact (hb.trans h1).trans (le_add_of_nonneg_right hc.2)
    | some r =>
      rw [C47_csqp_trial hσ hm hs]
      exact ⟨s', rfl, rfl⟩
  | exn s' =>
    right
    refine ⟨⟨s', rfl⟩, ?_⟩
    cases hm : tryStepMt σ a s with
    | none => exact .inl rfl
    | some r =>
      right
      cases r with
      | exn s2 => exact ⟨s2, rfl⟩
      | ok s2 =>
        exfalso
        have hr : ltb 1 a = false ∧ ltb a 0 = false := by
          rw [tryStepMt_eq hσ] at hm
          split at hm
          · cases hm
          · rename_i h; simpa using h
        have hnb : CostBlowsUp P (stepX P s.xs s.q.v.dx a) (stepU P s.us s.q.v.du a) := by
          by_contra hnb
          obtain ⟨s3, h3⟩ := (tryStep_spec a s).2 hr.1 hr.2 hnb
          rw [h3] at hs; cases hs
        rw [blows_iff hc] at hnb
        rw [tryStepMt_eq hσ, if_neg (by rw [hr.1, hr.2]; decide)] at hm
        split at hm
        · cases hm
        · have hm := Option.some.inj hm
          obtain ⟨d, f, hsh⟩ := shOf_w (List.range P.T) (trialStart a s)
          rw [hsh] at hm
          obtain ⟨hb, -⟩ := Res.throwIf_eq_ok hm
          obtain ⟨e1, -, -⟩ := comb_acc hσ (trialStart a s).w.xs (trialStart a s).w.us
            ⟨(trialStart a s).w.cost, (trialStart a s).w.gap, (trialStart a s).w.con⟩
          have e4 := (eval_congr (trialStart_xs a s) (trialStart_us a s)).2.1
          have hcost : (accOf P (trialStart a s).w.xs (trialStart a s).w.us (List.range P.T)
              ⟨(trialStart a s).w.cost, (trialStart a s).w.gap, (trialStart a s).w.con⟩).cost + (P.calcT ((trialStart a s).w.xs P.T)).cost =
              trajCost P (stepX P s.xs s.q.v.dx a) (stepU P s.us s.q.v.du a) := by
            rw [← e4, accOf_cost]
            unfold trajCost
            rw [sumUp_eq_range]
            change 0 + _ + _ = _
            rw [zero_add]
          rw [← e1] at hcost
          simp only [Data.calcTer] at hb
          rw [hcost] at hb
          have : ¬ (10 : K) ^ 30 ≤ trajCost P (stepX P s.xs s.q.v.dx a) (stepU P s.us s.q.v.du a) := by
            simpa [bad, exactOps] using hb
          exact this hnb

/-- the trial of the step length `a` is harmless: out of range (then `tryStep` throws before the loop), or its costs are
non-negative and add up to less than 1e30. -/
def Harmless (s : CSQP P) (a : K) : Prop :=
  1 < a ∨ a < 0 ∨ (NonnegCosts P (stepX P s.xs s.q.v.dx a) (stepU P s.us s.q.v.du a) ∧
    trajCost P (stepX P s.xs s.q.v.dx a) (stepU P s.us s.q.v.du a) < 10 ^ 30)

theorem harmless_step {σ : Sched n TryEv} (hσ : σ.Valid P.T tryOps) {s : CSQP P} {a : K} (h : Harmless s a) :
    tryStepMt σ a s = some (tryStep a s) := by
  have hout : (ltb 1 a || ltb a 0) = true → tryStepMt σ a s = some (tryStep a s) := by
    intro hr
    rw [tryStepMt_eq hσ, if_pos hr]
    unfold tryStep
    simp only []
    rw [if_pos hr]
  rcases h with h | h | ⟨hc, ht⟩
  · exact hout (by simp [h])
  · exact hout (by simp [h])
  · by_cases hr : (ltb 1 a || ltb a 0) = true
    · exact hout hr
    · obtain ⟨h1, h2⟩ : ltb 1 a = false ∧ ltb a 0 = false := by simpa using hr
      obtain ⟨s', hs⟩ := (tryStep_spec a s).2 h1 h2 (fun hb => absurd ((blows_iff hc).mp hb) (not_le.mpr ht))
      rcases C47_csqp_trial_nonneg hσ a s hc with ⟨s2, h3, h4⟩ | ⟨⟨s2, h3⟩, _⟩
      · rw [h4, h3]
      · rw [hs] at h3; cases h3

/-- **C47, the line search.**  Exact arithmetic: if all step lengths are harmless, the multi-threaded line search ends exactly as
the sequential one, whatever the schedules of its trials. -/
theorem C47_csqp_line_search {σ : ℕ → Sched n TryEv} (hσ : ∀ k, (σ k).Valid P.T tryOps) (as : List K) (s : CSQP P)
    (h : ∀ a ∈ as, Harmless s a) : lineSearchMt σ as s = some (lineSearch as s) := by
  induction as generalizing s with
  | nil => rfl
  | cons a as ih =>
    rw [lineSearchMt, harmless_step (hσ _) (h a List.mem_cons_self), lineSearch]
    obtain ⟨d, w, hst⟩ := tryStep_set a s
    have hrest : ∀ (s1 : CSQP P), s1.xs = s.xs → s1.us = s.us → s1.q = s.q → ∀ b ∈ as, Harmless s1 b := by
      intro s1 e1 e2 e3 b hb
      have := h b (List.mem_cons_of_mem _ hb)
      unfold Harmless at this ⊢
      rw [e1, e2, e3]
      exact this
    cases hs : tryStep a s with
    | exn s1 =>
      rw [hs] at hst
      have hst : s1 = _ := hst
      exact ih s1 (hrest s1 (by rw [hst]) (by rw [hst]) (by rw [hst]))
    | ok s1 =>
      rw [hs] at hst
      have hst : s1 = _ := hst
      have h1 := ih s1 (hrest s1 (by rw [hst]) (by rw [hst]) (by rw [hst]))
      have h2 := ih { s1 with m := { s1.m with isWorse := s1.worse } } (hrest _ (by rw [hst]) (by rw [hst]) (by rw [hst]))
      simp only [h1, h2]
      split
      · split <;> rfl
      · split <;> rfl

end
end CSQP
end Mim
