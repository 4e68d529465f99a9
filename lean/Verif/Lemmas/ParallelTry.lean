import Verif.Model.Parallel
import Verif.Lemmas.CSQPTry
import Verif.Lemmas.QPMt

/-!
# The multi-threaded evaluation loop of SolverCSQP::tryStep
-/
set_option linter.unusedSectionVars false
set_option linter.unusedSimpArgs false

namespace Mim
open Spec Omp
namespace CSQP
variable {F : Type} [Add F] [Sub F] [Mul F] [Div F] [Neg F] [Zero F] [One F] [FloatOps F] {P : Problem F} {n : ℕ}

theorem tryOps_node {t : ℕ} {e : TryEv} (h : e ∈ tryOps t) : e.node = t := by
  simp only [tryOps, List.mem_cons, List.not_mem_nil, or_false] at h
  rcases h with rfl | rfl | rfl | rfl | rfl | rfl | rfl <;> rfl

/-- operations of different threads on different nodes commute. -/
theorem tryEv_comm {i j : Fin n} (hij : i ≠ j) {e e' : TryEv} (h : e.node ≠ e'.node) (m : TryMem P n) :
    (tryEv (i, e) m).bind (tryEv (j, e')) = (tryEv (j, e') m).bind (tryEv (i, e)) := by
  have hji : j ≠ i := hij.symm
  cases e <;> cases e' <;> simp only [TryEv.node] at h <;>
    simp only [tryEv, Option.bind_some, Data.calcNode, Function.update_of_ne hij, Function.update_of_ne hji,
      Function.update_of_ne h, Function.update_of_ne h.symm, Function.update_comm hij, Function.update_comm h,
      Function.update_of_ne (fun e => h (Nat.succ.inj e)), Function.update_of_ne (fun e => h.symm (Nat.succ.inj e)), 
      Function.update_comm (fun e => h (Nat.succ.inj e))]
  all_goals
    by_cases hb : bad (m.acc j).cost = true <;> by_cases hb' : bad (m.acc i).cost = true <;>
      simp [hb, hb', tryEv, Data.calcNode, Function.update_of_ne hij, Function.update_of_ne hji]

/-! ## one iteration -/

variable (P) in
/-- what the iterations `l` contribute to the private copies, one after the other. -/
def accOf (xs : Traj P) (us : Ctrls P) (l : List ℕ) (a : TryAcc F) : TryAcc F :=
  l.foldl (fun a t => ⟨a.cost + nodeCost P xs us t, a.gap + norm1 (shootGap P xs us t),
    addViol (P.lb t) (P.ub t) (P.calcR t (xs t) (us t)).g a.con⟩) a

variable (P) in
/-- one of the partial sums of the costs of the nodes `l`, starting from `c`, is NaN, infinite or huge. -/
def partialBad (xs : Traj P) (us : Ctrls P) : List ℕ → F → Bool
  | [], _ => false
  | t :: l, c => bad (c + nodeCost P xs us t) || partialBad xs us l (c + nodeCost P xs us t)

/-- the shared memory after the iterations `l`, in this order. -/
def shOf (l : List ℕ) (s : CSQP P) : CSQP P :=
  forList l (fun t s => { s with
    data := s.data.calcNode t (s.w.xs t) (s.w.us t)
    w := { s.w with fs := Function.update s.w.fs (t + 1) (shootGap P s.w.xs s.w.us t) } }) s

theorem shOf_cons (t : ℕ) (l : List ℕ) (s : CSQP P) : shOf (t :: l) s = shOf l (shOf [t] s) := rfl

theorem shOf_append (l l' : List ℕ) (s : CSQP P) : shOf (l ++ l') s = shOf l' (shOf l s) := List.foldl_append

theorem shOf_w (l : List ℕ) (s : CSQP P) : ∃ d f, shOf l s = { s with data := d, w := { s.w with fs := f } } := by
  induction l generalizing s with
  | nil => exact ⟨s.data, s.w.fs, rfl⟩
  | cons t l ih =>
    rw [shOf_cons]
    obtain ⟨d, f, h⟩ := ih (shOf [t] s)
    exact ⟨d, f, h⟩

theorem shOf_xs (l : List ℕ) (s : CSQP P) : (shOf l s).w.xs = s.w.xs := by obtain ⟨d, f, h⟩ := shOf_w l s; rw [h]
theorem shOf_us (l : List ℕ) (s : CSQP P) : (shOf l s).w.us = s.w.us := by obtain ⟨d, f, h⟩ := shOf_w l s; rw [h]

theorem shOf_perm {l l' : List ℕ} (h : l.Perm l') (s : CSQP P) : shOf l s = shOf l' s := by
  refine QP.forList_perm (fun i j hij s => ?_) h s
  simp only [Data.calcNode, Function.update_comm hij, Function.update_comm (fun e => hij (Nat.succ.inj e))]

/-- one iteration, run by thread `i` alone. -/
theorem exec_iter (i : Fin n) (t : ℕ) (m : TryMem P n) :
    exec tryEv ((tryOps t).map fun e => (i, e)) m =
      if bad ((m.acc i).cost + nodeCost P m.s.w.xs m.s.w.us t) then none
      else some ⟨shOf [t] m.s, Function.update m.acc i (accOf P m.s.w.xs m.s.w.us [t] (m.acc i))⟩ := by
  simp only [tryOps, List.map_cons, List.map_nil, exec, tryEv, Option.bind_some, Data.calcNode, Function.update_self,
    Function.update_idem]
  rw [show nodeCost P m.s.w.xs m.s.w.us t = (P.calcR t (m.s.w.xs t) (m.s.w.us t)).cost from rfl]
  cases bad ((m.acc i).cost + (P.calcR t (m.s.w.xs t) (m.s.w.us t)).cost) <;> rfl

/-- the iterations of one thread, run alone. -/
theorem exec_chunk (i : Fin n) (l : List ℕ) (m : TryMem P n) :
    exec tryEv ((l.flatMap tryOps).map fun e => (i, e)) m =
      if partialBad P m.s.w.xs m.s.w.us l (m.acc i).cost then none
      else some ⟨shOf l m.s, Function.update m.acc i (accOf P m.s.w.xs m.s.w.us l (m.acc i))⟩ := by
  induction l generalizing m with
  | nil =>
    simp only [List.flatMap_nil, List.map_nil, exec, partialBad]
    simp [shOf, forList, accOf]
  | cons t l ih =>
    rw [List.flatMap_cons, List.map_append, exec_append, exec_iter]
    simp only [partialBad]
    by_cases hb : bad ((m.acc i).cost + nodeCost P m.s.w.xs m.s.w.us t) = true
    · simp [hb]
    · rw [if_neg hb, Option.bind_some, ih]
      simp only [shOf_xs, shOf_us, Function.update_self, Function.update_idem, Bool.not_eq_true] at hb ⊢
      simp only [hb, Bool.false_or, shOf_cons (P := P) t l]
      rfl

/-- threads run one after the other. -/
theorem exec_threads (chunk : Fin n → List ℕ) (is : List (Fin n)) (hn : is.Nodup) (s : CSQP P) (A : Fin n → TryAcc F) :
    exec tryEv (is.flatMap fun i => ((chunk i).flatMap tryOps).map fun e => (i, e)) (⟨s, A⟩ : TryMem P n) =
      if is.any fun i => partialBad P s.w.xs s.w.us (chunk i) (A i).cost then none
      else some ⟨shOf (is.flatMap chunk) s, fun i => if i ∈ is then accOf P s.w.xs s.w.us (chunk i) (A i) else A i⟩ := by
  induction is generalizing s A with
  | nil => simp [exec, shOf, forList]
  | cons i is ih =>
    rw [List.flatMap_cons, exec_append, exec_chunk]
    simp only [List.any_cons, List.flatMap_cons]
    by_cases hb : partialBad P s.w.xs s.w.us (chunk i) (A i).cost = true
    · simp [hb]
    · rw [if_neg hb, Option.bind_some, ih (List.nodup_cons.mp hn).2]
      simp only [shOf_xs, shOf_us, shOf_append]
      have hi : i ∉ is := (List.nodup_cons.mp hn).1
      have h1 : ∀ j ∈ is, Function.update A i (accOf P s.w.xs s.w.us (chunk i) (A i)) j = A j := fun j hj =>
        Function.update_of_ne (fun e : j = i => hi (e ▸ hj)) _ _
      have h2 : (is.any fun j => partialBad P s.w.xs s.w.us (chunk j)
          (Function.update A i (accOf P s.w.xs s.w.us (chunk i) (A i)) j).cost) =
          is.any fun j => partialBad P s.w.xs s.w.us (chunk j) (A j).cost := by
        rw [Bool.eq_iff_iff]
        simp only [List.any_eq_true]
        exact ⟨fun ⟨j, hj, h⟩ => ⟨j, hj, by rw [h1 j hj] at h; exact h⟩, fun ⟨j, hj, h⟩ => ⟨j, hj, by rw [h1 j hj]; exact h⟩⟩
      rw [h2]
      simp only [Bool.not_eq_true] at hb
      simp only [hb, Bool.false_or]
      split
      · rfl
      · congr 2
        funext j
        by_cases hj : j ∈ is
        · simp [hj, h1 j hj]
        · by_cases hji : j = i
          · subst hji; simp [hj]
          · simp [hj, hji]

/-- **The multi-threaded loop under any schedule.** -/
theorem exec_trace {σ : Sched n TryEv} {T : ℕ} (hσ : σ.Valid T tryOps) (s : CSQP P) (A : Fin n → TryAcc F) :
    exec tryEv σ.trace (⟨s, A⟩ : TryMem P n) =
      if (List.finRange n).any fun i => partialBad P s.w.xs s.w.us (σ.chunk i) (A i).cost then none
      else some ⟨shOf (List.range T) s, fun i => accOf P s.w.xs s.w.us (σ.chunk i) (A i)⟩ := by
  rw [exec_inTurn tryEv hσ.trace]
  · unfold inTurn
    rw [exec_threads σ.chunk (List.finRange n) (List.nodup_finRange n), shOf_perm hσ.chunk]
    simp
  · intro i j hij e he e' he' m
    obtain ⟨t, ht, he⟩ := List.mem_flatMap.mp he
    obtain ⟨t', ht', he'⟩ := List.mem_flatMap.mp he'
    refine tryEv_comm hij ?_ m
    rw [tryOps_node he, tryOps_node he']
    rintro rfl
    exact hσ.disj hij ht ht' rfl

end CSQP
end Mim
