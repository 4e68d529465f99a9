import Mathlib.Data.List.FinRange
import Mathlib.Data.List.Flatten
import Mathlib.Data.List.Perm.Basic
import Mathlib.Algebra.BigOperators.Group.List.Basic
import Mathlib.Algebra.BigOperators.Fin
import Mathlib.Tactic.Abel

/-!
# OpenMP `parallel for` loops with reductions

The semantics of `#pragma omp parallel for num_threads(n) reduction(op : v, …)` used for the multi-threaded builds of SolverCSQP
(/repo/src/csqp.cpp:932, 1141-1143, 1185-1187, 1212-1215, 1380-1383):

* the iterations are distributed over the threads in any way (`chunk`), each thread runs its iterations one after the other;
* the threads run concurrently: the *elementary operations* of their iterations (one per assignment of the C++ text) interleave
  in any way (`trace`);
* every thread has private copies of the reduction variables, initialised with the identity of the operation; after the loop
  the original value and the private copies are combined in any order and association (`Comb`), which may differ from one
  variable to the other;
* an exception that leaves an iteration terminates the program (`none`).

One assignment of the C++ text is atomic in this model.  That is not a restriction: the operations of different threads work on
different memory cells (the theorems below assume only that they commute).
-/
set_option linter.unusedSectionVars false
set_option linter.unusedSimpArgs false

namespace Mim
namespace Omp

section
variable {S E : Type}

/-- run a list of elementary operations; `none` = the program is terminated. -/
def exec (f : E → S → Option S) : List E → S → Option S
  | [], s => some s
  | e :: l, s => (f e s).bind (exec f l)

/-- `trace` is an interleaving of the programs of `n` threads: the operations of each thread appear in program order. -/
def Interleaves {n : ℕ} (prog : Fin n → List E) (trace : List (Fin n × E)) : Prop :=
  ∀ i, (trace.filter fun e => e.1 = i).map Prod.snd = prog i

/-- the threads run one after the other. -/
def inTurn {n : ℕ} (prog : Fin n → List E) : List (Fin n × E) := (List.finRange n).flatMap fun i => (prog i).map fun e => (i, e)

theorem exec_append (f : E → S → Option S) (l l' : List E) (s : S) : exec f (l ++ l') s = (exec f l s).bind (exec f l') := by
  induction l generalizing s with
  | nil => rfl
  | cons e l ih =>
    simp only [List.cons_append, exec]
    cases f e s with
    | none => rfl
    | some s1 => exact ih s1

theorem exec_flatMap {B : Type} (f : E → S → Option S) (g : B → List E) (l : List B) (s : S) :
    exec f (l.flatMap g) s = exec (fun b => exec f (g b)) l s := by
  induction l generalizing s with
  | nil => rfl
  | cons b l ih =>
    rw [List.flatMap_cons, exec_append]
    simp only [exec]
    cases exec f (g b) s with
    | none => rfl
    | some s1 => exact ih s1

/-- operations that commute with each of a list of operations commute with the list. -/
theorem exec_comm (f : E → S → Option S) (e : E) (l : List E)
    (h : ∀ e' ∈ l, ∀ s, (f e s).bind (f e') = (f e' s).bind (f e)) (s : S) :
    (f e s).bind (exec f l) = (exec f l s).bind (f e) := by
  induction l generalizing s with
  | nil => cases h0 : f e s <;> simp [exec, h0]
  | cons e' l ih =>
    have h1 := h e' (List.mem_cons_self) s
    have h2 := ih fun e'' he => h e'' (List.mem_cons_of_mem _ he)
    calc (f e s).bind (exec f (e' :: l)) = ((f e s).bind (f e')).bind (exec f l) := by
          cases f e s <;> rfl
      _ = ((f e' s).bind (f e)).bind (exec f l) := by rw [h1]
      _ = (f e' s).bind fun s1 => (f e s1).bind (exec f l) := by cases f e' s <;> rfl
      _ = (f e' s).bind fun s1 => (exec f l s1).bind (f e) := by simp only [h2]
      _ = _ := by
        simp only [exec]
        cases f e' s <;> rfl

variable {n : ℕ}

/-- pull the operations of thread `i` to the front. -/
theorem exec_pull (f : Fin n × E → S → Option S) (i : Fin n) (tr : List (Fin n × E))
    (h : ∀ e ∈ tr, ∀ e' ∈ tr, e.1 ≠ e'.1 → ∀ s, (f e s).bind (f e') = (f e' s).bind (f e)) (s : S) :
    exec f tr s = (exec f (tr.filter fun e => e.1 = i) s).bind (exec f (tr.filter fun e => ¬ e.1 = i)) := by
  induction tr generalizing s with
  | nil => rfl
  | cons e tr ih =>
    have ih' := ih fun a ha b hb => h a (List.mem_cons_of_mem _ ha) b (List.mem_cons_of_mem _ hb)
    by_cases he : e.1 = i
    · have h1 : (e :: tr).filter (fun e => decide (e.1 = i)) = e :: tr.filter fun e => decide (e.1 = i) :=
        List.filter_cons_of_pos (by simpa using he)
      have h2 : (e :: tr).filter (fun e => decide (¬ e.1 = i)) = tr.filter fun e => decide (¬ e.1 = i) :=
        List.filter_cons_of_neg (by simpa using he)
      rw [h1, h2]
      simp only [exec]
      cases f e s with
      | none => rfl
      | some s1 => exact ih' s1
    · have h1 : (e :: tr).filter (fun e => decide (e.1 = i)) = tr.filter fun e => decide (e.1 = i) :=
        List.filter_cons_of_neg (by simpa using he)
      have h2 : (e :: tr).filter (fun e => decide (¬ e.1 = i)) = e :: tr.filter fun e => decide (¬ e.1 = i) :=
        List.filter_cons_of_pos (by simpa using he)
      rw [h1, h2]
      have hc := exec_comm f e (tr.filter fun e => e.1 = i) (fun e' he' s => h e List.mem_cons_self e'
        (List.mem_cons_of_mem _ (List.mem_filter.mp he').1) (fun hh => he (hh.trans (by simpa using (List.mem_filter.mp he').2))) s) s
      calc exec f (e :: tr) s = (f e s).bind (exec f tr) := rfl
        _ = (f e s).bind fun s1 => (exec f (tr.filter fun e => e.1 = i) s1).bind (exec f (tr.filter fun e => ¬ e.1 = i)) := by
          cases f e s with
          | none => rfl
          | some s1 => exact ih' s1
        _ = ((f e s).bind (exec f (tr.filter fun e => e.1 = i))).bind (exec f (tr.filter fun e => ¬ e.1 = i)) := by
          cases f e s <;> rfl
        _ = ((exec f (tr.filter fun e => e.1 = i) s).bind (f e)).bind (exec f (tr.filter fun e => ¬ e.1 = i)) := by rw [hc]
        _ = _ := by cases exec f (tr.filter fun e => e.1 = i) s <;> rfl

theorem exec_sort (f : Fin n × E → S → Option S) (is : List (Fin n)) (hn : is.Nodup) (tr : List (Fin n × E))
    (hm : ∀ e ∈ tr, e.1 ∈ is)
    (h : ∀ e ∈ tr, ∀ e' ∈ tr, e.1 ≠ e'.1 → ∀ s, (f e s).bind (f e') = (f e' s).bind (f e)) (s : S) :
    exec f tr s = exec f (is.flatMap fun i => tr.filter fun e => e.1 = i) s := by
  induction is generalizing tr s with
  | nil =>
    have : tr = [] := List.eq_nil_iff_forall_not_mem.mpr fun e he => by simpa using hm e he
    subst this; rfl
  | cons i is ih =>
    rw [exec_pull f i tr h, List.flatMap_cons, exec_append]
    cases exec f (tr.filter fun e => e.1 = i) s with
    | none => rfl
    | some s1 =>
      have hi : i ∉ is := (List.nodup_cons.mp hn).1
      simp only [Option.bind_some]
      rw [ih (List.nodup_cons.mp hn).2 (tr.filter fun e => ¬ e.1 = i)
        (fun e he => by
          have h1 := List.mem_filter.mp he
          have h2 := hm e h1.1
          rcases List.mem_cons.mp h2 with h3 | h3
          · exact absurd h3 (by simpa using h1.2)
          · exact h3)
        (fun e he e' he' => h e (List.mem_filter.mp he).1 e' (List.mem_filter.mp he').1)]
      congr 1
      refine List.flatMap_congr fun j hj => ?_
      rw [List.filter_filter]
      refine List.filter_congr fun e he => ?_
      by_cases h1 : e.1 = j
      · have : e.1 ≠ i := fun h2 => hi (h2 ▸ h1 ▸ hj)
        subst h1
        simp [this]
      · simp [h1]

/-- **Serialisation.**  If operations of different threads commute, every interleaving gives the result of running the threads one
after the other. -/
theorem exec_inTurn (f : Fin n × E → S → Option S) {prog : Fin n → List E} {tr : List (Fin n × E)} (ht : Interleaves prog tr)
    (h : ∀ i j, i ≠ j → ∀ e ∈ prog i, ∀ e' ∈ prog j, ∀ s, (f (i, e) s).bind (f (j, e')) = (f (j, e') s).bind (f (i, e))) (s : S) :
    exec f tr s = exec f (inTurn prog) s := by
  have hp : ∀ e ∈ tr, e.2 ∈ prog e.1 := by
    intro e he
    rw [← ht e.1]
    exact List.mem_map.mpr ⟨e, List.mem_filter.mpr ⟨he, by simp⟩, rfl⟩
  rw [exec_sort f (List.finRange n) (List.nodup_finRange n) tr (fun e _ => List.mem_finRange _)
    (fun e he e' he' hne s => h e.1 e'.1 hne e.2 (hp e he) e'.2 (hp e' he') s)]
  congr 1
  unfold inTurn
  refine List.flatMap_congr fun i _ => ?_
  rw [← ht i, List.map_map]
  have : ∀ e ∈ tr.filter (fun e => decide (e.1 = i)), ((fun e => (i, e)) ∘ Prod.snd) e = e := by
    intro e he
    have h1 : e.1 = i := by simpa using (List.mem_filter.mp he).2
    subst h1; rfl
  rw [List.map_congr_left this, List.map_id']

end

/-! ## combining the private copies -/

/-- an order and association in which `n` private copies (`some i`) and the original value (`none`) are combined. -/
inductive Comb (n : ℕ)
  | leaf (i : Option (Fin n))
  | node (l r : Comb n)

namespace Comb
variable {n : ℕ} {A : Type}

def leaves : Comb n → List (Option (Fin n))
  | leaf i => [i]
  | node l r => l.leaves ++ r.leaves

/-- the original value and each private copy are used exactly once. -/
def Valid (c : Comb n) : Prop := c.leaves.Perm (none :: (List.finRange n).map some)

instance (c : Comb n) : Decidable c.Valid := inferInstanceAs (Decidable (List.Perm _ _))

/-- the combined value. -/
def eval (op : A → A → A) (orig : A) (priv : Fin n → A) : Comb n → A
  | leaf none => orig
  | leaf (some i) => priv i
  | node l r => op (l.eval op orig priv) (r.eval op orig priv)

theorem eval_add [AddCommMonoid A] (c : Comb n) (orig : A) (priv : Fin n → A) :
    c.eval (· + ·) orig priv = (c.leaves.map fun i => i.elim orig priv).sum := by
  induction c with
  | leaf i => cases i <;> simp [eval, leaves]
  | node l r hl hr => simp [eval, leaves, hl, hr]

/-- sums do not depend on the order. -/
theorem Valid.sum [AddCommMonoid A] {c : Comb n} (h : c.Valid) (orig : A) (priv : Fin n → A) :
    c.eval (· + ·) orig priv = orig + ((List.finRange n).map priv).sum := by
  rw [eval_add, (h.map _).sum_eq]
  simp [Function.comp_def]

theorem eval_max [LinearOrder A] (c : Comb n) (orig : A) (priv : Fin n → A) (b : A) :
    c.eval max orig priv ≤ b ↔ ∀ i ∈ c.leaves, i.elim orig priv ≤ b := by
  induction c with
  | leaf i => cases i <;> simp [eval, leaves]
  | node l r hl hr =>
    simp only [eval, leaves, max_le_iff, hl, hr, List.mem_append]
    exact ⟨fun h i hi => hi.elim (h.1 i) (h.2 i), fun h => ⟨fun i hi => h i (.inl hi), fun i hi => h i (.inr hi)⟩⟩

/-- maxima do not depend on the order. -/
theorem Valid.max_le [LinearOrder A] {c : Comb n} (h : c.Valid) (orig : A) (priv : Fin n → A) (b : A) :
    c.eval max orig priv ≤ b ↔ orig ≤ b ∧ ∀ i, priv i ≤ b := by
  rw [eval_max]
  constructor
  · intro hb
    exact ⟨hb none (h.mem_iff.mpr List.mem_cons_self),
      fun i => hb (some i) (h.mem_iff.mpr (List.mem_cons_of_mem _ (List.mem_map.mpr ⟨i, List.mem_finRange i, rfl⟩)))⟩
  · rintro ⟨h1, h2⟩ i _
    cases i with
    | none => exact h1
    | some i => exact h2 i

end Comb

/-- how one parallel loop is executed by `n` threads; `E` is the type of elementary operations. -/
structure Sched (n : ℕ) (E : Type) where
  chunk : Fin n → List ℕ
  trace : List (Fin n × E)
  comb : ℕ → Comb n

/-- a possible execution of the loop `for (t = 0; t < T; ++t)` whose iteration `t` consists of the operations `ops t`. -/
structure Sched.Valid {n : ℕ} {E : Type} (σ : Sched n E) (T : ℕ) (ops : ℕ → List E) : Prop where
  chunk : ((List.finRange n).flatMap σ.chunk).Perm (List.range T)
  trace : Interleaves (fun i => (σ.chunk i).flatMap ops) σ.trace
  comb : ∀ v, (σ.comb v).Valid

/-- different threads work on different iterations. -/
theorem Sched.Valid.disj {n : ℕ} {E : Type} {σ : Sched n E} {T : ℕ} {ops : ℕ → List E} (h : σ.Valid T ops) {i j : Fin n} (hij : i ≠ j)
    {t t' : ℕ} (ht : t ∈ σ.chunk i) (ht' : t' ∈ σ.chunk j) : t ≠ t' := by
  have hnd : ((List.finRange n).flatMap σ.chunk).Nodup := h.chunk.nodup_iff.mpr List.nodup_range
  have hp := (List.nodup_flatMap.mp hnd).2
  haveI : Std.Symm (Function.onFun List.Disjoint σ.chunk) := ⟨fun a b (hab : List.Disjoint _ _) => hab.symm⟩
  have := hp.forall (List.mem_finRange i) (List.mem_finRange j) hij
  rintro rfl
  exact this ht ht'

/-- only iterations of the loop are run. -/
theorem Sched.Valid.lt {n : ℕ} {E : Type} {σ : Sched n E} {T : ℕ} {ops : ℕ → List E} (h : σ.Valid T ops) {i : Fin n}
    {t : ℕ} (ht : t ∈ σ.chunk i) : t < T :=
  List.mem_range.mp (h.chunk.mem_iff.mp (List.mem_flatMap.mpr ⟨i, List.mem_finRange i, ht⟩))

/-- every iteration is run by some thread. -/
theorem Sched.Valid.ex {n : ℕ} {E : Type} {σ : Sched n E} {T : ℕ} {ops : ℕ → List E} (h : σ.Valid T ops) {t : ℕ} (ht : t < T) :
    ∃ i, t ∈ σ.chunk i := by
  obtain ⟨i, _, hi⟩ := List.mem_flatMap.mp (h.chunk.mem_iff.mpr (List.mem_range.mpr ht))
  exact ⟨i, hi⟩

end Omp
end Mim
