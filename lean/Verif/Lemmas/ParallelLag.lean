import Verif.Model.Parallel
import Verif.Lemmas.QPMt

/-!
# The multi-threaded loop of `update_lagrangian_parameters`
-/
set_option linter.unusedSectionVars false
set_option linter.unusedSimpArgs false

namespace Mim
open Omp
namespace QP
section
variable {F : Type} [Add F] [Sub F] [Mul F] [Div F] [Neg F] [Zero F] [One F] [FloatOps F] {P : Problem F} {n : ℕ}
variable {E : QEnv P} {iter : ℕ}

theorem lagOps_node {t : ℕ} {e : LagEv} (h : e ∈ lagOps P t) : e.node = t := by
  unfold lagOps at h
  split at h
  · simp only [List.mem_cons, List.not_mem_nil, or_false] at h
    rcases h with rfl | rfl <;> rfl
  · simp only [List.mem_cons, List.not_mem_nil, or_false] at h
    rcases h with rfl | rfl | rfl | rfl | rfl | rfl | rfl <;> rfl

/-- operations of different threads on different nodes commute. -/
theorem lagEv_comm {i j : Fin n} (hij : i ≠ j) {e e' : LagEv} (h : e.node ≠ e'.node) (m : LagMem P n) :
    (lagEv E iter (i, e) m).bind (lagEv E iter (j, e')) = (lagEv E iter (j, e') m).bind (lagEv E iter (i, e)) := by
  have hji : j ≠ i := hij.symm
  cases e <;> cases e' <;> simp only [LagEv.node] at h <;>
    simp only [lagEv, Option.bind_some, Function.update_of_ne hij, Function.update_of_ne hji,
      Function.update_of_ne h, Function.update_of_ne h.symm, Function.update_comm hij, Function.update_comm h]

/-- the shared memory after iteration `t`. -/
def lagV (E : QEnv P) (t : ℕ) (v : CVars P) : CVars P := (lagStage E 0 t (v, ⟨0, 0, 0, 0⟩)).1

/-- the norms after iteration `t`. -/
def lagN (E : QEnv P) (iter t : ℕ) (v : CVars P) (a : CNorms F) : CNorms F := (lagStage E iter t (v, a)).2

theorem lagStage_eq (t : ℕ) (v : CVars P) (a : CNorms F) : lagStage E iter t (v, a) = (lagV E t v, lagN E iter t v a) := by
  unfold lagV lagN lagStage
  simp only []
  split <;> rfl

/-- one iteration, run by thread `i` alone. -/
theorem exec_lag_iter (i : Fin n) (t : ℕ) (m : LagMem P n) :
    exec (lagEv E iter) ((lagOps P t).map fun e => (i, e)) m =
      some ⟨lagV E t m.v, Function.update m.acc i (lagN E iter t m.v (m.acc i))⟩ := by
  unfold lagOps lagV lagN lagStage
  simp only []
  split
  · simp only [List.map_cons, List.map_nil, exec, lagEv, Option.bind_some, Function.update_eq_self]
  · simp only [List.map_cons, List.map_nil, exec, lagEv, Option.bind_some, Function.update_self, admmNode]

theorem lagV_comm (t t' : ℕ) (h : t ≠ t') (v : CVars P) : lagV E t (lagV E t' v) = lagV E t' (lagV E t v) := by
  unfold lagV lagStage
  simp only []
  split <;> split <;> simp only [Function.update_of_ne h, Function.update_of_ne h.symm, Function.update_comm h]

theorem lagN_frame {t t' : ℕ} (h : t ≠ t') (v : CVars P) (a : CNorms F) : lagN E iter t (lagV E t' v) a = lagN E iter t v a := by
  unfold lagN lagV lagStage
  simp only []
  split <;> split <;> simp only [Function.update_of_ne h]

/-- the norms after the iterations `l`, all computed from the memory `v`. -/
def lagNs (E : QEnv P) (iter : ℕ) (v : CVars P) (l : List ℕ) (a : CNorms F) : CNorms F := l.foldl (fun a t => lagN E iter t v a) a

theorem lagNs_frame {l : List ℕ} {t' : ℕ} (h : t' ∉ l) (v : CVars P) (a : CNorms F) :
    lagNs E iter (lagV E t' v) l a = lagNs E iter v l a := by
  unfold lagNs
  refine List.foldl_ext _ _ _ fun a t ht => lagN_frame (fun e : t = t' => h (e ▸ ht)) v a

theorem lagNs_frames {l l' : List ℕ} (h : ∀ t ∈ l, t ∉ l') (v : CVars P) (a : CNorms F) :
    lagNs E iter (forList l' (lagV E) v) l a = lagNs E iter v l a := by
  induction l' generalizing v with
  | nil => rfl
  | cons t' l' ih =>
    change lagNs E iter (forList l' (lagV E) (lagV E t' v)) l a = _
    rw [ih (fun t ht ht' => h t ht (List.mem_cons_of_mem _ ht')), lagNs_frame (fun ht => h t' ht List.mem_cons_self)]

theorem exec_lag_chunk (i : Fin n) (l : List ℕ) (hl : l.Nodup) (m : LagMem P n) :
    exec (lagEv E iter) ((l.flatMap (lagOps P)).map fun e => (i, e)) m =
      some ⟨forList l (lagV E) m.v, Function.update m.acc i (lagNs E iter m.v l (m.acc i))⟩ := by
  induction l generalizing m with
  | nil => simp [exec, forList, lagNs]
  | cons t l ih =>
    rw [List.flatMap_cons, List.map_append, exec_append, exec_lag_iter, Option.bind_some, ih (List.nodup_cons.mp hl).2]
    simp only [Function.update_self, Function.update_idem]
    rw [lagNs_frame (List.nodup_cons.mp hl).1]
    rfl

theorem exec_lag_threads (chunk : Fin n → List ℕ) (is : List (Fin n)) (hn : is.Nodup) (hl : (is.flatMap chunk).Nodup) (v : CVars P)
    (A : Fin n → CNorms F) :
    exec (lagEv E iter) (is.flatMap fun i => ((chunk i).flatMap (lagOps P)).map fun e => (i, e)) (⟨v, A⟩ : LagMem P n) =
      some ⟨forList (is.flatMap chunk) (lagV E) v, fun i => if i ∈ is then lagNs E iter v (chunk i) (A i) else A i⟩ := by
  induction is generalizing v A with
  | nil => simp [exec, forList]
  | cons i is ih =>
    rw [List.flatMap_cons] at hl
    obtain ⟨h1, h2, h3⟩ := List.nodup_append.mp hl
    rw [List.flatMap_cons, exec_append, exec_lag_chunk _ _ h1, Option.bind_some, ih (List.nodup_cons.mp hn).2 h2]
    have hi : i ∉ is := (List.nodup_cons.mp hn).1
    rw [List.flatMap_cons]
    congr 2
    · exact (List.foldl_append ..).symm
    · funext j
      by_cases hj : j ∈ is
      · have hne : j ≠ i := fun e => hi (e ▸ hj)
        simp only [hj, if_true, List.mem_cons, or_true, Function.update_of_ne hne]
        exact lagNs_frames (fun t ht ht' => h3 t ht' t (List.mem_flatMap.mpr ⟨j, hj, ht⟩) rfl) v _
      · by_cases hji : j = i
        · subst hji; simp [hj]
        · simp [hj, hji]

/-- **The multi-threaded loop under any schedule.** -/
theorem exec_lag_trace {σ : Sched n LagEv} (hσ : σ.Valid P.T (lagOps P)) (v : CVars P) (A : Fin n → CNorms F) :
    exec (lagEv E iter) σ.trace (⟨v, A⟩ : LagMem P n) =
      some ⟨forList (List.range P.T) (lagV E) v, fun i => lagNs E iter v (σ.chunk i) (A i)⟩ := by
  have hnd : ((List.finRange n).flatMap σ.chunk).Nodup := hσ.chunk.nodup_iff.mpr List.nodup_range
  rw [exec_inTurn (lagEv E iter) hσ.trace]
  · unfold inTurn
    rw [exec_lag_threads σ.chunk (List.finRange n) (List.nodup_finRange n) hnd, forList_perm (fun i j hij v => lagV_comm i j hij v) hσ.chunk]
    simp
  · intro i j hij e he e' he' m
    obtain ⟨t, ht, he⟩ := List.mem_flatMap.mp he
    obtain ⟨t', ht', he'⟩ := List.mem_flatMap.mp he'
    refine lagEv_comm hij ?_ m
    rw [lagOps_node he, lagOps_node he']
    exact hσ.disj hij ht ht'

/-- the sequential loop. -/
theorem lag_seq (m : ℕ) (v : CVars P) (a : CNorms F) :
    forUp m (lagStage E iter) (v, a) = (forList (List.range m) (lagV E) v, lagNs E iter v (List.range m) a) := by
  induction m with
  | zero => rfl
  | succ m ih =>
    rw [forUp_succ, ih, lagStage_eq]
    refine Prod.ext ?_ ?_
    · change lagV E m _ = forList _ _ _
      rw [List.range_succ]
      unfold forList
      rw [List.foldl_append]; rfl
    · change lagN E iter m _ _ = lagNs _ _ _ _ _
      rw [List.range_succ]
      unfold lagNs
      rw [List.foldl_append]
      have := lagNs_frames (E := E) (iter := iter) (l := [m]) (l' := List.range m) (by simp) v (lagNs E iter v (List.range m) a)
      exact this

end

section
variable {K : Type} [Field K] [LinearOrder K] [IsStrictOrderedRing K] {P : Problem K} {n : ℕ} {E : QEnv P} {iter : ℕ}

theorem foldl_max_le (l : List K) (c b : K) : l.foldl cppMax c ≤ b ↔ c ≤ b ∧ ∀ x ∈ l, x ≤ b := by
  induction l generalizing c with
  | nil => simp
  | cons x l ih => simp only [List.foldl_cons, ih, cppMax_exact, max_le_iff, List.mem_cons, forall_eq_or_imp, and_assoc]

/-- the bound node `t` puts on one of the norms. -/
structure NormB (c : CNorms K → K) (f : ℕ → CNorms K → CNorms K) (B : ℕ → K → Prop) : Prop where
  le : ∀ t a b, c (f t a) ≤ b ↔ c a ≤ b ∧ B t b

theorem NormB.fold {c : CNorms K → K} {f : ℕ → CNorms K → CNorms K} {B : ℕ → K → Prop} (h : NormB c f B) (l : List ℕ) (a : CNorms K)
    (b : K) : c (l.foldl (fun a t => f t a) a) ≤ b ↔ c a ≤ b ∧ ∀ t ∈ l, B t b := by
  induction l generalizing a with
  | nil => simp
  | cons t l ih => simp only [List.foldl_cons, ih, h.le, List.mem_cons, forall_eq_or_imp, and_assoc]

/-- combining the private maxima gives the sequential maximum. -/
theorem NormB.comb {c : CNorms K → K} {f : ℕ → CNorms K → CNorms K} {B : ℕ → K → Prop} (h : NormB c f B) {σ : Sched n LagEv}
    {T : ℕ} {ops : ℕ → List LagEv} (hσ : σ.Valid T ops) (k : ℕ) (a idn : CNorms K) (hid : c idn ≤ c a) :
    (σ.comb k).eval cppMax (c a) (fun i => c ((σ.chunk i).foldl (fun a t => f t a) idn)) =
      c ((List.range T).foldl (fun a t => f t a) a) := by
  have hmax : (cppMax : K → K → K) = max := by funext x y; exact cppMax_exact x y
  rw [hmax]
  refine eq_of_forall_ge_iff fun b => ?_
  rw [(hσ.comb k).max_le, h.fold]
  simp only [h.fold]
  constructor
  · rintro ⟨h1, h2⟩
    refine ⟨h1, fun t ht => ?_⟩
    obtain ⟨i, hi⟩ := hσ.ex (List.mem_range.mp ht)
    exact (h2 i).2 t hi
  · rintro ⟨h1, h2⟩
    exact ⟨h1, fun i => ⟨hid.trans h1, fun t ht => h2 t (List.mem_range.mpr (hσ.lt ht))⟩⟩

theorem normB_all (v : CVars P) :
    (∃ B, NormB CNorms.p (fun t => lagN E iter t v) B) ∧ (∃ B, NormB CNorms.d (fun t => lagN E iter t v) B) ∧
    (∃ B, NormB CNorms.pr (fun t => lagN E iter t v) B) ∧ (∃ B, NormB CNorms.dr (fun t => lagN E iter t v) B) := by
  have key : ∀ (c : CNorms K → K), (∀ {m : ℕ} (duals : Vec K m → List K) (Cd z w y : Vec K m), ∃ Q : K → Prop, ∀ a b,
      c (normStep duals Cd z w y a) ≤ b ↔ c a ≤ b ∧ Q b) → ∃ B, NormB c (fun t => lagN E iter t v) B := by
    intro c hc
    have : ∀ t, ∃ Q : K → Prop, ∀ a b, c (lagN E iter t v a) ≤ b ↔ c a ≤ b ∧ Q b := by
      intro t
      unfold lagN lagStage
      simp only []
      split
      · exact ⟨fun _ => True, fun a b => by simp⟩
      · split
        · simp only []; exact hc ..
        · exact ⟨fun _ => True, fun a b => by simp⟩
    choose B hB using this
    exact ⟨B, ⟨fun t a b => hB t a b⟩⟩
  refine ⟨key _ ?_, key _ ?_, key _ ?_, key _ ?_⟩
  · intro m duals Cd z w y
    exact ⟨fun b => normInf (Cd - z) ≤ b, fun a b => by simp [normStep]⟩
  · intro m duals Cd z w y
    exact ⟨fun b => ∀ x ∈ duals w, x ≤ b, fun a b => foldl_max_le _ _ _⟩
  · intro m duals Cd z w y
    exact ⟨fun b => normInf Cd ≤ b ∧ normInf z ≤ b, fun a b => by simp [normStep, and_assoc]⟩
  · intro m duals Cd z w y
    exact ⟨fun b => ∀ x ∈ duals y, x ≤ b, fun a b => foldl_max_le _ _ _⟩

end
end QP
end Mim
