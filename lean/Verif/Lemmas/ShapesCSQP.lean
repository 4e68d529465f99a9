import Verif.Lemmas.ShapesHist
import Verif.Spec.ShapesCSQP

/-!
# The passes of `SolverCSQP` keep the right sizes
-/
set_option autoImplicit false
set_option linter.unusedSectionVars false
set_option linter.unusedSimpArgs false

namespace Mim.Shape
open Arr

/-- stopped anywhere, the statements succeed and keep what is right in `S`. -/
def Keeps (R : Store) (S : Arr × ℕ → Prop) (l : List St) : Prop :=
  ∀ (n : ℕ) (σ : Store), Good R S σ → ∃ σ', run (l.take n) σ = some σ' ∧ Good R S σ'

theorem Keeps.nil {R : Store} {S : Arr × ℕ → Prop} : Keeps R S [] := fun n σ h => ⟨σ, by simp [run], h⟩

theorem Keeps.all {R : Store} {S : Arr × ℕ → Prop} {l : List St} (h : Keeps R S l) {σ : Store} (hg : Good R S σ) :
    ∃ σ', run l σ = some σ' ∧ Good R S σ' := by simpa using h l.length σ hg

theorem Keeps.append {R : Store} {S : Arr × ℕ → Prop} {l m : List St} (hl : Keeps R S l) (hm : Keeps R S m) :
    Keeps R S (l ++ m) := fun n σ h => by
  obtain ⟨σ1, h1, g1⟩ := hl n σ h
  obtain ⟨σ2, h2, g2⟩ := hm (n - l.length) σ1 g1
  exact ⟨σ2, by rw [List.take_append, run_append, h1]; exact h2, g2⟩

theorem Keeps.take {R : Store} {S : Arr × ℕ → Prop} {l : List St} (hl : Keeps R S l) (m : ℕ) :
    Keeps R S (l.take m) := fun n σ h => by
  rw [List.take_take]
  exact hl _ σ h

theorem Keeps.flatMap {R : Store} {S : Arr × ℕ → Prop} {α : Type} {f : α → List St} : ∀ {l : List α},
    (∀ t ∈ l, Keeps R S (f t)) → Keeps R S (l.flatMap f)
  | [], _ => Keeps.nil
  | t :: l, h => by
    rw [List.flatMap_cons]
    exact (h t (by simp)).append (Keeps.flatMap fun u hu => h u (by simp [hu]))

theorem Flow.keeps {R : Store} {S : Arr × ℕ → Prop} {l : List St} (h : Flow R S l) : Keeps R S l := fun n σ hg => by
  obtain ⟨σ', h1, h2⟩ := (h.take n).run hg
  exact ⟨σ', h1, h2.weaken fun p hp => Or.inl hp⟩

theorem Good.table {R R' : Store} {S : Arr × ℕ → Prop} {σ : Store} (h : Good R S σ)
    (h1 : ∀ a t, (R' a t).isSome = (R a t).isSome) (h2 : ∀ a t, S (a, t) → R' a t = R a t) : Good R' S σ :=
  fun a t => ⟨((h a t).1).trans (h1 a t).symm, fun hs => ((h a t).2 hs).trans (h2 a t hs).symm⟩

/-- the table used for one block may differ from `R` outside `S`. -/
theorem Flow.keeps' {R R' : Store} {S : Arr × ℕ → Prop} {l : List St} (h : Flow R' S l)
    (h1 : ∀ a t, (R' a t).isSome = (R a t).isSome) (h2 : ∀ a t, S (a, t) → R' a t = R a t) : Keeps R S l :=
  fun n σ hg => by
    obtain ⟨σ', e, g⟩ := h.keeps n σ (hg.table h1 h2)
    exact ⟨σ', e, g.table (fun a t => (h1 a t).symm) fun a t hs => (h2 a t hs).symm⟩

/-- what is known to be right: everything but the scratch matrix `FuTVxx_p_[0]` and, when the flag is `false`, the temporaries
(`b`), `du_` (`c`), `dutilde_` (`e`), the factorisations of the nodes with controls (`f`). -/
def Known (d : Dims) (b c e f : Bool) (p : Arr × ℕ) : Prop :=
  p ≠ (FuTVxx, 0) ∧ (b = true ∨ (p.1 ≠ tmpU ∧ p.1 ≠ tmpRhoGu)) ∧ (c = true ∨ p.1 ≠ du) ∧ (e = true ∨ p.1 ≠ dutilde) ∧
    (f = true ∨ p.1 ≠ llt ∨ d.nu p.2 = 0)

/-- reads and shapes, computed. -/
macro "flow" : tactic => `(tactic|
  simp (config := { failIfUnchanged := false }) [*, Flow, Fits, St.exec, St.reads, St.writes, E.shape, E.reads, Known, sizeCSQPAll, sizeBase, nth, put_eq_self])

section
variable (d : Dims) {b c e f : Bool}

theorem flow_Cstart : Flow (sizeCSQPAll d) (Known d b c e f) (start d) := by
  refine Flow.append (Flow.append ?_ (Flow.append (Flow.flatMap fun t ht => ?_) (Flow.flatMap fun t ht => ?_))) ?_
  · flow
  · have ht := List.mem_range.1 ht
    flow
  · have ht := List.mem_range.1 ht
    flow
  · flow

theorem flow_CsetTry : Flow (sizeCSQPAll d) (Known d b c e f) (setTry d) := by
  refine Flow.append (Flow.flatMap fun t ht => ?_) (Flow.flatMap fun t ht => ?_)
  · have ht := List.mem_range.1 ht
    flow
  · have ht := List.mem_range.1 ht
    flow

theorem flow_CcalcC (r : Bool) : Flow (sizeCSQPAll d) (Known d b c e f) (calcC d r) := by
  refine Flow.append ?_ (Flow.flatMap fun t ht => ?_)
  · cases r
    · exact (trivial : Flow _ _ [])
    · refine Flow.append (Flow.flatMap fun t ht => ?_) ?_
      · have ht := List.mem_range.1 ht
        have ht1 : t < d.T + 1 := Nat.lt_succ_of_lt ht
        flow
      · flow
  · skip
    have ht := List.mem_range.1 ht
    flow

theorem flow_Creset : Flow (sizeCSQPAll d) (Known d b c e f) (resetC d) := by
  refine Flow.flatMap fun t ht => ?_
  have ht := List.mem_range.1 ht
  flow

theorem flow_CmulNorm : Flow (sizeCSQPAll d) (Known d b c e f) (mulNormC d) := by
  refine Flow.flatMap fun t ht => ?_
  have ht := List.mem_range.1 ht
  flow

theorem flow_CapplyRho : Flow (sizeCSQPAll d) (Known d b c e f) (applyRho d) := by
  refine Flow.flatMap fun t ht => Flow.flatMap fun i hi => ?_
  have ht := List.mem_range.1 ht
  have hi := List.mem_range.1 hi
  flow

theorem flow_Cterminal : Flow (sizeCSQPAll d) (Known d b c e f) (terminalC d) := by
  refine Flow.append ?_ ?_
  · flow
  · by_cases h : d.ng d.T = 0 <;> flow

theorem flow_CterminalKeep : Flow (sizeCSQPAll d) (Known d b c e f) (terminalKeepC d) := by
  refine Flow.append ?_ ?_
  · flow
  · by_cases h : d.ng d.T = 0 <;> flow

theorem flow_CgradX {t : ℕ} (ht : t < d.T) : Flow (sizeCSQPAll d) (Known d b c e f) (gradXC d t) := by
  have ht1 : t < d.T + 1 := Nat.lt_succ_of_lt ht
  refine Flow.append ?_ ?_
  · flow
  · by_cases h : d.ng t = 0
    · flow
    · by_cases h0 : 0 < t
      · flow
      · by_cases hn : d.nu t = 0 <;> flow

theorem flow_Cvalue {t : ℕ} (ht : t < d.T) : Flow (sizeCSQPAll d) (Known d b c e f) (valueC d t) := by
  have ht1 : t < d.T + 1 := Nat.lt_succ_of_lt ht
  refine Flow.append (Flow.append (Flow.append ?_ ?_) ?_) ?_
  · by_cases h : d.nu t = 0
    · simp [computeGains, h, Flow]
    · simp only [computeGains]
      flow
  · flow
  · by_cases h : d.nu t = 0 <;> flow
  · flow

theorem flow_Cfree {t : ℕ} (ht : t < d.T) : Flow (sizeCSQPAll d) (Known d b c e f) (backwardNodeFree d t) := by
  have ht1 : t < d.T + 1 := Nat.lt_succ_of_lt ht
  refine Flow.append (Flow.append ?_ ?_) (flow_Cvalue d ht)
  · flow
  · by_cases h : d.nu t = 0 <;> flow

theorem flow_CbackwardFree : Flow (sizeCSQPAll d) (Known d b c e f) (backwardFree d) := by
  refine Flow.append (?_) (Flow.flatMap fun t ht => flow_Cfree d (by simpa using ht))
  flow

theorem flow_CforwardFree : Flow (sizeCSQPAll d) (Known d b c e f) (forwardFree d) := by
  refine Flow.flatMap fun t ht => ?_
  have ht := List.mem_range.1 ht
  have ht1 : t < d.T + 1 := Nat.lt_succ_of_lt ht
  flow

theorem flow_Cforward : Flow (sizeCSQPAll d) (Known d b c e f) (forwardC d) := by
  refine Flow.flatMap fun t ht => ?_
  have ht := List.mem_range.1 ht
  have ht1 : t < d.T + 1 := Nat.lt_succ_of_lt ht
  flow

theorem flow_Cnode {t : ℕ} (ht : t < d.T) : Flow (sizeCSQPAll d) (Known d b true e f) (backwardNodeC d t) := by
  have ht1 : t < d.T + 1 := Nat.lt_succ_of_lt ht
  refine Flow.append (Flow.append (Flow.append (Flow.append (Flow.append (Flow.append ?_ (flow_CgradX d ht)) ?_) ?_) ?_)
    ?_) (flow_Cvalue d ht)
  · flow
  · flow
  · by_cases h : 0 < t ∧ d.ng t ≠ 0
    · flow
    · rw [if_neg h]; trivial
  · flow
  · by_cases h : d.nu t = 0
    · flow
    · by_cases h1 : d.ng t = 0
      · flow
      · by_cases h0 : 0 < t <;> flow

theorem flow_Cbackward : Flow (sizeCSQPAll d) (Known d b true e f) (backwardC d) :=
  Flow.append (flow_Cterminal d) (Flow.flatMap fun t ht => flow_Cnode d (by simpa using ht))

theorem flow_Cpar {t : ℕ} (ht : t < d.T) : Flow (sizeCSQPAll d) (Known d b true e f) (parNodeC d t) := by
  have ht1 : t < d.T + 1 := Nat.lt_succ_of_lt ht
  refine Flow.append (Flow.append (Flow.append (flow_CgradX d ht) ?_) ?_) ?_
  · flow
  · by_cases h : 0 < t ∧ d.ng t ≠ 0
    · flow
    · rw [if_neg h]; trivial
  · by_cases h : d.nu t = 0
    · flow
    · by_cases h1 : d.ng t = 0
      · flow
      · by_cases h0 : 0 < t <;> flow

/-- the table in which the scratch matrix has the size of node `t`. -/
def scratch (t : ℕ) : Store := fun a u =>
  if a = FuTVxx ∧ u = 0 then some ⟨d.nu t, d.ndx⟩ else sizeCSQPAll d a u

theorem keeps_seq {t : ℕ} (ht : t < d.T) : Keeps (sizeCSQPAll d) (Known d b c e f) (seqNodeC d t) := by
  have ht1 : t < d.T + 1 := Nat.lt_succ_of_lt ht
  have h0 : 0 < d.T := Nat.lt_of_le_of_lt (Nat.zero_le t) ht
  refine Keeps.append (Keeps.append (Flow.keeps ?_) (Flow.keeps' (R' := scratch d t) ?_ ?_ ?_)) (flow_Cvalue d ht).keeps
  · flow
  · by_cases h : d.nu t = 0
    · flow
    · simp [h, scratch, ht, ht1, h0, Flow, Fits, St.exec, St.reads, St.writes, E.shape, E.reads, Known, sizeCSQPAll, sizeBase,
        nth, put_eq_self]
  · intro a u
    by_cases h : a = FuTVxx ∧ u = 0
    · obtain ⟨rfl, rfl⟩ := h
      simp [scratch, sizeCSQPAll, sizeBase, nth, h0]
    · simp [scratch, h]
  · intro a u h
    have h : ¬ (a = FuTVxx ∧ u = 0) := fun hh => h.1 (by rw [hh.1, hh.2])
    simp [scratch, h]

theorem keeps_backwardMt : Keeps (sizeCSQPAll d) (Known d b true e f) (backwardMtC d) :=
  Keeps.append (Keeps.append (flow_Cterminal d).keeps (Keeps.flatMap fun t ht => (flow_Cpar d (by simpa using ht)).keeps))
    (Keeps.flatMap fun t ht => keeps_seq d (by simpa using ht))

theorem flow_CbackwardKeep : Flow (sizeCSQPAll d) (Known d b true e true) (backwardKeepC d) := by
  refine Flow.append (flow_CterminalKeep d) (Flow.flatMap fun t ht => ?_)
  have ht : t < d.T := by simpa using ht
  have ht1 : t < d.T + 1 := Nat.lt_succ_of_lt ht
  refine Flow.append (Flow.append (Flow.append (Flow.append (Flow.append ?_ (flow_CgradX d ht)) ?_) ?_) ?_) ?_
  · flow
  · flow
  · by_cases h : d.nu t = 0
    · flow
    · by_cases h1 : d.ng t = 0 <;> flow
  · flow
  · by_cases h : d.nu t = 0 <;> flow

theorem flow_CbackwardKeepMt : Flow (sizeCSQPAll d) (Known d b true e true) (backwardKeepMtC d) := by
  refine Flow.append (Flow.append (Flow.append (flow_CterminalKeep d) (Flow.flatMap fun t ht => ?_))
    (Flow.flatMap fun t ht => ?_)) (Flow.flatMap fun t ht => ?_)
  · have ht := List.mem_range.1 ht
    refine Flow.append (flow_CgradX d ht) (?_)
    have ht1 : t < d.T + 1 := Nat.lt_succ_of_lt ht
    by_cases h : d.nu t = 0
    · flow
    · by_cases h1 : d.ng t = 0 <;> flow
  · have ht : t < d.T := by simpa using ht
    have ht1 : t < d.T + 1 := Nat.lt_succ_of_lt ht
    skip
    by_cases h : d.nu t = 0 <;> flow
  · have ht := List.mem_range.1 ht
    flow

theorem flow_Cadmm {t : ℕ} (ht : t < d.T) : Flow (sizeCSQPAll d) (Known d b c true f) (admmC d t true) := by
  have ht1 : t < d.T + 1 := Nat.lt_succ_of_lt ht
  skip
  simp only [admmC, if_true]
  flow

theorem flow_CadmmT : Flow (sizeCSQPAll d) (Known d b c e f) (admmC d d.T false) := by
  skip
  simp only [admmC]
  flow

theorem flow_Cresid {t : ℕ} (ht : t < d.T) (h : Bool) : Flow (sizeCSQPAll d) (Known d b c e f) (residC d t true h) := by
  have ht1 : t < d.T + 1 := Nat.lt_succ_of_lt ht
  skip
  cases h <;> simp only [residC, if_true] <;> flow

theorem flow_CresidT (h : Bool) : Flow (sizeCSQPAll d) (Known d b c e f) (residC d d.T false h) := by
  skip
  cases h <;> simp only [residC, if_true] <;> flow

theorem flow_Clagrangian (u h : Bool) : Flow (sizeCSQPAll d) (Known d b c true f) (lagrangianC d u h) := by
  refine Flow.append (Flow.append (Flow.flatMap fun t ht => ?_) (?_)) ?_
  · have ht := List.mem_range.1 ht
    have ht1 : t < d.T + 1 := Nat.lt_succ_of_lt ht
    have h2 : Flow (sizeCSQPAll d) (Known d b c true f) [St.set dx t (.ld dxtilde t), St.set du t (.ld dutilde t)] := by
      skip
      flow
    by_cases hg : d.ng t = 0
    · rw [if_pos hg]; exact h2
    · rw [if_neg hg]
      refine Flow.append (Flow.append (flow_Cadmm d ht) h2) ?_
      cases u
      · exact (trivial : Flow _ _ [])
      · exact flow_Cresid d ht h
  · flow
  · by_cases hg : d.ng d.T = 0
    · rw [if_pos hg]; exact (trivial : Flow _ _ [])
    · rw [if_neg hg]
      refine Flow.append (flow_CadmmT d) ?_
      cases u
      · exact (trivial : Flow _ _ [])
      · exact flow_CresidT d h

theorem flow_CkktC : Flow (sizeCSQPAll d) (Known d b c true f) (kktC d) := by
  refine Flow.append (Flow.append (Flow.flatMap fun t ht => ?_) (Flow.flatMap fun t ht => ?_)) ?_
  · have ht := List.mem_range.1 ht
    flow
  · have ht := List.mem_range.1 ht
    have ht1 : t < d.T + 1 := Nat.lt_succ_of_lt ht
    by_cases h0 : 0 < t <;> flow
  · flow

theorem flow_Ctry : Flow (sizeCSQPAll d) (Known d b true e f) (tryC d) := by
  refine Flow.append (Flow.append (Flow.append (Flow.flatMap fun t ht => ?_) ?_) (Flow.flatMap fun t ht => ?_)) ?_
  · have ht := List.mem_range.1 ht
    have ht1 : t < d.T + 1 := Nat.lt_succ_of_lt ht
    by_cases h : d.nu t = 0 <;> flow
  · flow
  · have ht := List.mem_range.1 ht
    have ht1 : t < d.T + 1 := Nat.lt_succ_of_lt ht
    flow
  · flow

theorem keeps_codeCSQP (l : List (CPass × ℕ)) : Keeps (sizeCSQPAll d) (Known d b true true true) (codeCSQP d l) := by
  refine Keeps.flatMap fun p _ => Keeps.take ?_ _
  rcases p with ⟨p, n⟩
  cases p with
  | calcPass r => exact (flow_CcalcC d r).keeps
  | applyRho => exact (flow_CapplyRho d).keeps
  | reset => exact (flow_Creset d).keeps
  | backwardFree => exact (flow_CbackwardFree d).keeps
  | forwardFree => exact (flow_CforwardFree d).keeps
  | backward => exact (flow_Cbackward d).keeps
  | backwardMt => exact keeps_backwardMt d
  | backwardKeep => exact (flow_CbackwardKeep d).keeps
  | backwardKeepMt => exact (flow_CbackwardKeepMt d).keeps
  | forward => exact (flow_Cforward d).keeps
  | lagrangian u h => exact (flow_Clagrangian d u h).keeps
  | kkt => exact (flow_CkktC d).keeps
  | mulNorm => exact (flow_CmulNorm d).keeps
  | try_ => exact (flow_Ctry d).keeps
  | accept => exact (flow_CsetTry d).keeps

theorem likeCSQPAll : Like (sizeCSQPAll d) d where
  xs _ := rfl
  us _ := rfl
  fs _ := rfl
  Vxx _ := rfl
  Vx _ := rfl
  Qxx _ := rfl
  Qxu _ := rfl
  Quu _ := rfl
  Qx _ := rfl
  Qu _ := rfl
  K _ := rfl
  k _ := rfl
  xsTry _ := rfl
  usTry _ := rfl
  dx t ht := by simp [sizeCSQPAll, sizeBase, nth, Nat.lt_succ_of_lt ht, Nat.le_of_lt ht]
  FuTVxx _ := rfl
  llt _ := rfl
  Quuk _ := rfl
  VxxTmp := rfl
  FxTVxx := rfl
  fTVxx := rfl
  lagMul _ := rfl
  fsFlat := rfl

theorem run_ctorCSQPAll : run (ctorCSQPAll d) fresh = some (sizeCSQPAll d) := by
  refine construct_eq ?_ fun a t h => ?_
  · refine forall_append (forall_append (forall_append (right_ctorDDP d (likeCSQPAll d)) ?_) (forall_each fun t ht => ?_)) ?_
    · simp [RightAlloc, sizeCSQPAll, sizeBase, nth]
    · have ht := List.mem_range.1 ht
      have ht1 : t < d.T + 1 := Nat.lt_succ_of_lt ht
      simp [RightAlloc, sizeCSQPAll, sizeBase, nth, ht, ht1]
    · simp [RightAlloc, sizeCSQPAll, sizeBase, nth]
  · by_cases h1 : sizeBase d d.T a t = none
    · simp only [ctorCSQPAll, wr_append, wr_each_iff, wr_cons, wr_nil, St.writes, List.mem_singleton, Prod.mk.injEq,
        List.mem_range]
      cases a <;> simp [sizeCSQPAll, sizeBase, nth] at h1 h <;> simp <;> omega
    · simp only [ctorCSQPAll, wr_append]
      exact Or.inl (Or.inl (Or.inl (wr_ctorDDP d a t h1)))

/-- what is known grows by what was written. -/
theorem Flow.gain {R : Store} {S S' : Arr × ℕ → Prop} {l : List St} (h : Flow R S l)
    (hs : ∀ a t, S' (a, t) → R a t ≠ none → S (a, t) ∨ wr l (a, t)) {σ : Store} (hg : Good R S σ) :
    ∃ σ', Shape.run l σ = some σ' ∧ Good R S' σ' := by
  obtain ⟨σ', h1, h2⟩ := h.run hg
  refine ⟨σ', h1, fun a t => ⟨(h2 a t).1, fun hp => ?_⟩⟩
  by_cases hn : R a t = none
  · have := (h2 a t).1
    rw [hn] at this ⊢
    simpa using this
  · exact (h2 a t).2 (hs a t hp hn)

/-- after `resizeData`, when the constraints are the same and no node lost all its controls. -/
theorem gain_resize (nu : ℕ → ℕ) (hz : ∀ t, nu t = 0 → d.nu t = 0) :
    ∃ σ, run (resizeData { d with nu := nu }) (sizeCSQPAll d) = some σ ∧
      Good (sizeCSQPAll { d with nu := nu }) (Known { d with nu := nu } false false false false) σ := by
  have hf : Flow (sizeCSQPAll { d with nu := nu })
      (fun p => sizeCSQPAll d p.1 p.2 = sizeCSQPAll { d with nu := nu } p.1 p.2) (resizeData { d with nu := nu }) := by
    refine Flow.append (Flow.each fun t ht => ?_) (Flow.each fun t ht => ?_) <;> have ht : t < d.T := List.mem_range.1 ht <;>
      simp [Flow, Fits, St.exec, St.reads, St.writes, sizeCSQPAll, sizeBase, nth, put_eq_self, ht]
  refine hf.gain (fun a t hk hn => ?_) fun a t => ⟨by cases a <;> simp [sizeCSQPAll, sizeBase, isSome_nth], id⟩
  by_cases ht : t < d.T
  · by_cases hd : nuDep a = false
    · left
      cases a <;> simp [nuDep] at hd <;> first | rfl | (simp [Known] at hk)
    · cases a <;> simp [nuDep] at hd <;> simp [Known] at hk
      case llt =>
        left
        simp [sizeCSQPAll, sizeBase, nth, hk, hz t hk]
      all_goals
        right
        simp only [resizeData, wr_append, wr_each_iff, wr_cons, wr_nil, St.writes, List.mem_singleton, Prod.mk.injEq,
          List.mem_range]
        simp [ht]
  · left
    cases a <;> first | rfl | simp [sizeCSQPAll, sizeBase, nth, ht]

/-- after the initial guess `du_` is right. -/
theorem gain_forwardFree {σ : Store} (h : Good (sizeCSQPAll d) (Known d b c e f) σ) :
    ∃ σ', run (forwardFree d) σ = some σ' ∧ Good (sizeCSQPAll d) (Known d b true e f) σ' := by
  refine (flow_CforwardFree d).gain (fun a t hk hn => ?_) h
  by_cases ha : a = du
  · subst ha
    right
    have ht : t < d.T := by simpa [sizeCSQPAll, nth] using hn
    exact wr_each (List.mem_range.2 ht) (by simp [wr, St.writes])
  · exact Or.inl ⟨hk.1, hk.2.1, Or.inr ha, hk.2.2.2⟩

/-- after a backward pass the factorisations are right. -/
theorem gain_backward {σ : Store} (h : Good (sizeCSQPAll d) (Known d b true e f) σ) :
    ∃ σ', run (backwardC d) σ = some σ' ∧ Good (sizeCSQPAll d) (Known d b true e true) σ' := by
  refine (flow_Cbackward d).gain (fun a t hk hn => ?_) h
  by_cases ha : a = llt
  · subst ha
    by_cases hu : d.nu t = 0
    · exact Or.inl ⟨hk.1, hk.2.1, hk.2.2.1, hk.2.2.2.1, Or.inr (Or.inr hu)⟩
    right
    have ht : t < d.T := by simpa [sizeCSQPAll, sizeBase, nth] using hn
    refine (wr_append _ _ _).2 (Or.inr (wr_each (t := t) (by simpa using ht) ?_))
    refine (wr_append _ _ _).2 (Or.inr ?_)
    simp [valueC, computeGains, hu, wr_append, wr_cons, St.writes]
  · exact Or.inl ⟨hk.1, hk.2.1, hk.2.2.1, hk.2.2.2.1, Or.inr (Or.inl ha)⟩

/-- after a forward pass `dutilde_` is right. -/
theorem gain_forward {σ : Store} (h : Good (sizeCSQPAll d) (Known d b c e f) σ) :
    ∃ σ', run (forwardC d) σ = some σ' ∧ Good (sizeCSQPAll d) (Known d b c true f) σ' := by
  refine (flow_Cforward d).gain (fun a t hk hn => ?_) h
  by_cases ha : a = dutilde
  · subst ha
    right
    have ht : t < d.T := by simpa [sizeCSQPAll, nth] using hn
    exact wr_each (List.mem_range.2 ht) (by simp [wr, St.writes])
  · exact Or.inl ⟨hk.1, hk.2.1, hk.2.2.1, Or.inr ha, hk.2.2.2.2⟩

end

end Mim.Shape
