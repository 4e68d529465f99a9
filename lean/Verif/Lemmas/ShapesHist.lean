import Verif.Lemmas.ShapesFlow

/-!
# Construction, change of the problem, `resizeData`
-/
set_option autoImplicit false
set_option linter.unusedSectionVars false
set_option linter.unusedSimpArgs false

namespace Mim.Shape
open Arr

theorem wr_nil (p : Arr × ℕ) : wr [] p ↔ False := by simp [wr]

theorem wr_cons (s : St) (l : List St) (p : Arr × ℕ) : wr (s :: l) p ↔ p ∈ s.writes ∨ wr l p := by simp [wr]

theorem wr_append (l m : List St) (p : Arr × ℕ) : wr (l ++ m) p ↔ wr l p ∨ wr m p := by
  constructor
  · rintro ⟨s, hs, hp⟩
    rcases List.mem_append.1 hs with hs | hs
    · exact Or.inl ⟨s, hs, hp⟩
    · exact Or.inr ⟨s, hs, hp⟩
  · rintro (⟨s, hs, hp⟩ | ⟨s, hs, hp⟩)
    · exact ⟨s, List.mem_append.2 (Or.inl hs), hp⟩
    · exact ⟨s, List.mem_append.2 (Or.inr hs), hp⟩

theorem wr_each_iff (l : List ℕ) (f : ℕ → List St) (p : Arr × ℕ) : wr (each l f) p ↔ ∃ t ∈ l, wr (f t) p := by
  constructor
  · rintro ⟨s, hs, hp⟩
    obtain ⟨t, ht, hs⟩ := List.mem_flatMap.1 hs
    exact ⟨t, ht, s, hs, hp⟩
  · rintro ⟨t, ht, h⟩
    exact wr_each ht h

/-- what is never assigned keeps its shape. -/
theorem run_keep : ∀ {l : List St} {σ σ' : Store} {a : Arr} {t : ℕ}, run l σ = some σ' → ¬ wr l (a, t) → σ' a t = σ a t
  | [], σ, σ', a, t, h, _ => by simp [run] at h; rw [h]
  | s :: l, σ, σ', a, t, h, hw => by
    simp only [run] at h
    rcases h1 : s.exec σ with _ | σ1
    · simp [h1] at h
    · rw [h1, Option.bind_some] at h
      rw [wr_cons, not_or] at hw
      rw [run_keep h hw.2]
      cases s with
      | alloc b u r c =>
        simp only [St.exec, Option.some.injEq] at h1
        have : ¬ (a = b ∧ t = u) := fun hh => hw.1 (by simp [St.writes, hh.1, hh.2])
        rw [← h1]; simp [Store.put, this]
      | resize b u r c =>
        have : ¬ (a = b ∧ t = u) := fun hh => hw.1 (by simp [St.writes, hh.1, hh.2])
        simp only [St.exec] at h1
        rcases hb : σ b u with _ | p
        · simp [hb] at h1
        · simp only [hb, Option.bind_some, Option.some.injEq] at h1
          rw [← h1]; simp [Store.put, this]
      | set b u e =>
        have : ¬ (a = b ∧ t = u) := fun hh => hw.1 (by simp [St.writes, hh.1, hh.2])
        simp only [St.exec] at h1
        rcases hb : σ b u with _ | p
        · simp [hb] at h1
        · rcases he : e.shape σ with _ | q
          · simp [hb, he] at h1
          · simp only [hb, he, Option.bind_some, Option.some.injEq] at h1
            rw [← h1]; simp [Store.put, this]
      | upd b u e =>
        simp only [St.exec, Option.bind_eq_some_iff] at h1
        obtain ⟨p, _, q, _, h1⟩ := h1
        split at h1
        · rw [Option.some.injEq] at h1; rw [h1]
        · simp at h1
      | use e r c =>
        simp only [St.exec, Option.bind_eq_some_iff] at h1
        obtain ⟨p, _, h1⟩ := h1
        split at h1
        · rw [Option.some.injEq] at h1; rw [h1]
        · simp at h1
      | read e =>
        simp only [St.exec, Option.bind_eq_some_iff] at h1
        obtain ⟨p, _, h1⟩ := h1
        rw [Option.some.injEq] at h1; rw [h1]
      | dot x y =>
        simp only [St.exec, Option.bind_eq_some_iff] at h1
        obtain ⟨p, _, q, _, h1⟩ := h1
        split at h1
        · rw [Option.some.injEq] at h1; rw [h1]
        · simp at h1
      | solveInPlace u b =>
        simp only [St.exec, Option.bind_eq_some_iff] at h1
        obtain ⟨p, _, q, _, h1⟩ := h1
        split at h1
        · rw [Option.some.injEq] at h1; rw [h1]
        · simp at h1
      | elem b u i =>
        simp only [St.exec, Option.bind_eq_some_iff] at h1
        obtain ⟨p, _, h1⟩ := h1
        split at h1
        · rw [Option.some.injEq] at h1; rw [h1]
        · simp at h1

/-- a program that succeeds has executed each of its statements. -/
theorem run_mem : ∀ {l : List St} {σ σ' : Store} {s : St}, run l σ = some σ' → s ∈ l →
    ∃ l1 l2 σ1 σ2, l = l1 ++ s :: l2 ∧ run l1 σ = some σ1 ∧ s.exec σ1 = some σ2
  | [], _, _, _, _, hs => by simp at hs
  | u :: l, σ, σ', s, h, hs => by
    simp only [run] at h
    rcases h1 : u.exec σ with _ | σ1
    · simp [h1] at h
    · rw [h1, Option.bind_some] at h
      rcases List.mem_cons.1 hs with rfl | hs
      · exact ⟨[], l, σ, σ1, rfl, rfl, h1⟩
      · obtain ⟨l1, l2, τ1, τ2, e, r1, r2⟩ := run_mem h hs
        exact ⟨u :: l1, l2, τ1, τ2, by rw [e]; rfl, by simp [run, h1, r1], r2⟩

/-- allocations: exactly the table. -/
theorem construct_eq {R : Store} {l : List St} (h : ∀ s ∈ l, RightAlloc R s) (hw : ∀ a t, R a t ≠ none → wr l (a, t)) :
    run l fresh = some R := by
  obtain ⟨σ, h1, h2⟩ := run_alloc (σ := fresh) h
  rw [h1, Option.some.injEq]
  funext a t
  by_cases hl : wr l (a, t)
  · exact (h2 a t).1 hl
  · rw [(h2 a t).2 hl]
    by_contra hne
    exact hl (hw a t fun e => hne (by rw [e]; rfl))

theorem forall_append {l m : List St} {q : St → Prop} (hl : ∀ s ∈ l, q s) (hm : ∀ s ∈ m, q s) : ∀ s ∈ l ++ m, q s :=
  fun s hs => (List.mem_append.1 hs).elim (hl s) (hm s)

theorem forall_each {l : List ℕ} {f : ℕ → List St} {q : St → Prop} (h : ∀ t ∈ l, ∀ s ∈ f t, q s) :
    ∀ s ∈ each l f, q s := fun s hs => by
  obtain ⟨t, ht, hs⟩ := List.mem_flatMap.1 hs
  exact h t ht s hs

theorem nth_ne_none (n t r c : ℕ) : nth n t r c ≠ none ↔ t < n := by simp [nth]

/-- the allocations of the constructor of `SolverDDP` are right, whatever the table holds elsewhere. -/
theorem right_ctorDDP {R : Store} (d : Dims) (h : Like R d) : ∀ s ∈ ctorDDP d, RightAlloc R s := by
  refine forall_append (forall_append (forall_append (forall_append (forall_append (forall_each fun t ht => ?_) ?_)
    (forall_append (forall_each fun t ht => ?_) ?_)) ?_) (forall_each fun t ht => ?_)) ?_
  · have ht := List.mem_range.1 ht
    simp [RightAlloc, h.xs, h.us, h.fs, nth, ht, Nat.le_of_lt ht, Nat.lt_succ_of_lt ht]
  · simp [RightAlloc, h.xs, h.us, h.fs, nth]
  · have ht := List.mem_range.1 ht
    simp [RightAlloc, h.Vxx, h.Vx, h.Qxx, h.Qxu, h.Quu, h.Qx, h.Qu, h.K, h.k, h.xsTry, h.usTry, h.dx, h.FuTVxx, h.llt,
      h.Quuk, nth, ht, Nat.le_of_lt ht, Nat.lt_succ_of_lt ht]
  · simp [RightAlloc, h.Vxx, h.Vx, h.xsTry, h.VxxTmp, h.FxTVxx, h.fTVxx, nth]
  · simp [RightAlloc, h.fsFlat]
  · have ht := List.mem_range.1 ht
    simp [RightAlloc, h.lagMul, nth, ht, Nat.le_of_lt ht, Nat.lt_succ_of_lt ht]
  · simp [RightAlloc, h.lagMul, nth]

theorem wr_ctorDDP (d : Dims) (a : Arr) (t : ℕ) (h : sizeBase d d.T a t ≠ none) : wr (ctorDDP d) (a, t) := by
  simp only [ctorDDP, ctorAbstract, allocateData, wr_append, wr_each_iff, wr_cons, wr_nil, St.writes, List.mem_singleton,
    Prod.mk.injEq, List.mem_range]
  cases a <;> simp [sizeBase, nth_ne_none, nth] at h <;> simp <;> omega

theorem run_ctorDDP (d : Dims) : run (ctorDDP d) fresh = some (sizeDDP d) :=
  construct_eq (right_ctorDDP d (likeDDP d)) fun a t h => wr_ctorDDP d a t h

/-- what the constructor of `SolverFDDP` leaves: `xnext_` empty. -/
def newFDDP (d : Dims) : Store := fun a t => if a = xnext then nth 1 t 0 1 else sizeFDDP d a t

theorem likeNewFDDP (d : Dims) : Like (newFDDP d) d where
  xs _ := rfl
  us _ := rfl
  fs _ := rfl
  Vxx _ := rfl
  Vx _ := rfl
  Qxx _ := rfl
  Qxu _ := rfl
  Quu _ := rfl
  Qx _ := rfl
  Qu _ := rfl
  K _ := rfl
  k _ := rfl
  xsTry _ := rfl
  usTry _ := rfl
  dx t ht := by simp [newFDDP, sizeFDDP, sizeBase, nth, ht]
  FuTVxx _ := rfl
  llt _ := rfl
  Quuk _ := rfl
  VxxTmp := rfl
  FxTVxx := rfl
  fTVxx := rfl
  lagMul _ := rfl
  fsFlat := rfl

theorem run_ctorFDDP (d : Dims) : run (ctorFDDP d) fresh = some (newFDDP d) := by
  refine construct_eq ?_ fun a t h => ?_
  · have h := likeNewFDDP d
    refine forall_append (forall_append (forall_append (right_ctorDDP d h) ?_) (forall_each fun t ht => ?_)) ?_
    · simp [RightAlloc, newFDDP, h.fsFlat, sizeFDDP, sizeBase, nth]
    · have ht := List.mem_range.1 ht
      simp [RightAlloc, h.lagMul, newFDDP, sizeFDDP, sizeBase, nth, ht, Nat.le_of_lt ht, Nat.lt_succ_of_lt ht]
    · simp [RightAlloc, h.lagMul, newFDDP, sizeFDDP, sizeBase, nth]
  · by_cases h1 : sizeBase d d.T a t = none
    · simp only [ctorFDDP, wr_append, wr_each_iff, wr_cons, wr_nil, St.writes, List.mem_singleton, Prod.mk.injEq,
        List.mem_range]
      cases a <;> simp [newFDDP, sizeFDDP, h1, nth] at h <;> simp <;> omega
    · simp only [ctorFDDP, wr_append]
      exact Or.inl (Or.inl (Or.inl (wr_ctorDDP d a t h1)))

theorem run_ctorSQP (d : Dims) : run (ctorSQP d) fresh = some (sizeSQP d) := by
  refine construct_eq ?_ fun a t h => ?_
  · have h := likeSQP d
    refine forall_append (forall_append (forall_append (right_ctorDDP d h) ?_) (forall_each fun t ht => ?_)) ?_
    · simp [RightAlloc, h.fsFlat, sizeSQP, sizeBase, nth]
    · have ht := List.mem_range.1 ht
      simp [RightAlloc, h.lagMul, sizeSQP, sizeBase, nth, ht, Nat.le_of_lt ht, Nat.lt_succ_of_lt ht]
    · simp [RightAlloc, h.lagMul, sizeSQP, sizeBase, nth]
  · by_cases h1 : sizeBase d d.T a t = none
    · simp only [ctorSQP, wr_append, wr_each_iff, wr_cons, wr_nil, St.writes, List.mem_singleton, Prod.mk.injEq,
        List.mem_range]
      cases a <;> simp [sizeSQP, sizeBase, nth_ne_none, nth] at h h1 <;> simp <;> omega
    · simp only [ctorSQP, wr_append]
      exact Or.inl (Or.inl (Or.inl (wr_ctorDDP d a t h1)))

theorem likeCSQP (d : Dims) : Like (sizeCSQP d) d where
  xs _ := rfl
  us _ := rfl
  fs _ := rfl
  Vxx _ := rfl
  Vx _ := rfl
  Qxx _ := rfl
  Qxu _ := rfl
  Quu _ := rfl
  Qx _ := rfl
  Qu _ := rfl
  K _ := rfl
  k _ := rfl
  xsTry _ := rfl
  usTry _ := rfl
  dx t ht := by simp [sizeCSQP, sizeBase, nth, ht]
  FuTVxx _ := rfl
  llt _ := rfl
  Quuk _ := rfl
  VxxTmp := rfl
  FxTVxx := rfl
  fTVxx := rfl
  lagMul _ := rfl
  fsFlat := rfl

theorem run_ctorCSQP (d : Dims) : run (ctorCSQP d) fresh = some (sizeCSQP d) := by
  refine construct_eq ?_ fun a t h => ?_
  · refine forall_append (right_ctorDDP d (likeCSQP d)) (forall_each fun t ht => ?_)
    have ht := List.mem_range.1 ht
    simp [RightAlloc, sizeCSQP, nth, ht, Nat.lt_succ_iff.1 ht]
  · by_cases h1 : sizeBase d d.T a t = none
    · simp only [ctorCSQP, wr_append, wr_each_iff, wr_cons, wr_nil, St.writes, List.mem_singleton, Prod.mk.injEq,
        List.mem_range]
      cases a <;> simp [sizeCSQP, h1, nth] at h <;> simp <;> omega
    · simp only [ctorCSQP, wr_append]
      exact Or.inl (wr_ctorDDP d a t h1)

/-! ### Replacing models -/

/-- the arrays whose size depends on the controls of a node. -/
def nuDep : Arr → Bool
  | us | Qxu | Quu | Qu | K | k | usTry | FuTVxx | llt | Quuk | du | tmpU => true
  | _ => false

/-- the tables considered: they contain the common part, and only the arrays of `nuDep` depend on the controls. -/
structure Table (R : Dims → Store) : Prop where
  like : ∀ d, Like (R d) d
  dom : ∀ (d : Dims) nu ng a t, (R { d with nu := nu, ng := ng } a t).isSome = (R d a t).isSome
  same : ∀ (d : Dims) nu ng a t, nuDep a = false → R { d with nu := nu, ng := ng } a t = R d a t

theorem isSome_nth (n t r c : ℕ) : (nth n t r c).isSome = decide (t < n) := by
  simp only [nth]; split <;> simp [*]

theorem tableDDP : Table sizeDDP where
  like := likeDDP
  dom d nu ng a t := by cases a <;> simp [sizeDDP, sizeBase, isSome_nth]
  same d nu ng a t h := by cases a <;> first | rfl | simp [nuDep] at h

theorem tableFDDP : Table sizeFDDP where
  like := likeFDDP
  dom d nu ng a t := by cases a <;> simp [sizeFDDP, sizeBase, isSome_nth]
  same d nu ng a t h := by cases a <;> first | rfl | simp [nuDep] at h

theorem tableSQP : Table sizeSQP where
  like := likeSQP
  dom d nu ng a t := by cases a <;> simp [sizeSQP, sizeBase, isSome_nth]
  same d nu ng a t h := by cases a <;> first | rfl | simp [nuDep] at h

/-- right sizes, up to the elements of `hot`. -/
def Sized (R : Store) (σ : Store) : Prop := Good R (fun p => hot p.1 = false) σ

/-- between a change of the models and the next solve. -/
def Stale (R : Store) (σ : Store) : Prop := Good R (fun p => hot p.1 = false ∧ nuDep p.1 = false) σ

theorem Sized.stale {R σ : Store} (h : Sized R σ) : Stale R σ := h.weaken fun _ hp => hp.1

theorem Stale.change {R : Dims → Store} (T : Table R) {d : Dims} {σ : Store} (h : Stale (R d) σ) (nu ng : ℕ → ℕ) :
    Stale (R { d with nu := nu, ng := ng }) σ := fun a t =>
  ⟨(h a t).1.trans (T.dom d nu ng a t).symm, fun hp => ((h a t).2 hp).trans (T.same d nu ng a t hp.2).symm⟩

theorem Stale.resize {R : Dims → Store} (T : Table R) {d : Dims} {σ : Store} (h : Stale (R d) σ) :
    ∃ σ', run (resizeData d) σ = some σ' ∧ Sized (R d) σ' := by
  have L := T.like d
  have hf : Flow (R d) (fun p => hot p.1 = false ∧ nuDep p.1 = false) (resizeData d) := by
    refine Flow.append (Flow.each fun t ht => ?_) (Flow.each fun t ht => ?_)
    · have ht := List.mem_range.1 ht
      simp [Flow, Fits, St.exec, St.reads, St.writes, L.us, nth, ht, put_eq_self]
    · have ht := List.mem_range.1 ht
      simp [Flow, Fits, St.exec, St.reads, St.writes, L.Qxu, L.Quu, L.Qu, L.K, L.k, L.usTry, L.FuTVxx, L.Quuk, nth, ht,
        put_eq_self]
  obtain ⟨σ', h1, h2⟩ := hf.run h
  refine ⟨σ', h1, fun a t => ⟨(h2 a t).1, fun ha => ?_⟩⟩
  by_cases hn : nuDep a = false
  · exact (h2 a t).2 (Or.inl ⟨ha, hn⟩)
  · by_cases ht : t < d.T
    · refine (h2 a t).2 (Or.inr ?_)
      simp only [resizeData, wr_append, wr_each_iff, wr_cons, wr_nil, St.writes, List.mem_singleton, Prod.mk.injEq,
        List.mem_range]
      cases a <;> simp [hot, nuDep] at ha hn <;> simp [ht]
    · have hR : R d a t = none := by
        cases a <;> simp [hot, nuDep] at ha hn <;>
          simp [L.us, L.Qxu, L.Quu, L.Qu, L.K, L.k, L.usTry, L.FuTVxx, L.Quuk, nth, ht]
      have := (h2 a t).1
      rw [hR] at this ⊢
      simpa using this

/-- the invariant of a history. -/
def Inv (R : Dims → Store) (s : Sys) : Prop :=
  1 ≤ s.dims.T ∧ Stale (R s.dims) s.σ ∧ (s.updated = false → Sized (R s.dims) s.σ)

theorem Inv.solve {R : Dims → Store} (T : Table R) {s : Sys} (h : Inv R s) {body : List St}
    (hb : Flow (R s.dims) (fun p => hot p.1 = false) body) :
    ∃ s', s.solve body = some s' ∧ Inv R s' := by
  have hs : ∃ σ1, run (if s.updated then resizeData s.dims else []) s.σ = some σ1 ∧ Sized (R s.dims) σ1 := by
    rcases hu : s.updated with _ | _
    · exact ⟨s.σ, by simp [run], h.2.2 hu⟩
    · simpa using h.2.1.resize T
  obtain ⟨σ1, r1, g1⟩ := hs
  obtain ⟨σ2, r2, g2⟩ := hb.run g1
  have g3 : Sized (R s.dims) σ2 := g2.weaken fun _ hp => Or.inl hp
  exact ⟨{ s with updated := false, σ := σ2 }, by simp [Sys.solve, run_append, r1, r2], h.1, g3.stale, fun _ => g3⟩

theorem Inv.evs {π : Type} {R : Dims → Store} (T : Table R) {code : Dims → List π → List St} {q : List π → Prop}
    (hc : ∀ d l, 1 ≤ d.T → q l → Flow (R d) (fun p => hot p.1 = false) (start d ++ code d l)) :
    ∀ (l : List (Ev π)) (s : Sys), (∀ e ∈ l, ∀ p, e = Ev.solve p → q p) → Inv R s →
      ∃ s', s.evs code l = some s' ∧ Inv R s'
  | [], s, _, h => ⟨s, rfl, h⟩
  | .change nu ng :: l, s, hq, h => by
    have := Inv.evs T hc l { s with dims := { s.dims with nu := nu, ng := ng }, updated := true }
      (fun e he => hq e (by simp [he])) ⟨h.1, h.2.1.change T nu ng, fun e => by simp at e⟩
    simpa [Sys.evs, Sys.ev] using this
  | .solve p :: l, s, hq, h => by
    obtain ⟨s1, h1, g1⟩ := h.solve T (hc s.dims p h.1 (hq _ (by simp) p rfl))
    obtain ⟨s2, h2, g2⟩ := Inv.evs T hc l s1 (fun e he => hq e (by simp [he])) g1
    exact ⟨s2, by simp [Sys.evs, Sys.ev, h1, h2], g2⟩
  | .rejected n :: l, s, hq, h => by
    have hf : Flow (R s.dims) (fun p => hot p.1 = false) ((start s.dims).take n) :=
      (flow_start (T.like s.dims) (cold fun a t ha => ha)).take n
    obtain ⟨s1, h1, g1⟩ := h.solve T hf
    obtain ⟨s2, h2, g2⟩ := Inv.evs T hc l s1 (fun e he => hq e (by simp [he])) g1
    exact ⟨s2, by simp [Sys.evs, Sys.ev, h1, h2], g2⟩

end Mim.Shape
