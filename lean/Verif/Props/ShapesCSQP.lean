import Verif.Lemmas.ShapesCSQP

/-!
# C107: array sizes of `SolverCSQP`
-/
set_option autoImplicit false
set_option linter.unusedSectionVars false
set_option linter.unusedSimpArgs false

namespace Mim
open Shape Shape.Arr

/-- a sequence of solves. -/
def solvesCSQP : Sys → List (List (CPass × ℕ)) → Option Sys
  | s, [] => some s
  | s, l :: ls => (s.solve (start s.dims ++ codeCSQP s.dims l)).bind fun s' => solvesCSQP s' ls

/-- **C107, sizes.** Construct `SolverCSQP` on any problem: horizon, and numbers of controls and constraints of each node, may
be anything (also 0).  Then, in any sequence of solves, whatever the passes, their order, their settings (single- or
multi-threaded code, with or without penalty update, with or without initial guess) and wherever exceptions stop them, no
statement meets operands that do not conform or an index outside its vector, and after every solve all arrays have the
sizes of the problem, except the scratch matrix `FuTVxx_p_[0]`. -/
theorem C107_csqp_sizes (d : Dims) (ls : List (List (CPass × ℕ))) :
    ∃ s, ((construct ctorCSQPAll d).bind fun s0 => solvesCSQP s0 ls) = some s ∧
      ∀ a t, (a, t) ≠ (FuTVxx, 0) → s.σ a t = sizeCSQPAll d a t := by
  have key : ∀ (ls : List (List (CPass × ℕ))) (σ : Store), Good (sizeCSQPAll d) (Known d true true true true) σ →
      ∃ s, solvesCSQP { dims := d, updated := false, σ := σ } ls = some s ∧ Good (sizeCSQPAll d) (Known d true true true true) s.σ := by
    intro ls
    induction ls with
    | nil => exact fun σ h => ⟨_, rfl, h⟩
    | cons l ls ih =>
      intro σ h
      obtain ⟨σ1, r1, g1⟩ := ((flow_Cstart d).keeps.append (keeps_codeCSQP d l)).all h
      obtain ⟨s, r2, g2⟩ := ih σ1 g1
      refine ⟨s, ?_, g2⟩
      simp only [solvesCSQP, Sys.solve, Bool.false_eq_true, if_false, List.nil_append, r1, Option.map_some, Option.bind_some]
      exact r2
  obtain ⟨s, h1, h2⟩ := key ls (sizeCSQPAll d) fun a t => ⟨rfl, fun _ => rfl⟩
  exact ⟨s, by simp [construct, run_ctorCSQPAll, h1], fun a t h => (h2 a t).2 ⟨h, by simp, by simp, by simp, by simp⟩⟩

/-- **C107, stale direction.** `resizeData` is not overridden by `SolverCSQP`, so that after the model of a node has been
replaced by one with another, non-zero, number of controls, `du_` keeps its old size there.  When the initial guess of the QP
is disabled, the first backward pass of the next solve reads it, and meets operands that do not conform. -/
theorem C107_csqp_stale (d : Dims) (nu ng : ℕ → ℕ) (t : ℕ) (ht : t < d.T) (h0 : nu t ≠ 0) (hn : nu t ≠ d.nu t) (mt : Bool) :
    ((construct ctorCSQPAll d).bind fun s0 => ({ s0 with dims := { d with nu := nu, ng := ng }, updated := true } : Sys).solve
      (start { d with nu := nu, ng := ng } ++ calcC { d with nu := nu, ng := ng } true ++
        applyRho { d with nu := nu, ng := ng } ++ resetC { d with nu := nu, ng := ng } ++
        (if mt then backwardMtC { d with nu := nu, ng := ng } else backwardC { d with nu := nu, ng := ng }))) = none := by
  have hc : construct ctorCSQPAll d = some { dims := d, updated := false, σ := sizeCSQPAll d } := by
    simp [construct, run_ctorCSQPAll]
  rw [hc, Option.bind_some]
  generalize hd : ({ d with nu := nu, ng := ng } : Dims) = e
  have he : e.nu t = nu t := by rw [← hd]
  have hT : t < e.T := by rw [← hd]; exact ht
  generalize hb : (start e ++ calcC e true ++ applyRho e ++ resetC e ++
        (if mt then backwardMtC e else backwardC e)) = body
  rcases hr : ({ dims := e, updated := true, σ := sizeCSQPAll d } : Sys).solve body with _ | s
  · rfl
  · exfalso
    simp only [Sys.solve, if_true, Option.map_eq_some_iff] at hr
    obtain ⟨σ', hr, -⟩ := hr
    have hm : St.set Qu t (E.add (E.dat (e.nu t) 1) (E.ld du t)) ∈ resizeData e ++ body := by
      have hz : e.nu t ≠ 0 := by rw [he]; exact h0
      refine List.mem_append.2 (Or.inr ?_)
      rw [← hb]
      refine List.mem_append.2 (Or.inr ?_)
      cases mt
      · refine List.mem_append.2 (Or.inr (List.mem_flatMap.2 ⟨t, by simpa using hT, ?_⟩))
        simp [backwardNodeC, hz]
      · refine List.mem_append.2 (Or.inl (List.mem_append.2 (Or.inr (List.mem_flatMap.2 ⟨t, by simpa using hT, ?_⟩))))
        simp [parNodeC, hz]
    obtain ⟨l1, l2, σ1, σ2, el, e1, e2⟩ := run_mem hr hm
    have hk : ¬ wr (resizeData e ++ body) (du, t) := by
      rw [← hb]
      have hG : ∀ u, ¬ wr (gradXC e u) (du, t) := by
        intro u
        simp only [gradXC, wr_append]
        split_ifs <;> simp [wr_append, wr_cons, wr_nil, St.writes]
      have hV : ∀ u, ¬ wr (valueC e u) (du, t) := by
        intro u
        simp only [valueC, computeGains, wr_append]
        split_ifs <;> simp [wr_append, wr_cons, wr_nil, St.writes]
      have hX : ¬ wr (terminalC e) (du, t) := by
        simp only [terminalC, wr_append]
        split_ifs <;> simp [wr_append, wr_cons, wr_nil, St.writes]
      have hN : ∀ u, ¬ wr (backwardNodeC e u) (du, t) := by
        intro u
        simp only [backwardNodeC, wr_append, hG, hV, or_false, false_or]
        split_ifs <;> simp [wr_append, wr_cons, wr_nil, St.writes]
      have hP : ∀ u, ¬ wr (parNodeC e u) (du, t) := by
        intro u
        simp only [parNodeC, wr_append, hG, or_false, false_or]
        split_ifs <;> simp [wr_append, wr_cons, wr_nil, St.writes]
      have hS : ∀ u, ¬ wr (seqNodeC e u) (du, t) := by
        intro u
        simp only [seqNodeC, wr_append, hV, or_false, false_or]
        split_ifs <;> simp [wr_append, wr_cons, wr_nil, St.writes]
      simp only [wr_append]
      rintro (h | ((((h | h) | h) | h) | h))
      · simp [resizeData, wr_append, wr_each_iff, wr_cons, wr_nil, St.writes] at h
      · simp [start, setWarm, wr_append, wr_each_iff, wr_cons, wr_nil, St.writes] at h
      · simp [calcC, wr_append, wr_each_iff, wr_cons, wr_nil, St.writes] at h
      · simp [applyRho, wr_append, wr_each_iff, wr_cons, wr_nil, St.writes] at h
      · simp [resetC, wr_append, wr_each_iff, wr_cons, wr_nil, St.writes] at h
      · cases mt
        · simp only [Bool.false_eq_true, if_false, backwardC, wr_append, wr_each_iff, hX, hN, and_false, exists_false,
            or_false] at h
        · simp only [if_true, backwardMtC, wr_append, wr_each_iff, hX, hP, hS, and_false, exists_false, or_false] at h
    have hk1 : ¬ wr l1 (du, t) := fun hw => hk (by rw [el, wr_append]; exact Or.inl hw)
    have hs := run_keep e1 hk1
    have hv : sizeCSQPAll d du t = some ⟨d.nu t, 1⟩ := by simp [sizeCSQPAll, nth, ht]
    rw [hv] at hs
    have hq : (E.add (E.dat (e.nu t) 1) (E.ld du t)).shape σ1 = none := by
      simp [E.shape, hs, he, hn]
    simp only [St.exec, hq, Option.bind_none] at e2
    rcases hQ : σ1 Qu t with _ | p <;> simp [hQ] at e2

/-- no pass of `SolverCSQP` writes the factorisation or the control gradient of a node without controls. -/
theorem Shape.not_wr_lost (d : Dims) {t : ℕ} (h0 : d.nu t = 0) {a : Arr} (ha : a = llt ∨ a = Qu) (p : CPass) :
    ¬ wr (p.code d) (a, t) := by
  have hG : ∀ u, ¬ wr (gradXC d u) (a, t) := by
    intro u
    simp only [gradXC, wr_append]
    split_ifs <;> rcases ha with rfl | rfl <;> simp [wr_append, wr_cons, wr_nil, St.writes]
  have hV : ∀ u, ¬ wr (valueC d u) (a, t) := by
    intro u
    simp only [valueC, computeGains, wr_append]
    by_cases hu : d.nu u = 0
    · by_cases hg : d.ng u = 0 <;> by_cases hz : 0 < u <;>
        rcases ha with rfl | rfl <;> simp [hu, hg, hz, wr_append, wr_cons, wr_nil, St.writes]
    · have hne : t ≠ u := fun e => hu (e ▸ h0)
      by_cases hg : d.ng u = 0 <;> by_cases hz : 0 < u <;>
        rcases ha with rfl | rfl <;> simp [hu, hg, hz, hne, wr_append, wr_cons, wr_nil, St.writes]
  have hX : ¬ wr (terminalC d) (a, t) := by
    simp only [terminalC, wr_append]
    split_ifs <;> rcases ha with rfl | rfl <;> simp [wr_append, wr_cons, wr_nil, St.writes]
  have hK : ¬ wr (terminalKeepC d) (a, t) := by
    simp only [terminalKeepC, wr_append]
    split_ifs <;> rcases ha with rfl | rfl <;> simp [wr_append, wr_cons, wr_nil, St.writes]
  have hN : ∀ u, ¬ wr (backwardNodeC d u) (a, t) := by
    intro u
    simp only [backwardNodeC, wr_append, hG, hV, or_false, false_or]
    by_cases hu : d.nu u = 0
    · by_cases hg : d.ng u = 0 <;> by_cases hz : 0 < u <;>
        rcases ha with rfl | rfl <;> simp [hu, hg, hz, wr_append, wr_cons, wr_nil, St.writes]
    · have hne : t ≠ u := fun e => hu (e ▸ h0)
      by_cases hg : d.ng u = 0 <;> by_cases hz : 0 < u <;>
        rcases ha with rfl | rfl <;> simp [hu, hg, hz, hne, wr_append, wr_cons, wr_nil, St.writes]
  have hF : ∀ u, ¬ wr (backwardNodeFree d u) (a, t) := by
    intro u
    simp only [backwardNodeFree, wr_append, hV, or_false, false_or]
    by_cases hu : d.nu u = 0
    · by_cases hg : d.ng u = 0 <;> by_cases hz : 0 < u <;>
        rcases ha with rfl | rfl <;> simp [hu, hg, hz, wr_append, wr_cons, wr_nil, St.writes]
    · have hne : t ≠ u := fun e => hu (e ▸ h0)
      by_cases hg : d.ng u = 0 <;> by_cases hz : 0 < u <;>
        rcases ha with rfl | rfl <;> simp [hu, hg, hz, hne, wr_append, wr_cons, wr_nil, St.writes]
  have hP : ∀ u, ¬ wr (parNodeC d u) (a, t) := by
    intro u
    simp only [parNodeC, wr_append, hG, or_false, false_or]
    by_cases hu : d.nu u = 0
    · by_cases hg : d.ng u = 0 <;> by_cases hz : 0 < u <;>
        rcases ha with rfl | rfl <;> simp [hu, hg, hz, wr_append, wr_cons, wr_nil, St.writes]
    · have hne : t ≠ u := fun e => hu (e ▸ h0)
      by_cases hg : d.ng u = 0 <;> by_cases hz : 0 < u <;>
        rcases ha with rfl | rfl <;> simp [hu, hg, hz, hne, wr_append, wr_cons, wr_nil, St.writes]
  have hS : ∀ u, ¬ wr (seqNodeC d u) (a, t) := by
    intro u
    simp only [seqNodeC, wr_append, hV, or_false, false_or]
    by_cases hu : d.nu u = 0
    · by_cases hg : d.ng u = 0 <;> by_cases hz : 0 < u <;>
        rcases ha with rfl | rfl <;> simp [hu, hg, hz, wr_append, wr_cons, wr_nil, St.writes]
    · have hne : t ≠ u := fun e => hu (e ▸ h0)
      by_cases hg : d.ng u = 0 <;> by_cases hz : 0 < u <;>
        rcases ha with rfl | rfl <;> simp [hu, hg, hz, hne, wr_append, wr_cons, wr_nil, St.writes]
  have hA : ∀ u b, ¬ wr (admmC d u b) (a, t) := by
    intro u b
    cases b <;> rcases ha with rfl | rfl <;> simp [admmC, wr_append, wr_cons, wr_nil, St.writes]
  have hR : ∀ u b h, ¬ wr (residC d u b h) (a, t) := by
    intro u b h
    cases b <;> cases h <;> rcases ha with rfl | rfl <;> simp [residC, wr_append, wr_cons, wr_nil, St.writes]
  cases p with
  | calcPass r => cases r <;> rcases ha with rfl | rfl <;> simp [CPass.code, calcC, wr_append, wr_each_iff, wr_cons, wr_nil, St.writes]
  | applyRho => rcases ha with rfl | rfl <;> simp [CPass.code, applyRho, wr_append, wr_each_iff, wr_cons, wr_nil, St.writes]
  | reset => rcases ha with rfl | rfl <;> simp [CPass.code, resetC, wr_append, wr_each_iff, wr_cons, wr_nil, St.writes]
  | backwardFree =>
    simp only [CPass.code, Shape.backwardFree, wr_append, wr_each_iff, hF, and_false, exists_false, or_false]
    rcases ha with rfl | rfl <;> simp [wr_cons, wr_nil, St.writes]
  | forwardFree => rcases ha with rfl | rfl <;> simp [CPass.code, Shape.forwardFree, wr_append, wr_each_iff, wr_cons, wr_nil, St.writes]
  | backward =>
    simp only [CPass.code, backwardC, wr_append, wr_each_iff, hX, hN, and_false, exists_false, or_false, not_false_eq_true]
  | backwardMt =>
    simp only [CPass.code, backwardMtC, wr_append, wr_each_iff, hX, hP, hS, and_false, exists_false, or_false,
      not_false_eq_true]
  | backwardKeep =>
    simp only [CPass.code, backwardKeepC, wr_append, wr_each_iff, hK, hG, false_or, or_false]
    rintro ⟨u, -, h⟩
    revert h
    by_cases hu : d.nu u = 0
    · by_cases hg : d.ng u = 0 <;> by_cases hz : 0 < u <;>
        rcases ha with rfl | rfl <;> simp [hu, hg, hz, wr_append, wr_cons, wr_nil, St.writes]
    · have hne : t ≠ u := fun e => hu (e ▸ h0)
      by_cases hg : d.ng u = 0 <;> by_cases hz : 0 < u <;>
        rcases ha with rfl | rfl <;> simp [hu, hg, hz, hne, wr_append, wr_cons, wr_nil, St.writes]
  | backwardKeepMt =>
    simp only [CPass.code, backwardKeepMtC, wr_append, wr_each_iff, hK, hG, false_or, or_false]
    rintro ((⟨u, -, h⟩ | ⟨u, -, h⟩) | ⟨u, -, h⟩) <;> revert h
    · by_cases hu : d.nu u = 0
      · by_cases hg : d.ng u = 0 <;> by_cases hz : 0 < u <;>
          rcases ha with rfl | rfl <;> simp [hu, hg, hz, wr_append, wr_cons, wr_nil, St.writes]
      · have hne : t ≠ u := fun e => hu (e ▸ h0)
        by_cases hg : d.ng u = 0 <;> by_cases hz : 0 < u <;>
          rcases ha with rfl | rfl <;> simp [hu, hg, hz, hne, wr_append, wr_cons, wr_nil, St.writes]
    · by_cases hu : d.nu u = 0
      · by_cases hg : d.ng u = 0 <;> by_cases hz : 0 < u <;>
          rcases ha with rfl | rfl <;> simp [hu, hg, hz, wr_append, wr_cons, wr_nil, St.writes]
      · have hne : t ≠ u := fun e => hu (e ▸ h0)
        by_cases hg : d.ng u = 0 <;> by_cases hz : 0 < u <;>
          rcases ha with rfl | rfl <;> simp [hu, hg, hz, hne, wr_append, wr_cons, wr_nil, St.writes]
    · rcases ha with rfl | rfl <;> simp [wr_cons, wr_nil, St.writes]
  | forward => rcases ha with rfl | rfl <;> simp [CPass.code, forwardC, wr_append, wr_each_iff, wr_cons, wr_nil, St.writes]
  | lagrangian u h =>
    simp only [CPass.code, lagrangianC, wr_append, wr_each_iff]
    rintro ((⟨v, -, w⟩ | w) | w) <;> revert w
    · split_ifs <;> rcases ha with rfl | rfl <;> simp [wr_append, wr_cons, wr_nil, St.writes, hA, hR]
    · rcases ha with rfl | rfl <;> simp [wr_cons, wr_nil, St.writes]
    · split_ifs <;> rcases ha with rfl | rfl <;> simp [wr_append, wr_nil, hA, hR]
  | kkt =>
    simp only [CPass.code, kktC, wr_append, wr_each_iff]
    rintro ((⟨v, -, w⟩ | ⟨v, -, w⟩) | w) <;> revert w
    · rcases ha with rfl | rfl <;> simp [wr_cons, wr_nil, St.writes]
    · split_ifs <;> rcases ha with rfl | rfl <;> simp [wr_cons, wr_nil, St.writes]
    · rcases ha with rfl | rfl <;> simp [wr_cons, wr_nil, St.writes]
  | mulNorm => rcases ha with rfl | rfl <;> simp [CPass.code, mulNormC, wr_append, wr_each_iff, wr_cons, wr_nil, St.writes]
  | try_ =>
    simp only [CPass.code, tryC, wr_append, wr_each_iff]
    rintro (((⟨v, -, w⟩ | w) | ⟨v, -, w⟩) | w) <;> revert w
    · split_ifs <;> rcases ha with rfl | rfl <;> simp [wr_cons, wr_nil, St.writes]
    · rcases ha with rfl | rfl <;> simp [wr_cons, wr_nil, St.writes]
    · rcases ha with rfl | rfl <;> simp [wr_cons, wr_nil, St.writes]
    · rcases ha with rfl | rfl <;> simp [wr_cons, wr_nil, St.writes]
  | accept => rcases ha with rfl | rfl <;> simp [CPass.code, setTry, wr_append, wr_each_iff, wr_cons, wr_nil, St.writes]

theorem Shape.each_split {l : List ℕ} {f : ℕ → List St} {t : ℕ} {A B c : List St} (ht : t ∈ l)
    (hf : f t = A ++ (c ++ B)) : ∃ m1 m2, each l f = m1 ++ (c ++ m2) := by
  obtain ⟨r1, r2, er⟩ := List.append_of_mem ht
  refine ⟨each r1 f ++ A, B ++ each r2 f, ?_⟩
  rw [er]
  simp only [each, List.flatMap_append, List.flatMap_cons, hf, List.append_assoc]

/-- an element that is only resized to one size has it in the end. -/
theorem Shape.run_resized {a : Arr} {t r c : ℕ} : ∀ {l : List St} {σ σ' : Store}, run l σ = some σ' →
    (∀ s ∈ l, (a, t) ∈ s.writes → s = St.resize a t r c) → (wr l (a, t) ∨ σ a t = some ⟨r, c⟩) → σ' a t = some ⟨r, c⟩
  | [], σ, σ', h, _, hw => by
    simp only [run, Option.some.injEq] at h
    subst h
    rcases hw with ⟨s, hs, -⟩ | hw
    · simp at hs
    · exact hw
  | s :: l, σ, σ', h, hs, hw => by
    simp only [run, Option.bind_eq_some_iff] at h
    obtain ⟨σ1, h1, h2⟩ := h
    refine run_resized h2 (fun s' hs' => hs s' (List.mem_cons_of_mem _ hs')) ?_
    by_cases hc : (a, t) ∈ s.writes
    · right
      have := hs s (by simp) hc
      subst this
      simp only [St.exec, Option.bind_eq_some_iff, Option.some.injEq] at h1
      obtain ⟨_, _, rfl⟩ := h1
      simp [Store.put]
    · have e := run_keep (l := [s]) (σ := σ) (σ' := σ1) (a := a) (t := t) (by simp [run, h1])
        (by simpa [wr] using hc)
      rcases hw with hw | hw
      · rw [wr_cons] at hw
        exact Or.inl (hw.resolve_left hc)
      · exact Or.inr (e.trans hw)

/-- **C107, stale factorisation.** When a replaced model left a node without controls, no pass recomputes the node's
factorisation, but the backward passes that keep the penalties still use it: whatever was executed before, also with the
initial guess enabled, the first such pass applies a factorisation of the old size to an empty vector. -/
theorem C107_csqp_lost (d : Dims) (nu ng : ℕ → ℕ) (t : ℕ) (ht : t < d.T) (h0 : nu t = 0) (hn : d.nu t ≠ 0)
    (l : List (CPass × ℕ)) (mt : Bool) :
    ((construct ctorCSQPAll d).bind fun s0 => ({ s0 with dims := { d with nu := nu, ng := ng }, updated := true } : Sys).solve
      (start { d with nu := nu, ng := ng } ++ codeCSQP { d with nu := nu, ng := ng } l ++
        (if mt then backwardKeepMtC { d with nu := nu, ng := ng } else backwardKeepC { d with nu := nu, ng := ng }))) = none := by
  have hc : construct ctorCSQPAll d = some { dims := d, updated := false, σ := sizeCSQPAll d } := by
    simp [construct, run_ctorCSQPAll]
  rw [hc, Option.bind_some]
  generalize hd : ({ d with nu := nu, ng := ng } : Dims) = e
  have he : e.nu t = 0 := by rw [← hd]; exact h0
  have hT : t < e.T := by rw [← hd]; exact ht
  generalize hb : (if mt then backwardKeepMtC e else backwardKeepC e) = last
  rcases hr : ({ dims := e, updated := true, σ := sizeCSQPAll d } : Sys).solve (start e ++ codeCSQP e l ++ last) with _ | s
  · rfl
  · exfalso
    simp only [Sys.solve, if_true, Option.map_eq_some_iff] at hr
    obtain ⟨σ', hr, -⟩ := hr
    have hk : ∀ a, a = llt ∨ a = Qu → ¬ wr (start e ++ codeCSQP e l ++ last) (a, t) := by
      intro a ha
      simp only [wr_append]
      rintro ((h | ⟨s, hs, h⟩) | h)
      · rcases ha with rfl | rfl <;> simp [start, setWarm, wr_append, wr_each_iff, wr_cons, wr_nil, St.writes] at h
      · obtain ⟨p, -, hs⟩ := List.mem_flatMap.1 hs
        exact not_wr_lost e he ha p.1 ⟨s, List.mem_of_mem_take hs, h⟩
      · rw [← hb] at h
        cases mt
        · exact not_wr_lost e he ha .backwardKeep h
        · exact not_wr_lost e he ha .backwardKeepMt h
    -- the two statements `k_ = Qu_` and the solve
    obtain ⟨m1, m2, em⟩ : ∃ m1 m2, start e ++ codeCSQP e l ++ last =
        m1 ++ (St.set Arr.k t (E.ld Qu t) :: St.solveInPlace t Arr.k :: m2) := by
      have hl : ∃ m1 m2, last = m1 ++ (St.set Arr.k t (E.ld Qu t) :: St.solveInPlace t Arr.k :: m2) := by
        rw [← hb]
        have hm : t ∈ List.range e.T := List.mem_range.2 hT
        cases mt
        · obtain ⟨m1, m2, h⟩ := each_split (l := (List.range e.T).reverse) (t := t)
            (f := fun t => [St.set tmpVx 0 (E.add (E.ld VxxFs t) (E.ld Vx (t + 1)))] ++ gradXC e t ++
              [St.upd Qx t (E.mul (E.tr (E.dat e.ndx e.ndx)) (E.ld tmpVx 0))] ++
              (if e.nu t = 0 then [] else
                [St.set Qu t (E.dat (e.nu t) 1), St.upd Qu t (E.ld du t)] ++
                (if e.ng t = 0 then [] else [St.upd Qu t (E.mul (E.tr (E.dat (e.ng t) (e.nu t))) (E.ld tmpDual t))]) ++
                [St.upd Qu t (E.mul (E.tr (E.dat e.ndx (e.nu t))) (E.ld tmpVx 0))]) ++
              [St.set Arr.k t (E.ld Qu t), St.solveInPlace t Arr.k, St.set Vx t (E.ld Qx t)] ++
              (if e.nu t = 0 then [] else [St.upd Vx t (E.mul (E.tr (E.ld K t)) (E.ld Qu t))]))
            (c := [St.set Arr.k t (E.ld Qu t), St.solveInPlace t Arr.k])
            (A := [St.set tmpVx 0 (E.add (E.ld VxxFs t) (E.ld Vx (t + 1)))] ++ gradXC e t ++
              [St.upd Qx t (E.mul (E.tr (E.dat e.ndx e.ndx)) (E.ld tmpVx 0))])
            (B := [St.set Vx t (E.ld Qx t)]) (List.mem_reverse.2 hm) (by simp [he])
          exact ⟨terminalKeepC e ++ m1, m2, by
            rw [if_neg (by decide), backwardKeepC, h, List.append_assoc]; rfl⟩
        · obtain ⟨m1, m2, h⟩ := each_split (l := List.range e.T) (t := t)
            (f := fun t => [St.set Arr.k t (E.ld Qu t), St.solveInPlace t Arr.k])
            (c := [St.set Arr.k t (E.ld Qu t), St.solveInPlace t Arr.k]) (A := []) (B := []) hm rfl
          obtain ⟨m0, h0'⟩ : ∃ m0, backwardKeepMtC e = m0 ++ each (List.range e.T)
              (fun t => [St.set Arr.k t (E.ld Qu t), St.solveInPlace t Arr.k]) := ⟨_, rfl⟩
          exact ⟨m0 ++ m1, m2, by rw [if_pos rfl, h0', h, List.append_assoc]; rfl⟩
      obtain ⟨m1, m2, em⟩ := hl
      exact ⟨start e ++ codeCSQP e l ++ m1, m2, by rw [em]; simp only [List.append_assoc]⟩
    rw [run_append, Option.bind_eq_some_iff] at hr
    obtain ⟨σ1, r1, r2⟩ := hr
    rw [em, run_append, Option.bind_eq_some_iff] at r2
    obtain ⟨σ2, r2, r3⟩ := r2
    have hq : ∀ a, a = llt ∨ a = Qu → σ2 a t = σ1 a t := fun a ha =>
      run_keep r2 fun hw => hk a ha (by rw [em, wr_append]; exact Or.inl hw)
    have q1 : σ1 llt t = some ⟨d.nu t, d.nu t⟩ := by
      rw [run_keep r1 (by simp [resizeData, wr_append, wr_each_iff, wr_cons, wr_nil, St.writes])]
      simp [sizeCSQPAll, sizeBase, nth, ht]
    have q2 : σ1 Qu t = some ⟨0, 1⟩ := by
      refine run_resized r1 (fun s hs hw => ?_) (Or.inl ?_)
      · simp only [resizeData, each, List.mem_append, List.mem_flatMap] at hs
        rcases hs with ⟨u, -, hs⟩ | ⟨u, -, hs⟩ <;> simp only [List.mem_cons, List.not_mem_nil, or_false] at hs
        · subst hs
          simp [St.writes] at hw
        · rcases hs with rfl | rfl | rfl | rfl | rfl | rfl | rfl | rfl <;> simp [St.writes] at hw
          subst hw
          rw [he]
      · simp only [resizeData, wr_append, wr_each_iff, wr_cons, wr_nil, St.writes]
        simp [hT]
    have q3 := (hq llt (Or.inl rfl)).trans q1
    have q4 := (hq Qu (Or.inr rfl)).trans q2
    rcases h5 : σ2 Arr.k t with _ | p
    · simp [run, St.exec, h5] at r3
    · simp [run, St.exec, h5, E.shape, q3, q4, Store.put, hn] at r3

/-- **C107, replaced models with the initial guess.** When the models are replaced by others with the same numbers of
constraints, none of which loses all its controls, and the initial guess of the QP is enabled (the default), the next solve
of the single-threaded code and all later ones work: the stale `du_`, `dutilde_` and factorisations are assigned by
`forwardPass_without_constraints`, `forwardPass` and `backwardPass` before they are read.  Afterwards all arrays have the new
sizes, except the temporaries `tmp_vec_u_`, `tmp_rhoGu_mat_` and `FuTVxx_p_[0]`. -/
theorem C107_csqp_guess (d : Dims) (nu : ℕ → ℕ) (hz : ∀ t, nu t = 0 → d.nu t = 0) (l : List (CPass × ℕ))
    (ls : List (List (CPass × ℕ))) :
    ∃ s, ((construct ctorCSQPAll d).bind fun s0 =>
        (({ s0 with dims := { d with nu := nu }, updated := true } : Sys).solve
          (start { d with nu := nu } ++ calcC { d with nu := nu } true ++ applyRho { d with nu := nu } ++
            resetC { d with nu := nu } ++ backwardFree { d with nu := nu } ++ forwardFree { d with nu := nu } ++
            backwardC { d with nu := nu } ++ forwardC { d with nu := nu } ++ codeCSQP { d with nu := nu } l)).bind
          fun s1 => solvesCSQP s1 ls) = some s ∧
      ∀ a t, (a, t) ≠ (FuTVxx, 0) → a ≠ tmpU → a ≠ tmpRhoGu → s.σ a t = sizeCSQPAll { d with nu := nu } a t := by
  have hc : construct ctorCSQPAll d = some { dims := d, updated := false, σ := sizeCSQPAll d } := by
    simp [construct, run_ctorCSQPAll]
  obtain ⟨σ0, r0, g0⟩ := gain_resize d nu hz
  generalize hd : ({ d with nu := nu } : Dims) = e at *
  obtain ⟨σ1, r1, g1⟩ := ((((flow_Cstart e).keeps.append (flow_CcalcC e true).keeps).append (flow_CapplyRho e).keeps).append
    (flow_Creset e).keeps |>.append (flow_CbackwardFree e).keeps).all g0
  obtain ⟨σ2, r2, g2⟩ := gain_forwardFree e g1
  obtain ⟨σ3, r3, g3⟩ := gain_backward e g2
  obtain ⟨σ4, r4, g4⟩ := gain_forward e g3
  obtain ⟨σ5, r5, g5⟩ := (keeps_codeCSQP e (b := false) l).all g4
  have key : ∀ (ls : List (List (CPass × ℕ))) (σ : Store), Good (sizeCSQPAll e) (Known e false true true true) σ →
      ∃ s, solvesCSQP { dims := e, updated := false, σ := σ } ls = some s ∧
        Good (sizeCSQPAll e) (Known e false true true true) s.σ := by
    intro ls
    induction ls with
    | nil => exact fun σ h => ⟨_, rfl, h⟩
    | cons l ls ih =>
      intro σ h
      obtain ⟨σ1, r1, g1⟩ := ((flow_Cstart e).keeps.append (keeps_codeCSQP e l)).all h
      obtain ⟨s, r2, g2⟩ := ih σ1 g1
      refine ⟨s, ?_, g2⟩
      simp only [solvesCSQP, Sys.solve, Bool.false_eq_true, if_false, List.nil_append, r1, Option.map_some, Option.bind_some]
      exact r2
  obtain ⟨s, h1, h2⟩ := key ls σ5 g5
  refine ⟨s, ?_, fun a t h hu hr => (h2 a t).2 ⟨h, Or.inr ⟨hu, hr⟩, by simp, by simp, by simp⟩⟩
  rw [hc, Option.bind_some]
  have hr : run (resizeData e ++ (start e ++ calcC e true ++ applyRho e ++ resetC e ++ backwardFree e ++ forwardFree e ++
      backwardC e ++ forwardC e ++ codeCSQP e l)) (sizeCSQPAll d) = some σ5 := by
    rw [run_append, r0, Option.bind_some, run_append, run_append, run_append, run_append, r1, Option.bind_some, r2,
      Option.bind_some, r3, Option.bind_some, r4, Option.bind_some, r5]
  simp only [Sys.solve, if_true, hr, Option.map_some, Option.bind_some]
  exact h1

end Mim

/-! ### Concrete cases -/

namespace Mim.Ex
open Shape Shape.Arr

/-- three running nodes: no controls but constraints at node 0, no constraints at node 1, two controls at node 2. -/
def cqDims : Dims :=
  { nx := 3, ndx := 2, T := 3, nu := fun t => t, ng := fun t => if t = 1 then 0 else t + 1 }

/-- a solve with the initial guess and two QP iterations, the second without penalty update, a solve with the multithreaded
passes whose first attempt is stopped, with other settings. -/
def cqSolves : List (List (CPass × ℕ)) :=
  [[(.calcPass true, 100), (.applyRho, 100), (.reset, 100), (.backwardFree, 200), (.forwardFree, 100), (.backward, 200),
    (.forward, 100), (.lagrangian false true, 200), (.backwardKeep, 200), (.forward, 100), (.lagrangian true true, 200),
    (.applyRho, 100), (.kkt, 100), (.mulNorm, 100), (.try_, 7), (.try_, 100), (.accept, 100)],
   [(.calcPass false, 100), (.reset, 100), (.backwardMt, 31), (.backwardMt, 200), (.forward, 100),
    (.lagrangian true false, 200), (.backwardKeepMt, 200), (.forward, 100), (.kkt, 100), (.try_, 100), (.accept, 100)]]

/-- C107, sizes: the two solves run; the scratch matrix is left with the size of node 1, the last one with controls. -/
theorem C107_sizes_example :
    (((construct ctorCSQPAll cqDims).bind fun s0 => solvesCSQP s0 cqSolves).map fun s =>
      [s.σ K 0, s.σ K 2, s.σ yy 0, s.σ zz 1, s.σ tmpRhoGu 2, s.σ FuTVxx 0, s.σ dutilde 2, s.σ dx 3, s.σ yy 3, s.σ yy 4]) =
    some [some ⟨0, 2⟩, some ⟨2, 2⟩, some ⟨1, 1⟩, some ⟨0, 1⟩, some ⟨3, 2⟩, some ⟨1, 2⟩, some ⟨2, 1⟩, some ⟨2, 1⟩,
      some ⟨4, 1⟩, none] := by
  decide +kernel

/-- C107, stale direction: node 2 gets a third control; the statements before the backward pass succeed. -/
theorem C107_stale_example :
    (((construct ctorCSQPAll cqDims).bind fun s0 =>
      ({ s0 with dims := { cqDims with nu := fun t => if t = 2 then 3 else t, ng := cqDims.ng }, updated := true } : Sys).solve
      (start { cqDims with nu := fun t => if t = 2 then 3 else t, ng := cqDims.ng } ++
        codeCSQP { cqDims with nu := fun t => if t = 2 then 3 else t, ng := cqDims.ng }
          [(.calcPass true, 100), (.applyRho, 100), (.reset, 100)])).map fun s => [s.σ du 2, s.σ Qu 2]) =
      some [some ⟨2, 1⟩, some ⟨3, 1⟩] ∧
    ((construct ctorCSQPAll cqDims).bind fun s0 =>
      ({ s0 with dims := { cqDims with nu := fun t => if t = 2 then 3 else t, ng := cqDims.ng }, updated := true } : Sys).solve
      (start { cqDims with nu := fun t => if t = 2 then 3 else t, ng := cqDims.ng } ++
        calcC { cqDims with nu := fun t => if t = 2 then 3 else t, ng := cqDims.ng } true ++
        applyRho { cqDims with nu := fun t => if t = 2 then 3 else t, ng := cqDims.ng } ++
        resetC { cqDims with nu := fun t => if t = 2 then 3 else t, ng := cqDims.ng } ++
        (if false then backwardMtC { cqDims with nu := fun t => if t = 2 then 3 else t, ng := cqDims.ng }
          else backwardC { cqDims with nu := fun t => if t = 2 then 3 else t, ng := cqDims.ng }))) = none :=
  ⟨by decide +kernel, C107_csqp_stale cqDims _ _ 2 (by decide) (by decide) (by decide) false⟩

/-- the passes of a solve up to the second QP iteration. -/
def cqFirst : List (CPass × ℕ) :=
  [(.calcPass true, 100), (.applyRho, 100), (.reset, 100), (.backwardFree, 200), (.forwardFree, 100), (.backward, 200),
   (.forward, 100), (.lagrangian false true, 200)]

/-- C107, stale factorisation: node 1 loses its control; the passes before the second QP iteration succeed (with the initial
guess the stale directions are replaced), the pass after them does not. -/
theorem C107_lost_example :
    (((construct ctorCSQPAll cqDims).bind fun s0 =>
      ({ s0 with dims := { cqDims with nu := fun t => if t = 2 then 3 else 0, ng := cqDims.ng }, updated := true } : Sys).solve
      (start { cqDims with nu := fun t => if t = 2 then 3 else 0, ng := cqDims.ng } ++
        codeCSQP { cqDims with nu := fun t => if t = 2 then 3 else 0, ng := cqDims.ng } cqFirst)).map fun s =>
        [s.σ du 2, s.σ llt 1, s.σ llt 2]) = some [some ⟨3, 1⟩, some ⟨1, 1⟩, some ⟨3, 3⟩] ∧
    ((construct ctorCSQPAll cqDims).bind fun s0 =>
      ({ s0 with dims := { cqDims with nu := fun t => if t = 2 then 3 else 0, ng := cqDims.ng }, updated := true } : Sys).solve
      (start { cqDims with nu := fun t => if t = 2 then 3 else 0, ng := cqDims.ng } ++
        codeCSQP { cqDims with nu := fun t => if t = 2 then 3 else 0, ng := cqDims.ng } cqFirst ++
        (if false then backwardKeepMtC { cqDims with nu := fun t => if t = 2 then 3 else 0, ng := cqDims.ng }
          else backwardKeepC { cqDims with nu := fun t => if t = 2 then 3 else 0, ng := cqDims.ng }))) = none :=
  ⟨by decide +kernel, C107_csqp_lost cqDims _ _ 1 (by decide) (by decide) (by decide) _ false⟩

/-- node 2 gets a third control, nothing else changes. -/
def cqGrown : Dims := { cqDims with nu := fun t => if t = 2 then 3 else t, ng := cqDims.ng }

/-- C107, replaced models with the initial guess: node 2 gets a third control; the solve runs and so does a later one with the
multithreaded passes and no initial guess, which would have failed before. -/
theorem C107_guess_example :
    (((construct ctorCSQPAll cqDims).bind fun s0 =>
      (({ s0 with dims := cqGrown, updated := true } : Sys).solve
      (start cqGrown ++ calcC cqGrown true ++ applyRho cqGrown ++ resetC cqGrown ++ backwardFree cqGrown ++
        forwardFree cqGrown ++ backwardC cqGrown ++ forwardC cqGrown ++
        codeCSQP cqGrown [(.lagrangian false true, 200), (.backwardKeep, 200), (.forward, 100), (.kkt, 100), (.try_, 100)])).bind
        fun s1 => solvesCSQP s1 [[(.calcPass true, 100), (.reset, 100), (.backwardMt, 200), (.forward, 100)]]).map fun s =>
        [s.σ du 2, s.σ dutilde 2, s.σ llt 2, s.σ K 2, s.σ tmpU 2]) =
      some [some ⟨3, 1⟩, some ⟨3, 1⟩, some ⟨3, 3⟩, some ⟨3, 2⟩, some ⟨3, 1⟩] ∧
    (∀ t, cqGrown.nu t = 0 → cqDims.nu t = 0) ∧
    ∃ s, ((construct ctorCSQPAll cqDims).bind fun s0 =>
      (({ s0 with dims := cqGrown, updated := true } : Sys).solve
      (start cqGrown ++ calcC cqGrown true ++ applyRho cqGrown ++ resetC cqGrown ++ backwardFree cqGrown ++
        forwardFree cqGrown ++ backwardC cqGrown ++ forwardC cqGrown ++ codeCSQP cqGrown [])).bind
        fun s1 => solvesCSQP s1 cqSolves) = some s ∧ s.σ du 2 = some ⟨3, 1⟩ := by
  have hz : ∀ t, cqGrown.nu t = 0 → cqDims.nu t = 0 := by
    intro t h
    by_cases ht : t = 2
    · simp [cqGrown, ht] at h
    · simpa [cqGrown, cqDims, ht] using h
  obtain ⟨s, h1, h2⟩ := C107_csqp_guess cqDims cqGrown.nu hz [] cqSolves
  exact ⟨by decide +kernel, hz, s, h1, (h2 du 2 (by decide) (by decide) (by decide)).trans (by decide)⟩

end Mim.Ex
