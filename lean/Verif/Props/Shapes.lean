import Verif.Lemmas.ShapesHist

/-!
# C106: array sizes when the models of a problem are replaced between solves

`crocoddyl::ShootingProblem` lets the user replace the model of a node (`updateModel`, `updateNode`, `circularAppend`), also
by one with another number of controls or constraints; the next `solve` sees `is_updated()` and calls `resizeData`.
-/
set_option autoImplicit false
set_option linter.unusedSectionVars false
set_option linter.unusedSimpArgs false

namespace Mim.Shape
open Arr

/-- the solves of a history of `SolverSQP` respect the order of `SolverSQP::solve`. -/
def Ordered (l : List (Ev SQPPass)) : Prop := ∀ e ∈ l, ∀ p, e = Ev.solve p → SQPOrder false p

theorem flow_codeDDP (d : Dims) (l : List (DDPPass × ℕ)) (hT : 1 ≤ d.T) :
    Flow (sizeDDP d) (fun p => hot p.1 = false) (start d ++ codeDDP d l) := by
  have c : Cold (fun p => hot p.1 = false) := cold fun a t ha => ha
  have h := likeDDP d
  refine Flow.append (flow_start h c) (Flow.flatMap fun p _ => Flow.take _ ?_)
  rcases p with ⟨p, n⟩
  cases p with
  | calcDiff => exact flow_calcDiff h c
  | backward f => exact flow_backward h c f
  | expected => exact flow_expected h c
  | kkt => exact flow_kkt h c
  | forward => exact flow_forwardDDP hT h c
  | accept => exact flow_setTry h c
  | stopping => exact flow_stopping h c

theorem flow_codeFDDP (d : Dims) (l : List (FDDPPass × ℕ)) (hT : 1 ≤ d.T) :
    Flow (sizeFDDP d) (fun p => hot p.1 = false) (start d ++ codeFDDP d l) := by
  have c : Cold (fun p => hot p.1 = false) := cold fun a t ha => ha
  have h := likeFDDP d
  refine Flow.append (flow_start h c) (Flow.flatMap fun p _ => Flow.take _ ?_)
  rcases p with ⟨p, n⟩
  cases p with
  | calcDiff => exact flow_calcDiff h c
  | gaps => exact flow_gaps h c
  | backward f => exact flow_backward h c f
  | updateExpected f => exact flow_updateExpected h c f
  | kkt => exact flow_kkt h c
  | forward b => exact flow_forwardFDDP hT c b
  | expected f => exact flow_expectedFDDP hT h c f
  | accept => exact flow_setTry h c
  | stopping => exact flow_stopping h c

theorem flow_sqpBackward (d : Dims) {S : Arr × ℕ → Prop} (c : Cold S) (r : Bool) : Flow (sizeSQP d) S (sqpBackward d r) := by
  have h := likeSQP d
  refine Flow.append (Flow.append ?_ (flow_gaps h c)) (flow_backward h c false)
  cases r
  · trivial
  · exact flow_calcDiff h c

theorem flow_codeSQP (d : Dims) (hT : 1 ≤ d.T) : ∀ (l : List SQPPass) (b : Bool) {S : Arr × ℕ → Prop}
    (_ : ∀ a t, hot a = false → S (a, t)) (_ : b = true → ∀ t, t < d.T → S (du, t)) (_ : SQPOrder b l),
    Flow (sizeSQP d) S (codeSQP d l)
  | [], _, _, _, _, _ => trivial
  | p :: l, b, S, hS, hb, ho => by
    have c := cold hS
    have e : codeSQP d (p :: l) = p.code d ++ codeSQP d l := by simp [codeSQP]
    rw [e]
    cases p with
    | attempt r n => exact ((flow_sqpBackward d c r).take n).append (flow_codeSQP d hT l b hS hb ho)
    | direction r =>
      refine ((flow_sqpBackward d c r).append (flow_forwardSQP c)).append' ?_
      refine flow_codeSQP d hT l true (fun a t ha => Or.inl (hS a t ha)) (fun _ t ht => Or.inr ?_) ho
      exact (wr_append _ _ _).2 (Or.inr (wr_forwardSQP t ht))
    | kkt => exact (flow_kktSQP c).append (flow_codeSQP d hT l b hS hb ho)
    | step n => exact ((flow_trySQP hT c (hb ho.1)).take n).append (flow_codeSQP d hT l b hS hb ho.2)
    | accept => exact (flow_setTry (likeSQP d) c).append (flow_codeSQP d hT l b hS hb ho)

end Mim.Shape

namespace Mim
open Shape Shape.Arr

/-- **C106, DDP.** Construct `SolverDDP` on any problem, then let its models be replaced and solves be called in any order:
no statement ever meets operands that do not conform or an index outside its vector, whatever the control flow of the
solves and wherever exceptions stop them; and whenever no replacement is pending, every array has the size of the current
problem (the factorisations, which are recomputed before use, excepted). -/
theorem C106_ddp_sizes (d : Dims) (hT : 1 ≤ d.T) (l : List (Ev (DDPPass × ℕ))) :
    ∃ s, ((construct ctorDDP d).bind fun s0 => s0.evs codeDDP l) = some s ∧
      (s.updated = false → ∀ a t, a ≠ llt → s.σ a t = sizeDDP s.dims a t) := by
  have h0 : Inv sizeDDP { dims := d, updated := false, σ := sizeDDP d } :=
    ⟨hT, fun _ _ => ⟨rfl, fun _ => rfl⟩, fun _ _ _ => ⟨rfl, fun _ => rfl⟩⟩
  obtain ⟨s, h1, h2⟩ := Inv.evs tableDDP (q := fun _ => True) (fun d l hT _ => flow_codeDDP d l hT) l _
    (fun _ _ _ _ => trivial) h0
  refine ⟨s, by simp [construct, run_ctorDDP, h1], fun hu a t ha => ?_⟩
  by_cases hh : hot a = false
  · exact (h2.2.2 hu a t).2 hh
  · have := (h2.2.2 hu a t).1
    cases a <;> first | simp [hot] at hh; done | exact absurd rfl ha | simpa [sizeDDP, sizeBase] using this

/-- **C106, FDDP.** The same for `SolverFDDP` (`xnext_`, assigned before it is read, also excepted). -/
theorem C106_fddp_sizes (d : Dims) (hT : 1 ≤ d.T) (l : List (Ev (FDDPPass × ℕ))) :
    ∃ s, ((construct ctorFDDP d).bind fun s0 => s0.evs codeFDDP l) = some s ∧
      (s.updated = false → ∀ a t, a ≠ llt → a ≠ xnext → s.σ a t = sizeFDDP s.dims a t) := by
  have g0 : Sized (sizeFDDP d) (newFDDP d) := fun a t => by
    refine ⟨?_, fun ha => ?_⟩
    · by_cases e : a = xnext
      · subst e; simp [newFDDP, sizeFDDP, isSome_nth]
      · simp [newFDDP, e]
    · have e : a ≠ xnext := fun e => by subst e; simp [hot] at ha
      simp [newFDDP, e]
  have h0 : Inv sizeFDDP { dims := d, updated := false, σ := newFDDP d } := ⟨hT, g0.stale, fun _ => g0⟩
  obtain ⟨s, h1, h2⟩ := Inv.evs tableFDDP (q := fun _ => True) (fun d l hT _ => flow_codeFDDP d l hT) l _
    (fun _ _ _ _ => trivial) h0
  refine ⟨s, by simp [construct, run_ctorFDDP, h1], fun hu a t ha hx => ?_⟩
  by_cases hh : hot a = false
  · exact (h2.2.2 hu a t).2 hh
  · have := (h2.2.2 hu a t).1
    cases a <;> first | simp [hot] at hh; done | exact absurd rfl ha | exact absurd rfl hx |
      simpa [sizeFDDP, sizeBase] using this

/-- **C106, SQP.** The same for `SolverSQP`, whose solves compute a direction before they try a step: `du_` and `tmp_vec_u_`
keep stale sizes after `resizeData`, but are assigned before they are read. -/
theorem C106_sqp_sizes (d : Dims) (hT : 1 ≤ d.T) (l : List (Ev SQPPass)) (ho : Ordered l) :
    ∃ s, ((construct ctorSQP d).bind fun s0 => s0.evs codeSQP l) = some s ∧
      (s.updated = false → ∀ a t, a ≠ llt → a ≠ du → a ≠ tmpU → s.σ a t = sizeSQP s.dims a t) := by
  have h0 : Inv sizeSQP { dims := d, updated := false, σ := sizeSQP d } :=
    ⟨hT, fun _ _ => ⟨rfl, fun _ => rfl⟩, fun _ _ _ => ⟨rfl, fun _ => rfl⟩⟩
  obtain ⟨s, h1, h2⟩ := Inv.evs tableSQP (q := SQPOrder false)
    (fun d l hT ho => (flow_start (likeSQP d) (cold fun a t ha => ha)).append
      (flow_codeSQP d hT l false (fun a t ha => ha) (fun e => by simp at e) ho)) l _ ho h0
  refine ⟨s, by simp [construct, run_ctorSQP, h1], fun hu a t ha hd hU => ?_⟩
  by_cases hh : hot a = false
  · exact (h2.2.2 hu a t).2 hh
  · have := (h2.2.2 hu a t).1
    cases a <;> first | simp [hot] at hh; done | exact absurd rfl ha | exact absurd rfl hd | exact absurd rfl hU |
      simpa [sizeSQP, sizeBase] using this

/-- **C106, CSQP.** `SolverCSQP` does not override `resizeData`: after the models of a problem have been replaced, its first
update of the ADMM penalties indexes `rho_vec_` outside its range exactly when some node has more constraints than at
construction. -/
theorem C106_csqp_overflow (d : Dims) (nu ng : ℕ → ℕ) :
    ((construct ctorCSQP d).bind fun s0 => ({ s0 with dims := { d with nu := nu, ng := ng }, updated := true } : Sys).solve
      (start { d with nu := nu, ng := ng } ++ calcDiff { d with nu := nu, ng := ng } ++
        applyRho { d with nu := nu, ng := ng })) = none ↔ ∃ t, t ≤ d.T ∧ d.ng t < ng t := by
  have T : Table (fun d' => sizeCSQP { d' with ng := d.ng }) :=
    { like := fun d' => by
        have h := likeCSQP { d' with ng := d.ng }
        exact ⟨h.xs, h.us, h.fs, h.Vxx, h.Vx, h.Qxx, h.Qxu, h.Quu, h.Qx, h.Qu, h.K, h.k, h.xsTry, h.usTry, h.dx, h.FuTVxx,
          h.llt, h.Quuk, h.VxxTmp, h.FxTVxx, h.fTVxx, h.lagMul, h.fsFlat⟩
      dom := fun d' nu ng a t => by cases a <;> simp [sizeCSQP, sizeBase, isSome_nth]
      same := fun d' nu ng a t h => by cases a <;> first | rfl | simp [nuDep] at h }
  have hc : construct ctorCSQP d = some { dims := d, updated := false, σ := sizeCSQP d } := by
    simp [construct, run_ctorCSQP]
  rw [hc, Option.bind_some]
  constructor
  · intro h
    by_contra hn
    push Not at hn
    have h0 : Stale (sizeCSQP d) (sizeCSQP d) := fun a t => ⟨rfl, fun _ => rfl⟩
    have h1 := Stale.change T (d := d) (σ := sizeCSQP d) h0 nu ng
    obtain ⟨σ1, r1, g1⟩ := h1.resize T
    have L := T.like { d with nu := nu, ng := ng }
    have c : Cold (fun p => hot p.1 = false) := cold fun a t ha => ha
    have hf := ((flow_start L c).append (flow_calcDiff L c)).append
      (m := applyRho { d with nu := nu, ng := ng }) (Flow.each fun t ht => Flow.each fun i hi => by
        have ht := List.mem_range.1 ht
        have hi := List.mem_range.1 hi
        have ht' : t ≤ d.T := Nat.lt_succ_iff.1 ht
        have hi' : i < d.ng t := Nat.lt_of_lt_of_le hi (Nat.le_of_not_lt (hn t ht'))
        have e1 : sizeCSQP { d with nu := nu, ng := d.ng } rho t = some ⟨d.ng t, 1⟩ := by
          simp [sizeCSQP, nth, ht', Nat.lt_succ_of_le ht']
        have e2 : sizeCSQP { d with nu := nu, ng := d.ng } invRho t = some ⟨d.ng t, 1⟩ := by
          simp [sizeCSQP, nth, ht', Nat.lt_succ_of_le ht']
        simp [Flow, Fits, St.exec, St.reads, e1, e2, hi', hot])
    obtain ⟨σ2, r2, -⟩ := hf.run g1
    have r3 : run (resizeData { d with nu := nu, ng := ng } ++ (start { d with nu := nu, ng := ng } ++
        calcDiff { d with nu := nu, ng := ng } ++ applyRho { d with nu := nu, ng := ng })) (sizeCSQP d) = some σ2 := by
      rw [run_append, r1]
      exact r2
    simp only [Sys.solve, if_true] at h
    rw [r3] at h
    simp at h
  · rintro ⟨t, ht, hlt⟩
    rcases hr : ({ dims := { d with nu := nu, ng := ng }, updated := true, σ := sizeCSQP d } : Sys).solve
      (start { d with nu := nu, ng := ng } ++ calcDiff { d with nu := nu, ng := ng } ++
        applyRho { d with nu := nu, ng := ng }) with _ | s
    · rfl
    · exfalso
      simp only [Sys.solve, if_true, Option.map_eq_some_iff] at hr
      obtain ⟨σ', hr, -⟩ := hr
      have hm : St.elem rho t (d.ng t) ∈ resizeData { d with nu := nu, ng := ng } ++
          (start { d with nu := nu, ng := ng } ++ calcDiff { d with nu := nu, ng := ng } ++
            applyRho { d with nu := nu, ng := ng }) := by
        refine List.mem_append.2 (Or.inr (List.mem_append.2 (Or.inr ?_)))
        exact List.mem_flatMap.2 ⟨t, List.mem_range.2 (Nat.lt_succ_of_le ht),
          List.mem_flatMap.2 ⟨d.ng t, List.mem_range.2 hlt, by simp⟩⟩
      obtain ⟨l1, l2, σ1, σ2, el, e1, e2⟩ := run_mem hr hm
      have hk : ¬ wr (resizeData { d with nu := nu, ng := ng } ++
          (start { d with nu := nu, ng := ng } ++ calcDiff { d with nu := nu, ng := ng } ++
            applyRho { d with nu := nu, ng := ng })) (rho, t) := by
        simp [resizeData, start, setWarm, calcDiff, applyRho, wr_append, wr_each_iff, wr_cons, wr_nil, St.writes]
      have hk1 : ¬ wr l1 (rho, t) := fun hw => hk (by rw [el, wr_append]; exact Or.inl hw)
      have hs := run_keep e1 hk1
      have hv : sizeCSQP d rho t = some ⟨d.ng t, 1⟩ := by
        simp [sizeCSQP, nth, ht, Nat.lt_succ_of_le ht]
      rw [hv] at hs
      simp [St.exec, hs] at e2

/-- **C106, a lost notification.** `is_updated()` clears the flag it reads, so that of two solvers on one problem only the
first to solve resizes.  If meanwhile a node lost all its controls, every solve of the other one (a `SolverDDP`) that accepts
a step meets a wrong size. -/
theorem C106_lost_update (d : Dims) (σ : Store) (t n : ℕ) (ht : t < d.T) (h0 : d.nu t = 0) (hn : n ≠ 0)
    (hσ : σ usTry t = some ⟨n, 1⟩) (l : List (DDPPass × ℕ)) :
    ({ dims := d, updated := false, σ := σ } : Sys).solve (start d ++ codeDDP d l ++ setTry d) = none := by
  rcases hr : ({ dims := d, updated := false, σ := σ } : Sys).solve (start d ++ codeDDP d l ++ setTry d) with _ | s
  · rfl
  · exfalso
    simp only [Sys.solve, Bool.false_eq_true, if_false, List.nil_append, Option.map_eq_some_iff] at hr
    obtain ⟨σ', hr, -⟩ := hr
    have hm : St.use (E.ld usTry t) (d.nu t) 1 ∈ start d ++ codeDDP d l ++ setTry d :=
      List.mem_append.2 (Or.inr (List.mem_append.2 (Or.inr
        (List.mem_flatMap.2 ⟨t, List.mem_range.2 ht, by simp⟩))))
    obtain ⟨l1, l2, σ1, σ2, el, e1, e2⟩ := run_mem hr hm
    have hp : ∀ p : DDPPass, ¬ wr (p.code d) (usTry, t) := by
      intro p
      have hne : ∀ u, ¬ d.nu u = 0 → ¬ t = u := fun u hu e => hu (e ▸ h0)
      cases p with
      | calcDiff => simp [DDPPass.code, calcDiff, wr_append, wr_each_iff, wr_cons, wr_nil, St.writes]
      | backward f =>
        cases f <;> simp only [DDPPass.code, backwardPass, backwardNode, computeGains, wr_append, wr_each_iff] <;>
          simp [wr_cons, wr_nil, St.writes] <;> intro u hu <;> by_cases hz : d.nu u = 0 <;>
          simp [hz, wr_cons, wr_nil, St.writes]
      | expected =>
        simp only [DDPPass.code, expectedDDP, wr_each_iff]
        rintro ⟨u, -, hw⟩
        by_cases hz : d.nu u = 0 <;> simp [hz, wr_cons, wr_nil, St.writes] at hw
      | kkt => simp [DDPPass.code, kktDDP, wr_append, wr_each_iff, wr_cons, wr_nil, St.writes]
      | forward =>
        simp only [DDPPass.code, forwardDDP, wr_append, wr_each_iff]
        simp only [wr_cons, wr_nil, St.writes]
        rintro (⟨u, -, hw⟩ | hw)
        · by_cases hz : d.nu u = 0
          · simp [hz, wr_cons, wr_nil, St.writes] at hw
          · simp [hz, wr_cons, wr_nil, St.writes] at hw
            exact hne u hz hw
        · simp at hw
      | accept => simp [DDPPass.code, setTry, wr_append, wr_each_iff, wr_cons, wr_nil, St.writes]
      | stopping =>
        simp only [DDPPass.code, stopping, wr_each_iff]
        rintro ⟨u, -, hw⟩
        by_cases hz : d.nu u = 0 <;> simp [hz, wr_cons, wr_nil, St.writes] at hw
    have hk : ¬ wr (start d ++ codeDDP d l ++ setTry d) (usTry, t) := by
      rw [wr_append, wr_append]
      rintro ((hw | hw) | hw)
      · simp [start, setWarm, wr_append, wr_each_iff, wr_cons, wr_nil, St.writes] at hw
      · obtain ⟨s, hs, hw⟩ := hw
        obtain ⟨p, -, hs⟩ := List.mem_flatMap.1 hs
        exact hp p.1 ⟨s, List.mem_of_mem_take hs, hw⟩
      · exact hp .accept hw
    have hk1 : ¬ wr l1 (usTry, t) := fun hw => hk (by rw [el, wr_append]; exact Or.inl hw)
    have hs := run_keep e1 hk1
    rw [hσ] at hs
    simp only [St.exec, E.shape, hs, Option.bind_some, h0, Sh.mk.injEq, and_true] at e2
    rw [if_neg hn] at e2
    simp at e2

end Mim

/-! ### Concrete cases -/

namespace Mim.Ex
open Shape Shape.Arr

/-- two nodes with one control and one constraint each. -/
def shDims : Dims := { nx := 2, ndx := 1, T := 2, nu := fun _ => 1, ng := fun _ => 1 }

/-- a complete DDP iteration. -/
def shIter : List (DDPPass × ℕ) :=
  [(.calcDiff, 100), (.backward false, 100), (.expected, 100), (.kkt, 100), (.forward, 100), (.accept, 100), (.stopping, 100)]

/-- a solve, then node 0 gets two controls and node 1 none, then a solve whose first backward pass stops in the middle. -/
def shHist : List (Ev (DDPPass × ℕ)) :=
  [.solve shIter, .change (fun t => if t = 0 then 2 else 0) (fun _ => 3),
   .solve ([(.calcDiff, 100), (.backward false, 12)] ++ shIter)]

/-- C106, DDP: the sizes after the second solve. -/
theorem C106_ddp_example :
    (((construct ctorDDP shDims).bind fun s0 => s0.evs codeDDP shHist).map fun s =>
      [s.σ K 0, s.σ K 1, s.σ Arr.k 1, s.σ Quuk 0, s.σ us 0, s.σ us 1, s.σ usTry 1, s.σ usTry 2]) =
    some [some ⟨2, 1⟩, some ⟨0, 1⟩, some ⟨0, 1⟩, some ⟨2, 1⟩, some ⟨2, 1⟩, some ⟨0, 1⟩, some ⟨0, 1⟩, none] := by
  decide +kernel

/-- C106, FDDP: the same change, with an open-loop and a closed-loop rollout. -/
theorem C106_fddp_example :
    (((construct ctorFDDP shDims).bind fun s0 => s0.evs codeFDDP
      [.change (fun t => if t = 0 then 2 else 0) (fun _ => 3),
       .solve [(.calcDiff, 100), (.gaps, 100), (.backward false, 100), (.updateExpected false, 100), (.kkt, 100),
         (.forward true, 100), (.expected false, 100), (.forward false, 100), (.expected false, 100), (.accept, 100),
         (.stopping, 100)]]).map fun s => [s.σ K 0, s.σ K 1, s.σ usTry 1, s.σ fsTry 2, s.σ xnext 0]) =
    some [some ⟨2, 1⟩, some ⟨0, 1⟩, some ⟨0, 1⟩, some ⟨1, 1⟩, some ⟨2, 1⟩] := by
  decide +kernel

/-- C106, SQP: the history is ordered and runs; `tmp_vec_u_` of a node is stale until `checkKKTConditions`. -/
theorem C106_sqp_example :
    Ordered [.change (fun t => if t = 0 then 2 else 0) (fun _ => 3),
      .solve [.attempt true 10, .direction false, .kkt, .step 3, .step 100, .accept]] ∧
    (((construct ctorSQP shDims).bind fun s0 => s0.evs codeSQP
      [.change (fun t => if t = 0 then 2 else 0) (fun _ => 3),
       .solve [.attempt true 10, .direction false, .kkt, .step 3, .step 100, .accept]]).map fun s =>
        [s.σ du 0, s.σ du 1, s.σ tmpU 0, s.σ us 0, s.σ usTry 1]) =
      some [some ⟨2, 1⟩, some ⟨0, 1⟩, some ⟨2, 1⟩, some ⟨2, 1⟩, some ⟨0, 1⟩] ∧
    -- without the order, the stale `du_` is met
    (((construct ctorSQP shDims).bind fun s0 => s0.evs codeSQP
      [.change (fun t => if t = 0 then 2 else 0) (fun _ => 3), .solve [.step 100]]).map fun s => s.updated) = none := by
  refine ⟨?_, by decide +kernel, by decide +kernel⟩
  intro e he p hp
  subst hp
  simp at he
  subst he
  simp [SQPOrder]

/-- C106, CSQP: one more constraint at the terminal node. -/
theorem C106_csqp_example :
    ((construct ctorCSQP shDims).bind fun s0 =>
      ({ s0 with dims := { shDims with nu := fun _ => 1, ng := fun t => if t = 2 then 2 else 1 }, updated := true } : Sys).solve
      (start { shDims with nu := fun _ => 1, ng := fun t => if t = 2 then 2 else 1 } ++
        calcDiff { shDims with nu := fun _ => 1, ng := fun t => if t = 2 then 2 else 1 } ++
        applyRho { shDims with nu := fun _ => 1, ng := fun t => if t = 2 then 2 else 1 })) = none :=
  (C106_csqp_overflow shDims _ _).2 ⟨2, by decide, by decide⟩

/-- C106, lost notification: the second solver of a problem whose node 1 lost its control. -/
theorem C106_lost_example :
    ({ dims := { shDims with nu := fun t => if t = 0 then 1 else 0 }, updated := false, σ := sizeDDP shDims } : Sys).solve
      (start { shDims with nu := fun t => if t = 0 then 1 else 0 } ++
        codeDDP { shDims with nu := fun t => if t = 0 then 1 else 0 } shIter ++
        setTry { shDims with nu := fun t => if t = 0 then 1 else 0 }) = none :=
  C106_lost_update _ _ 1 1 (by decide) (by decide) (by decide) (by decide) _

end Mim.Ex
