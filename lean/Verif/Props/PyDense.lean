import Verif.Lemmas.PyDenseQP
import Verif.Lemmas.PyCSQP
import Verif.Props.PyOsqp
import Verif.Props.PyBoyd

/-!
# The dense QP of the Python `CSQP` is the linearised problem (C84)
-/
set_option linter.unusedSectionVars false
set_option linter.unusedSimpArgs false

namespace Mim
open QP Spec Matrix
variable {K : Type} [Field K] [LinearOrder K] [IsStrictOrderedRing K] {P : Problem K}

namespace Spec
/-- the gaps of a candidate, as the right-hand sides of the linearised dynamics: entry `t + 1` belongs to node `t`. -/
def gapsAt (P : Problem K) (xs : Traj P) (us : Ctrls P) (t : ℕ) : Vec K P.ndx := shootGap P xs us (t - 1)

/-- a back end whose answers satisfy the KKT conditions of the dense QP. -/
def DenseExact (B : PyDense.Backend K P) : Prop :=
  ∀ mem d gap a mem', B.run mem (PyDense.inputs d gap) = (some a, mem') →
    DenseKKT P.nVars P.nEq P.nIn (PyDense.assemble d gap) a.x a.y a.z

/-- a back end whose answers, read as steps and multipliers of the nodes, satisfy the KKT conditions of the linearised problem (`gap t`
is the gap of node `t`). -/
def BackExact (B : PyDense.Backend K P) : Prop :=
  ∀ mem d gap a mem', B.run mem (PyDense.inputs d gap) = (some a, mem') →
    QPKKT d (fun t => gap (t - 1)) 0 0 (stX P a.x) (stU P a.x) (stLam P a.y) (stY P a.z)

/-- the bounds of every node are consistent. -/
def BoundsOK (P : Problem K) : Prop := ∀ t, t ≤ P.T → BoxOK (P.lb t) (P.ub t)
end Spec

theorem QPFeasible.congr_fs {d : Data P} {fs fs' : ℕ → Vec K P.ndx} {x : ℕ → Vec K P.ndx} {u : (t : ℕ) → Vec K (P.nu t)}
    (h : ∀ t, t < P.T → fs (t + 1) = fs' (t + 1)) : QPFeasible d fs x u ↔ QPFeasible d fs' x u :=
  ⟨fun ⟨a, b, c, e⟩ => ⟨a, fun t ht => by rw [← h t ht]; exact b t ht, c, e⟩,
    fun ⟨a, b, c, e⟩ => ⟨a, fun t ht => by rw [h t ht]; exact b t ht, c, e⟩⟩

theorem QPKKT.congr_fs {d : Data P} {fs fs' : ℕ → Vec K P.ndx} {x lam : ℕ → Vec K P.ndx} {u : (t : ℕ) → Vec K (P.nu t)}
    {y : (t : ℕ) → Vec K (P.ng t)} {a b : K} (h : ∀ t, t < P.T → fs (t + 1) = fs' (t + 1)) (hk : QPKKT d fs a b x u lam y) :
    QPKKT d fs' a b x u lam y :=
  ⟨(QPFeasible.congr_fs h).1 hk.feas, hk.stat_x, hk.stat_u, hk.stat_T, hk.compl, hk.complT⟩

namespace PyFull

section
variable [SqrtOps K] {B : PyDense.Backend K P}

/-- the QP of `computeDirectionFullQP` holds the entries of the linearised problem. -/
theorem entAt (hT : 0 < P.T) (hu : ∀ t, P.nu t = P.nu 0) (p : PyCSQP P) :
    PROX.Ent p.evaluate.data (fun t => p.evaluate.gap (t - 1)) (PyDense.assemble p.evaluate.data p.evaluate.gap) :=
  PyDense.ent hT hu _ _

theorem gapAt (p : PyCSQP P) (t : ℕ) (ht : t < P.T) : (fun t => p.evaluate.gap (t - 1)) (t + 1) = gapsAt P p.xs p.us (t + 1) :=
  (PyCSQP.evaluate_gap p).1 t ht

/-- **C84 (a).**  For a problem with one control dimension, the dense QP the Python `CSQP` builds at the current candidate is the
linearised problem: derivatives and constraint values are those of the candidate, the objective of a stacked vector is the quadratic
model of the cost for the step stacked in it, a stacked vector satisfies the rows iff its step satisfies the linearised dynamics with the
gaps of the candidate and the linearised constraints, and every step can be stacked. -/
theorem C84_dense_problem (hT : 0 < P.T) (hu : ∀ t, P.nu t = P.nu 0) (p : PyCSQP P) :
    let d := p.evaluate.data
    let Q := PyDense.assemble d p.evaluate.gap
    (FreshCalc P d p.xs p.us ∧ FreshDiff P d p.xs p.us) ∧
    (∀ z, PQP.obj P.nVars Q z = quadModel d (stX P z) (stU P z)) ∧
    (∀ z, DenseFeasible P.nVars P.nEq P.nIn Q z ↔ QPFeasible d (gapsAt P p.xs p.us) (stX P z) (stU P z)) ∧
    (∀ (x : ℕ → Vec K P.ndx) (u : (t : ℕ) → Vec K (P.nu t)), x 0 = 0 → ∃ z : FVec K, (∀ t, t ≤ P.T → stX P z t = x t) ∧ ∀ t, t < P.T → stU P z t = u t) := by
  intro d Q
  refine ⟨PyCSQP.evaluate_fresh p, fun z => ?_, fun z => ?_, fun x u h0 => PROX.stack_surj P x u h0⟩
  · rw [PROX.obj_eq hT (entAt hT hu p) z, PROX.cost_quadModel]
  · rw [PROX.feasible_iff hT (entAt hT hu p) z]
    exact QPFeasible.congr_fs (gapAt p)

/-- the step and the multipliers read back are those stacked in the answer. -/
theorem read_spec (hu : ∀ t, P.nu t = P.nu 0) (a : PAns K) (s : PyFull B) :
    (∀ t, t ≤ P.T → (readAnswer a s).p.q.dx t = stX P a.x t) ∧ (∀ t, t < P.T → (readAnswer a s).p.q.du t = stU P a.x t) ∧
    (∀ t, 0 < t → t ≤ P.T → (readAnswer a s).p.lagMul t = stLam P a.y t) ∧
    (∀ t, t ≤ P.T → (readAnswer a s).p.q.y t = stY P a.z t) := by
  refine ⟨fun t ht => ?_, fun t ht => ?_, fun t h0 ht => ?_, fun t ht => ?_⟩
  · cases t with
    | zero => rfl
    | succ t =>
      have : (readAnswer a s).p.q.dx (t + 1) = if t < P.T then seg (t * P.ndx) P.ndx a.x else s.p.q.dx (t + 1) := rfl
      rw [this, if_pos (by omega)]
      rfl
  · have : (readAnswer a s).p.q.du t = if t < P.T then seg (P.T * P.ndx + t * P.nu 0) (P.nu t) a.x else s.p.q.du t := rfl
    rw [this, if_pos ht]
    unfold stU seg
    rw [PyDense.offs_nu hu]
  · cases t with
    | zero => omega
    | succ t =>
      have : (readAnswer a s).p.lagMul (t + 1) = if t < P.T then -seg (t * P.ndx) P.ndx a.y else s.p.lagMul (t + 1) := rfl
      rw [this, if_pos (by omega)]
      rfl
  · have : (readAnswer a s).p.q.y t = if t ≤ P.T ∧ P.ng t ≠ 0 then seg (offs P.ng t) (P.ng t) a.z else s.p.q.y t := rfl
    rw [this]
    by_cases h : P.ng t = 0
    · haveI : IsEmpty (Fin (P.ng t)) := by rw [h]; infer_instance
      exact Subsingleton.elim _ _
    · rw [if_pos ⟨ht, h⟩]
      rfl

/-- what `computeDirectionFullQP` returns. -/
theorem computeDirection_ok {s s1 : PyFull B} (h : computeDirection s = .ok s1) : ∃ a m,
    B.run s.m (PyDense.inputs s.p.data s.p.gap) = (some a, m) ∧ s1 = readAnswer a { s with m := m } := by
  unfold computeDirection at h
  split at h
  · cases h
  · rename_i a m hr
    cases h
    exact ⟨a, m, hr, rfl⟩

/-- a KKT point of the dense QP is one of the linearised problem. -/
theorem _root_.Mim.Spec.DenseExact.back (hT : 0 < P.T) (hu : ∀ t, P.nu t = P.nu 0) (hB : DenseExact B) : BackExact B :=
  fun _ d gap _ _ hr => PROX.qpkkt_of_dense hT (PyDense.ent hT hu d gap) (hB _ _ _ _ _ hr)

theorem back_direction (hT : 0 < P.T) (hu : ∀ t, P.nu t = P.nu 0) (hB : BackExact B) {s s1 : PyFull B}
    (h : computeDirection { s with p := s.p.evaluate } = .ok s1) :
    FreshCalc P s1.p.data s.p.xs s.p.us ∧ FreshDiff P s1.p.data s.p.xs s.p.us ∧
    QPKKT s1.p.data (gapsAt P s.p.xs s.p.us) 0 0 s1.p.q.dx s1.p.q.du s1.p.lagMul s1.p.q.y := by
  obtain ⟨a, m, hr, rfl⟩ := computeDirection_ok h
  obtain ⟨r1, r2, r3, r4⟩ := read_spec (B := B) hu a { p := s.p.evaluate, m := m, nQP := s.nQP }
  refine ⟨(PyCSQP.evaluate_fresh s.p).1, (PyCSQP.evaluate_fresh s.p).2, ?_⟩
  have hk := hB _ _ _ _ _ hr
  exact QPKKT.congr_fs (gapAt s.p) (PROX.qpkkt_congr hk r1 r2 r3 r4 hT)

/-- **C84 (b).**  With a back end that answers with KKT points, the step and the multipliers the solver stores satisfy the KKT
conditions of the linearised problem of the current candidate. -/
theorem C84_dense_direction (hT : 0 < P.T) (hu : ∀ t, P.nu t = P.nu 0) (hB : DenseExact B) {s s1 : PyFull B}
    (h : computeDirection { s with p := s.p.evaluate } = .ok s1) :
    FreshCalc P s1.p.data s.p.xs s.p.us ∧ FreshDiff P s1.p.data s.p.xs s.p.us ∧
    QPKKT s1.p.data (gapsAt P s.p.xs s.p.us) 0 0 s1.p.q.dx s1.p.q.du s1.p.lagMul s1.p.q.y := by
  exact back_direction hT hu (hB.back hT hu) h

/-- **C84 (c).**  If moreover the Hessians of the candidate are symmetric and positive semidefinite, the step minimises the quadratic
model of the cost among all steps that satisfy the linearised dynamics and constraints. -/
theorem C84_dense_optimal (hT : 0 < P.T) (hu : ∀ t, P.nu t = P.nu 0) (hB : DenseExact B) {s s1 : PyFull B}
    (h : computeDirection { s with p := s.p.evaluate } = .ok s1) (hsym : SymHess s1.p.data) (hcx : Convex s1.p.data 0 0) :
    QPFeasible s1.p.data (gapsAt P s.p.xs s.p.us) s1.p.q.dx s1.p.q.du ∧
    ∀ x u, QPFeasible s1.p.data (gapsAt P s.p.xs s.p.us) x u → quadModel s1.p.data s1.p.q.dx s1.p.q.du ≤ quadModel s1.p.data x u := by
  obtain ⟨-, -, hk⟩ := C84_dense_direction hT hu hB h
  refine ⟨hk.feas, fun x u hf => ?_⟩
  have := QPKKT.global hsym hcx hk hf
  rwa [PROX.cost_quadModel, PROX.cost_quadModel] at this

/-! ### `CustomOSQP` -/

theorem boxOK (hT : 0 < P.T) {d : Data P} {fs : ℕ → Vec K P.ndx} {m : PQP K} (hE : PROX.Ent d fs m) (hb : BoundsOK P) :
    BoxOK (PyDense.toOQP P.nVars P.nEq P.nIn m).l (PyDense.toOQP P.nVars P.nEq P.nIn m).u := by
  have hin : ∀ i : ℕ, i < P.nIn → ∀ a b, m.l i = some a → m.u i = some b → a ≤ b := by
    intro i hi a b ha hb'
    obtain ⟨t, ht, j, hj, rfl⟩ := offs_cover hi
    rcases Nat.lt_succ_iff_lt_or_eq.mp ht with ht | rfl
    · rw [hE.hv.l t ⟨j, hj⟩ ht] at ha
      rw [hE.hv.u t ⟨j, hj⟩ ht] at hb'
      simp only [Option.map_eq_some_iff] at ha hb'
      obtain ⟨l, hl, rfl⟩ := ha
      obtain ⟨u, hu, rfl⟩ := hb'
      exact sub_le_sub_right (hb t ht.le ⟨j, hj⟩ l u hl hu) _
    · rw [hE.hv.lT ⟨j, hj⟩] at ha
      rw [hE.hv.uT ⟨j, hj⟩] at hb'
      simp only [Option.map_eq_some_iff] at ha hb'
      obtain ⟨l, hl, rfl⟩ := ha
      obtain ⟨u, hu, rfl⟩ := hb'
      exact sub_le_sub_right (hb P.T le_rfl ⟨j, hj⟩ l u hl hu) _
  intro i
  refine Fin.addCases (fun i => ?_) (fun i => ?_) i
  · intro a b ha hb'
    rw [PyDense.toOQP_le] at ha
    rw [PyDense.toOQP_ue] at hb'
    cases ha; cases hb'; exact le_rfl
  · intro a b ha hb'
    rw [PyDense.toOQP_li] at ha
    rw [PyDense.toOQP_ui] at hb'
    exact hin i i.2 a b ha hb'

variable {sp : SpSolve K} {c : OConf K}

theorem custom_run {s s' : OState K P.nVars (P.nEq + P.nIn)} {m : PyDense.Inputs P} {a : PAns K} (h : (PyDense.custom P sp c).run s m = (some a, s')) :
    s.optimize sp c (PyDense.toOQP P.nVars P.nEq P.nIn m.dense) = .ok s' ∧
    a = ⟨PyDense.unview s'.x, PyDense.unview fun i : Fin P.nEq => s'.y (Fin.castAdd P.nIn i),
      PyDense.unview fun i : Fin P.nIn => s'.y (Fin.natAdd P.nEq i), s'.iters, s'.rPrim, s'.rDual⟩ := by
  have h2 : (match s.optimize sp c (PyDense.toOQP P.nVars P.nEq P.nIn m.dense) with
    | .exn s => (none, s)
    | .ok s => (some (PAns.mk (PyDense.unview s.x) (PyDense.unview fun i : Fin P.nEq => s.y (Fin.castAdd P.nIn i))
        (PyDense.unview fun i : Fin P.nIn => s.y (Fin.natAdd P.nEq i)) s.iters s.rPrim s.rDual), s)) = (some a, s') := h
  cases ho : s.optimize sp c (PyDense.toOQP P.nVars P.nEq P.nIn m.dense) with
  | exn t => rw [ho] at h2; cases h2
  | ok t => rw [ho] at h2; cases h2; exact ⟨rfl, rfl⟩

theorem boyd_run {s s' : BState K P.nVars P.nEq P.nIn} {m : PyDense.Inputs P} {a : PAns K} (h : (PyDense.boyd P sp c).run s m = (some a, s')) :
    s.optimize sp c (PyDense.toBQP P.nVars P.nEq P.nIn m.dense) = .ok s' ∧
    a = ⟨PyDense.unview s'.x, PyDense.unview s'.v, PyDense.unview s'.y, s'.iters, s'.rPrim, s'.rDual⟩ := by
  have h2 : (match s.optimize sp c (PyDense.toBQP P.nVars P.nEq P.nIn m.dense) with
    | .exn s => (none, s)
    | .ok s => (some (PAns.mk (PyDense.unview s.x) (PyDense.unview s.v) (PyDense.unview s.y) s.iters s.rPrim s.rDual), s)) = (some a, s') := h
  cases ho : s.optimize sp c (PyDense.toBQP P.nVars P.nEq P.nIn m.dense) with
  | exn t => rw [ho] at h2; cases h2
  | ok t => rw [ho] at h2; cases h2; exact ⟨rfl, rfl⟩

theorem custom_ok {s s1 : PyFull (PyDense.custom P sp c)} (h : computeDirection s = .ok s1) : ∃ r : OState K P.nVars (P.nEq + P.nIn),
    OState.optimize sp c (PyDense.toOQP P.nVars P.nEq P.nIn (PyDense.assemble s.p.data s.p.gap)) s.m = .ok r ∧ s1.m = r ∧
    s1 = readAnswer ⟨PyDense.unview r.x, PyDense.unview fun i : Fin P.nEq => r.y (Fin.castAdd P.nIn i),
        PyDense.unview fun i : Fin P.nIn => r.y (Fin.natAdd P.nEq i), r.iters, r.rPrim, r.rDual⟩ { s with m := r } := by
  obtain ⟨a, m, hr, rfl⟩ := computeDirection_ok h
  obtain ⟨ho, rfl⟩ := custom_run (s := s.m) (s' := m) hr
  exact ⟨m, ho, rfl, rfl⟩

/-- **C84 (d).**  `CSQP(problem, "CustomOSQP")`: when the QP solver reports convergence with the thresholds `ep` and `ed`, the step
violates the linearised dynamics and constraints by at most `ep`, and for convex costs its quadratic model exceeds that of any step
satisfying them by at most `ed ‖difference‖₁ + ep ‖multipliers‖₁`.  Any linear solver. -/
theorem C84_custom_suboptimal (hT : 0 < P.T) (hu : ∀ t, P.nu t = P.nu 0) (h0 : 0 < c.rhoMin) (h1 : c.rhoMin ≤ c.rhoMax) (hb : BoundsOK P)
    {s s1 : PyFull (PyDense.custom P sp c)} (h : computeDirection { s with p := s.p.evaluate } = .ok s1)
    (hsym : SymHess s1.p.data) (hcx : Convex s1.p.data 0 0) {r : OState K P.nVars (P.nEq + P.nIn)} (hr : s1.m = r) (hc : r.conv = true) :
    let D := PyDense.toOQP P.nVars P.nEq P.nIn (PyDense.assemble s.p.evaluate.data s.p.evaluate.gap)
    let ep := c.epsAbs + c.epsRel * max (exactNormInf (D.A *ᵥ r.x)) (exactNormInf r.z)
    let ed := c.epsAbs + c.epsRel * max (max (exactNormInf D.q) (exactNormInf (D.Aᵀ *ᵥ r.y))) (exactNormInf (D.P *ᵥ r.x))
    (∀ z, QPFeasible s1.p.data (gapsAt P s.p.xs s.p.us) (stX P z) (stU P z) →
      quadModel s1.p.data s1.p.q.dx s1.p.q.du ≤ quadModel s1.p.data (stX P z) (stU P z) + ed * (∑ i, |r.x i - z i|) + ep * ∑ i, |r.y i|) ∧
    s1.p.q.dx 0 = 0 ∧
    (∀ t, t < P.T → ∀ i, |(s1.p.q.dx (t + 1) - ((s1.p.data.rd t).Fx *ᵥ s1.p.q.dx t + (s1.p.data.rd t).Fu *ᵥ s1.p.q.du t +
      shootGap P s.p.xs s.p.us t)) i| ≤ ep) ∧
    (∀ t, t < P.T → ∀ i, (∀ l, P.lb t i = some l → l - ep ≤ ((s1.p.data.run t).g + conLin s1.p.data t (s1.p.q.dx t) (s1.p.q.du t)) i) ∧
      ∀ u, P.ub t i = some u → ((s1.p.data.run t).g + conLin s1.p.data t (s1.p.q.dx t) (s1.p.q.du t)) i ≤ u + ep) ∧
    (∀ i, (∀ l, P.lb P.T i = some l → l - ep ≤ (s1.p.data.ter.g + s1.p.data.td.Gx *ᵥ s1.p.q.dx P.T) i) ∧
      ∀ u, P.ub P.T i = some u → (s1.p.data.ter.g + s1.p.data.td.Gx *ᵥ s1.p.q.dx P.T) i ≤ u + ep) := by
  intro D ep ed
  obtain ⟨r', ho, hm, rfl⟩ := custom_ok h
  obtain rfl : r' = r := hm.symm.trans hr
  clear hr hm
  have hE := entAt hT hu s.p
  have hP : PSD D.P := PyDense.psd hT hE.hP hsym hcx
  obtain ⟨s1, s2⟩ := OState.C85_osqp_suboptimal h0 h1 (boxOK hT hE hb) hP ho hc
  obtain ⟨e1, e2, -, -⟩ := read_spec (B := PyDense.custom P sp c) hu ⟨PyDense.unview r'.x, PyDense.unview fun i : Fin P.nEq => r'.y (Fin.castAdd P.nIn i),
        PyDense.unview fun i : Fin P.nIn => r'.y (Fin.natAdd P.nEq i), r'.iters, r'.rPrim, r'.rDual⟩ { p := s.p.evaluate, m := r', nQP := s.nQP }
  generalize hs1 : (readAnswer (B := PyDense.custom P sp c) ⟨PyDense.unview r'.x, PyDense.unview fun i : Fin P.nEq => r'.y (Fin.castAdd P.nIn i),
        PyDense.unview fun i : Fin P.nIn => r'.y (Fin.natAdd P.nEq i), r'.iters, r'.rPrim, r'.rDual⟩
        { p := s.p.evaluate, m := r', nQP := s.nQP }) = w at *
  have hd : w.p.data = s.p.evaluate.data := by rw [← hs1]; rfl
  have hq : quadModel s.p.evaluate.data w.p.q.dx w.p.q.du = quadModel s.p.evaluate.data (stX P (PyDense.unview r'.x)) (stU P (PyDense.unview r'.x)) := by
    unfold quadModel
    rw [e1 _ le_rfl]
    congr 2
    refine Finset.sum_congr rfl fun t ht => ?_
    have ht := Finset.mem_range.mp ht
    rw [e1 t ht.le, e2 t ht]
  rw [hd] at *
  have cong : ∀ z : FVec K, (∀ i, i < P.nVars → ∀ M, prod P.nVars M (PyDense.unview (PyDense.view P.nVars z)) i = prod P.nVars M z i) := by
    intro z i hi M
    rw [PyDense.prod_unview]
    unfold prod
    rw [Finset.sum_range]
    rfl
  refine ⟨fun z hz => ?_, e1 0 (Nat.zero_le _), fun t ht i => ?_, fun t ht i => ?_, fun i => ?_⟩
  · have hz' := (QPFeasible.congr_fs (fs := fun t => s.p.evaluate.gap (t - 1)) (gapAt s.p)).2 hz
    rw [← PROX.feasible_iff hT hE] at hz'
    have hzv : DenseFeasible P.nVars P.nEq P.nIn (PyDense.assemble s.p.evaluate.data s.p.evaluate.gap) (PyDense.unview (PyDense.view P.nVars z)) := by
      have hM : ∀ (M : FMat K) i, prod P.nVars M (PyDense.unview (PyDense.view P.nVars z)) i = prod P.nVars M z i := by
        intro M i
        rw [PyDense.prod_unview]
        unfold prod
        rw [Finset.sum_range]
        rfl
      refine ⟨fun i hi => by rw [hM]; exact hz'.1 i hi, fun i hi => by rw [hM]; exact hz'.2 i hi⟩
    have := s1 (PyDense.view P.nVars z) ((PyDense.toOQP_feas _).2 hzv)
    rw [PyDense.toOQP_obj, PyDense.toOQP_obj, PROX.obj_eq hT hE, PROX.obj_eq hT hE, PROX.cost_quadModel, PROX.cost_quadModel] at this
    have hqz : quadModel s.p.evaluate.data (stX P (PyDense.unview (PyDense.view P.nVars z))) (stU P (PyDense.unview (PyDense.view P.nVars z))) =
        quadModel s.p.evaluate.data (stX P z) (stU P z) := by
      rw [← PROX.cost_quadModel _ (fun t => s.p.evaluate.gap (t - 1)), ← PROX.cost_quadModel _ (fun t => s.p.evaluate.gap (t - 1)),
        ← PROX.obj_eq hT hE, ← PROX.obj_eq hT hE]
      unfold PQP.obj
      congr 1
      · congr 1
        refine Finset.sum_congr rfl fun i hi => ?_
        have hi := Finset.mem_range.mp hi
        rw [cong z i hi, PyDense.unview_lt _ hi]
        rfl
      · refine Finset.sum_congr rfl fun i hi => ?_
        have hi := Finset.mem_range.mp hi
        rw [PyDense.unview_lt _ hi]
        rfl
    rw [hqz] at this
    rw [hq]
    have e : ∑ i, |(r'.x - PyDense.view P.nVars z) i| = ∑ i : Fin P.nVars, |r'.x i - z i| := rfl
    rw [e] at this
    change _ - _ ≤ ed * _ + ep * _ at this
    linarith
  · have := s2 (Fin.castAdd P.nIn ⟨t * P.ndx + i, blk_lt i.2 ht⟩)
    rw [PyDense.toOQP_Ae, PyDense.toOQP_le, PyDense.toOQP_ue] at this
    have h3 := this.1 _ rfl
    have h4 := this.2 _ rfl
    change _ - ep ≤ _ at h3
    change _ ≤ _ + ep at h4
    simp only [] at h3 h4
    rw [PROX.rowA hE.hA _ ht i, hE.hv.b t i ht] at h3 h4
    have hg : s.p.evaluate.gap (t + 1 - 1) = shootGap P s.p.xs s.p.us t := (PyCSQP.evaluate_gap s.p).1 t ht
    simp only [hg] at h3 h4
    rw [e1 (t + 1) ht, e1 t ht.le, e2 t ht]
    simp only [Pi.sub_apply, Pi.add_apply] at h3 h4 ⊢
    rw [abs_le]
    constructor <;> linarith
  · have := s2 (Fin.natAdd P.nEq ⟨offs P.ng t + i, offs_lt (d := P.ng) (by omega) i.2⟩)
    rw [PyDense.toOQP_Ai, PyDense.toOQP_li, PyDense.toOQP_ui] at this
    simp only [] at this
    rw [PROX.rowC hE.hC _ ht i, hE.hv.l t i ht, hE.hv.u t i ht] at this
    rw [e1 t ht.le, e2 t ht]
    refine ⟨fun l hl => ?_, fun u hu => ?_⟩
    · have := this.1 (l - (s.p.evaluate.data.run t).g i) (by rw [hl]; rfl)
      change _ - ep ≤ _ at this
      simp only [Pi.add_apply]
      linarith
    · have := this.2 (u - (s.p.evaluate.data.run t).g i) (by rw [hu]; rfl)
      change _ ≤ _ + ep at this
      simp only [Pi.add_apply]
      linarith
  · have := s2 (Fin.natAdd P.nEq ⟨offs P.ng P.T + i, offs_lt (d := P.ng) (by omega) i.2⟩)
    rw [PyDense.toOQP_Ai, PyDense.toOQP_li, PyDense.toOQP_ui] at this
    simp only [] at this
    rw [PROX.rowC_T hE.hC _ hT i, hE.hv.lT i, hE.hv.uT i] at this
    rw [e1 P.T le_rfl]
    refine ⟨fun l hl => ?_, fun u hu => ?_⟩
    · have := this.1 (l - s.p.evaluate.data.ter.g i) (by rw [hl]; rfl)
      change _ - ep ≤ _ at this
      simp only [Pi.add_apply]
      linarith
    · have := this.2 (u - s.p.evaluate.data.ter.g i) (by rw [hu]; rfl)
      change _ ≤ _ + ep at this
      simp only [Pi.add_apply]
      linarith

/-! ### `StagewiseQPKKT` -/

theorem boyd_ok {s s1 : PyFull (PyDense.boyd P sp c)} (h : computeDirection s = .ok s1) : ∃ r : BState K P.nVars P.nEq P.nIn,
    BState.optimize sp c (PyDense.toBQP P.nVars P.nEq P.nIn (PyDense.assemble s.p.data s.p.gap)) s.m = .ok r ∧ s1.m = r ∧
    s1 = readAnswer ⟨PyDense.unview r.x, PyDense.unview r.v, PyDense.unview r.y, r.iters, r.rPrim, r.rDual⟩ { s with m := r } := by
  obtain ⟨a, m, hr, rfl⟩ := computeDirection_ok h
  obtain ⟨ho, rfl⟩ := boyd_run (s := s.m) (s' := m) hr
  exact ⟨m, ho, rfl, rfl⟩

/-- **C84 (e).**  `CSQP(problem, "StagewiseQPKKT")` with an exact linear solver and convex costs: the step satisfies the linearised
dynamics exactly, whether or not the QP solver converged. -/
theorem C84_boyd_dynamics (hT : 0 < P.T) (hu : ∀ t, P.nu t = P.nu 0) (hsp : SpExact sp) (hs : 0 < c.sigma) (h0 : 0 < c.rhoMin)
    (h1 : c.rhoMin ≤ c.rhoMax) {s s1 : PyFull (PyDense.boyd P sp c)} (h : computeDirection { s with p := s.p.evaluate } = .ok s1)
    (hsym : SymHess s1.p.data) (hcx : Convex s1.p.data 0 0) :
    s1.p.q.dx 0 = 0 ∧ ∀ t, t < P.T → s1.p.q.dx (t + 1) =
      (s1.p.data.rd t).Fx *ᵥ s1.p.q.dx t + (s1.p.data.rd t).Fu *ᵥ s1.p.q.du t + shootGap P s.p.xs s.p.us t := by
  obtain ⟨r, ho, -, rfl⟩ := boyd_ok h
  have hE := entAt hT hu s.p
  have hP : PSD (PyDense.toBQP P.nVars P.nEq P.nIn (PyDense.assemble s.p.evaluate.data s.p.evaluate.gap)).P :=
    PyDense.psd (ne := P.nEq) (ni := P.nIn) hT hE.hP hsym hcx
  obtain ⟨hx, -⟩ := BState.C86_boyd_stationarity hsp hP (PyDense.fullRank hT hE.hA) hs h0 h1 ho
  obtain ⟨e1, e2, -, -⟩ := read_spec (B := PyDense.boyd P sp c) hu
    ⟨PyDense.unview r.x, PyDense.unview r.v, PyDense.unview r.y, r.iters, r.rPrim, r.rDual⟩ { p := s.p.evaluate, m := r, nQP := s.nQP }
  refine ⟨e1 0 (Nat.zero_le _), fun t ht => ?_⟩
  funext i
  have := congrFun hx ⟨t * P.ndx + i, blk_lt i.2 ht⟩
  rw [PyDense.toBQP_E] at this
  have hb : (PyDense.toBQP P.nVars P.nEq P.nIn (PyDense.assemble s.p.evaluate.data s.p.evaluate.gap)).b ⟨t * P.ndx + i, blk_lt i.2 ht⟩ =
      shootGap P s.p.xs s.p.us t i := by
    have := hE.hv.b t i ht
    have hg : s.p.evaluate.gap (t + 1 - 1) = shootGap P s.p.xs s.p.us t := (PyCSQP.evaluate_gap s.p).1 t ht
    simp only [hg] at this
    exact this
  rw [hb] at this
  simp only [] at this
  rw [PROX.rowA hE.hA _ ht i] at this
  rw [e1 (t + 1) ht, e1 t ht.le, e2 t ht]
  simp only [Pi.sub_apply, Pi.add_apply] at this ⊢
  change _ = ((s.p.evaluate.data.rd t).Fx *ᵥ _) i + ((s.p.evaluate.data.rd t).Fu *ᵥ _) i + _
  linarith

/-- **C84 (f).**  The fixed points of the two iterations are the KKT points of the linearised problem: if `(x, z, y)` is a fixed point
of an iteration of `CustomOSQP`, or of `StagewiseQPKKT`, for the QP of the current candidate, the step and the multipliers stacked in it
satisfy the KKT conditions of the linearised problem. -/
theorem C84_fixed_points (hT : 0 < P.T) (hu : ∀ t, P.nu t = P.nu 0) (hsp : SpExact sp) (hs : 0 < c.sigma) (ha : c.alpha ≠ 0) (hb : BoundsOK P)
    (p : PyCSQP P) (hsym : SymHess p.evaluate.data) (hcx : Convex p.evaluate.data 0 0) (j : ℕ) :
    let Q := PyDense.assemble p.evaluate.data p.evaluate.gap
    (∀ w : OState K P.nVars (P.nEq + P.nIn), (∀ i, 0 < w.rhoVec i) →
      (w.step sp c (PyDense.toOQP _ _ _ Q) j).x = w.x → (w.step sp c (PyDense.toOQP _ _ _ Q) j).z = w.z →
      (w.step sp c (PyDense.toOQP _ _ _ Q) j).y = w.y →
      QPKKT p.evaluate.data (gapsAt P p.xs p.us) 0 0 (stX P (PyDense.unview w.x)) (stU P (PyDense.unview w.x))
        (stLam P (PyDense.unview fun i : Fin P.nEq => w.y (Fin.castAdd P.nIn i))) (stY P (PyDense.unview fun i : Fin P.nIn => w.y (Fin.natAdd P.nEq i)))) ∧
    (∀ w : BState K P.nVars P.nEq P.nIn, (∀ i, 0 < w.rhoVec i) →
      (w.step sp c (PyDense.toBQP _ _ _ Q) j).x = w.x → (w.step sp c (PyDense.toBQP _ _ _ Q) j).z = w.z →
      (w.step sp c (PyDense.toBQP _ _ _ Q) j).y = w.y →
      QPKKT p.evaluate.data (gapsAt P p.xs p.us) 0 0 (stX P (PyDense.unview w.x)) (stU P (PyDense.unview w.x))
        (stLam P (PyDense.unview (w.step sp c (PyDense.toBQP _ _ _ Q) j).v)) (stY P (PyDense.unview w.y))) := by
  intro Q
  have hE := entAt hT hu p
  have hP : PSD (PyDense.toOQP P.nVars P.nEq P.nIn Q).P := PyDense.psd hT hE.hP hsym hcx
  have hB := boxOK hT hE hb
  refine ⟨fun w hw h1 h2 h3 => ?_, fun w hw h1 h2 h3 => ?_⟩
  · have := ((OState.C85_osqp_fixed hsp hP hB hs ha w hw j).1 ⟨h1, h2, h3⟩).2
    exact QPKKT.congr_fs (gapAt p) (PROX.qpkkt_of_dense hT hE ((PyDense.boxKKT_iff _ _).1 this))
  · have hB' : BoxOK (PyDense.toBQP P.nVars P.nEq P.nIn Q).l (PyDense.toBQP P.nVars P.nEq P.nIn Q).u := by
      intro i
      have := hB (Fin.natAdd P.nEq i)
      rw [PyDense.toOQP_li, PyDense.toOQP_ui] at this
      exact this
    have := ((BState.C86_boyd_fixed (D := PyDense.toBQP P.nVars P.nEq P.nIn Q) hsp hP (PyDense.fullRank hT hE.hA) hB' hs ha w hw j).1 ⟨h1, h2, h3⟩).2
    exact QPKKT.congr_fs (gapAt p) (PROX.qpkkt_of_dense hT hE ((PyDense.boxEqKKT_iff _ _ _).1 this))

end
end PyFull
end Mim
