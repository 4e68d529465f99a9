import Verif.Props.PyFullEx
import Verif.Props.PyCSQPHistory
import Verif.Props.PyOsqpEx

/-!
# C89: what a call of the Python `CSQP` with a dense back end remembers of earlier calls
-/
set_option linter.unusedSectionVars false
set_option linter.unusedSimpArgs false

namespace Mim
open Spec

namespace PyDense
section
variable {F : Type} [Add F] [Sub F] [Mul F] [Div F] [Neg F] [Zero F] [One F] [FloatOps F] {P : Problem F}

/-- the QP depends on the evaluation of the problem only. -/
theorem assemble_congr {d d' : Data P} {g g' : ℕ → Vec F P.ndx} (h : d.SameD d') (hg : ∀ t, t < P.T → g t = g' t) :
    assemble d g = assemble d' g' := by
  unfold assemble
  have h1 : forUp P.T (fillStage d g) (zeroQP F) = forUp P.T (fillStage d' g') (zeroQP F) :=
    PyCSQP.forUp_congr P.T _ _ _ fun t ht m => by unfold fillStage; rw [h.rd t ht, hg t ht]
  have h2 : ∀ m : PQP F, fillTerminal d m = fillTerminal d' m := fun m => by unfold fillTerminal; rw [h.td]
  have h3 : ∀ m : PQP F, forUp P.T (fillRows d) m = forUp P.T (fillRows d') m := fun m =>
    PyCSQP.forUp_congr P.T _ _ _ fun t ht m => by unfold fillRows; rw [h.rd t ht, h.run t ht]
  have h4 : ∀ m : PQP F, fillRowsTer d m = fillRowsTer d' m := fun m => by unfold fillRowsTer; rw [h.td, h.ter]
  rw [h1, h2, h3, h4]

theorem ocp_congr {d d' : Data P} {g g' : ℕ → Vec F P.ndx} (h : d.SameD d') (hg : ∀ t, t < P.T → g t = g' t) : ocp d g = ocp d' g' := by
  unfold ocp
  have h1 : forUp P.T (ocpStage d g) (ocpZero P) = forUp P.T (ocpStage d' g') (ocpZero P) :=
    PyCSQP.forUp_congr P.T _ _ _ fun t ht m => by unfold ocpStage; rw [h.rd t ht, h.run t ht, hg t ht]
  have h2 : ∀ m : OcpQP P, ocpTerminal d m = ocpTerminal d' m := fun m => by unfold ocpTerminal; rw [h.td, h.ter]
  rw [h1, h2]

theorem inputs_congr {d d' : Data P} {g g' : ℕ → Vec F P.ndx} (h : d.SameD d') (hg : ∀ t, t < P.T → g t = g' t) :
    inputs d g = inputs d' g' := by
  unfold inputs
  rw [assemble_congr h hg, ocp_congr h hg]

end
end PyDense

namespace Spec
/-- the answers of the back end do not depend on earlier QPs. -/
def Forgets {F : Type} {P : Problem F} (B : PyDense.Backend F P) : Prop := ∀ mem mem' m, (B.run mem m).1 = (B.run mem' m).1
end Spec

namespace PyFull
section
variable {F : Type} [Add F] [Sub F] [Mul F] [Div F] [Neg F] [Zero F] [One F] [FloatOps F] [SqrtOps F]
variable {P : Problem F} {B : PyDense.Backend F P}
open PyCSQP (Alike SameFilter SameMult EvalSame Steps SameOptions keep keep_all)
open PySQP (halve)

/-- what an iteration reads agrees. -/
structure Before (s s' : PyFull B) : Prop extends Alike s.p s'.p where
  flt : SameFilter s.p s'.p
  mult : s.p.auto = false ∨ SameMult s.p s'.p
  mem : Forgets B ∨ s.m = s'.m

/-- what two calls that went the same way have in common: candidate, multipliers (that of the initial condition excepted, which some back
ends do not write), step and residual. -/
structure Result (s s' : PyFull B) : Prop extends Alike s.p s'.p where
  lam : ∀ t, 0 < t → t ≤ P.T → s.p.lagMul t = s'.p.lagMul t
  y : ∀ t, t ≤ P.T → s.p.q.y t = s'.p.q.y t
  KKT : s.p.KKT = s'.p.KKT
  dx : ∀ t, t ≤ P.T → s.p.q.dx t = s'.p.q.dx t
  du : ∀ t, t < P.T → s.p.q.du t = s'.p.q.du t

/-- after the direction. -/
structure After (s s' : PyFull B) : Prop extends Steps s.p s'.p where
  lam : ∀ t, 0 < t → t ≤ P.T → s.p.lagMul t = s'.p.lagMul t
  lam0 : s.p.auto = false ∨ s.p.lagMul 0 = s'.p.lagMul 0
  y : ∀ t, t ≤ P.T → s.p.q.y t = s'.p.q.y t
  mem : Forgets B ∨ s.m = s'.m

theorem dirAt_alike {s s' : PyFull B} (h : Before s s') :
    Res.Rel After (fun a b => Alike a.p b.p) (dirAt s) (dirAt s') := by
  have he := PyCSQP.evaluate_same h.toAlike h.mult
  have hq := PyDense.inputs_congr he.data fun t ht => he.gap t ht.le
  unfold dirAt computeDirection
  simp only []
  rw [← hq]
  generalize PyDense.inputs s.p.evaluate.data s.p.evaluate.gap = Q
  have hrun : (B.run s.m Q).1 = (B.run s'.m Q).1 := by
    rcases h.mem with hf | e
    · exact hf _ _ _
    · rw [e]
  have hmem : Forgets B ∨ (B.run s.m Q).2 = (B.run s'.m Q).2 := h.mem.imp_right fun e => by rw [e]
  generalize B.run s.m Q = r at hrun hmem ⊢
  generalize B.run s'.m Q = r' at hrun hmem ⊢
  obtain ⟨a, m⟩ := r
  obtain ⟨a', m'⟩ := r'
  simp only [] at hrun hmem
  subst hrun
  cases a with
  | none => exact .exn he.toAlike
  | some a =>
    refine .ok ⟨⟨⟨⟨he.keep, he.xs, he.us⟩, he.data, he.gap, he.cost, he.gapNorm, he.con, he.merit, he.lagInf⟩, h.flt, ?_, ?_⟩, ?_, ?_, ?_, hmem⟩
    · intro t ht
      cases t with
      | zero => rfl
      | succ t =>
        change (if t < P.T then _ else _) = (if t < P.T then _ else _)
        rw [if_pos (by omega), if_pos (by omega)]
    · intro t ht
      change (if t < P.T then _ else _) = (if t < P.T then _ else _)
      rw [if_pos ht, if_pos ht]
    · intro t h0 ht
      cases t with
      | zero => omega
      | succ t =>
        change (if t < P.T then _ else _) = (if t < P.T then _ else _)
        rw [if_pos (by omega), if_pos (by omega)]
    · refine h.mult.imp_right fun e => ?_
      change (if B.zero0 then _ else s.p.lagMul 0) = (if B.zero0 then _ else s'.p.lagMul 0)
      rw [e.1 0 (Nat.zero_le _)]
    · intro t ht
      by_cases hn : P.ng t = 0
      · haveI : IsEmpty (Fin (P.ng t)) := by rw [hn]; infer_instance
        exact Subsingleton.elim _ _
      · change (if t ≤ P.T ∧ P.ng t ≠ 0 then _ else _) = (if t ≤ P.T ∧ P.ng t ≠ 0 then _ else _)
        rw [if_pos ⟨ht, hn⟩, if_pos ⟨ht, hn⟩]

theorem kktCheck_after {s s' : PyFull B} (hT : 0 < P.T) (h : After s s') : s.kktCheck.p.KKT = s'.kktCheck.p.KKT ∧ After s.kktCheck s'.kktCheck := by
  refine ⟨?_, ⟨⟨⟨⟨h.keep, h.xs, h.us⟩, h.data, h.gap, h.cost, h.gapNorm, h.con, h.merit, h.lagInf⟩, h.flt, h.dx, h.du⟩, h.lam, h.lam0, h.y, h.mem⟩⟩
  have e : ∀ s : PyFull B, s.kktCheck.p.KKT = cppMax (cppMax (cppMax (forUp P.T (fun t K =>
      if t = 0 then cppMax K (normInf ((s.p.data.rd t).Lu + mv (s.p.data.rd t).Fu.transpose (s.p.lagMul (t + 1)) + mv (s.p.data.rd t).Gu.transpose (s.p.q.y t)))
      else cppMax (cppMax K (normInf ((s.p.data.rd t).Lx + mv (s.p.data.rd t).Fx.transpose (s.p.lagMul (t + 1)) - s.p.lagMul t + mv (s.p.data.rd t).Gx.transpose (s.p.q.y t))))
        (normInf ((s.p.data.rd t).Lu + mv (s.p.data.rd t).Fu.transpose (s.p.lagMul (t + 1)) + mv (s.p.data.rd t).Gu.transpose (s.p.q.y t)))) 0)
      (normInf (s.p.data.td.Lx - s.p.lagMul P.T + mv s.p.data.td.Gx.transpose (s.p.q.y P.T))))
      (forUp (P.T + 1) (fun t m => cppMax m (normInf (s.p.gap t))) 0)) s.p.con := fun _ => rfl
  rw [e s, e s', h.lam _ (by omega) le_rfl, h.data.td, h.y _ le_rfl, h.con]
  congr 2
  · congr 1
    refine PyCSQP.forUp_congr P.T _ _ 0 fun t ht a => ?_
    rw [h.data.rd t ht, h.lam (t + 1) (by omega) ht, h.y t ht.le]
    by_cases h0 : t = 0
    · rw [if_pos h0, if_pos h0]
    · rw [if_neg h0, if_neg h0, h.lam t (by omega) ht.le]
  · exact PyCSQP.forUp_congr (P.T + 1) _ _ 0 fun t ht a => by rw [h.gap t (by omega)]


theorem After.before {s s' : PyFull B} {p q : PyCSQP P} (h : After s s') (ha : Alike p q) (hf : SameFilter p q)
    (k : keep p = keep s.p) (e1 : p.q = s.p.q) (e2 : q.q = s'.p.q) (l1 : p.lagMul = s.p.lagMul) (l2 : q.lagMul = s'.p.lagMul) :
    Before { s with p := p } { s' with p := q } := by
  refine ⟨ha, hf, ?_, h.mem⟩
  rcases h.lam0 with e | e
  · exact .inl ((PyCSQP.auto_same k).trans e)
  · refine .inr ⟨fun t ht => ?_, fun t ht => ?_⟩
    · change p.lagMul t = q.lagMul t
      rw [l1, l2]
      rcases Nat.eq_zero_or_pos t with rfl | h0
      · exact e
      · exact h.lam t h0 ht
    · change p.q.y t = q.q.y t
      rw [e1, e2]
      exact h.y t ht

theorem After.result {s s' : PyFull B} {p q : PyCSQP P} (h : After s s') (ha : Alike p q)
    (e1 : p.q = s.p.q) (e2 : q.q = s'.p.q) (l1 : p.lagMul = s.p.lagMul) (l2 : q.lagMul = s'.p.lagMul) (hK : p.KKT = q.KKT) :
    Result { s with p := p } { s' with p := q } := by
  refine ⟨ha, fun t h0 ht => ?_, fun t ht => ?_, hK, fun t ht => ?_, fun t ht => ?_⟩
  · change p.lagMul t = q.lagMul t
    rw [l1, l2]; exact h.lam t h0 ht
  · change p.q.y t = q.q.y t
    rw [e1, e2]; exact h.y t ht
  · change p.q.dx t = q.q.dx t
    rw [e1, e2]; exact h.dx t ht
  · change p.q.du t = q.q.du t
    rw [e1, e2]; exact h.du t ht

theorem iterate_alike (hT : 0 < P.T) (n i : ℕ) {s s' : PyFull B} (h : Before s s') :
    (∃ o p q, iterate n i s = .inl (o, p) ∧ iterate n i s' = .inl (o, q) ∧ Alike p.p q.p ∧ (o ≠ none → Result p q)) ∨
    (∃ p q, iterate n i s = .inr p ∧ iterate n i s' = .inr q ∧ Before p q ∧ (n ≠ 0 → Result p q)) := by
  induction n generalizing i s s' with
  | zero => exact .inr ⟨_, _, rfl, rfl, h, fun e => absurd rfl e⟩
  | succ n ih =>
    have hd := dirAt_alike h
    have e1 : ∀ p : PyFull B, computeDirection { p with p := p.p.evaluate } = dirAt p := fun _ => rfl
    generalize hp : dirAt s = rp at hd
    generalize hq : dirAt s' = rq at hd
    unfold iterate head
    rw [e1, e1, hp, hq]
    cases hd with
    | exn hab => exact .inl ⟨_, _, _, rfl, rfl, hab, fun e => absurd rfl e⟩
    | @ok p1 q1 hab =>
      simp only []
      obtain ⟨k1, k3⟩ := kktCheck_after hT hab
      have kk := keep_all k3.keep
      rw [← k1, ← kk.2.2.2.2.1]
      by_cases hcv : ltb p1.kktCheck.p.KKT p1.kktCheck.p.tol = true
      · rw [if_pos hcv, if_pos hcv]
        exact .inl ⟨_, _, _, rfl, rfl, k3.toAlike, fun _ => k3.result k3.toAlike rfl rfl rfl rfl k1⟩
      · rw [if_neg hcv, if_neg hcv]
        simp only []
        have hpush : Steps p1.kktCheck.p.pushFilter q1.kktCheck.p.pushFilter := by
          refine ⟨⟨⟨k3.keep, k3.xs, k3.us⟩, k3.data, k3.gap, k3.cost, k3.gapNorm, k3.con, k3.merit, k3.lagInf⟩, ⟨?_, ?_⟩, k3.dx, k3.du⟩
          · simp only [PyCSQP.pushFilter]; rw [k3.flt.1, k3.gapNorm]
          · simp only [PyCSQP.pushFilter]; rw [k3.flt.2, k3.cost]
        obtain ⟨r, p2, q2, s1, s2, ha, f1, f2, f3, f4, hf, f5, f6⟩ := PyCSQP.search_alike i hpush
        rw [show (lit 1 : F) = halve 0 from rfl, s1, s2]
        have hK : p2.KKT = q2.KKT := by rw [f5, f6]; exact k1
        have hk2 : keep p2 = keep p1.kktCheck.p := (PyCSQP.search_keep s1).trans rfl
        have hb := k3.before ha hf hk2 f1 f2 f3 f4
        have hres := k3.result ha f1 f2 f3 f4 hK
        have hnext : ∀ {o : (Option Bool × PyFull B) ⊕ PyFull B} {o'}, iterate n (i + 1) { p1.kktCheck with p := p2 } = o →
            iterate n (i + 1) { q1.kktCheck with p := q2 } = o' →
            (∃ x p q, o = .inl (x, p) ∧ o' = .inl (x, q) ∧ Alike p.p q.p ∧ (x ≠ none → Result p q)) ∨
            (∃ p q, o = .inr p ∧ o' = .inr q ∧ Before p q ∧ (n + 1 ≠ 0 → Result p q)) := by
          rintro o o' rfl rfl
          rcases ih (i + 1) hb with h | ⟨p', q', h1, h2, h3, h4⟩
          · exact .inl h
          · refine .inr ⟨p', q', h1, h2, h3, fun _ => ?_⟩
            by_cases hn : n = 0
            · subst hn
              cases h1; cases h2
              exact hres
            · exact h4 hn
        cases r with
        | gaveUp => exact .inl ⟨_, _, _, rfl, rfl, ha, fun _ => hres⟩
        | accepted => exact hnext rfl rfl
        | exhausted => exact hnext rfl rfl

theorem same_keep {s s' : PyFull B} (h : SameOptions s.p s'.p) (hp : Reachable s) (hq : Reachable s') : keep s.p = keep s'.p := by
  unfold PyCSQP.keep
  rw [h.c, h.mu1, h.mu2, h.lagCoef, h.tol, h.useFilter, h.filterSize, h.extra, hp.clean.1, hp.clean.2, hq.clean.1, hq.clean.2]

/-- **C89, what is remembered.**  Two `CSQP` objects with a dense back end, with any histories and the same options: if the back end's answers
do not depend on earlier QPs or its memory is the same, and the merit weights are fixed or the stored multipliers are the same, then every
call of `solve` with at least one iteration has the same outcome and leaves the same candidate; if it returns, also the same multipliers,
step and residual. -/
theorem C89_dense_history (hT : 0 < P.T) (xs : Option (Traj P)) (us : Option (Ctrls P)) (m : ℕ) {s s' : PyFull B}
    (hp : Reachable s) (hq : Reachable s') (ho : SameOptions s.p s'.p) (hit : m ≠ 0)
    (hmem : Forgets B ∨ s.m = s'.m) (hl : s.p.auto = false ∨ SameMult s.p s'.p) :
    ∃ o p q, solve xs us m s = (o, p) ∧ solve xs us m s' = (o, q) ∧ Alike p.p q.p ∧ (o ≠ none → Result p q) := by
  have hk := same_keep ho hp hq
  have h0 : Before (s.begin_ xs us) (s'.begin_ xs us) := by
    refine ⟨⟨hk, fun _ _ => rfl, fun _ _ => rfl⟩, ?_, hl, hmem⟩
    refine ⟨?_, ?_⟩ <;> simp only [begin_, PyCSQP.start, ho.filterSize]
  unfold solve
  change ∃ o p q, (match iterate m 0 (s.begin_ xs us) with | .inl r => r | .inr s => _) = (o, p) ∧
    (match iterate m 0 (s'.begin_ xs us) with | .inl r => r | .inr s => _) = (o, q) ∧ _
  rcases iterate_alike hT m 0 h0 with ⟨o, p', q', e1, e2, ha, hr⟩ | ⟨p', q', e1, e2, hb, hr⟩
  · rw [e1, e2]
    exact ⟨o, p', q', rfl, rfl, ha, hr⟩
  · rw [e1, e2]
    simp only []
    have kk := keep_all hb.keep
    rw [← kk.2.2.2.2.2.2.2.1]
    split
    · have hd := dirAt_alike hb
      have e3 : ∀ p : PyFull B, computeDirection { p with p := p.p.evaluate } = dirAt p := fun _ => rfl
      rw [e3, e3]
      generalize dirAt p' = rp at hd
      generalize dirAt q' = rq at hd
      cases hd with
      | exn hab => exact ⟨_, _, _, rfl, rfl, hab, fun e => absurd rfl e⟩
      | ok hab =>
        simp only []
        obtain ⟨k1, k3⟩ := kktCheck_after hT hab
        rw [← k1, ← (keep_all k3.keep).2.2.2.2.1]
        exact ⟨_, _, _, rfl, rfl, k3.toAlike, fun _ => k3.result k3.toAlike rfl rfl rfl rfl k1⟩
    · exact ⟨_, _, _, rfl, rfl, hb.toAlike, fun _ => hr hit⟩

/-- **C89, no memory.**  With fixed merit weights and a back end whose answers do not depend on earlier QPs, a call of `solve` on a used
object is a call on a new one with the same options. -/
theorem C89_dense_no_memory (hT : 0 < P.T) (hB : Forgets B) (xs : Option (Traj P)) (us : Option (Ctrls P)) (m : ℕ) {s : PyFull B}
    (hs : Reachable s) (hit : m ≠ 0) (ha : s.p.auto = false) (d : Data P) (mem : B.Mem) :
    ∃ o p q, solve xs us m s = (o, p) ∧
      solve xs us m { new s.p.useFilter d mem with
        p := { (new (B := B) s.p.useFilter d mem).p with
          c := s.p.c, mu1 := s.p.mu1, mu2 := s.p.mu2, lagCoef := s.p.lagCoef, tol := s.p.tol, useFilter := s.p.useFilter,
          filterSize := s.p.filterSize, extra := s.p.extra } } = (o, q) ∧
      Alike p.p q.p ∧ (o ≠ none → Result p q) :=
  C89_dense_history hT xs us m hs (.options (new s.p.useFilter d mem) s.p.c s.p.mu1 s.p.mu2 s.p.lagCoef s.p.tol s.p.useFilter s.p.filterSize s.p.extra (.new _ _ _))
    ⟨rfl, rfl, rfl, rfl, rfl, rfl, rfl, rfl⟩ hit (.inl hB) (.inl ha)

/-- `CustomOSQP` forgets: its answer does not depend on the state it was left in. -/
theorem custom_forgets (sp : SpSolve F) (c : OConf F) : Forgets (PyDense.custom P sp c) := by
  intro mem mem' m
  change OState F P.nVars (P.nEq + P.nIn) at mem mem'
  cases h1 : mem.optimize sp c (PyDense.toOQP P.nVars P.nEq P.nIn m.dense) with
  | exn r =>
    have hr := (OState.C85_osqp_raises (sp := sp) (c := c) (D := PyDense.toOQP P.nVars P.nEq P.nIn m.dense) mem).1 ⟨r, h1⟩
    obtain ⟨r', h2⟩ := (OState.C85_osqp_raises (sp := sp) (c := c) (D := PyDense.toOQP P.nVars P.nEq P.nIn m.dense) mem').2 hr
    simp [PyDense.custom, h1, h2]
  | ok r =>
    have h2 := OState.C85_osqp_no_memory (s' := mem') h1
    simp [PyDense.custom, h1, h2]

/-- **C89, `CustomOSQP`.**  With fixed merit weights a call of `solve` on a used object is a call on a new one with the same options. -/
theorem C89_custom_no_memory (hT : 0 < P.T) (sp : SpSolve F) (c : OConf F) (xs : Option (Traj P)) (us : Option (Ctrls P)) (m : ℕ)
    {s : PyFull (PyDense.custom P sp c)} (hs : Reachable s) (hit : m ≠ 0) (ha : s.p.auto = false) (d : Data P) (mem : (PyDense.custom P sp c).Mem) :
    ∃ o p q, solve xs us m s = (o, p) ∧
      solve xs us m { new s.p.useFilter d mem with
        p := { (new (B := PyDense.custom P sp c) s.p.useFilter d mem).p with
          c := s.p.c, mu1 := s.p.mu1, mu2 := s.p.mu2, lagCoef := s.p.lagCoef, tol := s.p.tol, useFilter := s.p.useFilter,
          filterSize := s.p.filterSize, extra := s.p.extra } } = (o, q) ∧
      Alike p.p q.p ∧ (o ≠ none → Result p q) :=
  C89_dense_no_memory hT (custom_forgets sp c) xs us m hs hit ha d mem

end
end PyFull

namespace Ex
open PyFull

/-- solves the systems of this example: a diagonal matrix bordered by one row. -/
def spB : SpSolve ℚ := fun n M b =>
  if h : n = 3 then by
    subst h
    exact
      let v := (M 0 2 * b 0 / M 0 0 + M 1 2 * b 1 / M 1 1 - b 2) / (M 0 2 * M 0 2 / M 0 0 + M 1 2 * M 1 2 / M 1 1)
      ![(b 0 - M 0 2 * v) / M 0 0, (b 1 - M 1 2 * v) / M 1 1, v]
  else b

/-- one ADMM iteration per QP. -/
def oneQP : OConf ℚ := { oconf with epsAbs := 0, maxQP := 1 }

/-- a new solver with the Boyd back end and the merit function. -/
def boydFull : PyFull (PyDense.boyd pushed spB oneQP) :=
  PyFull.new false (Data.zero _) (⟨0, 0, 0, 0, 1, 0, 0, 0, 0, 0, 0, false, 0, true⟩ : BState ℚ _ _ _)

theorem boyd_runs : ((PyFull.solve none none 1 boydFull).2.p.auto, (PyFull.solve none none 1 boydFull).2.p.us 0 (0 : Fin 1),
    (PyFull.solve none none 1 (PyFull.solve none none 1 boydFull).2).2.p.us 0 (0 : Fin 1)) = ((false, 2, 14 / 5) : Bool × ℚ × ℚ) := by decide +kernel

/-- **C89, the Boyd back end remembers**: fixed merit weights, the same call twice, the default guess both times; the second call returns
another candidate because the ADMM started from the first call's iterates. -/
theorem C89_boyd_remembers : ∃ o o' s' s'', PyFull.solve none none 1 boydFull = (o, s') ∧ PyFull.solve none none 1 s' = (o', s'') ∧
    Reachable s' ∧ boydFull.p.auto = false ∧ s'.p.us 0 (0 : Fin 1) ≠ (s''.p.us 0 (0 : Fin 1) : ℚ) := by
  have e := boyd_runs
  simp only [Prod.mk.injEq] at e
  refine ⟨(PyFull.solve none none 1 boydFull).1, (PyFull.solve none none 1 (PyFull.solve none none 1 boydFull).2).1,
    (PyFull.solve none none 1 boydFull).2, (PyFull.solve none none 1 (PyFull.solve none none 1 boydFull).2).2, rfl, rfl,
    .solve boydFull _ none none 1 _ (.new _ _ _) rfl, rfl, ?_⟩
  rw [e.2.1, e.2.2]
  norm_num

/-- the hypotheses of C89 hold for a used object: the exact back end of C88 does not look at its counter. -/
example : ∃ o p q, PyFull.solve none none 10 (PyFull.solve none none 10 (pushFull true)).2 = (o, p) ∧
    PyFull.solve none none 10 (pushFull true) = (o, q) ∧ p.p.us 0 = q.p.us 0 := by
  have hf : Forgets pushB := fun (mem mem' : ℕ) m => (rfl : qpA mem m.dense = qpA mem' m.dense)
  have hr : Reachable (PyFull.solve none none 10 (pushFull true)).2 := .solve _ _ none none 10 _ (.new _ _ _) rfl
  obtain ⟨o, p, q, h1, h2, h3, -⟩ := C89_dense_history Nat.zero_lt_one none none 10 hr (Reachable.new true (Data.zero _) (0 : ℕ))
    (by
      have hk := PyCSQP.keep_all (solve_keep (xs := none) (us := none) (m := 10) (s := pushFull true) rfl)
      exact ⟨hk.1, hk.2.1, hk.2.2.1, hk.2.2.2.1, hk.2.2.2.2.1, hk.2.2.2.2.2.1, hk.2.2.2.2.2.2.1, hk.2.2.2.2.2.2.2.1⟩) (by decide) (.inl hf)
    (.inl (PyCSQP.auto_same (solve_keep (xs := none) (us := none) (m := 10) (s := pushFull true) rfl)))
  exact ⟨o, p, q, h1, h2, h3.us 0 Nat.zero_lt_one⟩

end Ex
end Mim
