import Verif.Props.QPResidual

/-!
# C32: how the QP loop of SolverCSQP ends; what its residual norms mean
-/
set_option linter.unusedSectionVars false
set_option linter.unusedSimpArgs false

namespace Mim
open Spec QP Matrix

section
variable {F : Type} [Add F] [Sub F] [Mul F] [Div F] [Neg F] [Zero F] [One F] [FloatOps F] [SqrtOps F] {P : Problem F}
variable {llt : LLT F} {E : QEnv P}

/-- **C32.** What `get_qp_iters()` says after a `computeDirection` that does not throw, for every scalar type (floating point
included): stopped on tolerance, it is the number of executed iterations, a multiple of the update interval, and both residuals are
within tolerance; exhausted, it is one more than the number of executed iterations `max_qp_iters`; out of time, it is the number of
executed iterations.  Hence it exceeds `max_qp_iters` exactly when the limit was exhausted without convergence. -/
theorem C32_csqp_qp_iters {q0 q' : CQP P} (h : q0.computeDirection llt E = .ok q') :
    (q'.why = .tol → q'.qpIters = q'.exec ∧ 1 ≤ q'.exec ∧ q'.exec ≤ E.c.maxQP ∧ E.c.interval ∣ q'.qpIters ∧
      leb q'.n.p q'.tolP = true ∧ leb q'.n.d q'.tolD = true) ∧
    (q'.why = .limit → q'.exec = E.c.maxQP ∧ q'.qpIters = E.c.maxQP + 1) ∧
    (q'.why = .time → q'.qpIters = q'.exec ∧ q'.exec < E.c.maxQP ∧ q'.reached = true) ∧
    (q'.qpIters = E.c.maxQP + 1 ↔ q'.why = .limit) := by
  have hd := direction_end h
  clear h
  cases hd with
  | @limit q h he =>
    have hc := h.count
    refine ⟨fun e => (by cases e), fun _ => ⟨he, ?_⟩, fun e => (by cases e), fun _ => rfl, fun _ => ?_⟩ <;>
      simp only [] <;> omega
  | @time q h he ht =>
    have hc := h.count
    refine ⟨fun e => (by cases e), fun e => (by cases e), fun _ => ⟨?_, he, rfl⟩, fun e => ?_, fun e => (by cases e)⟩
    · simp only []; omega
    · simp only [] at e; omega
  | @tol q q1 h he ht hs hi hc =>
    have hcn := h.count
    obtain ⟨m1, m2, _⟩ := step_misc hs
    simp only [] at m1 m2
    have e1 : (q1.setTol E.c).qpIters = q1.qpIters := setTol_qpIters _ _
    have e2 : (q1.setTol E.c).exec = q1.exec := (setTol_v E.c q1).2.2.2.1
    refine ⟨fun _ => ⟨?_, ?_, ?_, ?_, ?_⟩, fun e => (by cases e), fun e => (by cases e), fun e => ?_, fun e => (by cases e)⟩
    · simp only []; omega
    · simp only []; omega
    · simp only []; omega
    · simp only [e1]; exact Nat.dvd_of_mod_eq_zero hi
    · unfold CQP.converged at hc
      rw [Bool.and_eq_true] at hc
      exact hc
    · simp only [] at e; omega

/-- **C32, the test.** No iteration whose number is a multiple of the update interval and whose residuals are within tolerance is
followed by another one; the tolerances are those of `setTol`. -/
theorem C32_csqp_stops_at_first {q0 q : CQP P} (h : AtIter llt E q0 q) (h1 : q.exec ≠ 0)
    (hm : E.c.interval ∣ q.exec) : (leb q.n.p q.tolP && leb q.n.d q.tolD) = false := by
  cases h with
  | first h => exact absurd rfl h1
  | @next q1 q' h ht hs hn =>
    have hc := h.count
    obtain ⟨m1, m2, _⟩ := step_misc hs
    simp only [] at m1 m2
    have hb := between_v (E := E) q'
    have hi : q'.qpIters % E.c.interval = 0 := by
      rw [hb.2.2.2.1] at hm
      have : q'.qpIters = q'.exec := by omega
      rw [this]; exact Nat.mod_eq_zero_of_dvd hm
    have := hn hi
    unfold CQP.converged at this
    unfold CQP.between
    rw [if_pos hi]
    exact this

/-- the tolerances used for the test: absolute, plus relative unless that is (up to `2^-52`) zero. -/
theorem C32_csqp_tolerances {q0 q' : CQP P} (h : q0.computeDirection llt E = .ok q') (hw : q'.why = .tol) :
    if leb (absf E.c.epsRel) (lit (1 / 2 ^ 52)) then q'.tolP = E.c.epsAbs ∧ q'.tolD = E.c.epsAbs
    else q'.tolP = E.c.epsAbs + E.c.epsRel * q'.n.pr ∧ q'.tolD = E.c.epsAbs + E.c.epsRel * q'.n.dr := by
  have hd := direction_end h
  clear h
  cases hd with
  | limit h he => cases hw
  | time h he ht => cases hw
  | @tol q q1 h he ht hs hi hc =>
    unfold CQP.setTol
    by_cases h : leb (absf E.c.epsRel) (lit (1 / 2 ^ 52)) = true
    · simp only [h, if_true, and_self]
    · simp only [h, if_false, and_self, Bool.false_eq_true]

end

/-! ## the residual norms in exact arithmetic -/
section
variable {K : Type} [Field K] [LinearOrder K] [IsStrictOrderedRing K] [SqrtOps K] {P : Problem K}
variable {llt : LLT K} {E : QEnv P}

/-- all entries of a vector are at most `c` in absolute value. -/
def AllLe {n : ℕ} (v : Vec K n) (c : K) : Prop := ∀ i, |v i| ≤ c

/-- the dual measure of a multiplier-like vector at a running node: the vector itself with the heuristic, else its images. -/
def DualLe (E : QEnv P) (t : ℕ) (a : Vec K (P.ng t)) (c : K) : Prop :=
  if E.c.heuristic then AllLe a c else AllLe ((E.d.rd t).Gxᵀ *ᵥ a) c ∧ AllLe ((E.d.rd t).Guᵀ *ᵥ a) c
/-- the same at the terminal node. -/
def DualLeT (E : QEnv P) (a : Vec K (P.ng P.T)) (c : K) : Prop :=
  if E.c.heuristic then AllLe a c else AllLe (E.d.td.Gxᵀ *ᵥ a) c

/-- what the four norms bound, with `z` before and `v'` after the iteration (`rho` the penalties during it). -/
structure NormsMean (E : QEnv P) (n : CNorms K) (z rho : (t : ℕ) → Vec K (P.ng t)) (dx : ℕ → Vec K P.ndx)
    (du : (t : ℕ) → Vec K (P.nu t)) (z' y' : (t : ℕ) → Vec K (P.ng t)) : Prop where
  p : ∀ c, 0 ≤ c → (n.p ≤ c ↔ (∀ t, t < P.T → AllLe (conLin E.d t (dx t) (du t) - z' t) c) ∧
    AllLe (E.d.td.Gx *ᵥ dx P.T - z' P.T) c)
  d : ∀ c, 0 ≤ c → (n.d ≤ c ↔ (∀ t, t < P.T → DualLe E t (rho t * (z' t - z t)) c) ∧
    DualLeT E (rho P.T * (z' P.T - z P.T)) c)
  pr : ∀ c, 0 ≤ c → (n.pr ≤ c ↔ (∀ t, t < P.T → AllLe (conLin E.d t (dx t) (du t)) c ∧ AllLe (z' t) c) ∧
    AllLe (E.d.td.Gx *ᵥ dx P.T) c ∧ AllLe (z' P.T) c)
  dr : ∀ c, 0 ≤ c → (n.dr ≤ c ↔ (∀ t, t < P.T → DualLe E t (y' t) c) ∧ DualLeT E (y' P.T) c)

theorem allLe_iff {n : ℕ} (v : Vec K n) {c : K} (h : 0 ≤ c) : exactNormInf v ≤ c ↔ AllLe v c := by
  rw [exactNormInf_le]; exact ⟨fun h => h.2, fun h' => ⟨h, h'⟩⟩

theorem allLe_empty {n : ℕ} (hn : n = 0) (v : Vec K n) (c : K) : AllLe v c := fun i => (Fin.cast hn i).elim0
theorem allLe_zero {n : ℕ} {c : K} (h : 0 ≤ c) : AllLe (0 : Vec K n) c := fun i => by simpa using h

theorem dualLe_empty {t : ℕ} (hn : P.ng t = 0) (a : Vec K (P.ng t)) {c : K} (h : 0 ≤ c) : DualLe E t a c := by
  unfold DualLe
  split
  · exact allLe_empty hn _ _
  · rw [QP.mulVec_empty hn, QP.mulVec_empty hn]; exact ⟨allLe_zero h, allLe_zero h⟩

theorem dualLeT_empty (hn : P.ng P.T = 0) (a : Vec K (P.ng P.T)) {c : K} (h : 0 ≤ c) : DualLeT E a c := by
  unfold DualLeT
  split
  · exact allLe_empty hn _ _
  · rw [QP.mulVec_empty hn]; exact allLe_zero h

/-- what the norms bound after the running nodes below `n`. -/
structure NormsUpTo (E : QEnv P) (v0 : CVars P) (k : ℕ) (n : CNorms K) : Prop where
  p : ∀ c, 0 ≤ c → (n.p ≤ c ↔ ∀ t, t < k → AllLe (Cd E v0 t - (admmR E v0 t).2.1) c)
  d : ∀ c, 0 ≤ c → (n.d ≤ c ↔ ∀ t, t < k → DualLe E t (v0.rho t * ((admmR E v0 t).2.1 - v0.z t)) c)
  pr : ∀ c, 0 ≤ c → (n.pr ≤ c ↔ ∀ t, t < k → AllLe (Cd E v0 t) c ∧ AllLe (admmR E v0 t).2.1 c)
  dr : ∀ c, 0 ≤ c → (n.dr ≤ c ↔ ∀ t, t < k → DualLe E t (admmR E v0 t).2.2 c)

theorem forall_lt_succ' {k : ℕ} {Q : ℕ → Prop} : (∀ t, t < k + 1 → Q t) ↔ (∀ t, t < k → Q t) ∧ Q k :=
  ⟨fun h => ⟨fun t ht => h t (by omega), h k (by omega)⟩, fun h t ht => by
    rcases Nat.lt_succ_iff_lt_or_eq.mp ht with h1 | h1
    · exact h.1 t h1
    · subst h1; exact h.2⟩

theorem lag_norms (it : ℕ) (hi : it % E.c.interval = 0) (k : ℕ) (v : CVars P) :
    NormsUpTo E v k (forUp k (lagStage E it) (v, ⟨negInf, negInf, negInf, negInf⟩)).2 := by
  induction k with
  | zero =>
    have h1 : ∀ c : K, 0 ≤ c → (-1 : K) ≤ c := fun c h => le_trans (by norm_num) h
    refine ⟨fun c hc => ?_, fun c hc => ?_, fun c hc => ?_, fun c hc => ?_⟩ <;>
      exact ⟨fun _ t ht => absurd ht (Nat.not_lt_zero _), fun _ => h1 c hc⟩
  | succ k ih =>
    rw [forUp_succ]
    obtain ⟨u1, u2, u3, u4, u5, u6⟩ := lagUp_spec (E := E) it k v ⟨negInf, negInf, negInf, negInf⟩
    generalize forUp k (lagStage E it) (v, ⟨negInf, negInf, negInf, negInf⟩) = s at *
    obtain ⟨v1, n⟩ := s
    simp only [] at u1 u2 u3 u4 u5 u6 ih
    unfold lagStage
    by_cases hg : P.ng k = 0
    · simp only [hg, if_true]
      refine ⟨fun c hc => ?_, fun c hc => ?_, fun c hc => ?_, fun c hc => ?_⟩ <;> rw [forall_lt_succ']
      · rw [ih.p c hc]; exact ⟨fun h => ⟨h, allLe_empty hg _ _⟩, fun h => h.1⟩
      · rw [ih.d c hc]; exact ⟨fun h => ⟨h, dualLe_empty hg _ hc⟩, fun h => h.1⟩
      · rw [ih.pr c hc]; exact ⟨fun h => ⟨h, allLe_empty hg _ _, allLe_empty hg _ _⟩, fun h => h.1⟩
      · rw [ih.dr c hc]; exact ⟨fun h => ⟨h, dualLe_empty hg _ hc⟩, fun h => h.1⟩
    · simp only [hg, if_false, hi, if_true, normStep, u1, u2, u3, u4, (u6 k le_rfl).1, (u6 k le_rfl).2]
      have ea : admmNode E.c.alpha (P.lb k) (P.ub k) (E.d.run k).g
          (mv (E.d.rd k).Gx (v.dxt k) + mv (E.d.rd k).Gu (v.dut k)) (v.z k) (v.y k) (v.rho k) (v.inv k) = admmR E v k := rfl
      have ec : mv (E.d.rd k).Gx (v.dxt k) + mv (E.d.rd k).Gu (v.dut k) = Cd E v k := rfl
      rw [ea, ec]
      have hdual : ∀ (x : K) (a : Vec K (P.ng k)) (c : K), 0 ≤ c → ((if E.c.heuristic = true then [normInf a] else
          [normInf (mv (E.d.rd k).Gx.transpose a), normInf (mv (E.d.rd k).Gu.transpose a)]).foldl cppMax x ≤ c ↔
          x ≤ c ∧ DualLe E k a c) := by
        intro x a c hc
        unfold DualLe
        cases hh : E.c.heuristic with
        | true => simp only [if_true, List.foldl, cppMax_exact, normInf_exact, max_le_iff, allLe_iff _ hc]
        | false =>
          simp only [Bool.false_eq_true, if_false, List.foldl, cppMax_exact, normInf_exact, max_le_iff, allLe_iff _ hc,
            mv_exact, and_assoc]
      refine ⟨fun c hc => ?_, fun c hc => ?_, fun c hc => ?_, fun c hc => ?_⟩ <;> rw [forall_lt_succ']
      · rw [cppMax_exact, max_le_iff, ih.p c hc, normInf_exact, allLe_iff _ hc]
      · rw [hdual _ _ c hc, ih.d c hc, cw_exact]
      · simp only []; rw [cppMax_exact, max_le_iff, cppMax_exact, max_le_iff, ih.pr c hc, normInf_exact, normInf_exact, allLe_iff _ hc,
          allLe_iff _ hc, and_assoc]
      · rw [hdual _ _ c hc, ih.dr c hc]

/-- **C32, the norms.** In exact arithmetic, after an executed iteration whose number is a multiple of the update interval, the
four norms are the ones of the ADMM residuals: `norm_primal ≤ c` iff every `|G d' - z'|` entry is, `norm_dual ≤ c` iff every entry
of `G' ρ (z' - z)` is (of `ρ (z' - z)` itself with the heuristic), and so on (for `c ≥ 0`). -/
theorem C32_csqp_norms {q q' : CQP P} (hst : q.step llt E = .ok q') (hi : E.c.interval ∣ q.qpIters) :
    NormsMean E q'.n q.v.z q.v.rho q'.v.dx q'.v.du q'.v.z q'.v.y := by
  unfold CQP.step at hst
  obtain ⟨q1, h1, h2⟩ := Res.thenDo_eq_ok hst
  have hq : ∃ b, q1 = { q with b := b } := by
    unfold CQP.pass at h1
    split at h1
    · split at h1
      all_goals
        obtain ⟨b, _, h4⟩ := Res.map_eq_ok h1
        exact ⟨b, h4.symm⟩
    · cases h1
      exact ⟨_, rfl⟩
  obtain ⟨b, rfl⟩ := hq
  clear h1 hst
  generalize hqf : ({ q with b := b } : CQP P).forward E = qf at h2
  have f1 : qf.v.z = q.v.z := by subst hqf; rfl
  have f2 : qf.v.rho = q.v.rho := by subst hqf; rfl
  have f3 : qf.qpIters = q.qpIters := by subst hqf; rfl
  have hl := updateLag_ok (E := E) qf
  obtain ⟨r, i, hv⟩ := updateRho_v (E := E) (qf.updateLag E)
  have hn : ((qf.updateLag E).updateRho E).n = (qf.updateLag E).n := by
    unfold CQP.updateRho
    simp only []
    split
    · split <;> rfl
    · rfl
  have e1 : q'.n = (qf.updateLag E).n := by subst h2; exact hn
  have e2 : q'.v = { (qf.updateLag E).v with rho := r, inv := i } := by subst h2; exact hv
  have hz : ∀ t, t < P.T → q'.v.z t = (admmR E qf.v t).2.1 := fun t ht => by rw [e2]; exact (hl.run t ht).2.1
  have hy : ∀ t, t < P.T → q'.v.y t = (admmR E qf.v t).2.2 := fun t ht => by rw [e2]; exact (hl.run t ht).2.2
  have hc : ∀ t, t < P.T → conLin E.d t (q'.v.dx t) (q'.v.du t) = Cd E qf.v t := fun t ht => by
    have a : q'.v.dx t = qf.v.dxt t := by rw [e2]; exact hl.dx t ht.le
    have b : q'.v.du t = qf.v.dut t := by rw [e2]; exact hl.du t ht
    rw [a, b]; rfl
  have hzT : q'.v.z P.T = (admmT E qf.v).2.1 := by rw [e2]; exact hl.ter.2.1
  have hyT : q'.v.y P.T = (admmT E qf.v).2.2 := by rw [e2]; exact hl.ter.2.2
  have hcT : E.d.td.Gx *ᵥ q'.v.dx P.T = CdT E qf.v := by
    have a : q'.v.dx P.T = qf.v.dxt P.T := by rw [e2]; exact hl.dx _ le_rfl
    rw [a]; rfl
  have hi' : qf.qpIters % E.c.interval = 0 := by rw [f3]; exact Nat.mod_eq_zero_of_dvd hi
  have hN := lag_norms (E := E) qf.qpIters hi' P.T qf.v
  obtain ⟨u1, u2, u3, u4, u5, u6⟩ := lagUp_spec (E := E) qf.qpIters P.T qf.v ⟨negInf, negInf, negInf, negInf⟩
  have e3 : (qf.updateLag E).n = (lagTerm E qf.qpIters (forUp P.T (lagStage E qf.qpIters)
      (qf.v, ⟨negInf, negInf, negInf, negInf⟩))).2 := rfl
  rw [e1, e3, ← f1, ← f2]
  generalize forUp P.T (lagStage E qf.qpIters) (qf.v, ⟨negInf, negInf, negInf, negInf⟩) = s at *
  obtain ⟨v1, n⟩ := s
  simp only [] at u1 u2 u3 u4 u5 u6 hN
  unfold lagTerm
  have pR : ∀ c, (∀ t, t < P.T → AllLe (conLin E.d t (q'.v.dx t) (q'.v.du t) - q'.v.z t) c) ↔
      ∀ t, t < P.T → AllLe (Cd E qf.v t - (admmR E qf.v t).2.1) c := fun c =>
    forall_congr' fun t => forall_congr' fun ht => by rw [hc t ht, hz t ht]
  have dR : ∀ c, (∀ t, t < P.T → DualLe E t (qf.v.rho t * (q'.v.z t - qf.v.z t)) c) ↔
      ∀ t, t < P.T → DualLe E t (qf.v.rho t * ((admmR E qf.v t).2.1 - qf.v.z t)) c := fun c =>
    forall_congr' fun t => forall_congr' fun ht => by rw [hz t ht]
  have prR : ∀ c, (∀ t, t < P.T → AllLe (conLin E.d t (q'.v.dx t) (q'.v.du t)) c ∧ AllLe (q'.v.z t) c) ↔
      ∀ t, t < P.T → AllLe (Cd E qf.v t) c ∧ AllLe (admmR E qf.v t).2.1 c := fun c =>
    forall_congr' fun t => forall_congr' fun ht => by rw [hc t ht, hz t ht]
  have drR : ∀ c, (∀ t, t < P.T → DualLe E t (q'.v.y t) c) ↔
      ∀ t, t < P.T → DualLe E t (admmR E qf.v t).2.2 c := fun c =>
    forall_congr' fun t => forall_congr' fun ht => by rw [hy t ht]
  by_cases hg : P.ng P.T = 0
  · simp only [hg, ne_eq, not_true_eq_false, if_false]
    refine ⟨fun c hc => ?_, fun c hc => ?_, fun c hc => ?_, fun c hc => ?_⟩
    · rw [hN.p c hc, pR]; exact ⟨fun h => ⟨h, allLe_empty hg _ _⟩, fun h => h.1⟩
    · rw [hN.d c hc, dR]; exact ⟨fun h => ⟨h, dualLeT_empty hg _ hc⟩, fun h => h.1⟩
    · rw [hN.pr c hc, prR]; exact ⟨fun h => ⟨h, allLe_empty hg _ _, allLe_empty hg _ _⟩, fun h => h.1⟩
    · rw [hN.dr c hc, drR]; exact ⟨fun h => ⟨h, dualLeT_empty hg _ hc⟩, fun h => h.1⟩
  · simp only [hg, ne_eq, not_false_eq_true, if_true, hi', normStep, u1, u3, u4, (u6 _ le_rfl).1, (u6 _ le_rfl).2]
    have ea : admmNode E.c.alpha (P.lb P.T) (P.ub P.T) E.d.ter.g (mv E.d.td.Gx (qf.v.dxt P.T)) (qf.v.z P.T) (qf.v.y P.T)
        (qf.v.rho P.T) (qf.v.inv P.T) = admmT E qf.v := rfl
    have ec : mv E.d.td.Gx (qf.v.dxt P.T) = CdT E qf.v := rfl
    rw [ea, ec]
    have hdual : ∀ (x : K) (a : Vec K (P.ng P.T)) (c : K), 0 ≤ c → ((if E.c.heuristic = true then [normInf a] else
        [normInf (mv E.d.td.Gx.transpose a)]).foldl cppMax x ≤ c ↔ x ≤ c ∧ DualLeT E a c) := by
      intro x a c hc
      unfold DualLeT
      cases hh : E.c.heuristic with
      | true => simp only [if_true, List.foldl, cppMax_exact, normInf_exact, max_le_iff, allLe_iff _ hc]
      | false =>
        simp only [Bool.false_eq_true, if_false, List.foldl, cppMax_exact, normInf_exact, max_le_iff, allLe_iff _ hc,
          mv_exact, and_assoc]
    refine ⟨fun c hc => ?_, fun c hc => ?_, fun c hc => ?_, fun c hc => ?_⟩
    · rw [cppMax_exact, max_le_iff, hN.p c hc, normInf_exact, allLe_iff _ hc, pR, hcT, hzT]
    · rw [hdual _ _ c hc, hN.d c hc, cw_exact, dR, hzT]
    · simp only []; rw [cppMax_exact, max_le_iff, cppMax_exact, max_le_iff, hN.pr c hc, normInf_exact, normInf_exact, allLe_iff _ hc,
        allLe_iff _ hc, and_assoc, prR, hcT, hzT]
    · rw [hdual _ _ c hc, hN.dr c hc, drR, hyT]

end

/-! ## non-vacuity: the three ways out of the loop -/
namespace Ex
open CSQP

/-- tolerance: `idle` stops at its first iteration. -/
example : idleCall.dir world = .ok idleRes ∧ idleRes.q.why = .tol ∧ idleRes.q.qpIters = 1 ∧ idleRes.q.exec = 1 :=
  ⟨C28_csqp_stop_ignores_prox.2.2.1, by decide +kernel, by decide +kernel, by decide +kernel⟩

noncomputable def linCallL : CSQP lin := entry (linSolver.start world none none 5 0)
noncomputable def linResL : CQP lin := (linCallL.q.computeDirection world.llt (linCallL.env world)).st

/-- limit: `linSolver` may make one iteration, and reports two. -/
example : linCallL.q.computeDirection world.llt (linCallL.env world) = .ok linResL ∧ linResL.why = .limit ∧
    linSolver.c.maxQP = 1 ∧ linResL.qpIters = 2 ∧ linResL.exec = 1 :=
  ⟨ok_st (by decide +kernel), by decide +kernel, by decide +kernel, by decide +kernel, by decide +kernel⟩

/-- a clock that jumps past the limit of one second at the third reading. -/
noncomputable def worldT : World ℚ := ⟨llt1, fun i => if i < 3 then 0 else 2, none⟩
noncomputable def linCallT : CSQP lin := entry (lin0Solver.start worldT none none 5 0)
noncomputable def linResT : CQP lin := (linCallT.q.computeDirection worldT.llt (linCallT.env worldT)).st

/-- time: `lin0Solver` may make three iterations and is stopped after the first. -/
example : linCallT.q.computeDirection worldT.llt (linCallT.env worldT) = .ok linResT ∧ linResT.why = .time ∧
    lin0Solver.c.maxQP = 3 ∧ linResT.qpIters = 1 ∧ linResT.exec = 1 ∧ linResT.reached = true :=
  ⟨ok_st (by decide +kernel), by decide +kernel, by decide +kernel, by decide +kernel, by decide +kernel, by decide +kernel⟩

/-- the hypotheses of `C32_csqp_norms` are met by the first iteration of `idle`. -/
example : ∃ q' : CQP idle, ({ idleCall.q.resetParams idleSolver.c with qpIters := 1 } : CQP idle).step world.llt
    (idleCall.env world) = .ok q' ∧ (idleCall.env world).c.interval ∣ 1 :=
  ⟨_, ok_st (by decide +kernel), by decide +kernel⟩

end Ex
end Mim
