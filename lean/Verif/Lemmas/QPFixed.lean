import Verif.Props.QPResidual
import Verif.Props.CSQPNoCon

/-!
# The QP iteration stays at an exact solution
-/
set_option linter.unusedSectionVars false
set_option linter.unusedSimpArgs false

namespace Mim
open Spec QP Matrix

section
variable {K : Type} [Field K] [LinearOrder K] [IsStrictOrderedRing K] [SqrtOps K] {P : Problem K}
variable {llt : LLT K} {E : QEnv P}

/-- the zero step solves the QP of `E` with multipliers `lam` (dynamics, `lam 0` for the first state) and `y` (constraints). -/
structure ZeroQP (E : QEnv P) (lam : ℕ → Vec K P.ndx) (y : (t : ℕ) → Vec K (P.ng t)) : Prop where
  stat_x : ∀ t, t < P.T → (E.d.rd t).Lx + (E.d.rd t).Fxᵀ *ᵥ lam (t + 1) +
    (if 0 < t then (E.d.rd t).Gxᵀ *ᵥ y t else 0) = lam t
  stat_u : ∀ t, t < P.T → (E.d.rd t).Lu + (E.d.rd t).Fuᵀ *ᵥ lam (t + 1) + (E.d.rd t).Guᵀ *ᵥ y t = 0
  stat_T : E.d.td.Lx + E.d.td.Gxᵀ *ᵥ y P.T = lam P.T
  gaps : ∀ t, t < P.T → E.fs (t + 1) = 0
  boxR : ∀ t, t < P.T → InBox (P.lb t) (P.ub t) (E.d.run t).g
  boxT : InBox (P.lb P.T) (P.ub P.T) E.d.ter.g
  coneR : ∀ t, t < P.T → NormalCone (P.lb t) (P.ub t) (E.d.run t).g (y t)
  coneT : NormalCone (P.lb P.T) (P.ub P.T) E.d.ter.g (y P.T)

/-- the ADMM variables sit at the zero step. -/
structure AtZero (y : (t : ℕ) → Vec K (P.ng t)) (v : CVars P) : Prop where
  dx : ∀ t, t ≤ P.T → v.dx t = 0
  du : ∀ t, t < P.T → v.du t = 0
  z : ∀ t, t ≤ P.T → v.z t = 0
  y : ∀ t, t ≤ P.T → v.y t = y t

/-- the zero step and `lam` satisfy the optimality conditions of the linear-quadratic problem of an ADMM iteration. -/
theorem AtZero.kkt {lam : ℕ → Vec K P.ndx} {y : (t : ℕ) → Vec K (P.ng t)} (hz : ZeroQP E lam y) {v : CVars P} (hv : AtZero y v) :
    (fullLQ E v).KKT (fun _ => 0) (fun _ => 0) lam := by
  refine ⟨fun t ht => ?_, fun t ht => ?_, ?_, fun t ht => ?_⟩
  · rw [← hz.stat_x t ht]
    simp only [fullLQ, Matrix.mulVec_zero, hv.dx t ht.le, hv.z t ht.le, hv.y t ht.le, smul_zero, mul_zero, sub_zero, zero_add]
    abel
  · refine Eq.trans ?_ (hz.stat_u t ht)
    simp only [fullLQ, Matrix.mulVec_zero, hv.du t ht, hv.z t ht.le, hv.y t ht.le, smul_zero, mul_zero, sub_zero, zero_add]
    abel
  · rw [← hz.stat_T]
    simp only [fullLQ, Matrix.mulVec_zero, hv.dx P.T le_rfl, hv.z P.T le_rfl, hv.y P.T le_rfl, smul_zero, mul_zero, sub_zero, zero_add]
  · simp only [fullLQ, Matrix.mulVec_zero, hz.gaps t ht, zero_add]

/-- a policy without feed-forward terms, started at zero without gaps, stays at zero. -/
theorem fwdLoop_zero_all (hg : ∀ t, t < P.T → E.fs (t + 1) = 0) {b : BP P} (hk : ∀ t, t < P.T → b.k t = 0)
    {x : (ℕ → Vec K P.ndx) × ((t : ℕ) → Vec K (P.nu t))} (h0 : x.1 0 = 0) :
    (∀ t, t ≤ P.T → (fwdLoop E b x).1 t = 0) ∧ ∀ t, t < P.T → (fwdLoop E b x).2 t = 0 := by
  obtain ⟨f1, f2, f3⟩ := fwdLoop_spec E b x
  have key : ∀ t, t ≤ P.T → (fwdLoop E b x).1 t = 0 := by
    intro t
    induction t with
    | zero => intro _; exact f3.trans h0
    | succ t ih =>
      intro ht
      rw [f1 t ht, f2 t ht, ih (by omega), hk t ht, hg t ht]
      simp
  refine ⟨key, fun t ht => ?_⟩
  rw [f2 t ht, key t ht.le, hk t ht]
  simp

/-- one row: the projection of `y / ρ` is zero at a complementary point. -/
theorem clampRow_zero {lb ub : Option K} {g y r : K} (hr : 0 < r) (hl : ∀ l, lb = some l → l ≤ g) (hu : ∀ u, ub = some u → g ≤ u)
    (hp : 0 < y → ub = some g) (hn : y < 0 → lb = some g) : clampRow lb ub g (y * (1 / r)) = 0 := by
  have hi : 0 < 1 / r := one_div_pos.mpr hr
  rcases lt_trichotomy y 0 with h | h | h
  · have e := hn h
    subst e
    have hy : y * (1 / r) ≤ 0 := (mul_neg_of_neg_of_pos h hi).le
    generalize y * (1 / r) = w at hy ⊢
    cases ub with
    | none => simp [clampRow, hy]
    | some u => 
      have := hu u rfl
      simp [clampRow, hy, this] 
  · subst h
    cases lb with
    | none =>
      cases ub with
      | none => simp [clampRow]
      | some u => have := hu u rfl; simp [clampRow, this]
    | some l =>
      have hl' := hl l rfl
      cases ub with
      | none => simp [clampRow, hl']
      | some u => have := hu u rfl; simp [clampRow, this, hl']
  · have e := hp h
    subst e
    have hy : 0 ≤ y * (1 / r) := (mul_pos h hi).le
    generalize y * (1 / r) = w at hy ⊢
    cases lb with
    | none => simp [clampRow, hy]
    | some l =>
      have hl' := hl l rfl
      have h2 : l - g ≤ w := by linarith
      simp [clampRow, hy, h2]

/-- one node: nothing changes. -/
theorem admmNode_zero {m : ℕ} {alpha : K} {lb ub : Fin m → Option K} {g y rho inv : Vec K m} (hb : InBox lb ub g)
    (hc : NormalCone lb ub g y) (hr : ∀ i, 0 < rho i ∧ inv i = 1 / rho i) :
    (admmNode alpha lb ub g 0 0 y rho inv).2 = (0, y) := by
  have h1 : (admmNode alpha lb ub g 0 0 y rho inv).2.1 = 0 := by
    funext i
    unfold admmNode
    simp only [sv_exact, cw_exact, smul_zero, zero_add, Pi.mul_apply, (hr i).2, Pi.zero_apply]
    exact clampRow_zero (hr i).1 (hb i).1 (hb i).2 (hc i).1 (hc i).2
  have h2 : (admmNode alpha lb ub g 0 0 y rho inv).2.2 =
      y + cw rho ((sv alpha (0 : Vec K m) + sv (1 - alpha) (0 : Vec K m)) - (admmNode alpha lb ub g 0 0 y rho inv).2.1) := rfl
  rw [h1] at h2
  refine Prod.ext h1 ?_
  rw [h2]
  simp [sv_exact, cw_exact]

/-- one executed iteration: the step, the multipliers and the stored value gradients. -/
theorem AtZero.step (hllt : LLTExact llt) (hsym : SymHess E.d) (hs : ∀ l, E.sched = some l → SchedOK P l)
    {lam : ℕ → Vec K P.ndx} {y : (t : ℕ) → Vec K (P.ng t)} (hz : ZeroQP E lam y) {q0 q q' : CQP P} (h0 : CSQP.Zero0 q0)
    (h : AtIter llt E q0 q) (hr : ∀ t, t ≤ P.T → ∀ i, 0 < q.v.rho t i ∧ q.v.inv t i = 1 / q.v.rho t i)
    (hst : ({ q with tick := q.tick + 1 } : CQP P).step llt E = .ok q') (hv : AtZero y q.v) :
    AtZero y q'.v ∧ (∀ t, t ≤ P.T → q'.v.dxt t = 0) ∧ (∀ t, t < P.T → q'.v.dut t = 0) ∧ ∀ t, t ≤ P.T → q'.b.bp.Vx t = lam t := by
  obtain ⟨E', e1, e2, e3, e4, e5, e6, h', hst'⟩ := seq_env hs h hst
  have hz' : ZeroQP E' lam y := by
    obtain ⟨a1, a2, a3, a4, a5, a6, a7, a8⟩ := hz
    constructor <;> simp only [e2, e3] <;> assumption
  obtain ⟨B, h6, h3, v2, r, i, hl, hv2⟩ := step_seq e1 h' hst'
  have hz0 := h.zero0 h0
  obtain ⟨hR, hpd⟩ := full_riccati hllt (e2 ▸ hsym) h6
  obtain ⟨u1, u2⟩ := Riccati.kkt_unique hR hpd (AtZero.kkt hz' hv)
  have hk : ∀ t, t < P.T → B.bp.k t = 0 := by
    intro t ht
    have := u1 t ht
    simp only [Matrix.mulVec_zero, neg_zero, zero_sub] at this
    exact neg_eq_zero.mp this.symm
  have hV : ∀ t, t ≤ P.T → B.bp.Vx t = lam t := by
    intro t ht
    have := u2 t ht
    simp only [Matrix.mulVec_zero, zero_add] at this
    exact this.symm
  obtain ⟨f1, f2⟩ := fwdLoop_zero_all (x := (q.v.dxt, q.v.dut)) hz'.gaps hk hz0.2
  have hzR : ∀ t, t < P.T → v2.z t = 0 ∧ v2.y t = y t := by
    intro t ht
    have := hl.run t ht
    have e : (admmR E' ({ q.v with dxt := (fwdLoop E' B.bp (q.v.dxt, q.v.dut)).1, dut := (fwdLoop E' B.bp (q.v.dxt, q.v.dut)).2 } : CVars P) t).2
        = (0, y t) := by
      unfold admmR Cd
      simp only [mv_exact, f1 t ht.le, f2 t ht, Matrix.mulVec_zero, add_zero, hv.z t ht.le, hv.y t ht.le]
      exact admmNode_zero (hz'.boxR t ht) (hz'.coneR t ht) (hr t ht.le)
    rw [e] at this
    exact ⟨this.2.1, this.2.2⟩
  have hzT : v2.z P.T = 0 ∧ v2.y P.T = y P.T := by
    have := hl.ter
    have e : (admmT E' ({ q.v with dxt := (fwdLoop E' B.bp (q.v.dxt, q.v.dut)).1, dut := (fwdLoop E' B.bp (q.v.dxt, q.v.dut)).2 } : CVars P)).2
        = (0, y P.T) := by
      unfold admmT CdT
      simp only [mv_exact, f1 P.T le_rfl, Matrix.mulVec_zero, add_zero, hv.z P.T le_rfl, hv.y P.T le_rfl]
      exact admmNode_zero hz'.boxT hz'.coneT (hr P.T le_rfl)
    rw [e] at this
    exact ⟨this.2.1, this.2.2⟩
  rw [hv2, h3]
  refine ⟨⟨fun t ht => ?_, fun t ht => ?_, fun t ht => ?_, fun t ht => ?_⟩, fun t ht => ?_, fun t ht => ?_, hV⟩
  · exact (hl.dx t ht).trans (f1 t ht)
  · exact (hl.du t ht).trans (f2 t ht)
  · rcases ht.lt_or_eq with ht | rfl
    · exact (hzR t ht).1
    · exact hzT.1
  · rcases ht.lt_or_eq with ht | rfl
    · exact (hzR t ht).2
    · exact hzT.2
  · change v2.dxt t = 0; rw [hl.dxt]; exact f1 t ht
  · change v2.dut t = 0; rw [hl.dut]; exact f2 t ht

/-- the warm start: without constraint forces the unconstrained step is zero as well. -/
theorem ZeroQP.warm (hllt : LLTExact llt) (hsym : SymHess E.d) {lam : ℕ → Vec K P.ndx} {y : (t : ℕ) → Vec K (P.ng t)}
    (hz : ZeroQP E lam y) (hy : ∀ t, t ≤ P.T → y t = 0) {q q' : CQP P} (h0 : CSQP.Zero0 q) (hg : E.c.eqGuess = true)
    (h : q.warm llt E = .ok q') :
    (∀ t, t ≤ P.T → q'.v.dx t = 0) ∧ (∀ t, t < P.T → q'.v.du t = 0) ∧ q'.v.z = q.v.z ∧ q'.v.y = q.v.y := by
  unfold CQP.warm at h
  rw [if_pos hg] at h
  obtain ⟨q1, h1, rfl⟩ := Res.thenDo_eq_ok h
  obtain ⟨b, h2, rfl⟩ := Res.map_eq_ok h1
  obtain ⟨k1, k2, k3, k4⟩ := plainPass_ok h2
  obtain ⟨hR, hpd⟩ := sweep_riccati hllt (plain_termsOf E hsym) rfl (by rw [k1, regDiag_exact]; rfl) k2 k3 k4
  have hkkt : (lqOf E.d E.fs E.preg E.dreg).KKT (fun _ => 0) (fun _ => 0) lam := by
    refine ⟨fun t ht => ?_, fun t ht => ?_, ?_, fun t ht => ?_⟩
    · rw [← hz.stat_x t ht]
      simp only [lqOf, Matrix.mulVec_zero, hy t ht.le, zero_add, ite_self, add_zero]
    · refine Eq.trans ?_ (hz.stat_u t ht)
      simp only [lqOf, Matrix.mulVec_zero, hy t ht.le, zero_add, add_zero]
    · rw [← hz.stat_T]
      simp only [lqOf, Matrix.mulVec_zero, hy P.T le_rfl, zero_add, add_zero]
    · simp only [lqOf, Matrix.mulVec_zero, hz.gaps t ht, zero_add]
  obtain ⟨u1, u2⟩ := Riccati.kkt_unique hR hpd hkkt
  have hk : ∀ t, t < P.T → b.bp.k t = 0 := by
    intro t ht
    have := u1 t ht
    simp only [Matrix.mulVec_zero, neg_zero, zero_sub] at this
    exact neg_eq_zero.mp this.symm
  obtain ⟨f1, f2⟩ := fwdLoop_zero_all (x := (q.v.dx, q.v.du)) hz.gaps hk h0.1
  exact ⟨f1, f2, rfl, rfl⟩

/-- **A QP started at an exact solution stays there**: all iterations of `computeDirection`. -/
theorem ZeroQP.direction (hllt : LLTExact llt) (hsym : SymHess E.d) (hs : ∀ l, E.sched = some l → SchedOK P l)
    {lam : ℕ → Vec K P.ndx} {y : (t : ℕ) → Vec K (P.ng t)} (hz : ZeroQP E lam y) {q0 q' : CQP P} (h0 : CSQP.Zero0 q0)
    (hy : ∀ t, t ≤ P.T → (if E.c.resetY then 0 else q0.v.y t) = y t)
    (hw : (E.c.eqGuess = true ∧ ∀ t, t ≤ P.T → y t = 0) ∨
      (E.c.eqGuess = false ∧ (∀ t, t ≤ P.T → q0.v.dx t = 0) ∧ ∀ t, t < P.T → q0.v.du t = 0))
    (hr : ∀ q, AtIter llt E q0 q → ∀ t, t ≤ P.T → ∀ i, 0 < q.v.rho t i ∧ q.v.inv t i = 1 / q.v.rho t i)
    (ht : ∀ q, AtIter llt E q0 q → q.timeUp E = false) (hm : 0 < E.c.maxQP) (h : q0.computeDirection llt E = .ok q') :
    AtZero y q'.v ∧ (∀ t, t ≤ P.T → q'.v.dxt t = 0) ∧ (∀ t, t < P.T → q'.v.dut t = 0) ∧ (∀ t, t ≤ P.T → q'.b.bp.Vx t = lam t) ∧
    0 < q'.qpIters := by
  have hR : ∀ q, (q0.resetParams E.c).warm llt E = .ok q → AtZero y q.v := by
    intro q hq
    have ez : ∀ t, t ≤ P.T → (q0.resetParams E.c).v.z t = 0 ∧ (q0.resetParams E.c).v.y t = y t ∧
        (q0.resetParams E.c).v.dx = q0.v.dx ∧ (q0.resetParams E.c).v.du = q0.v.du := by
      intro t ht
      have hyt := hy t ht
      unfold CQP.resetParams
      cases hy' : E.c.resetY <;> rw [hy'] at hyt <;> cases E.c.resetRho <;>
        simp_all [CQP.resetRho, applyRho] <;> rfl
    have e0 : (q0.resetParams E.c).v.dx = q0.v.dx ∧ (q0.resetParams E.c).v.du = q0.v.du := (ez 0 (by omega)).2.2
    rcases hw with ⟨g, hy0⟩ | ⟨g, hd1, hd2⟩
    · have hz0 := (CSQP.zero0_inv E).reset q0 h0
      obtain ⟨a1, a2, a3, a4⟩ := hz.warm hllt hsym hy0 hz0 g hq
      exact ⟨a1, a2, fun t ht => by rw [a3]; exact (ez t ht).1, fun t ht => by rw [a4]; exact (ez t ht).2.1⟩
    · unfold CQP.warm at hq
      rw [if_neg (by simp [g])] at hq
      cases hq
      exact ⟨fun t ht => by rw [e0.1]; exact hd1 t ht, fun t ht => by rw [e0.2]; exact hd2 t ht, fun t ht => (ez t ht).1,
        fun t ht => (ez t ht).2.1⟩
  have key : ∀ q, AtIter llt E q0 q → AtZero y q.v ∧ (0 < q.exec → (∀ t, t ≤ P.T → q.v.dxt t = 0) ∧ (∀ t, t < P.T → q.v.dut t = 0) ∧
      ∀ t, t ≤ P.T → q.b.bp.Vx t = lam t) := by
    intro q hq
    induction hq with
    | first h => exact ⟨(hR _ h :), fun h => absurd h (lt_irrefl 0)⟩
    | @next q q1 h' ht' hs' hn ih =>
      obtain ⟨b1, b2, _⟩ := between_v (E := E) q1
      rw [b1, b2]
      have := AtZero.step hllt hsym hs hz h0 h' (hr q h') hs' ih.1
      exact ⟨this.1, fun _ => this.2⟩
  have he := direction_end h
  cases he with
  | @limit q ha hx =>
    obtain ⟨k1, k2⟩ := key q ha
    obtain ⟨k3, k4, k5⟩ := k2 (by omega)
    exact ⟨k1, k3, k4, k5, by change 0 < q.qpIters; rw [ha.count]; omega⟩
  | @time q ha hx hu => rw [ht q ha] at hu; cases hu
  | @tol q q1 ha hx hu hs1 hi hc =>
    obtain ⟨k1, k3, k4, k5⟩ := AtZero.step hllt hsym hs hz h0 ha (hr q ha) hs1 (key q ha).1
    obtain ⟨b1, b2, _⟩ := setTol_v E.c q1
    have e : 0 < q1.qpIters := by rw [(step_misc hs1).2.1]; change 0 < q.qpIters; rw [ha.count]; omega
    have e2 := setTol_qpIters E.c q1
    refine ⟨?_, ?_, ?_, ?_, ?_⟩
    · change AtZero y (q1.setTol E.c).v; rw [b1]; exact k1
    · change ∀ t, t ≤ P.T → (q1.setTol E.c).v.dxt t = 0; rw [b1]; exact k3
    · change ∀ t, t < P.T → (q1.setTol E.c).v.dut t = 0; rw [b1]; exact k4
    · change ∀ t, t ≤ P.T → (q1.setTol E.c).b.bp.Vx t = lam t; rw [b2]; exact k5
    · change 0 < (q1.setTol E.c).qpIters; rw [e2]; exact e

end
end Mim
