import Verif.Props.QPStep
import Verif.Lemmas.QPOpt
import Mathlib.Tactic.FieldSimp

/-!
# C27, C28: what the iterates of the QP solver satisfy
-/
set_option linter.unusedSectionVars false
set_option linter.unusedSimpArgs false

namespace Mim
open Spec QP Matrix

section
variable {K : Type} [Field K] [LinearOrder K] [IsStrictOrderedRing K] [SqrtOps K] {P : Problem K}
variable {llt : LLT K} {E : QEnv P}

/-- no row has a lower bound above its upper bound. -/
def BoundsOK (P : Problem K) : Prop :=
  ∀ t, t ≤ P.T → ∀ i l u, P.lb t i = some l → P.ub t i = some u → l ≤ u

theorem BoundsOK.not_crossed (h : BoundsOK P) : ∀ t, t ≤ P.T → ∀ i, ¬ RowCrossed P t i := by
  rintro t ht i ⟨l, u, h1, h2, h3, h4⟩
  have hlu := h t ht i l u h1 h2
  have h4' : ¬ l < u := by simpa using h4
  have he : l = u := le_antisymm hlu (not_lt.mp h4')
  subst he
  have h3' : leb (absf (l - l)) (lit (1 / 10 ^ 6)) = true := by
    simp only [sub_self, absf_exact, abs_zero, lit_exact, leb_exact]
    apply decide_eq_true
    norm_num
  rw [h3'] at h3; cases h3

/-- one row of the projection: inside the bounds, and `ρ (v - z')` is in the normal cone. -/
theorem clampRow_spec {lb ub : Option K} (hb : ∀ l u, lb = some l → ub = some u → l ≤ u) (g v : K) {r : K} (hr : 0 < r) :
    (∀ l, lb = some l → l ≤ g + clampRow lb ub g v) ∧ (∀ u, ub = some u → g + clampRow lb ub g v ≤ u) ∧
    (0 < r * (v - clampRow lb ub g v) → ub = some (g + clampRow lb ub g v)) ∧
    (r * (v - clampRow lb ub g v) < 0 → lb = some (g + clampRow lb ub g v)) := by
  have pos : ∀ a : K, 0 < r * a → 0 < a := fun a h => (mul_pos_iff_of_pos_left hr).mp h
  have neg : ∀ a : K, r * a < 0 → a < 0 := fun a h => by
    by_contra hc; exact absurd (mul_nonneg hr.le (not_lt.mp hc)) (not_le.mpr h)
  cases lb with
  | none =>
    cases ub with
    | none =>
      have e : clampRow (none : Option K) none g v = v := rfl
      rw [e]
      refine ⟨fun l h => (by cases h), fun l h => (by cases h), fun h => ?_, fun h => ?_⟩
      · have := pos _ h; simp at this
      · have := neg _ h; simp at this
    | some u =>
      have e : clampRow (none : Option K) (some u) g v = min v (u - g) := by simp [clampRow]
      rw [e]
      refine ⟨fun l h => (by cases h), fun w h => ?_, fun h => ?_, fun h => ?_⟩
      · cases h; linarith [min_le_right v (u - g)]
      · have := pos _ h
        rcases min_choice v (u - g) with h1 | h1
        · rw [h1] at this; simp at this
        · rw [h1]; congr 1; ring
      · have := neg _ h
        linarith [min_le_left v (u - g)]
  | some l =>
    cases ub with
    | none =>
      have e : clampRow (some l) (none : Option K) g v = max v (l - g) := by simp [clampRow]
      rw [e]
      refine ⟨fun w h => ?_, fun l h => (by cases h), fun h => ?_, fun h => ?_⟩
      · cases h; linarith [le_max_right v (l - g)]
      · have := pos _ h
        linarith [le_max_left v (l - g)]
      · have := neg _ h
        rcases max_choice v (l - g) with h1 | h1
        · rw [h1] at this; simp at this
        · rw [h1]; congr 1; ring
    | some u =>
      have e : clampRow (some l) (some u) g v = min (max v (l - g)) (u - g) := by simp [clampRow]
      have hlu := hb l u rfl rfl
      rw [e]
      refine ⟨fun w h => ?_, fun w h => ?_, fun h => ?_, fun h => ?_⟩
      · cases h
        have : l - g ≤ min (max v (l - g)) (u - g) := le_min (le_max_right _ _) (by linarith)
        linarith
      · cases h; linarith [min_le_right (max v (l - g)) (u - g)]
      · have := pos _ h
        rcases min_choice (max v (l - g)) (u - g) with h1 | h1
        · rw [h1] at this; linarith [le_max_left v (l - g)]
        · rw [h1]; congr 1; ring
      · have := neg _ h
        have h2 : v < max v (l - g) := by linarith [min_le_left (max v (l - g)) (u - g)]
        have h3 : max v (l - g) = l - g := by
          rcases max_choice v (l - g) with h1 | h1
          · rw [h1] at h2; exact absurd h2 (lt_irrefl _)
          · exact h1
        have h4 : min (max v (l - g)) (u - g) = l - g := by rw [h3]; exact min_eq_left (by linarith)
        rw [h4]; congr 1; ring

/-- the update of one node. -/
theorem admmNode_spec {m : ℕ} {alpha : K} {lb ub : Fin m → Option K} {g Cd z y rho inv : Vec K m}
    (hb : ∀ i l u, lb i = some l → ub i = some u → l ≤ u) (hr : ∀ i, 0 < rho i ∧ inv i = 1 / rho i) :
    let x := admmNode alpha lb ub g Cd z y rho inv
    InBox lb ub (g + x.2.1) ∧ NormalCone lb ub (g + x.2.1) x.2.2 := by
  simp only []
  have hy : ∀ i, (admmNode alpha lb ub g Cd z y rho inv).2.2 i =
      rho i * ((alpha • Cd + (1 - alpha) • z + y * inv) i - (admmNode alpha lb ub g Cd z y rho inv).2.1 i) := by
    intro i
    unfold admmNode
    simp only [sv_exact, cw_exact, Pi.add_apply, Pi.mul_apply, Pi.sub_apply, (hr i).2]
    have := (hr i).1.ne'
    field_simp
    ring
  have hz : ∀ i, (admmNode alpha lb ub g Cd z y rho inv).2.1 i =
      clampRow (lb i) (ub i) (g i) ((alpha • Cd + (1 - alpha) • z + y * inv) i) := fun i => rfl
  refine ⟨fun i => ?_, fun i => ?_⟩
  · obtain ⟨c1, c2, _, _⟩ := clampRow_spec (hb i) (g i) ((alpha • Cd + (1 - alpha) • z + y * inv) i) (hr i).1
    rw [Pi.add_apply, hz]
    exact ⟨c1, c2⟩
  · obtain ⟨_, _, c3, c4⟩ := clampRow_spec (hb i) (g i) ((alpha • Cd + (1 - alpha) • z + y * inv) i) (hr i).1
    rw [Pi.add_apply, hy, hz]
    exact ⟨c3, c4⟩

/-- **C27, one iteration.** Bounds not crossed, positive penalties: after every iteration `g + z` is within the bounds and `y` is
in the normal cone of the bounds at `g + z`. -/
theorem C27_csqp_iteration (hb : BoundsOK P) {q q' : CQP P}
    (hr : ∀ t, t ≤ P.T → ∀ i, 0 < q.v.rho t i ∧ q.v.inv t i = 1 / q.v.rho t i) (hst : q.step llt E = .ok q') :
    (∀ t, t < P.T → InBox (P.lb t) (P.ub t) ((E.d.run t).g + q'.v.z t) ∧
      NormalCone (P.lb t) (P.ub t) ((E.d.run t).g + q'.v.z t) (q'.v.y t)) ∧
    InBox (P.lb P.T) (P.ub P.T) (E.d.ter.g + q'.v.z P.T) ∧
    NormalCone (P.lb P.T) (P.ub P.T) (E.d.ter.g + q'.v.z P.T) (q'.v.y P.T) := by
  obtain ⟨q1, _, e1, _, hl, r, i, hv⟩ := step_parts hst
  have hr1 : ∀ t, t ≤ P.T → ∀ i, 0 < (q1.forward E).v.rho t i ∧ (q1.forward E).v.inv t i = 1 / (q1.forward E).v.rho t i := by
    intro t ht i
    have := hr t ht i
    rw [← e1] at this
    exact this
  refine ⟨fun t ht => ?_, ?_⟩
  · rw [hv]
    simp only []
    rw [(hl.run t ht).2.1, (hl.run t ht).2.2]
    exact admmNode_spec (fun i l u => hb t ht.le i l u) (hr1 t ht.le)
  · rw [hv]
    simp only []
    rw [hl.ter.2.1, hl.ter.2.2]
    exact admmNode_spec (fun i l u => hb _ le_rfl i l u) (hr1 _ le_rfl)

variable {W : World K} {fuel : ℕ} {xs : Option (Traj P)} {us : Option (Ctrls P)} {m : ℕ} {ri : K} {s0 : CSQP P}

/-- **C27.** In every executed QP iteration of every solve: after it `g + z` is within the bounds and `y` is in their normal cone
there, where `g` are the constraint values at the current trajectory. -/
theorem C27_csqp_multipliers (hb : BoundsOK P) (hc : PenaltyConf s0.c) {s : CSQP P}
    (h : CSQP.Calls W fuel xs us m ri s0 s) {q q' : CQP P} (hq : AtIter W.llt (s.env W) s.q q)
    (hst : ({ q with tick := q.tick + 1 } : CQP P).step W.llt (s.env W) = .ok q') :
    (∀ t, t < P.T → InBox (P.lb t) (P.ub t) ((P.calcR t (s.xs t) (s.us t)).g + q'.v.z t) ∧
      NormalCone (P.lb t) (P.ub t) ((P.calcR t (s.xs t) (s.us t)).g + q'.v.z t) (q'.v.y t)) ∧
    InBox (P.lb P.T) (P.ub P.T) ((P.calcT (s.xs P.T)).g + q'.v.z P.T) ∧
    NormalCone (P.lb P.T) (P.ub P.T) ((P.calcT (s.xs P.T)).g + q'.v.z P.T) (q'.v.y P.T) := by
  have hp := calls_penalty_pos hc hb.not_crossed h hq
  obtain ⟨h1, h2⟩ := C27_csqp_iteration (E := s.env W) hb (q := { q with tick := q.tick + 1 }) hp hst
  have hf := h.evald.fresh
  refine ⟨fun t ht => ?_, ?_⟩
  · rw [← hf.1 t ht]; exact h1 t ht
  · rw [← hf.2]; exact h2

/-! ## C28 -/

/-- the multipliers of the dynamics that the solver forms from the value function, `Vx + Vxx dx`. -/
def qpLam (q : CQP P) (t : ℕ) : Vec K P.ndx := q.b.bp.Vx t + q.b.bp.Vxx t *ᵥ q.v.dxt t

theorem admmNode_dual {m : ℕ} (alpha : K) (lb ub : Fin m → Option K) (g Cd z y rho inv : Vec K m) :
    let x := admmNode alpha lb ub g Cd z y rho inv
    x.2.2 = (y - rho * z) + rho * Cd - rho * ((1 - alpha) • (Cd - x.2.1) + (2 - alpha) • (x.2.1 - z)) := by
  funext i
  unfold admmNode
  simp only [sv_exact, cw_exact, Pi.add_apply, Pi.mul_apply, Pi.sub_apply, Pi.smul_apply, smul_eq_mul]
  ring

theorem diag_mulVec {m : ℕ} (r v : Vec K m) : Matrix.diagonal r *ᵥ v = r * v := by
  funext i; simp [Matrix.mulVec_diagonal]

/-- **C28, residuals.** In exact arithmetic, after every executed iteration of every `computeDirection` the gradient of the
Lagrangian of the QP at the new step, with the solver's multipliers, is exactly
`-σ (d' - d) - G' ρ ((1-α) (G d' - z') + (2-α) (z' - z))`, where unprimed values are those before the iteration. -/
theorem C28_csqp_residual (hllt : LLTExact llt) (hsym : SymHess E.d)
    (hs : ∀ l, E.sched = some l → SchedOK P l) {q0 q q' : CQP P} (h0 : CSQP.Zero0 q0) (h : AtIter llt E q0 q)
    (hst : ({ q with tick := q.tick + 1 } : CQP P).step llt E = .ok q') :
    q'.v.dx 0 = 0 ∧
    (∀ t, t < P.T → q'.v.dx (t + 1) = (E.d.rd t).Fx *ᵥ q'.v.dx t + (E.d.rd t).Fu *ᵥ q'.v.du t + E.fs (t + 1)) ∧
    (∀ t, 0 < t → t < P.T → statX E.d E.preg q'.v.dx q'.v.du (qpLam q') q'.v.y t =
      -(E.c.sigma • (q'.v.dx t - q.v.dx t)) - (E.d.rd t).Gxᵀ *ᵥ (q.v.rho t *
        ((1 - E.c.alpha) • (conLin E.d t (q'.v.dx t) (q'.v.du t) - q'.v.z t) + (2 - E.c.alpha) • (q'.v.z t - q.v.z t)))) ∧
    (∀ t, t < P.T → statU E.d E.dreg q'.v.dx q'.v.du (qpLam q') q'.v.y t =
      -(E.c.sigma • (q'.v.du t - q.v.du t)) - (E.d.rd t).Guᵀ *ᵥ (q.v.rho t *
        ((1 - E.c.alpha) • (conLin E.d t (q'.v.dx t) (q'.v.du t) - q'.v.z t) + (2 - E.c.alpha) • (q'.v.z t - q.v.z t)))) ∧
    statT E.d E.preg q'.v.dx (qpLam q') q'.v.y =
      -(E.c.sigma • (q'.v.dx P.T - q.v.dx P.T)) - E.d.td.Gxᵀ *ᵥ (q.v.rho P.T *
        ((1 - E.c.alpha) • (E.d.td.Gx *ᵥ q'.v.dx P.T - q'.v.z P.T) + (2 - E.c.alpha) • (q'.v.z P.T - q.v.z P.T))) := by
  obtain ⟨E', e1, e2, e3, e4, e5, e6, h', hst'⟩ := seq_env hs h hst
  rw [← e2, ← e3, ← e4, ← e5, ← e6]
  rw [← e2] at hsym
  clear e2 e3 e4 e5 e6 hst h hs
  obtain ⟨B, hB, eb, v2, r, i, hl, hv⟩ := step_seq e1 h' hst'
  have hz := h'.zero0 h0
  obtain ⟨hR, hpd⟩ := full_riccati hllt hsym hB
  obtain ⟨f1, f2, f3⟩ := fwdLoop_spec E' B.bp (q.v.dxt, q.v.dut)
  generalize hX : fwdLoop E' B.bp (q.v.dxt, q.v.dut) = X at *
  simp only [] at hl
  have hz0 : X.1 0 = 0 := f3.trans hz.2
  have hdx : ∀ t, t ≤ P.T → q'.v.dx t = X.1 t := fun t ht => by rw [hv]; exact hl.dx t ht
  have hdu : ∀ t, t < P.T → q'.v.du t = X.2 t := fun t ht => by rw [hv]; exact hl.du t ht
  have hlam : ∀ t, t ≤ P.T → qpLam q' t = B.bp.Vxx t *ᵥ X.1 t + B.bp.Vx t := by
    intro t ht
    unfold qpLam
    rw [eb, hv]
    simp only []
    rw [hl.dxt, add_comm]
  have hk := hR.kkt f1 f2 hlam
  have hzz : ∀ t, t < P.T → q'.v.z t = (admmR E' { q.v with dxt := X.1, dut := X.2 } t).2.1 := fun t ht => by
    rw [hv]; exact (hl.run t ht).2.1
  have hyy : ∀ t, t < P.T → q'.v.y t = (q.v.y t - q.v.rho t * q.v.z t) + q.v.rho t * conLin E'.d t (X.1 t) (X.2 t) -
      q.v.rho t * ((1 - E'.c.alpha) • (conLin E'.d t (X.1 t) (X.2 t) - q'.v.z t) + (2 - E'.c.alpha) • (q'.v.z t - q.v.z t)) := by
    intro t ht
    rw [hzz t ht]
    have : q'.v.y t = (admmR E' { q.v with dxt := X.1, dut := X.2 } t).2.2 := by rw [hv]; exact (hl.run t ht).2.2
    rw [this]
    exact admmNode_dual _ _ _ _ _ _ _ _ _
  have hyT : q'.v.y P.T = (q.v.y P.T - q.v.rho P.T * q.v.z P.T) + q.v.rho P.T * (E'.d.td.Gx *ᵥ X.1 P.T) -
      q.v.rho P.T * ((1 - E'.c.alpha) • (E'.d.td.Gx *ᵥ X.1 P.T - q'.v.z P.T) + (2 - E'.c.alpha) • (q'.v.z P.T - q.v.z P.T)) := by
    have h1 : q'.v.z P.T = (admmT E' { q.v with dxt := X.1, dut := X.2 }).2.1 := by rw [hv]; exact hl.ter.2.1
    have h2 : q'.v.y P.T = (admmT E' { q.v with dxt := X.1, dut := X.2 }).2.2 := by rw [hv]; exact hl.ter.2.2
    rw [h1, h2]
    exact admmNode_dual _ _ _ _ _ _ _ _ _
  refine ⟨by rw [hdx 0 (by omega)]; exact hz0, fun t ht => ?_, fun t h0 ht => ?_, fun t ht => ?_, ?_⟩
  · rw [hdx _ (by omega : t + 1 ≤ P.T), hdx t ht.le, hdu t ht]; exact f1 t ht
  · have hs := hk.stat_x t ht
    unfold statX
    rw [hyy t ht, hdx t ht.le, hdu t ht]
    rw [← hs]
    unfold fullLQ conLin
    simp only [h0, if_true, add_mulVec, smul_mulVec, one_mulVec, ← mulVec_mulVec, diag_mulVec, mulVec_sub, mulVec_add, smul_sub, mul_add]
    abel
  · have hs := hk.stat_u t ht
    unfold statU
    rw [hyy t ht, hdx t ht.le, hdu t ht]
    rcases Nat.eq_zero_or_pos t with ht0 | ht0
    · subst ht0
      rw [hz0] at hs ⊢
      unfold fullLQ at hs
      unfold conLin
      simp only [lt_irrefl, if_false, add_zero, mulVec_zero, zero_add, add_mulVec, smul_mulVec, one_mulVec, ← mulVec_mulVec,
        diag_mulVec, mulVec_sub, mulVec_add, smul_sub, mul_add] at hs ⊢
      linear_combination (exp := 1) hs
    · unfold fullLQ at hs
      unfold conLin
      simp only [ht0, if_true, transpose_add, transpose_mul, transpose_transpose, diagonal_transpose, Matrix.mul_assoc,
        add_mulVec, smul_mulVec, one_mulVec, ← mulVec_mulVec, diag_mulVec, mulVec_sub, mulVec_add, smul_sub, mul_add] at hs ⊢
      linear_combination (exp := 1) hs
  · have hs := hk.stat_T
    unfold statT
    rw [hyT, hdx _ le_rfl, ← hs]
    unfold fullLQ
    simp only [add_mulVec, smul_mulVec, one_mulVec, ← mulVec_mulVec, diag_mulVec, mulVec_sub, mulVec_add, smul_sub, mul_add]
    abel

/-- nothing moves in an iteration: the linearised constraint values are the splitting variable, which is unchanged, and so is the
step (unless `σ = 0`). -/
structure Settled (E : QEnv P) (q q' : CQP P) : Prop where
  step : E.c.sigma = 0 ∨ (∀ t, t ≤ P.T → q'.v.dx t = q.v.dx t) ∧ ∀ t, t < P.T → q'.v.du t = q.v.du t
  z : ∀ t, t ≤ P.T → q'.v.z t = q.v.z t
  con : ∀ t, t < P.T → conLin E.d t (q'.v.dx t) (q'.v.du t) = q'.v.z t
  conT : E.d.td.Gx *ᵥ q'.v.dx P.T = q'.v.z P.T

/-- **C28, one iteration.** If nothing moves, the step and the multipliers satisfy the KKT conditions of the QP. -/
theorem C28_csqp_settled_kkt (hllt : LLTExact llt) (hsym : SymHess E.d)
    (hs : ∀ l, E.sched = some l → SchedOK P l) (hb : BoundsOK P) {q0 q q' : CQP P} (h0 : CSQP.Zero0 q0)
    (h : AtIter llt E q0 q) (hr : ∀ t, t ≤ P.T → ∀ i, 0 < q.v.rho t i ∧ q.v.inv t i = 1 / q.v.rho t i)
    (hst : ({ q with tick := q.tick + 1 } : CQP P).step llt E = .ok q') (hx : Settled E q q') :
    QPKKT E.d E.fs E.preg E.dreg q'.v.dx q'.v.du (qpLam q') q'.v.y := by
  obtain ⟨r1, r2, r3, r4, r5⟩ := C28_csqp_residual hllt hsym hs h0 h hst
  obtain ⟨b1, b2, b3⟩ := C27_csqp_iteration hb (q := { q with tick := q.tick + 1 }) hr hst
  have sx : ∀ t, t ≤ P.T → E.c.sigma • (q'.v.dx t - q.v.dx t) = 0 := fun t ht => by
    rcases hx.step with hx | hx
    · rw [hx, zero_smul]
    · rw [hx.1 t ht, sub_self, smul_zero]
  have su : ∀ t, t < P.T → E.c.sigma • (q'.v.du t - q.v.du t) = 0 := fun t ht => by
    rcases hx.step with hx | hx
    · rw [hx, zero_smul]
    · rw [hx.2 t ht, sub_self, smul_zero]
  refine ⟨⟨r1, r2, fun t ht => ?_, ?_⟩, fun t h0 ht => ?_, fun t ht => ?_, ?_, fun t ht => ?_, ?_⟩
  · rw [hx.con t ht]; exact (b1 t ht).1
  · rw [hx.conT]; exact b2
  · have := r3 t h0 ht
    rw [sx t ht.le, hx.con t ht, hx.z t ht.le, sub_self, smul_zero, smul_zero, add_zero, mul_zero, mulVec_zero,
      sub_zero, neg_zero] at this
    exact sub_eq_zero.mp this
  · have := r4 t ht
    rw [su t ht, hx.con t ht, hx.z t ht.le, sub_self, smul_zero, smul_zero, add_zero, mul_zero, mulVec_zero,
      sub_zero, neg_zero] at this
    exact this
  · rw [sx _ le_rfl, hx.conT, hx.z _ le_rfl, sub_self, smul_zero, smul_zero, add_zero, mul_zero, mulVec_zero,
      sub_zero, neg_zero] at r5
    exact sub_eq_zero.mp r5
  · rw [hx.con t ht]; exact (b1 t ht).2
  · rw [hx.conT]; exact b3

/-- **C28.** In exact arithmetic, for every reachable solver state, every solve, every call of `computeDirection` and every
executed iteration of it in which nothing moves: the step satisfies the KKT conditions of the QP of the problem's derivatives at
the current trajectory (regularized Hessians), and when that QP is convex it is a global minimiser over all feasible steps. -/
theorem C28_csqp_settled_solves (hllt : LLTExact W.llt) (hp : SymProblem P) (hs : ∀ l, W.sched = some l → SchedOK P l)
    (hc : PenaltyConf s0.c) (hb : BoundsOK P) (h0 : CSQP.Reachable s0) {s : CSQP P}
    (h : CSQP.Calls W fuel xs us m ri s0 s) {q q' : CQP P} (hq : AtIter W.llt (s.env W) s.q q)
    (hst : ({ q with tick := q.tick + 1 } : CQP P).step W.llt (s.env W) = .ok q') (hx : Settled (s.env W) q q') :
    FreshDiff P s.data s.xs s.us ∧ FreshCalc P s.data s.xs s.us ∧ (∀ t, t < P.T → s.e.fs (t + 1) = shootGap P s.xs s.us t) ∧
    QPKKT s.data s.e.fs s.preg s.dreg q'.v.dx q'.v.du (qpLam q') q'.v.y ∧
    (Convex s.data s.preg s.dreg → ∀ x' u', QPFeasible s.data s.e.fs x' u' →
      (lqOf s.data s.e.fs s.preg s.dreg).cost q'.v.dx q'.v.du ≤ (lqOf s.data s.e.fs s.preg s.dreg).cost x' u') := by
  have hk : QPKKT s.data s.e.fs s.preg s.dreg q'.v.dx q'.v.du (qpLam q') q'.v.y :=
    C28_csqp_settled_kkt (E := s.env W) hllt (hp.data h.evald) hs hb (h.node0 h0.node0).1 hq
      (calls_penalty_pos hc hb.not_crossed h hq) hst hx
  exact ⟨h.evald.diff, h.evald.fresh, h.evald.fs, hk, fun hcv x' u' hf => hk.global (hp.data h.evald) hcv hf⟩

end

/-! ## non-vacuity, and the proximal term is not tested -/
namespace Ex
open CSQP

theorem ok_st {S : Type _} {r : Res S} (h : r.isOk = true) : r = .ok r.st := by
  cases r with
  | ok s => rfl
  | exn s => cases h

theorem lin_bounds : BoundsOK lin := by
  rintro t _ i l u h; cases h

/-- `lin` with `σ = 0`, `α = 1`, `ρ = 1/2`. -/
def lin0Solver : CSQP lin :=
  { linSolver with c := { linSolver.c with sigma := 0, alpha := 1, maxQP := 3 } }

theorem lin0_reachable : Reachable lin0Solver := .setParams linSolver lin0Solver.c rfl lin_reachable

/-- the state in front of the first QP iteration when the solve is started at `u = 1`, the constrained minimum. -/
noncomputable def lin0Call : CSQP lin := entry (lin0Solver.start world none (some fun _ _ => 1) 5 0)
noncomputable def lin0First : CQP lin := { lin0Call.q.resetParams lin0Solver.c with qpIters := 1, exec := 0 }
noncomputable def lin0Second : CQP lin :=
  (({ lin0First with tick := lin0First.tick + 1 } : CQP lin).step world.llt (lin0Call.env world)).st.between (lin0Call.env world)
noncomputable def lin0Third : CQP lin :=
  (({ lin0Second with tick := lin0Second.tick + 1 } : CQP lin).step world.llt (lin0Call.env world)).st

theorem lin0_calls : Calls world 20 none (some fun _ _ => 1) 5 0 lin0Solver lin0Call :=
  Calls.head AtHead.start (by decide +kernel) (by decide +kernel) (.inl rfl)

theorem lin0_first : AtIter world.llt (lin0Call.env world) lin0Call.q lin0First := .first rfl

theorem lin0_second : AtIter world.llt (lin0Call.env world) lin0Call.q lin0Second :=
  .next lin0_first (by decide +kernel) (ok_st (by decide +kernel)) (by decide +kernel)

/-- the second iteration leaves `u = 1`, keeps `z = 0` and the multiplier of the active bound, `y = 1`. -/
theorem lin0_settled : Settled (lin0Call.env world) lin0Second lin0Third ∧ sc (lin0Third.v.y 0) = 1 := by
  refine ⟨⟨.inl rfl, ?_, ?_, ?_⟩, by decide +kernel⟩
  all_goals decide +kernel

/-- the theorem applied to it. -/
example : QPKKT lin0Call.data lin0Call.e.fs lin0Call.preg lin0Call.dreg lin0Third.v.dx lin0Third.v.du (qpLam lin0Third)
    lin0Third.v.y :=
  (C28_csqp_settled_solves llt1_exact lin_sym (fun l h => by cases h) (by constructor <;> decide +kernel) lin_bounds
    lin0_reachable lin0_calls lin0_second (ok_st (by decide +kernel)) lin0_settled.1).2.2.2.1

/-- One node with the cost `u²/2 - u` and one constraint row that is identically zero; the state does not move. -/
def idle : Problem ℚ where
  T := 1
  ndx := 1
  nu _ := 1
  ng _ := 1
  X := ℚ
  integrate x d := x + d 0
  diff a b := fun _ => b - a
  zeroX := 0
  x0 := 0
  calcR _ x u := ⟨u 0 * u 0 / 2 - u 0, x, fun _ => 0⟩
  calcDiffR _ _ u := ⟨fun _ => 0, fun _ => u 0 - 1, m1 0, m1 0, m1 1, m1 1, m1 0, m1 0, m1 0⟩
  calcT _ := ⟨0, fun _ => 0⟩
  calcDiffT _ := ⟨fun _ => 0, m1 0, m1 0⟩
  badX _ := false
  lb _ _ := none
  ub _ _ := some 1

/-- a solver for it: `σ = 1`, tolerance tested after every iteration, no initial guess. -/
def idleSolver : CSQP idle :=
  let s := CSQP.new (Data.zero idle) (fun _ _ => 0) (fun _ _ => 0) 0
  { s with c := { s.c with sigma := 1, interval := 1, eqGuess := false, maxTime := 1, removeReg := true } }

noncomputable def idleCall : CSQP idle := entry (idleSolver.start world none none 5 0)
noncomputable def idleRes : CSQP idle := (idleCall.dir world).st

/-- **C28, refutation for the solver's own stopping test.** A QP the solver declares solved (loop left on tolerance, both residuals
zero) whose step is not a KKT point of the QP for any multipliers: the stopping test does not look at the proximal term. -/
theorem C28_csqp_stop_ignores_prox : Reachable idleSolver ∧ Calls world 20 none none 5 0 idleSolver idleCall ∧
    idleCall.dir world = .ok idleRes ∧ idleRes.q.why = .tol ∧ idleRes.q.n.p = 0 ∧ idleRes.q.n.d = 0 ∧
    ∀ lam y, ¬ QPKKT idleCall.data idleCall.e.fs idleCall.preg idleCall.dreg idleRes.q.v.dx idleRes.q.v.du lam y := by
  refine ⟨.setParams _ _ rfl (.new _ _ _ _), Calls.head AtHead.start (by decide +kernel) (by decide +kernel) (.inl rfl),
    ok_st (by decide +kernel), by decide +kernel, by decide +kernel, by decide +kernel, fun lam y h => ?_⟩
  have h1 := congrFun (h.stat_u 0 (by decide)) (0 : Fin 1)
  have e1 : ((idleCall.data.rd 0).Lxuᵀ *ᵥ idleRes.q.v.dx 0 + (idleCall.data.rd 0).Luu *ᵥ idleRes.q.v.du 0 +
      idleCall.dreg • idleRes.q.v.du 0 + (idleCall.data.rd 0).Lu) (0 : Fin 1) = -1 / 2 := by decide +kernel
  have e2 : ((idleCall.data.rd 0).Fuᵀ *ᵥ lam (0 + 1)) (0 : Fin 1) = 0 := by
    have hf : ∀ j : Fin 1, (idleCall.data.rd 0).Fu j (0 : Fin 1) = 0 := by decide +kernel
    change ∑ j : Fin 1, (idleCall.data.rd 0).Fu j (0 : Fin 1) * lam (0 + 1) j = 0
    exact Finset.sum_eq_zero fun j _ => by rw [hf j, zero_mul]
  have e3 : ((idleCall.data.rd 0).Guᵀ *ᵥ y 0) (0 : Fin 1) = 0 := by
    have hf : ∀ j : Fin 1, (idleCall.data.rd 0).Gu j (0 : Fin 1) = 0 := by decide +kernel
    change ∑ j : Fin 1, (idleCall.data.rd 0).Gu j (0 : Fin 1) * y 0 j = 0
    exact Finset.sum_eq_zero fun j _ => by rw [hf j, zero_mul]
  have h2 : _ + _ + _ = (0 : ℚ) := h1
  rw [e2, e3] at h2
  rw [add_zero, add_zero] at h2
  have h3 : (-1 / 2 : ℚ) = 0 := e1.symm.trans h2
  norm_num at h3

end Ex
end Mim
