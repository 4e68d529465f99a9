import Verif.Lemmas.DDPFull
import Verif.Props.SQPConvex

/-!
# DDP at KKT points (C59) and on strictly convex linear-quadratic problems (C60)

The multipliers with which DDP tests convergence are one forward pass old (`tryDDP_mult`), so even at an exact solution the test can
fail twice before it succeeds.
-/
set_option linter.unusedSectionVars false
set_option linter.unusedSimpArgs false

namespace Mim
open Matrix Spec DDP
variable {K : Type} [Field K] [LinearOrder K] [IsStrictOrderedRing K] {P : Problem K}
variable {llt : LLT K} {fuel : ℕ} {xs : Option (Traj P)} {us : Option (Ctrls P)} {m : ℕ} {s : DDP P}

/-- `diff a b = 0` exactly for equal states. -/
def Spec.Separates (P : Problem K) : Prop := ∀ a b : P.X, P.diff a b = 0 ↔ a = b

theorem Spec.Euclid.separates {φ : P.X → Vec K P.ndx} (h : Euclid P φ) : Separates P := fun a b => by
  rw [h.diff, sub_eq_zero]
  exact ⟨fun e => (h.inj _ _ e).symm, fun e => by rw [e]⟩

/-- costs and states of the trajectory `X, U` are usable numbers. -/
structure Spec.TrajInRange (P : Problem K) (X : Traj P) (U : Ctrls P) : Prop where
  cost : ¬ CostBlowsUp P X U
  state : ∀ t, t < P.T → P.badX (X (t + 1)) = false

/-- the value functions at `X, U` computed with regularization `r` stay below `1e30`. -/
def Spec.ValueInRange (P : Problem K) (X : Traj P) (U : Ctrls P) (r : K) : Prop :=
  ∀ d, FreshDiff P d X U → (lqOf d (fun _ => 0) r r).InRange

namespace DDP

theorem vec_zero {n : ℕ} {v : Vec K n} (h : ∀ i, |v i| ≤ 0) : v = 0 := funext fun i => abs_nonpos_iff.mp (h i)

/-- at a KKT point the feed-forward terms vanish and the gradients of the value function are the multipliers. -/
theorem zero_direction (hllt : LLTExact llt) (hP : SymProblem P) {d : Data P} {fs : ℕ → Vec K P.ndx} {fe : Bool} {p q : K}
    {b b' : BP P} {X : Traj P} {U : Ctrls P} {lam : ℕ → Vec K P.ndx} (hd : FreshDiff P d X U)
    (h : backwardPass llt d fs fe p q b = .ok b') (hfs : ∀ t, t ≤ P.T → fs t = 0) (hk : IsKKT P 0 X U lam) :
    (∀ t, t < P.T → b'.k t = 0) ∧ ∀ t, t ≤ P.T → b'.Vx t = lam t := by
  obtain ⟨hR, hpd⟩ := backward_riccati hllt (symHess_of_fresh hP hd) h
  have hc : ∀ t, t ≤ P.T → (if fe = true then (0 : Vec K P.ndx) else fs t) = 0 := fun t ht => by
    split
    · rfl
    · exact hfs t ht
  have hkkt : (lqOf d (fun t => if fe = true then 0 else fs t) p q).KKT (fun _ => 0) (fun _ => 0) lam := by
    refine ⟨fun t ht => ?_, fun t ht => ?_, ?_, fun t ht => ?_⟩
    · have := vec_zero (hk.stat_x t ht)
      simp only [lqOf, Matrix.mulVec_zero, zero_add, hd.run t ht]
      exact sub_eq_zero.mp this
    · have := vec_zero (hk.stat_u t ht)
      simp only [lqOf, Matrix.mulVec_zero, zero_add, hd.run t ht]
      exact this
    · have := vec_zero hk.stat_T
      simp only [lqOf, Matrix.mulVec_zero, zero_add, hd.ter]
      exact sub_eq_zero.mp this
    · simp only [lqOf, Matrix.mulVec_zero, zero_add]
      exact (hc (t + 1) ht).symm
  obtain ⟨h1, h2⟩ := hR.kkt_unique hpd hkkt
  refine ⟨fun t ht => ?_, fun t ht => ?_⟩
  · have := h1 t ht
    simp only [Matrix.mulVec_zero, neg_zero, zero_sub] at this
    exact neg_eq_zero.mp this.symm
  · have := h2 t ht
    simp only [Matrix.mulVec_zero, zero_add, hc t ht, sub_zero] at this
    exact this.symm

/-- the rollout of a policy without feed-forward from a feasible trajectory is that trajectory. -/
theorem policy_still (hsep : Separates P) {π : Policy P} (hf : Feasible P π.xs π.us) (hk : ∀ t, t < P.T → π.k t = 0) (a : K) :
    (∀ t, t ≤ P.T → π.X true a t = π.xs t) ∧ ∀ t, t < P.T → π.U true a t = π.us t := by
  have hu : ∀ t, t < P.T → π.X true a t = π.xs t → π.U true a t = π.us t := by
    intro t ht hx
    unfold Policy.U Policy.u
    rw [hx, hk t ht, (hsep _ _).mpr rfl, sv_exact, mv_exact, smul_zero, Matrix.mulVec_zero, sub_zero, sub_zero]
  have hx : ∀ t, t ≤ P.T → π.X true a t = π.xs t := by
    intro t
    induction t with
    | zero => intro _; rw [hf.1]; rfl
    | succ t ih =>
      intro ht
      rw [hf.2 t ht, ← hu t ht (ih (by omega)), ← ih (by omega)]
      rfl
  exact ⟨hx, fun t ht => hu t ht (hx t ht.le)⟩

theorem kkt_feasible' (hsep : Separates P) {X : Traj P} {U : Ctrls P} {lam : ℕ → Vec K P.ndx} (hk : IsKKT P 0 X U lam) :
    Feasible P X U :=
  ⟨(hsep _ _).mp (vec_zero hk.init), fun t ht => (hsep _ _).mp (vec_zero (hk.gaps t ht))⟩

theorem kktResidual_exact_zero {d : Data P} {fs lam lam' : ℕ → Vec K P.ndx} {X : Traj P} {U : Ctrls P} (hd : FreshDiff P d X U)
    (hfs : ∀ t, t ≤ P.T → fs t = 0) (hk : IsKKT P 0 X U lam) (hl : ∀ t, t ≤ P.T → lam' t = lam t) {tol : K} (ht : 0 ≤ tol) :
    kktResidual d fs lam' ≤ tol := by
  rw [C02_sqp_residual_meaning _ _ _ _ ht]
  have up : ∀ {n : ℕ} {v : Vec K n}, (∀ i, |v i| ≤ 0) → ∀ i, |v i| ≤ tol := fun h i => (h i).trans ht
  refine ⟨fun t ht' => up ?_, fun t ht' => up ?_, up ?_, fun t ht' => ?_⟩
  · rw [hd.run t ht', hl t ht'.le, hl (t + 1) ht']; exact hk.stat_x t ht'
  · rw [hd.run t ht', hl (t + 1) ht']; exact hk.stat_u t ht'
  · rw [hd.ter, hl _ le_rfl]; exact hk.stat_T
  · rw [hfs t ht']; intro i; simpa using ht

theorem policy_blowsUp {π : Policy P} {a : K} {X : Traj P} {U : Ctrls P} (hx : ∀ t, t ≤ P.T → π.X true a t = X t)
    (hu : ∀ t, t < P.T → π.U true a t = U t) (h : TrajInRange P X U) : ¬ π.BlowsUp true a := by
  rintro (⟨t, ht, h1 | h1⟩ | h1)
  · refine h.cost (costBlowsUp_congr hx hu (.inl ⟨t, ht, h1⟩))
  · have e : π.pre true a (t + 1) = π.X true a (t + 1) := rfl
    rw [e, hx _ ht, h.state t ht] at h1
    cases h1
  · exact h.cost (costBlowsUp_congr hx hu (.inr h1))

/-- settings under which a zero step is accepted and the regularization is not raised. -/
structure Sane (c : DConf K) : Prop where
  tol : 0 ≤ c.tol
  alphas : c.par.alphas.head? = some 1
  grad : 0 < c.par.thGrad
  inc : c.par.thStepInc < 1

/-- the expected improvement computed by DDP. -/
theorem improve_exact (hllt : LLTExact llt) {s2 : DDP P} (hsym : SymHess s2.y.data) {b0 : BP P}
    (hb : backwardPass llt s2.y.data s2.e.fs s2.feas s2.preg s2.dreg b0 = .ok s2.e.bp) :
    (checked (ddp P) s2).m.d0 = ∑ t ∈ Finset.range P.T, s2.e.bp.Qu t ⬝ᵥ s2.e.bp.k t ∧
    (checked (ddp P) s2).m.d1 = -(checked (ddp P) s2).m.d0 ∧ 0 ≤ (checked (ddp P) s2).m.d0 := by
  have hg := gain_pos hllt hsym hb
  have main : ∀ n, n ≤ P.T → forUp n (fun t (d : K × K) =>
      if P.nu t ≠ 0 then (d.1 + dot (s2.e.bp.Qu t) (s2.e.bp.k t), d.2 - dot (s2.e.bp.k t) (s2.e.bp.Quuk t)) else d) (0, 0) =
      (∑ t ∈ Finset.range n, s2.e.bp.Qu t ⬝ᵥ s2.e.bp.k t, -∑ t ∈ Finset.range n, s2.e.bp.Qu t ⬝ᵥ s2.e.bp.k t) := by
    intro n
    induction n with
    | zero => intro _; simp
    | succ n ih =>
      intro hn
      rw [forUp_succ, ih (by omega), Finset.sum_range_succ]
      by_cases h0 : P.nu n = 0
      · have hz : s2.e.bp.Qu n ⬝ᵥ s2.e.bp.k n = 0 := by
          rw [vec_eq_of_zero h0 (s2.e.bp.k n) 0, dotProduct_zero]
        simp [h0, hz]
      · simp only [h0, ne_eq, not_false_eq_true, if_true, dot_exact, (hg n (by omega)).2 h0]
        rw [neg_add, ← sub_eq_add_neg]
  have e0 : (checked (ddp P) s2).m.d0 = ∑ t ∈ Finset.range P.T, s2.e.bp.Qu t ⬝ᵥ s2.e.bp.k t := by
    change (forUp P.T _ (0, 0)).1 = _
    rw [main P.T le_rfl]
  have e1 : (checked (ddp P) s2).m.d1 = -∑ t ∈ Finset.range P.T, s2.e.bp.Qu t ⬝ᵥ s2.e.bp.k t := by
    change (forUp P.T _ (0, 0)).2 = _
    rw [main P.T le_rfl]
  refine ⟨e0, by rw [e1, e0], ?_⟩
  rw [e0]
  exact Finset.sum_nonneg fun t ht => (hg t (Finset.mem_range.mp ht)).1

theorem gain_quu (hllt : LLTExact llt) {d : Data P} (hsym : SymHess d) {fs : ℕ → Vec K P.ndx} {feas : Bool} {preg dreg : K}
    {b b' : BP P} (h : backwardPass llt d fs feas preg dreg b = .ok b') (t : ℕ) (ht : t < P.T) :
    b'.k t ⬝ᵥ (b'.Quu t *ᵥ b'.k t) = b'.Qu t ⬝ᵥ b'.k t := by
  obtain ⟨hR, hpd⟩ := backward_riccati hllt hsym h
  obtain ⟨_, _, h3⟩ := Bwd.backwardPass_ok h
  rcases Nat.eq_zero_or_pos (P.nu t) with h0 | h0
  · rw [vec_eq_of_zero h0 (b'.k t) 0, dotProduct_zero, zero_dotProduct]
  · obtain ⟨e1, e2, e3, e4, e5, e6, e7, e8, e9⟩ := (h3 t ht).pos h0
    have hq : b'.Quu t *ᵥ b'.k t = b'.Qu t := by
      rw [e6]; exact hllt.solves _ _ _ (hR.symU t ht) e1 _
    rw [hq, dotProduct_comm]

/-- one iteration at a KKT point `X, U`: it reports success, or it stays and brings the multipliers up to date. -/
theorem at_kkt (hT : 0 < P.T) (hllt : LLTExact llt) (hsep : Separates P) (hP : SymProblem P) (hcv : ConvexProblem P)
    {s1 : DDP P} {lam : ℕ → Vec K P.ndx} (hI : HeadInv s1) (hrec : s1.recalc = true) (hx : s1.y.xs 0 = P.x0) (hc : Sane s1.c)
    (hk : IsKKT P 0 s1.xs s1.us lam) (hp : 0 ≤ s1.preg) (hpq : s1.dreg = s1.preg) (hst : StrictControls P ∨ 0 < s1.dreg)
    (hr : TrajInRange P s1.xs s1.us) (hv : ValueInRange P s1.xs s1.us s1.preg) (fuel : ℕ) :
    (∃ s', body (ddp P) llt (fuel + 1) s1 = some (some true, s') ∧ s'.xs = s1.xs ∧ s'.us = s1.us ∧ s'.iter = s1.iter) ∨
    (¬ (∀ t, t ≤ P.T → s1.y.lagMul t = lam t) ∧ ∃ s3, body (ddp P) llt (fuel + 1) s1 = some (none, s3) ∧ s3.c = s1.c ∧
      s3.iter = s1.iter ∧ (∀ t, t ≤ P.T → s3.xs t = s1.xs t) ∧ (∀ t, t < P.T → s3.us t = s1.us t) ∧ s3.recalc = true ∧
      s3.preg = s1.c.par.regNext s1.preg ∧ s3.dreg = s3.preg ∧ s3.y.xs 0 = P.x0 ∧ (∀ t, t < P.T → s3.y.dx t = 0) ∧
      ((∀ t, t < P.T → s1.y.dx t = 0) → ∀ t, t ≤ P.T → s3.y.lagMul t = lam t)) := by
  have hEv := evald_evalFresh hI
  rw [hrec] at hEv
  have hEv : EvalFresh s1.calcDiff := hEv
  have hz : ∀ t, t ≤ P.T → s1.calcDiff.e.fs t = 0 := by
    intro t ht
    cases t with
    | zero => rw [hEv.gap0]; exact vec_zero hk.init
    | succ t => rw [hEv.gaps t ht]; exact vec_zero (hk.gaps t ht)
  obtain ⟨s2, h2, hp2, hq2⟩ := C57_ddp_convex (k := ddp P) (.inl rfl) hllt hP hcv hrec hp (by rw [hpq]; exact hp) hst (by
    rw [hpq]
    refine inRange_congr (fun _ _ => rfl) rfl (fun t ht => ?_) (hv _ hEv.diff)
    split
    · rfl
    · exact (hz t ht).symm) fuel
  obtain ⟨k1, k2, k3, k4, k5, k6, k7, k8, k9⟩ := retry_keeps ddp_laws h2
  have hEv2 := retry_evalFresh ddp_laws h2 hI
  have hz2 : ∀ t, t ≤ P.T → s2.e.fs t = 0 := by
    intro t ht
    cases t with
    | zero => rw [hEv2.gap0, k1]; exact vec_zero hk.init
    | succ t => rw [hEv2.gaps t ht, k1, k2]; exact vec_zero (hk.gaps t ht)
  have hdiff : FreshDiff P s2.y.data s1.xs s1.us := by have := hEv2.diff; rwa [k1, k2] at this
  by_cases hconv : kktResidual s2.y.data s2.e.fs s2.y.lagMul ≤ s1.c.tol
  · left
    obtain ⟨d0, d1, dg, dq, hch⟩ := checked_frame ddp_laws s2
    refine ⟨checked (ddp P) s2, ?_, by rw [hch]; exact k1, by rw [hch]; exact k2, by rw [hch]; exact k5⟩
    unfold body
    rw [h2]
    have e1 : ((ddp P).improve s2).checkKKT = checked (ddp P) s2 := rfl
    simp only [e1]
    rw [if_pos]
    rw [hch]
    change leb (kktResidual s2.y.data s2.e.fs s2.y.lagMul) s2.c.tol = true
    rw [k4]
    simpa using hconv
  · right
    obtain ⟨_, hb, _⟩ := retry_spec ddp_laws h2
    obtain ⟨_, b0, hb⟩ := hb rfl
    obtain ⟨hk0, hVx⟩ := zero_direction hllt hP hdiff hb hz2 hk
    obtain ⟨i1, i2, i3⟩ := improve_exact hllt (symHess_of_fresh hP hdiff) hb
    have hd0 : (checked (ddp P) s2).m.d0 = 0 := by
      rw [i1]
      exact Finset.sum_eq_zero fun t ht => by rw [hk0 t (Finset.mem_range.mp ht), dotProduct_zero]
    obtain ⟨sx, su⟩ := policy_still hsep (π := s2.policy) (by
      have := kkt_feasible' hsep hk
      change Feasible P s2.xs s2.us
      rw [k1, k2]; exact this) hk0 1
    have sx : ∀ t, t ≤ P.T → s2.policy.X true 1 t = s1.xs t := fun t ht => (sx t ht).trans (congrFun k1 t)
    have su : ∀ t, t < P.T → s2.policy.U true 1 t = s1.us t := fun t ht => (su t ht).trans (congrFun k2 t)
    obtain ⟨d0, d1, dg, dq, hch⟩ := checked_frame ddp_laws s2
    have hpol : (checked (ddp P) s2).policy = s2.policy := by rw [hch]; rfl
    have hacc : AcceptDDP (checked (ddp P) s2) 1 := by
      refine ⟨by simp, by simp, by rw [hpol]; exact policy_blowsUp sx su hr, ?_, .inl ?_⟩
      · unfold predicted
        rw [i2, hd0]
        simp
      · rw [hd0, show (checked (ddp P) s2).c = s1.c by rw [hch]; exact k4, ltb_exact, decide_eq_true_eq]
        exact hc.grad
    obtain ⟨s3, hb3, f⟩ := full_step hT hx h2 (by rw [hp2, hq2, hpq]) hconv hc.alphas hc.inc hacc
    have hdx : ∀ t, t < P.T → s3.y.dx t = 0 := fun t ht => by
      rw [f.dx t ht, f.xs t ht.le, sx t ht.le, k1]; exact (hsep _ _).mpr rfl
    refine ⟨?_, s3, hb3, f.c, f.iter, fun t ht => (f.xs t ht).trans (sx t ht), fun t ht => (f.us t ht).trans (su t ht), f.recalc,
      by rw [f.preg, hp2], by rw [f.dreg, f.preg], f.x0, hdx, fun hd t ht => ?_⟩
    · intro hl
      apply hconv
      exact kktResidual_exact_zero hdiff hz2 hk (fun t ht => by rw [k8]; exact hl t ht) hc.tol
    · rcases Nat.lt_or_eq_of_le ht with h' | rfl
      · rw [f.lag t h', hd t h', mv_exact, Matrix.mulVec_zero, zero_add]; exact hVx t ht
      · rw [f.lagT, hdx _ (by omega), mv_exact, Matrix.mulVec_zero, zero_add]; exact hVx _ le_rfl

theorem freshDiff_congr {d : Data P} {X X' : Traj P} {U U' : Ctrls P} (hx : ∀ t, t ≤ P.T → X' t = X t) (hu : ∀ t, t < P.T → U' t = U t)
    (h : FreshDiff P d X' U') : FreshDiff P d X U :=
  ⟨fun t ht => by rw [h.run t ht, hx t ht.le, hu t ht], by rw [h.ter, hx _ le_rfl]⟩

theorem isKKT_congr {X X' : Traj P} {U U' : Ctrls P} {lam : ℕ → Vec K P.ndx} {e : K} (hx : ∀ t, t ≤ P.T → X' t = X t)
    (hu : ∀ t, t < P.T → U' t = U t) (hk : IsKKT P e X U lam) : IsKKT P e X' U' lam := by
  refine ⟨?_, ?_, ?_, ?_, ?_⟩
  · intro t ht; rw [hx t ht.le, hu t ht]; exact hk.stat_x t ht
  · intro t ht; rw [hx t ht.le, hu t ht]; exact hk.stat_u t ht
  · rw [hx P.T le_rfl]; exact hk.stat_T
  · rw [hx 0 (Nat.zero_le _)]; exact hk.init
  · intro t ht
    have := hk.gaps t ht
    unfold shootGap at this ⊢
    rw [hx (t + 1) ht, hx t ht.le, hu t ht]; exact this

theorem trajInRange_congr {X X' : Traj P} {U U' : Ctrls P} (hx : ∀ t, t ≤ P.T → X' t = X t) (hu : ∀ t, t < P.T → U' t = U t)
    (h : TrajInRange P X U) : TrajInRange P X' U' :=
  ⟨fun hb => h.cost (costBlowsUp_congr hx hu hb), fun t ht => by rw [hx _ ht]; exact h.state t ht⟩

theorem valueInRange_congr {X X' : Traj P} {U U' : Ctrls P} {r : K} (hx : ∀ t, t ≤ P.T → X' t = X t) (hu : ∀ t, t < P.T → U' t = U t)
    (h : ValueInRange P X U r) : ValueInRange P X' U' r := fun d hd => h d (freshDiff_congr hx hu hd)

theorem regNext_nonneg {p : Params K} (hd : 0 ≤ p.regDec) {r : K} (hr : 0 ≤ r) : 0 ≤ p.regNext r := by
  unfold Params.regNext
  split
  · exact le_max_of_le_right (div_nonneg hr hd)
  · exact hr

theorem regNext_pos {p : Params K} (hd : 0 < p.regMin) {r : K} (hr : 0 < r) : 0 < p.regNext r := by
  unfold Params.regNext
  split
  · exact lt_max_of_lt_left hd
  · exact hr

theorem start_x0 (s : DDP P) (xs : Option (Traj P)) (us : Option (Ctrls P)) (fe : Bool) (r : K) :
    (s.start xs us fe r).y.xs 0 = P.x0 := by
  unfold start setCandidate
  exact Function.update_self (β := fun _ => P.X) 0 P.x0 s.y.xs

theorem start_preg (s : DDP P) (xs : Option (Traj P)) (us : Option (Ctrls P)) (fe : Bool) (r : K) :
    initReg s.c.par r = r := by simp [initReg]

/-- a solver at the head of its loop, standing at `X, U` with regularization `r`. -/
structure Standing (c : DConf K) (X : Traj P) (U : Ctrls P) (r : K) (s : DDP P) : Prop where
  head : HeadInv s
  recalc : s.recalc = true
  x0 : s.y.xs 0 = P.x0
  c : s.c = c
  xs : ∀ t, t ≤ P.T → s.xs t = X t
  us : ∀ t, t < P.T → s.us t = U t
  preg : s.preg = r
  dreg : s.dreg = r

/-- `at_kkt` for a solver standing at `X, U`. -/
theorem Standing.next {c : DConf K} {X : Traj P} {U : Ctrls P} {r : K} {lam : ℕ → Vec K P.ndx} {s1 : DDP P} (h : Standing c X U r s1)
    (hT : 0 < P.T) (hllt : LLTExact llt) (hsep : Separates P) (hP : SymProblem P) (hcv : ConvexProblem P) (hc : Sane c)
    (hk : IsKKT P 0 X U lam) (hp : 0 ≤ r) (hst : StrictControls P ∨ 0 < r) (hr : TrajInRange P X U) (hv : ValueInRange P X U r)
    (fuel : ℕ) :
    (∃ s', body (ddp P) llt (fuel + 1) s1 = some (some true, s') ∧ (∀ t, t ≤ P.T → s'.xs t = X t) ∧ (∀ t, t < P.T → s'.us t = U t) ∧
      s'.iter = s1.iter) ∨
    (¬ (∀ t, t ≤ P.T → s1.y.lagMul t = lam t) ∧ ∃ s3, body (ddp P) llt (fuel + 1) s1 = some (none, s3) ∧
      s3.iter = s1.iter ∧ Standing c X U (c.par.regNext r) { s3 with iter := s3.iter + 1 } ∧
      (∀ t, t < P.T → s3.y.dx t = 0) ∧ ((∀ t, t < P.T → s1.y.dx t = 0) → ∀ t, t ≤ P.T → s3.y.lagMul t = lam t)) := by
  rcases at_kkt hT hllt hsep hP hcv h.head h.recalc h.x0 (by rw [h.c]; exact hc) (isKKT_congr h.xs h.us hk) (by rw [h.preg]; exact hp)
    (by rw [h.preg, h.dreg]) (by rw [h.dreg]; exact hst) (trajInRange_congr h.xs h.us hr)
    (by rw [h.preg]; exact valueInRange_congr h.xs h.us hv) fuel with ⟨s', h1, h2, h3, h4⟩ | ⟨h0, s3, h1, h2, h3, h4, h5, h6, h7, h8, h9, h10, h11⟩
  · exact .inl ⟨s', h1, fun t ht => by rw [h2]; exact h.xs t ht, fun t ht => by rw [h3]; exact h.us t ht, h4⟩
  · refine .inr ⟨h0, s3, h1, h3, ⟨body_headInv ddp_laws h1 h.head, h6, h9, h2.trans h.c, fun t ht => (h4 t ht).trans (h.xs t ht),
      fun t ht => (h5 t ht).trans (h.us t ht), ?_, ?_⟩, h10, h11⟩
    · change s3.preg = _; rw [h7, h.c, h.preg]
    · change s3.dreg = _; rw [h8, h7, h.c, h.preg]

/-- three iterations at a KKT point are enough for a `true`. -/
theorem Standing.settles {c : DConf K} {X : Traj P} {U : Ctrls P} {r : K} {lam : ℕ → Vec K P.ndx} {s1 : DDP P} (h : Standing c X U r s1)
    (hT : 0 < P.T) (hllt : LLTExact llt) (hsep : Separates P) (hP : SymProblem P) (hcv : ConvexProblem P) (hc : Sane c)
    (hk : IsKKT P 0 X U lam) (hp : 0 ≤ r) (hd : 0 ≤ c.par.regDec) (hst : StrictControls P ∨ (0 < r ∧ 0 < c.par.regMin))
    (hr : TrajInRange P X U) (hv : ∀ q ∈ [r, c.par.regNext r, c.par.regNext (c.par.regNext r)], ValueInRange P X U q) (fuel m : ℕ) :
    ∃ s', iterate (ddp P) llt (fuel + 1) (m + 3) s1 = some (some true, s') ∧ (∀ t, t ≤ P.T → s'.xs t = X t) ∧
      (∀ t, t < P.T → s'.us t = U t) ∧ s'.iter ≤ s1.iter + 2 := by
  have hp1 := regNext_nonneg hd hp
  have hp2 := regNext_nonneg hd hp1
  rcases h.next hT hllt hsep hP hcv hc hk hp (hst.imp id And.left) hr (hv r (by simp)) fuel with
    ⟨s', e, a1, a2, a3⟩ | ⟨_, s3, e, a3, h3, d3, l3⟩
  · refine ⟨s', ?_, a1, a2, by omega⟩
    unfold iterate; rw [e]
  rcases h3.next hT hllt hsep hP hcv hc hk hp1 (hst.imp id fun h => regNext_pos h.2 h.1) hr (hv _ (by simp)) fuel with
    ⟨s', e', a1, a2, b3⟩ | ⟨_, s4, e', b3, h4, d4, l4⟩
  · have b3 : s'.iter = s3.iter + 1 := b3
    refine ⟨s', ?_, a1, a2, by omega⟩
    unfold iterate; rw [e]; simp only []
    unfold iterate; rw [e']
  have b3 : s4.iter = s3.iter + 1 := b3
  rcases h4.next hT hllt hsep hP hcv hc hk hp2 (hst.imp id fun h => regNext_pos h.2 (regNext_pos h.2 h.1)) hr (hv _ (by simp)) fuel with
    ⟨s', e'', a1, a2, c3⟩ | ⟨hn, _⟩
  · have c3 : s'.iter = s4.iter + 1 := c3
    refine ⟨s', ?_, a1, a2, by omega⟩
    unfold iterate; rw [e]; simp only []
    unfold iterate; rw [e']; simp only []
    unfold iterate; rw [e'']
  · exact absurd (l4 d3) hn

end DDP

/-- **C59.**  Started at an exact KKT point of any problem with convex stage costs (any dynamics, any state manifold), DDP returns true
and the trajectory it was given – whatever the solver did before – if it is allowed three iterations.  (With fewer it can return false:
`Ex.C59_two_are_not_enough`.) -/
theorem C59_ddp_kkt_point (hT : 0 < P.T) (hllt : LLTExact llt) (hsep : Separates P) (hP : SymProblem P) (hcv : ConvexProblem P)
    {X : Traj P} {U : Ctrls P} {lam : ℕ → Vec K P.ndx} (hk : IsKKT P 0 X U lam) (fe : Bool) {r : K} (hp : 0 ≤ r)
    (hc : DDP.Sane s.c) (hd : 0 ≤ s.c.par.regDec) (hst : StrictControls P ∨ (0 < r ∧ 0 < s.c.par.regMin)) (hr : TrajInRange P X U)
    (hv : ∀ q ∈ [r, s.c.par.regNext r, s.c.par.regNext (s.c.par.regNext r)], ValueInRange P X U q) (fuel m : ℕ) :
    ∃ s', solve (ddp P) llt (fuel + 1) (some X) (some U) (m + 3) fe r s = some (true, s') ∧ s'.iter ≤ 2 ∧
      (∀ t, t ≤ P.T → s'.xs t = X t) ∧ (∀ t, t < P.T → s'.us t = U t) ∧ IsKKT P s.c.tol s'.xs s'.us s'.y.lagMul := by
  have hS : DDP.Standing s.c X U r (s.start (some X) (some U) fe r) :=
    ⟨start_headInv s _ _ fe r, rfl, DDP.start_x0 s _ _ fe r, rfl,
      fun _ _ => rfl, fun _ _ => rfl, DDP.start_preg s (some X) (some U) fe r, DDP.start_preg s (some X) (some U) fe r⟩
  obtain ⟨s', h1, h2, h3, h4⟩ := hS.settles hT hllt hsep hP hcv hc hk hp hd hst hr hv fuel m
  have hsol : solve (ddp P) llt (fuel + 1) (some X) (some U) (m + 3) fe r s = some (true, s') := by
    unfold solve; rw [h1]
  exact ⟨s', hsol, h4, h2, h3, C04_ddp_true_is_kkt (.inl rfl) hsol⟩

namespace DDP

/-- the full-step rollout of the policy of an unregularized backward pass on a linear-quadratic problem is a KKT point. -/
theorem full_rollout_kkt (hllt : LLTExact llt) {φ : P.X → Vec K P.ndx} (hE : Euclid P φ) (hA : AffineDyn P φ) (hQ : QuadGrad P φ)
    (hP : SymProblem P) {s2 : DDP P} {b0 : BP P} (hEv : EvalFresh s2)
    (hb : backwardPass llt s2.y.data s2.e.fs s2.feas 0 0 b0 = .ok s2.e.bp)
    (hfe : s2.feas = true → ∀ t, t ≤ P.T → s2.e.fs t = 0) :
    let X' := s2.policy.X true 1
    let U' := s2.policy.U true 1
    let Q := lqOf s2.y.data (fun t => if s2.feas then 0 else s2.e.fs t) 0 0
    let v := fun t => s2.e.bp.Vx t - s2.e.bp.Vxx t *ᵥ (if s2.feas then 0 else s2.e.fs t)
    Riccati Q s2.e.bp.Vxx v s2.e.bp.K s2.e.bp.k s2.e.bp.Quu ∧
    Q.Dyn (fun t => φ (X' t) - φ (s2.xs t)) (fun t => U' t - s2.us t) ∧
    (∀ t, t < P.T → U' t - s2.us t = -(s2.e.bp.K t *ᵥ (φ (X' t) - φ (s2.xs t))) - s2.e.bp.k t) ∧
    ∃ lam, IsKKT P 0 X' U' lam := by
  intro X' U' Q v
  obtain ⟨hR, hpd⟩ := backward_riccati hllt (symHess_of_fresh hP hEv.diff) hb
  have hR : Riccati Q s2.e.bp.Vxx v s2.e.bp.K s2.e.bp.k s2.e.bp.Quu := hR
  have hf := policy_feasible s2.policy (1 : K)
  have hc : ∀ t, t ≤ P.T → Q.c t = s2.e.fs t := fun t ht => by
    change (if s2.feas = true then 0 else s2.e.fs t) = _
    split
    · rename_i h; exact (hfe h t ht).symm
    · rfl
  have hu : ∀ t, t < P.T → U' t - s2.us t = -(s2.e.bp.K t *ᵥ (φ (X' t) - φ (s2.xs t))) - s2.e.bp.k t := by
    intro t ht
    change s2.us t - sv 1 (s2.e.bp.k t) - mv (s2.e.bp.K t) (P.diff (s2.xs t) (X' t)) - s2.us t = _
    rw [sv_exact, one_smul, mv_exact, hE.diff]
    abel
  have hdyn : Q.Dyn (fun t => φ (X' t) - φ (s2.xs t)) (fun t => U' t - s2.us t) := by
    intro t ht
    have e : X' (t + 1) = (P.calcR t (X' t) (U' t)).xnext := hf.2 t ht
    have ha := hA t ht (s2.xs t) (s2.us t) (X' t) (U' t)
    have hg := hEv.gaps t ht
    unfold shootGap at hg
    rw [hE.diff] at hg
    rw [hc (t + 1) ht, hg]
    simp only [Q, lqOf, hEv.diff.run t ht]
    rw [e, ha]
    abel
  refine ⟨hR, hdyn, hu, fun t => s2.e.bp.Vxx t *ᵥ (φ (X' t) - φ (s2.xs t)) + v t, ?_⟩
  have hk := hR.kkt hdyn hu (lam := fun t => s2.e.bp.Vxx t *ᵥ (φ (X' t) - φ (s2.xs t)) + v t) (fun t _ => rfl)
  have up : ∀ {n : ℕ} {w : Vec K n}, w = 0 → ∀ i, |w i| ≤ 0 := fun h i => by rw [h]; simp
  refine ⟨fun t ht => up ?_, fun t ht => up ?_, up ?_, up ?_, fun t ht => up ?_⟩
  · have := hk.stat_x t ht
    simp only [Q, lqOf, zero_smul, add_zero, hEv.diff.run t ht] at this
    rw [hQ.Lx t ht (s2.xs t) (s2.us t), hQ.Fx t ht (s2.xs t) (s2.us t), ← this]
    abel
  · have := hk.stat_u t ht
    simp only [Q, lqOf, zero_smul, add_zero, hEv.diff.run t ht] at this
    rw [hQ.Lu t ht (s2.xs t) (s2.us t), hQ.Fu t ht (s2.xs t) (s2.us t), ← this]
    abel
  · have := hk.stat_T
    simp only [Q, lqOf, zero_smul, add_zero, hEv.diff.ter] at this
    rw [hQ.LT (s2.xs P.T), ← this]
    abel
  · exact (hE.separates _ _).mpr hf.1
  · exact (hE.separates _ _).mpr (hf.2 t ht)

end DDP

/-- **C60.**  Strictly convex linear-quadratic problem, exact arithmetic, `reginit = 0`, first step length `1`: from every state of the
solver and every guess (marked infeasible, or really feasible) DDP returns true within four iterations.  Either the guess is a KKT point
up to the tolerance (with the multipliers the solver held) and is returned, or the returned trajectory is the unique minimiser of the
problem over all feasible trajectories. -/
theorem C60_ddp_convex_lq (hllt : LLTExact llt) (hT : 0 < P.T) {φ : P.X → Vec K P.ndx} (hE : Euclid P φ)
    (hA : AffineDyn P φ) (hQ : QuadGrad P φ) (hC : QuadCost P φ) (hP : SymProblem P) (hcv : ConvexProblem P) (hst : StrictControls P)
    (hc : DDP.Sane s.c) (hd : 0 ≤ s.c.par.regDec) (hta : s.c.par.thAccept < 1) (fe : Bool)
    (hfe : fe = true → Feasible P (s.start xs us fe 0).xs (s.start xs us fe 0).us)
    (hr0 : (lqOf (s.start xs us fe 0).calcDiff.y.data (fun t => if fe then 0 else (s.start xs us fe 0).calcDiff.e.fs t) 0 0).InRange)
    (hr : ∀ X U lam, IsKKT P 0 X U lam → TrajInRange P X U ∧ ∀ q ∈ [s.c.par.regNext 0, s.c.par.regNext (s.c.par.regNext 0),
      s.c.par.regNext (s.c.par.regNext (s.c.par.regNext 0))], ValueInRange P X U q) (fuel m : ℕ) :
    ∃ s', solve (ddp P) llt (fuel + 1) xs us (m + 4) fe 0 s = some (true, s') ∧ s'.iter ≤ 3 ∧
      IsKKT P s.c.tol s'.xs s'.us s'.y.lagMul ∧
      ((s'.iter = 0 ∧ s'.xs = (s.start xs us fe 0).xs ∧ s'.us = (s.start xs us fe 0).us) ∨ OptimalTraj P s'.xs s'.us) := by
  have hI := start_headInv s xs us fe (0 : K)
  have hx := DDP.start_x0 s xs us fe (0 : K)
  have hc1 : (s.start xs us fe 0).c = s.c := rfl
  have hf1 : (s.start xs us fe 0).feas = fe := rfl
  have hi1 : (s.start xs us fe 0).iter = 0 := rfl
  have hre : (s.start xs us fe 0).recalc = true := rfl
  have hp1 : (s.start xs us fe 0).preg = 0 := DDP.start_preg s xs us fe 0
  have hq1 : (s.start xs us fe 0).dreg = 0 := DDP.start_preg s xs us fe 0
  have key : ∃ s', iterate (ddp P) llt (fuel + 1) (m + 4) (s.start xs us fe 0) = some (some true, s') ∧ s'.iter ≤ 3 ∧
      ((s'.iter = 0 ∧ s'.xs = (s.start xs us fe 0).xs ∧ s'.us = (s.start xs us fe 0).us) ∨ OptimalTraj P s'.xs s'.us) := by
    generalize hs1 : s.start xs us fe 0 = s1 at *
    obtain ⟨s2, h2, hp2, hq2⟩ := C57_ddp_convex (k := ddp P) (.inl rfl) hllt hP hcv hre hp1.ge hq1.ge (.inl hst)
      (by rw [hp1, hq1, hf1]; exact hr0) fuel
    obtain ⟨k1, k2, k3, k4, k5, k6, k7, k8, k9⟩ := retry_keeps ddp_laws h2
    have hEv := retry_evalFresh ddp_laws h2 hI
    obtain ⟨_, hb, _⟩ := retry_spec ddp_laws h2
    obtain ⟨_, b0, hb⟩ := hb rfl
    rw [hp1] at hp2
    rw [hq1] at hq2
    obtain ⟨d0, d1, dg, dq, hch⟩ := checked_frame ddp_laws s2
    by_cases hconv : kktResidual s2.y.data s2.e.fs s2.y.lagMul ≤ s1.c.tol
    · refine ⟨checked (ddp P) s2, ?_, by rw [hch]; change s2.iter ≤ 3; omega,
        .inl ⟨by rw [hch]; change s2.iter = 0; omega, by rw [hch]; exact k1, by rw [hch]; exact k2⟩⟩
      have hbody : body (ddp P) llt (fuel + 1) s1 = some (some true, checked (ddp P) s2) := by
        unfold body
        rw [h2]
        have e1 : ((ddp P).improve s2).checkKKT = checked (ddp P) s2 := rfl
        simp only [e1]
        rw [if_pos]
        rw [hch]
        change leb (kktResidual s2.y.data s2.e.fs s2.y.lagMul) s2.c.tol = true
        rw [k4]
        simpa using hconv
      unfold iterate
      rw [hbody]
    have hfz : s2.feas = true → ∀ t, t ≤ P.T → s2.e.fs t = 0 := by
      intro h t ht
      have hff := hfe (by rw [← hf1, ← k3]; exact h)
      cases t with
      | zero => rw [hEv.gap0, k1]; exact (hE.separates _ _).mpr hff.1
      | succ t => rw [hEv.gaps t ht, k1, k2]; exact (hE.separates _ _).mpr (hff.2 t ht)
    obtain ⟨i1, i2, i3⟩ := DDP.improve_exact hllt (symHess_of_fresh hP hEv.diff) hb
    rw [hp2, hq2] at hb
    obtain ⟨hR, hdyn, hu, lam, hkkt⟩ := DDP.full_rollout_kkt hllt hE hA hQ hP hEv hb hfz
    obtain ⟨r1, r2⟩ := hr _ _ _ hkkt
    have hpol : (checked (ddp P) s2).policy = s2.policy := by rw [hch]; rfl
    have hpred : predicted (checked (ddp P) s2).m.d0 (checked (ddp P) s2).m.d1 1 = (checked (ddp P) s2).m.d0 / 2 := by
      unfold predicted
      rw [i2]
      simp only [lit_exact]
      push_cast
      ring
    have hacc : AcceptDDP (checked (ddp P) s2) 1 := by
      refine ⟨by simp, by simp, by rw [hpol]; exact DDP.policy_blowsUp (fun _ _ => rfl) (fun _ _ => rfl) r1, ?_, ?_⟩
      · rw [hpred, leb_exact, decide_eq_true_eq]
        linarith
      · by_cases hz : (checked (ddp P) s2).m.d0 = 0
        · left
          rw [hz, show (checked (ddp P) s2).c = s1.c by rw [hch]; exact k4, ltb_exact, decide_eq_true_eq, hc1]
          exact hc.grad
        · right
          by_cases hf : s2.feas = true
          · right
            have hcost := trajCost_model (fs := fun t => if s2.feas = true then 0 else s2.e.fs t) hC hEv.diff (s2.policy.X true 1)
              (s2.policy.U true 1)
            have h0 : φ (s2.policy.X true 1 0) - φ (s2.xs 0) = 0 := by
              have : s2.e.fs 0 = 0 := hfz hf 0 (Nat.zero_le _)
              rw [hEv.gap0, hE.diff] at this
              exact this
            rw [hR.cost_sq hdyn, h0] at hcost
            have hz1 : ∑ t ∈ Finset.range P.T, ((s2.policy.U true 1 t - s2.us t + s2.e.bp.K t *ᵥ (φ (s2.policy.X true 1 t) - φ (s2.xs t)) +
                s2.e.bp.k t) ⬝ᵥ (s2.e.bp.Quu t *ᵥ (s2.policy.U true 1 t - s2.us t + s2.e.bp.K t *ᵥ
                (φ (s2.policy.X true 1 t) - φ (s2.xs t)) + s2.e.bp.k t))) / 2 = 0 :=
              Finset.sum_eq_zero fun t ht => by
                rw [hu t (Finset.mem_range.mp ht)]
                have e : ∀ a b : Vec K (P.nu t), -a - b + a + b = 0 := fun a b => by abel
                rw [e]; simp
            have hoff : ∑ t ∈ Finset.range P.T, Riccati.offset (lqOf s2.y.data (fun t => if s2.feas = true then 0 else s2.e.fs t) 0 0) s2.e.bp.Vxx
                (fun t => s2.e.bp.Vx t - s2.e.bp.Vxx t *ᵥ (if s2.feas = true then 0 else s2.e.fs t)) s2.e.bp.k s2.e.bp.Quu t =
                -((checked (ddp P) s2).m.d0 / 2) := by
              rw [i1, Finset.sum_div, ← Finset.sum_neg_distrib]
              refine Finset.sum_congr rfl fun t ht => ?_
              have ht := Finset.mem_range.mp ht
              have hq := DDP.gain_quu hllt (symHess_of_fresh hP hEv.diff) hb t ht
              have hcz : (lqOf s2.y.data (fun t => if s2.feas = true then 0 else s2.e.fs t) 0 0).c (t + 1) = 0 := by
                change (if s2.feas = true then (0 : Vec K P.ndx) else s2.e.fs (t + 1)) = 0
                rw [if_pos hf]
              unfold Riccati.offset
              rw [hcz, hq]
              simp
            rw [hz1, hoff] at hcost
            simp only [Matrix.mulVec_zero, dotProduct_zero, zero_div, zero_add, add_zero] at hcost
            rw [hpred, show (checked (ddp P) s2).c = s1.c by rw [hch]; exact k4, hc1, hpol, ltb_exact, decide_eq_true_eq,
              show (checked (ddp P) s2).e.cost = s2.e.cost by rw [hch], hEv.cost, hcost]
            have hpos : 0 < (checked (ddp P) s2).m.d0 := lt_of_le_of_ne i3 (Ne.symm hz)
            nlinarith
          · left
            rw [hch]
            exact Bool.eq_false_iff.mpr hf
    obtain ⟨s3, hb3, f⟩ := DDP.full_step hT hx h2 (by rw [hp2, hq2]) hconv (by rw [hc1]; exact hc.alphas) (by rw [hc1]; exact hc.inc) hacc
    have hS : DDP.Standing s.c (s2.policy.X true 1) (s2.policy.U true 1) (s.c.par.regNext 0) { s3 with iter := s3.iter + 1 } :=
      ⟨body_headInv ddp_laws hb3 hI, f.recalc, f.x0, f.c.trans hc1, f.xs, f.us, by
        change s3.preg = _; rw [f.preg, hp2, hc1], by change s3.dreg = _; rw [f.dreg, hp2, hc1]⟩
    obtain ⟨s', g1, g2, g3, g4⟩ := hS.settles hT hllt hE.separates hP hcv hc hkkt (DDP.regNext_nonneg hd le_rfl) hd (.inl hst) r1 r2 fuel m
    have g4 : s'.iter ≤ s3.iter + 1 + 2 := g4
    have hi3 := f.iter
    refine ⟨s', ?_, by omega, .inr ?_⟩
    · unfold iterate
      rw [hb3]
      exact g1
    · have hk' := DDP.isKKT_congr g2 g3 hkkt
      exact ⟨kkt_feasible hE hk', fun X' U' hf => kkt_global_min hE hA hC hP hcv hst s.y.data hk' hf⟩
  obtain ⟨s', h1, h2, h3⟩ := key
  have hsol : solve (ddp P) llt (fuel + 1) xs us (m + 4) fe 0 s = some (true, s') := by
    unfold solve; rw [h1]
  exact ⟨s', hsol, h2, C04_ddp_true_is_kkt (.inl rfl) hsol, h3⟩

end Mim

/-! ## The hypotheses are met by `Ex.lq` -/
namespace Mim.Ex
open Spec Matrix DDP

theorem lqDDP_sane : Sane lqDDP.c := ⟨by decide +kernel, by decide +kernel, by decide +kernel, by decide +kernel⟩

theorem lq_trajInRange {X : Traj lq} {U : Ctrls lq} {lam : ℕ → Vec ℚ lq.ndx} (h : IsKKT lq 0 X U lam) : TrajInRange lq X U :=
  ⟨lq_inRange.cost X U lam h, fun _ _ => rfl⟩

/-- a solver standing at the solution of `lq` with regularization `r`. -/
def lqStand (r : ℚ) : SQP lq := { lqSolver with xs := lqX, us := lqU, preg := r, dreg := r }

theorem lq_valueInRange {r : ℚ} (hok : (SQP.computeDirection llt1 true (lqStand r)).isOk = true) {X : Traj lq} {U : Ctrls lq}
    {lam : ℕ → Vec ℚ lq.ndx} (h : IsKKT lq 0 X U lam) : ValueInRange lq X U r := by
  intro d hd
  obtain ⟨h1, h2⟩ := lq_kkt_unique h
  have hr := (inRange_of_ok (s := lqStand r) (scalar_sym _ _ _ _ _) rfl hok).2
  refine inRange_congr (fun t ht => ?_) ?_ (fun t ht => ?_) hr
  · rw [hd.run t ht, ← h1 t ht.le, ← h2 t ht]
    exact if_pos ht
  · rw [hd.ter, ← h1 _ le_rfl]
    rfl
  · have h3 : (((lqStand 0).calcDiff.fs 0 (0 : Fin 1) : ℚ), ((lqStand 0).calcDiff.fs 1 (0 : Fin 1) : ℚ),
        ((lqStand 0).calcDiff.fs 2 (0 : Fin 1) : ℚ)) = ((0 : ℚ), (0 : ℚ), (0 : ℚ)) := by decide +kernel
    simp only [Prod.mk.injEq] at h3
    funext i
    have hi : i = (0 : Fin 1) := Fin.fin_one_eq_zero i
    match t, ht with
    | 0, _ => rw [hi]; exact h3.1
    | 1, _ => rw [hi]; exact h3.2.1
    | 2, _ => rw [hi]; exact h3.2.2
    | t + 3, ht => exact absurd ht (by change ¬ t + 3 ≤ 2; omega)

theorem lqDDP_regs : lqDDP.c.par.regNext 0 = 1 / 10 ^ 9 ∧ lqDDP.c.par.regNext (1 / 10 ^ 9) = 1 / 10 ^ 9 := by decide +kernel

/-- **C59 is met**: the solution of `lq`, a new solver, `reginit = 0`. -/
theorem C59_example (fe : Bool) : ∃ s', solve (ddp lq) llt1 20 (some lqX) (some lqU) 3 fe 0 lqDDP = some (true, s') ∧ s'.iter ≤ 2 ∧
    (∀ t, t ≤ lq.T → s'.xs t = lqX t) ∧ (∀ t, t < lq.T → s'.us t = lqU t) := by
  obtain ⟨s', h1, h2, h3, h4, _⟩ := C59_ddp_kkt_point (s := lqDDP) (by decide) llt1_exact lq_euclid.separates lq_sym lq_convex lq_kkt fe
    (r := 0) le_rfl lqDDP_sane (by decide +kernel) (.inl lq_strict) (lq_trajInRange lq_kkt) (by
      intro q hq
      rw [lqDDP_regs.1, lqDDP_regs.2] at hq
      simp only [List.mem_cons, List.not_mem_nil, or_false] at hq
      rcases hq with rfl | rfl | rfl <;> exact lq_valueInRange (by decide +kernel) lq_kkt) 19 0
  exact ⟨s', h1, h2, h3, h4⟩

/-- **Two iterations are not enough**: a solver that has done one iteration of another solve is given the exact solution of `lq`, is
allowed two iterations, and returns false. -/
theorem C59_two_are_not_enough : ((solve (ddp lq) llt1 20 none none 1 false 0 lqDDP).bind fun a =>
    (solve (ddp lq) llt1 20 (some lqX) (some lqU) 2 true 0 a.2).map fun b => (b.1, b.2.nRej)) = some (false, 0) := by
  decide +kernel

/-- **C60 is met**: all hypotheses of `C60_ddp_convex_lq` hold for the default solver on `lq` started from nothing. -/
theorem C60_example : ∃ s', solve (ddp lq) llt1 20 none none 4 false 0 lqDDP = some (true, s') ∧ OptimalTraj lq s'.xs s'.us := by
  obtain ⟨s', h1, h2, _, h3⟩ := C60_ddp_convex_lq (xs := none) (us := none) (s := lqDDP) llt1_exact (by decide) lq_euclid lq_affine
    lq_quad lq_quadCost lq_sym lq_convex lq_strict lqDDP_sane (by decide +kernel) (by decide +kernel) false nofun
    ((C57_ddp_direction_iff (k := ddp lq) (.inl rfl) llt1_exact lq_sym (s := lqDDP.start none none false 0)).mp (by
      cases e : (ddp lq).dir llt1 true (lqDDP.start none none false 0) with
      | ok s1 => exact ⟨s1, rfl⟩
      | exn s1 =>
        have : ((ddp lq).dir llt1 true (lqDDP.start none none false 0)).isOk = true := by decide +kernel
        rw [e] at this; cases this)).2
    (fun X U lam h => ⟨lq_trajInRange h, by
      intro q hq
      rw [lqDDP_regs.1, lqDDP_regs.2] at hq
      rw [lqDDP_regs.2] at hq
      simp only [List.mem_cons, List.not_mem_nil, or_false] at hq
      rcases hq with rfl | rfl | rfl <;> exact lq_valueInRange (by decide +kernel) h⟩) 19 0
  refine ⟨s', h1, ?_⟩
  rcases h3 with ⟨h3, _⟩ | h3
  · exfalso
    have : (solve (ddp lq) llt1 20 none none 4 false 0 lqDDP).map (fun r => decide (r.2.iter = 0)) = some false := by decide +kernel
    have h1 : solve (ddp lq) llt1 20 none none 4 false 0 lqDDP = some (true, s') := h1
    rw [h1] at this
    have := Option.some.inj this
    simp only [h3, decide_true] at this
    cases this
  · exact h3

end Mim.Ex
