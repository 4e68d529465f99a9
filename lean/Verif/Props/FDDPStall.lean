import Verif.Props.DDPConvex
import Verif.Props.FDDPFilter
import Verif.Lemmas.DDPHead
import Mathlib.Tactic.LinearCombination

/-!
# FDDP with its default filter can refuse every step on a strictly convex problem (C61)

FDDP measures the gap of a trial by `x_t ⊖ x_{t+1}` (C23), so its filter compares the wrong number.  On the problem
`min (x0² + u²)/2 + x1²/2`, `x1 = x0 + u`, `x0 = 1` from the guess `x1 = 0`, `u = -1/2` no step is ever accepted.
-/
set_option linter.unusedSectionVars false
set_option linter.unusedSimpArgs false

namespace Mim
open Matrix Spec DDP

/-- FDDP's filter refuses every trial that is not better than the current candidate in cost or in (computed) gap. -/
theorem DDP.fddp_refuses {K : Type} [Field K] [LinearOrder K] [IsStrictOrderedRing K] {P : Problem K} {f : ℕ} {oldc oldg : List K}
    {s2 : DDP P} (hI : FDDPInv f oldc oldg s2) (hf : 0 < f) (hl : s2.hist.length = s2.iter) (huf : s2.c.useFilter = true) {a : K}
    (h1 : s2.e.cost ≤ trajCost P (s2.policy.X (s2.closes a) a) (s2.policy.U (s2.closes a) a)) (h2 : s2.e.gap ≤ s2.gapTryAt a) :
    ¬ AcceptFDDP ((fddp P).push (checked (fddp P) s2)) a := by
  obtain ⟨d0, d1, dg, dq, hch⟩ := checked_frame fddp_laws s2
  rintro ⟨_, _, _, h⟩
  generalize hz : checked (fddp P) s2 = z at hch h
  have hIz : FDDPInv f oldc oldg z := hI.congr (by rw [hch])
  have e1 : (fddp P).push z = pushFDDP z := rfl
  rw [e1] at h
  have huz : (pushFDDP z).c.useFilter = true := by rw [hch]; exact huf
  rw [if_pos huz] at h
  apply h
  rw [(hIz.push).worse_iff (by rw [hch]; change (s2.hist ++ [_]).length = _; rw [List.length_append, hl]; rfl)]
  refine ⟨(s2.e.cost, s2.e.gap), ?_, ?_, ?_⟩
  · rw [mem_lastN_iff (by rw [hch]; change _ ≤ (s2.hist ++ [_]).length; rw [List.length_append, hl]; change min f (s2.iter + 1) ≤ s2.iter + 1; omega)]
    refine ⟨0, by omega, ?_⟩
    rw [hch]
    change (s2.hist ++ [(s2.e.cost, s2.e.gap)])[(s2.hist ++ [(s2.e.cost, s2.e.gap)]).length - 1 - 0]? = _
    simp
  · rw [hch]
    rw [leb_exact, decide_eq_true_eq]; exact h1
  · rw [hch]
    rw [leb_exact, decide_eq_true_eq]; exact h2

theorem DDP.dirFDDP_gap {K : Type} [Field K] [LinearOrder K] [IsStrictOrderedRing K] {P : Problem K} {llt : LLT K} {r : Bool} {s s' : DDP P}
    (h : dirFDDP llt r s = .ok s') : s'.e.gap = gapNorm s'.e.fs := by
  unfold dirFDDP at h
  simp only [] at h
  generalize (if r = true then s.calcDiff else s) = z at h
  cases hb : backwardPass llt z.y.data z.e.fs z.feas z.preg z.dreg z.e.bp with
  | exn b => rw [hb] at h; cases h
  | ok b =>
    rw [hb] at h
    have h : Res.ok _ = Res.ok s' := h
    cases h
    rfl

namespace Ex

/-- the Riccati equations of a scalar problem with one node. -/
theorem riccati_one {Q : LQ ℚ 1 1 (fun _ => 1)} {V : ℕ → Mat ℚ 1 1} {v : ℕ → Vec ℚ 1} {G : ℕ → Mat ℚ 1 1} {k : ℕ → Vec ℚ 1}
    {Quu : ℕ → Mat ℚ 1 1} (h : Riccati Q V v G k Quu) :
    Quu 0 0 0 = Q.Huu 0 0 0 + Q.B 0 0 0 * Q.HT 0 0 * Q.B 0 0 0 ∧
    Quu 0 0 0 * k 0 0 = Q.gu 0 0 + Q.B 0 0 0 * (Q.gT 0 + Q.HT 0 0 * Q.c 1 0) ∧
    Quu 0 0 0 * G 0 0 0 = Q.Hxu 0 0 0 + Q.A 0 0 0 * Q.HT 0 0 * Q.B 0 0 0 ∧
    V 0 0 0 = Q.Hxx 0 0 0 + Q.A 0 0 0 * Q.HT 0 0 * Q.A 0 0 0 - (Q.Hxu 0 0 0 + Q.A 0 0 0 * Q.HT 0 0 * Q.B 0 0 0) * G 0 0 0 ∧
    v 0 0 = Q.gx 0 0 + Q.A 0 0 0 * (Q.gT 0 + Q.HT 0 0 * Q.c 1 0) -
      G 0 0 0 * (Q.gu 0 0 + Q.B 0 0 0 * (Q.gT 0 + Q.HT 0 0 * Q.c 1 0)) := by
  have h0 : (0 : ℕ) < 1 := Nat.one_pos
  have e1 := congrFun (congrFun (h.quu 0 h0) 0) 0
  have e2 := congrFun (h.ff 0 h0) 0
  have e3 := congrFun (congrFun (h.gain 0 h0) 0) 0
  have e4 := congrFun (congrFun (h.hess 0 h0) 0) 0
  have e5 := congrFun (h.grad 0 h0) 0
  rw [show (0 : ℕ) + 1 = 1 from rfl, h.VT] at e1 e2 e3 e4 e5
  rw [h.vT] at e2 e5
  simp only [Matrix.add_apply, Matrix.sub_apply, Matrix.mul_apply, Matrix.transpose_apply, Matrix.mulVec, dotProduct, Pi.add_apply,
    Pi.sub_apply, Finset.univ_unique, Fin.default_eq_zero, Finset.sum_singleton, Fin.isValue] at e1 e2 e3 e4 e5
  exact ⟨e1, e2, e3, e4, e5⟩

/-- horizon 1, unit weights, `x0 = 1`. -/
def one : Problem ℚ := scalar 1 1 1 1 1

/-- the guess. -/
def oneX : Traj one := fun t => ((if t = 0 then 1 else 0 : ℚ))
/-- the guess. -/
def oneU : Ctrls one := fun _ _ => (-1 / 2 : ℚ)

/-- the linear-quadratic problem at the guess. -/
theorem one_lq {d : Data one} {fs : ℕ → Vec ℚ 1} {p : ℚ} (hd : FreshDiff one d oneX oneU)
    (h1 : fs 1 = fun _ => (1 / 2 : ℚ)) {V : ℕ → Mat ℚ 1 1} {v : ℕ → Vec ℚ 1} {G : ℕ → Mat ℚ 1 1} {k : ℕ → Vec ℚ 1}
    {Quu : ℕ → Mat ℚ 1 1} (h : Riccati (lqOf d fs p p) V v G k Quu) :
    Quu 0 0 0 = 2 + 2 * p ∧ Quu 0 0 0 * k 0 0 = p / 2 ∧ Quu 0 0 0 * G 0 0 0 = 1 + p ∧
    V 0 0 0 = 2 + 2 * p - (1 + p) * G 0 0 0 ∧ v 0 0 = 1 + (1 + p) / 2 - G 0 0 0 * (p / 2) := by
  obtain ⟨e1, e2, e3, e4, e5⟩ := riccati_one (Q := lqOf d fs p p) h
  have hr := hd.run 0 (Nat.one_pos)
  have ht := hd.ter
  have a1 : (lqOf d fs p p).Huu 0 (0 : Fin 1) (0 : Fin 1) = 1 + p := by
    simp only [lqOf, hr]; exact (by simp [one, scalar, m1] : (m1 1 + p • (1 : Matrix (Fin 1) (Fin 1) ℚ)) 0 0 = 1 + p)
  have a2 : (lqOf d fs p p).Hxx 0 (0 : Fin 1) (0 : Fin 1) = 1 + p := by
    simp only [lqOf, hr]; exact (by simp [one, scalar, m1] : (m1 1 + p • (1 : Matrix (Fin 1) (Fin 1) ℚ)) 0 0 = 1 + p)
  have a3 : (lqOf d fs p p).HT (0 : Fin 1) (0 : Fin 1) = 1 + p := by
    simp only [lqOf, ht]; exact (by simp [one, scalar, m1] : (m1 1 + p • (1 : Matrix (Fin 1) (Fin 1) ℚ)) 0 0 = 1 + p)
  have a4 : (lqOf d fs p p).Hxu 0 (0 : Fin 1) (0 : Fin 1) = 0 := by simp only [lqOf, hr]; rfl
  have a5 : (lqOf d fs p p).A 0 (0 : Fin 1) (0 : Fin 1) = 1 := by simp only [lqOf, hr]; rfl
  have a6 : (lqOf d fs p p).B 0 (0 : Fin 1) (0 : Fin 1) = 1 := by simp only [lqOf, hr]; rfl
  have a7 : (lqOf d fs p p).gu 0 (0 : Fin 1) = -1 / 2 := by
    simp only [lqOf, hr]; exact (by norm_num : (1 : ℚ) * (-1 / 2) = -1 / 2)
  have a8 : (lqOf d fs p p).gx 0 (0 : Fin 1) = 1 := by
    simp only [lqOf, hr]; exact (by norm_num : (1 : ℚ) * 1 = 1)
  have a9 : (lqOf d fs p p).gT (0 : Fin 1) = 0 := by
    simp only [lqOf, ht]; exact (by norm_num : (1 : ℚ) * 0 = 0)
  have a10 : (lqOf d fs p p).c 1 (0 : Fin 1) = 1 / 2 := by simp only [lqOf, h1]
  rw [a1, a6, a3] at e1
  rw [a7, a6, a9, a3, a10] at e2
  rw [a4, a5, a3, a6] at e3
  rw [a2, a5, a3, a4, a6] at e4
  rw [a8, a5, a9, a3, a10, a7, a6] at e5
  exact ⟨by rw [e1]; ring, by rw [e2]; ring, by rw [e3]; ring, by rw [e4]; ring, by rw [e5]; ring⟩


theorem one_convex : ConvexProblem one where
  stage _ _ _ _ ξ υ := m1_convex 1 1 zero_le_one zero_le_one ξ υ
  term _ ξ := by
    have h : ξ ⬝ᵥ (m1 (1 : ℚ) *ᵥ ξ) = _ := m1_form 1 ξ ξ
    change 0 ≤ ξ ⬝ᵥ (m1 (1 : ℚ) *ᵥ ξ)
    rw [h, one_mul]
    exact mul_self_nonneg _

theorem one_strict : StrictControls one := fun _ _ _ _ => m1_pos 1 one_pos

/-- settings: the filter with one entry, a tolerance below the gap 1/2, regularization parameters of sensible size; any step lengths
and thresholds. -/
structure StallConf (c : DConf ℚ) : Prop where
  filter : c.useFilter = true
  size : c.filterSize = 1
  tol : 0 ≤ c.tol ∧ c.tol < 1 / 2
  inc : 0 ≤ c.par.regInc
  dec : 1 ≤ c.par.regDec
  min : 0 ≤ c.par.regMin ∧ c.par.regMin ≤ 10 ^ 20
  max : 0 ≤ c.par.regMax ∧ c.par.regMax ≤ 10 ^ 20

/-- the default settings are of this kind. -/
theorem stallConf_default (d : Data one) : StallConf (DDP.new d).c := by
  have e : (DDP.new d).c = (DDP.new (Data.zero one)).c := rfl
  rw [e]
  exact ⟨rfl, rfl, (by decide +kernel), (by decide +kernel), (by decide +kernel), (by decide +kernel), (by decide +kernel)⟩

/-- the solver stands at the guess at the head of an iteration. -/
structure Stall (c : DConf ℚ) (s : DDP one) : Prop where
  head : HeadInv s
  c : s.c = c
  x0 : s.xs 0 = (1 : ℚ)
  x1 : s.xs 1 = (0 : ℚ)
  u0 : s.us 0 = fun _ => (-1 / 2 : ℚ)
  feas : s.feas = false
  preg : 0 ≤ s.preg ∧ s.preg ≤ 10 ^ 20
  dreg : s.dreg = s.preg
  filter : ∃ oldc oldg, FDDPInv 1 oldc oldg s
  len : s.hist.length = s.iter

theorem Stall.fresh {c : DConf ℚ} {s : DDP one} (h : Stall c s) {d : Data one} (hd : FreshDiff one d s.xs s.us) :
    FreshDiff one d oneX oneU := by
  refine freshDiff_congr (fun t ht => ?_) (fun t ht => ?_) hd
  · have ht : t ≤ 1 := ht
    obtain rfl | rfl : t = 0 ∨ t = 1 := by omega
    · exact h.x0
    · exact h.x1
  · have ht : t < 1 := ht
    obtain rfl : t = 0 := by omega
    exact h.u0

/-- the two gaps. -/
theorem Stall.gaps {c : DConf ℚ} {s s2 : DDP one} (h : Stall c s) (hE : EvalFresh s2) (hx : s2.xs = s.xs) (hu : s2.us = s.us) :
    s2.e.fs 0 = (fun _ => (0 : ℚ)) ∧ s2.e.fs 1 = fun _ => (1 / 2 : ℚ) := by
  refine ⟨?_, ?_⟩
  · rw [hE.gap0, hx, h.x0]
    funext i
    exact (by norm_num : (1 : ℚ) - 1 = 0)
  · rw [hE.gaps 0 Nat.one_pos, hx, hu]
    unfold shootGap
    rw [h.x0, h.u0]
    change one.diff (s.xs 1) _ = _
    rw [h.x1]
    funext i
    exact (by norm_num : ((1 : ℚ) + (-1 / 2)) - 0 = 1 / 2)

theorem one_gain {p q g : ℚ} (hp : 0 ≤ p) (e1 : q = 2 + 2 * p) (e3 : q * g = 1 + p) : g = 1 / 2 := by
  have : q * (g - 1 / 2) = 0 := by linear_combination e3 - e1 / 2
  rcases mul_eq_zero.mp this with h | h <;> linarith

theorem Stall.inRange {c : DConf ℚ} {s : DDP one} (h : Stall c s) :
    (lqOf (evald s.recalc s).y.data (fun t => if s.feas then 0 else (evald s.recalc s).e.fs t) s.preg s.dreg).InRange := by
  have hE := evald_evalFresh h.head
  obtain ⟨c1, c2, _⟩ := evald_cand s.recalc s
  have hd := hE.diff
  rw [c1, c2] at hd
  have hd := h.fresh hd
  obtain ⟨g0, g1⟩ := h.gaps hE c1 c2
  rw [h.dreg, h.feas]
  simp only [Bool.false_eq_true, if_false]
  intro V v G k Quu hR t ht
  have ht : t < 1 := ht
  obtain rfl : t = 0 := by omega
  obtain ⟨e1, e2, e3, e4, e5⟩ := one_lq hd g1 hR
  obtain ⟨p0, p1⟩ := h.preg
  generalize s.preg = p at *
  have hG : G 0 (0 : Fin 1) (0 : Fin 1) = (1 / 2 : ℚ) := one_gain p0 e1 e3
  rw [hG] at e4 e5
  refine ⟨fun i => ?_, fun i j => ?_⟩
  · obtain rfl : i = (0 : Fin 1) := Fin.fin_one_eq_zero i
    have hc : V 0 *ᵥ (lqOf (evald s.recalc s).y.data (fun t => (evald s.recalc s).e.fs t) p p).c 0 = 0 := by
      change V 0 *ᵥ (evald s.recalc s).e.fs 0 = 0
      rw [g0]; exact Matrix.mulVec_zero _
    rw [hc, add_zero, e5, abs_lt]
    constructor <;> linarith
  · obtain rfl : i = (0 : Fin 1) := Fin.fin_one_eq_zero i
    obtain rfl : j = (0 : Fin 1) := Fin.fin_one_eq_zero j
    rw [e4, abs_lt]
    constructor <;> linarith

theorem one_cost (X : Traj one) (U : Ctrls one) {x0 x1 u0 : ℚ} (h0 : X 0 = x0) (h1 : X 1 = x1) (hu : U 0 = fun _ => u0) :
    trajCost one X U = (x0 * x0 + u0 * u0) / 2 + x1 * x1 / 2 := by
  have e : trajCost one X U = 0 + (one.calcR 0 (X 0) (U 0)).cost + (one.calcT (X 1)).cost := rfl
  rw [e, h0, hu, h1]
  change (0 + (1 * x0 * x0 + 1 * u0 * u0) / 2 + 1 * x1 * x1 / 2 : ℚ) = _
  ring

/-- the trials from the guess: every one costs at least `5/8` and has a computed gap of at least `1/2`. -/
theorem Stall.trials {c : DConf ℚ} {s s2 : DDP one} (h : Stall c s) (hE : EvalFresh s2) (hx : s2.xs = s.xs) (hu : s2.us = s.us)
    (hf : s2.feas = false) {p : ℚ} (hp : 0 ≤ p) {b0 : BP one}
    (hb : backwardPass llt1 s2.y.data s2.e.fs false p p b0 = .ok s2.e.bp) {a : ℚ} (ha : 0 ≤ a) :
    5 / 8 ≤ trajCost one (s2.policy.X (s2.closes a) a) (s2.policy.U (s2.closes a) a) ∧ 1 / 2 ≤ s2.gapTryAt a := by
  obtain ⟨g0, g1⟩ := h.gaps hE hx hu
  have hd := hE.diff
  rw [hx, hu] at hd
  have hd := h.fresh hd
  obtain ⟨hR, _⟩ := backward_riccati llt1_exact (symHess_of_fresh (scalar_sym _ _ _ _ _) hd) hb
  simp only [Bool.false_eq_true, if_false] at hR
  obtain ⟨e1, e2, e3, e4, e5⟩ := one_lq hd g1 hR
  have hk : 0 ≤ s2.e.bp.k 0 (0 : Fin 1) := by
    rw [e1] at e2
    by_contra hn
    push Not at hn
    have : (2 + 2 * p) * s2.e.bp.k 0 (0 : Fin 1) < 0 := mul_neg_of_pos_of_neg (by linarith) hn
    linarith
  generalize hcl : s2.closes a = cl
  have hX0 : s2.policy.X cl a 0 = (1 : ℚ) := by
    change s2.policy.shift cl a 0 one.x0 = _
    unfold Policy.shift
    split
    · rfl
    · change ((1 : ℚ) + (a - 1) * s2.e.fs 0 (0 : Fin 1)) = 1
      rw [g0]; ring
  have hU0 : s2.policy.U cl a 0 = fun _ => (-1 / 2 - a * s2.e.bp.k 0 (0 : Fin 1) : ℚ) := by
    unfold Policy.U Policy.u
    rw [hX0]
    have e : one.diff (s2.policy.xs 0) (1 : ℚ) = 0 := by
      change one.diff (s2.xs 0) (1 : ℚ) = 0
      rw [hx, h.x0]
      funext i
      exact (by norm_num : (1 : ℚ) - 1 = 0)
    rw [e, mv_exact, Matrix.mulVec_zero, sub_zero]
    change s2.us 0 - _ = _
    rw [hu, h.u0]
    funext i
    obtain rfl : i = (0 : Fin 1) := Fin.fin_one_eq_zero i
    rfl
  have hak := mul_nonneg ha hk
  generalize s2.e.bp.k 0 (0 : Fin 1) = k at *
  constructor
  · obtain ⟨x1, hX1⟩ : ∃ x1 : ℚ, s2.policy.X cl a 1 = x1 := ⟨_, rfl⟩
    rw [one_cost _ _ hX0 hX1 hU0]
    have h2 := mul_self_nonneg x1
    have h3 := mul_nonneg hak hak
    have e' : (1 * 1 + (-1 / 2 - a * k) * (-1 / 2 - a * k)) / 2 = 5 / 8 + (a * k) / 2 + (a * k) * (a * k) / 2 := by ring
    rw [e']
    linarith
  · have e : s2.gapTryAt a = (0 + ∑ i : Fin 1, |(one.diff (s2.policy.X (s2.closes a) a 0) (s2.policy.pre (s2.closes a) a 1)) i| : ℚ) := rfl
    rw [e, hcl, zero_add, Finset.univ_unique, Finset.sum_singleton]
    have e2 : s2.policy.pre cl a 1 = (1 + (-1 / 2 - a * k) : ℚ) := by
      change (one.calcR 0 (s2.policy.X cl a 0) (s2.policy.U cl a 0)).xnext = _
      rw [hX0, hU0]; rfl
    rw [e2, hX0]
    change 1 / 2 ≤ |(1 + (-1 / 2 - a * k) - 1 : ℚ)|
    rw [show (1 + (-1 / 2 - a * k) - 1 : ℚ) = -(1 / 2 + a * k) by ring, abs_neg]
    exact le_trans (by linarith) (le_abs_self _)

/-- one iteration: nothing is accepted. -/
theorem Stall.body {c : DConf ℚ} (hc : StallConf c) {s : DDP one} (h : Stall c s) (fuel : ℕ) :
    ∃ r s', DDP.body (fddp one) llt1 (fuel + 1) s = some (r, s') ∧ r ≠ some true ∧ s'.xs = s.xs ∧ s'.us = s.us ∧
      (r = none → Stall c { s' with iter := s'.iter + 1 }) := by
  obtain ⟨s2, h2, hp2, hq2⟩ := retry_head (k := fddp one) (.inr rfl) llt1_exact (scalar_sym _ _ _ _ _) one_convex h.head h.preg.1
    (by rw [h.dreg]; exact h.preg.1) (.inl one_strict) h.inRange fuel
  obtain ⟨k1, k2, k3, k4, k5, k6, k7, k8, k9⟩ := retry_keeps fddp_laws h2
  have hE := retry_evalFresh fddp_laws h2 h.head
  obtain ⟨g0, g1⟩ := h.gaps hE k1 k2
  obtain ⟨_, hb, _⟩ := retry_spec fddp_laws h2
  obtain ⟨hdir, b0, hb⟩ := hb rfl
  have hf2 : s2.feas = false := k3.trans h.feas
  have hgap : s2.e.gap = 1 / 2 := by
    have : s2.e.gap = gapNorm s2.e.fs := by
      obtain ⟨s0, h0 | h0⟩ := hdir <;> exact dirFDDP_gap h0
    rw [this]
    have e : gapNorm (P := one) s2.e.fs = (0 + ∑ i : Fin 1, |s2.e.fs 0 i|) + ∑ i : Fin 1, |s2.e.fs 1 i| := rfl
    rw [e, g0, g1]
    norm_num
  have hcost : s2.e.cost = 5 / 8 := by
    rw [hE.cost, k1, k2, one_cost _ _ h.x0 h.x1 h.u0]
    norm_num
  obtain ⟨oldc, oldg, hI⟩ := h.filter
  obtain ⟨f1, f2, f3⟩ := fddp_retry_filter h2
  have hlen2 : s2.hist.length = s2.iter := by
    simp only [Prod.mk.injEq] at f1
    rw [f1.2.2.2, f2]; exact h.len
  have hI2 := hI.congr f1
  have hrej : ∀ a ∈ ((fddp one).push (checked (fddp one) s2)).c.par.alphas, ¬ AcceptFDDP ((fddp one).push (checked (fddp one) s2)) a := by
    intro a _ hacc
    have ha : 0 ≤ a := by
      have := hacc.2.1
      simpa using this
    obtain ⟨t1, t2⟩ := h.trials hE k1 k2 hf2 (p := s2.preg) (by rw [hp2]; exact h.preg.1)
      (by rw [hf2, hq2, h.dreg, ← hp2] at hb; exact hb) ha
    exact fddp_refuses hI2 Nat.one_pos hlen2 (by rw [k4, h.c]; exact hc.filter) (by rw [hcost]; exact t1) (by rw [hgap]; exact t2) hacc
  have hz : ∃ z, (fddp one).push (checked (fddp one) s2) = z := ⟨_, rfl⟩
  obtain ⟨z, hz⟩ := hz
  obtain ⟨_, _, _, _, _, _, _, _, _, e2, _⟩ := pushed_frame fddp_laws s2
  rw [hz] at hrej e2
  have hzx : z.xs = s.xs := by rw [e2]; exact k1
  have hzu : z.us = s.us := by rw [e2]; exact k2
  have hzf : z.feas = false := by rw [e2]; exact hf2
  have hzp : z.preg = s.preg := by rw [e2]; exact hp2
  have hzq : z.dreg = s.dreg := by rw [e2]; exact hq2
  have hzc : z.c = c := by rw [e2]; exact k4.trans h.c
  have hres : ∃ x1 u1 f1, (search (fddp one) z).xs = z.xs ∧ (search (fddp one) z).us = z.us ∧ (search (fddp one) z).feas = z.feas ∧
      x1 = z.xs ∧ u1 = z.us ∧ f1 = z.feas := by
    rcases C16_fddp_first_acceptable z with ⟨pre, a, post, h1, _, h3, _⟩ | ⟨_, hx, hu, hf, _⟩
    · exact absurd h3 (hrej a (by rw [h1]; simp))
    · exact ⟨_, _, _, hx, hu, hf, rfl, rfl, rfl⟩
  obtain ⟨_, _, _, hx, hu, hf, _⟩ := hres
  obtain ⟨_, _, _, _, _, _, _, _, _, _, _, _, _, _, _, e3, _⟩ := search_frame fddp_laws z
  obtain ⟨_, _, e4⟩ := updateReg_frame (search (fddp one) z)
  have hbody : DDP.body (fddp one) llt1 (fuel + 1) s = if (search (fddp one) z).updateReg.1 then
      some (some false, (search (fddp one) z).updateReg.2)
      else some (none, (search (fddp one) z).updateReg.2.stopping.callbacks) := by
    unfold DDP.body
    rw [h2]
    simp only []
    rw [if_neg]
    · subst hz; rfl
    · obtain ⟨d0, d1, dg, dq, hch⟩ := checked_frame fddp_laws s2
      have e1 : ((fddp one).improve s2).checkKKT = checked (fddp one) s2 := rfl
      rw [e1, hch]
      change ¬ leb (kktResidual s2.y.data s2.e.fs s2.y.lagMul) s2.c.tol = true
      rw [leb_exact, decide_eq_true_eq, k4, h.c]
      intro hk
      have := ((C02_sqp_residual_meaning _ _ _ _ hc.tol.1).mp hk).2.2.2 1 le_rfl (0 : Fin 1)
      rw [g1] at this
      have := this.trans_lt hc.tol.2
      norm_num at this
  by_cases hu1 : (search (fddp one) z).updateReg.1 = true
  · rw [if_pos hu1] at hbody
    refine ⟨_, _, hbody, nofun, ?_, ?_, nofun⟩
    · rw [e4]; exact hx.trans hzx
    · rw [e4]; exact hu.trans hzu
  · rw [if_neg hu1] at hbody
    refine ⟨_, _, hbody, nofun, ?_, ?_, fun _ => ?_⟩
    · rw [e4]; exact hx.trans hzx
    · rw [e4]; exact hu.trans hzu
    · obtain ⟨b1, b2⟩ := fddp_body_filter hI h.len hbody
      obtain ⟨b2, b3⟩ := b2 rfl
      have hcs : (search (fddp one) z).c = c := by rw [e3]; exact hzc
      obtain ⟨r1, r2⟩ := DDP.updateReg_reg (F := ℚ) (s := search (fddp one) z) (I := fun r : ℚ => 0 ≤ r ∧ r ≤ 10 ^ 20)
        (fun r hr => by
          rw [hcs, incReg_exact]
          exact ⟨le_min hc.max.1 (mul_nonneg hr.1 hc.inc), (min_le_left _ _).trans hc.max.2⟩)
        (fun r hr => by
          rw [hcs, decReg_exact]
          refine ⟨le_max_of_le_left hc.min.1, max_le hc.min.2 ?_⟩
          exact (div_le_self hr.1 hc.dec).trans hr.2)
        (by rw [e3]; exact ⟨by change 0 ≤ z.preg ∧ z.preg ≤ _; rw [hzp]; exact h.preg, by change z.dreg = z.preg; rw [hzp, hzq]; exact h.dreg⟩)
      refine ⟨body_headInv fddp_laws hbody h.head, ?_, ?_, ?_, ?_, ?_, r1, r2, ⟨oldc, oldg, b1.congr rfl⟩, ?_⟩
      · change (search (fddp one) z).updateReg.2.c = c
        rw [e4]; exact hcs
      · change (search (fddp one) z).updateReg.2.xs 0 = _
        rw [e4]; change (search (fddp one) z).xs 0 = _; rw [hx, hzx]; exact h.x0
      · change (search (fddp one) z).updateReg.2.xs 1 = _
        rw [e4]; change (search (fddp one) z).xs 1 = _; rw [hx, hzx]; exact h.x1
      · change (search (fddp one) z).updateReg.2.us 0 = _
        rw [e4]; change (search (fddp one) z).us 0 = _; rw [hu, hzu]; exact h.u0
      · change (search (fddp one) z).updateReg.2.feas = _
        rw [e4]; exact hf.trans hzf
      · change _ = _ + 1
        rw [b3]; exact b2

theorem Stall.iterate {c : DConf ℚ} (hc : StallConf c) (fuel m : ℕ) : ∀ {s : DDP one}, Stall c s →
    ∃ r s', DDP.iterate (fddp one) llt1 (fuel + 1) m s = some (r, s') ∧ r ≠ some true ∧ s'.xs = s.xs ∧ s'.us = s.us := by
  induction m with
  | zero => intro s _; exact ⟨none, s, rfl, nofun, rfl, rfl⟩
  | succ m ih =>
    intro s h
    obtain ⟨r, s', h1, h2, h3, h4, h5⟩ := h.body hc fuel
    cases r with
    | some b =>
      refine ⟨some b, s', ?_, h2, h3, h4⟩
      unfold DDP.iterate
      rw [h1]
    | none =>
      obtain ⟨r', s'', e1, e2, e3, e4⟩ := ih (h5 rfl)
      refine ⟨r', s'', ?_, e2, e3.trans h3, e4.trans h4⟩
      unfold DDP.iterate
      rw [h1]
      exact e1

end Ex

open Ex in
/-- **C61.**  FDDP with the filter (its default line search, one entry) never accepts a step on the strictly convex linear-quadratic
problem `one` from the guess `x1 = 0`, `u = -1/2`: whatever the history of the solver, the number of iterations, the initial regularization,
the step lengths and the thresholds, `solve` ends, returns false and leaves the guess in place. -/
theorem C61_fddp_filter_stalls {s : DDP one} (hc : StallConf s.c) (hwf : FDDPWF s) {r : ℚ} (hr : 0 ≤ r ∧ r ≤ 10 ^ 20) (fuel m : ℕ) :
    ∃ s', solve (fddp one) llt1 (fuel + 1) (some oneX) (some oneU) m false r s = some (false, s') ∧ s'.xs = oneX ∧ s'.us = oneU := by
  have hS : Stall s.c (s.start (some oneX) (some oneU) false r) := by
    have hp : initReg s.c.par r = r := by simp [initReg]
    refine ⟨start_headInv s _ _ _ _, rfl, rfl, rfl, rfl, rfl, ?_, rfl, ⟨s.m.costList.items, s.m.gapList.items, ?_⟩, rfl⟩
    · change 0 ≤ initReg s.c.par r ∧ initReg s.c.par r ≤ _
      rw [hp]; exact hr
    · have := fddp_start_filter (xs := some oneX) (us := some oneU) (fe := false) (ri := r) hwf
      rw [hc.size] at this
      exact this
  obtain ⟨b, s', h1, h2, h3, h4⟩ := hS.iterate hc fuel m
  refine ⟨s', ?_, h3, h4⟩
  unfold solve
  rw [h1]
  cases b with
  | none => rfl
  | some b =>
    cases b with
    | true => exact absurd rfl h2
    | false => rfl

namespace Ex

/-- **C61 is met** by a new solver; every `maxiter`, every `reginit` up to `reg_max`. -/
theorem C61_example {r : ℚ} (hr : 0 ≤ r ∧ r ≤ 10 ^ 9) (m : ℕ) :
    ∃ s', solve (fddp one) llt1 1 (some oneX) (some oneU) m false r (DDP.new (Data.zero one)) = some (false, s') ∧ s'.xs = oneX ∧
      s'.us = oneU :=
  C61_fddp_filter_stalls (stallConf_default _) (FDDPWF.new _) ⟨hr.1, hr.2.trans (by norm_num)⟩ 0 m

/-- SQP and DDP solve the same problem from the same guess. -/
theorem C61_others_solve :
    ((SQP.solve llt1 20 (some oneX) (some oneU) 2 0 (SQP.new (Data.zero one))).map (·.1),
     (solve (ddp one) llt1 20 (some oneX) (some oneU) 4 false 0 (DDP.new (Data.zero one))).map (·.1)) = (some true, some true) := by
  decide +kernel

end Ex
end Mim
