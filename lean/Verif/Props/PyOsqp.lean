import Verif.Lemmas.PyOsqp

/-!
# `CustomOSQP` solves the QP it is given (C85)
-/
set_option linter.unusedSectionVars false
set_option linter.unusedSimpArgs false

namespace Mim
open QP Spec Matrix

namespace OState
section
variable {F : Type} [Add F] [Sub F] [Mul F] [Div F] [Neg F] [Zero F] [One F] [FloatOps F] [SqrtOps F] {n m : ℕ}
variable {sp : SpSolve F} {c : OConf F} {D : OQP F n m}

/-- **C85 (a).**  `optimize_osqp` raises an exception iff the iteration limit or the update interval is zero, whatever the linear
solver does and in any arithmetic. -/
theorem C85_osqp_raises (s : OState F n m) : (∃ r, s.optimize sp c D = .exn r) ↔ c.maxQP = 0 ∨ c.interval = 0 := by
  unfold optimize
  split
  · rename_i h; exact ⟨fun _ => h, fun _ => ⟨_, rfl⟩⟩
  · rename_i h; exact ⟨fun ⟨_, e⟩ => (by cases e), fun e => absurd e h⟩

/-- **C85 (b).**  The answer does not depend on earlier calls: two objects with the same settings return the same state for the
same QP, whatever they were used for before. -/
theorem C85_osqp_no_memory {s s' r : OState F n m} (h : s.optimize sp c D = .ok r) : s'.optimize sp c D = .ok r := by
  unfold optimize at h ⊢
  split at h
  · cases h
  · rename_i hc
    rw [if_neg hc]
    push Not at hc
    rw [← h]
    exact congrArg Res.ok (loop_core (s := s'.init c D) (s' := s.init c D) rfl c.maxQP 1 (Nat.pos_of_ne_zero hc.1))

end

section
variable {K : Type} [Field K] [LinearOrder K] [IsStrictOrderedRing K] [SqrtOps K] {n m : ℕ}
variable {sp : SpSolve K} {c : OConf K} {D : OQP K n m}

/-- **C85 (c).**  Whatever the linear solver returns: the answer `(x, z, y)` has `z` within the bounds and `y` in their normal cone
at `z`; the residuals are `‖A x - z‖∞` and `‖P x + q + A'y‖∞`; the penalty is in `[rho_min, rho_max]` and every row's penalty is
positive; between 1 and `max_qp_iters` iterations were made; `converged` holds iff the number of iterations is a multiple of the
interval, at least 2, and both residuals are strictly below `eps_abs + eps_rel · scale`; without convergence all iterations were
made. -/
theorem C85_osqp_result {s r : OState K n m} (h0 : 0 < c.rhoMin) (h1 : c.rhoMin ≤ c.rhoMax) (hb : BoxOK D.l D.u)
    (h : s.optimize sp c D = .ok r) :
    InBox D.l D.u r.z ∧ NormalCone D.l D.u r.z r.y ∧
    r.rPrim = exactNormInf (D.A *ᵥ r.x - r.z) ∧ r.rDual = exactNormInf (D.P *ᵥ r.x + D.q + D.Aᵀ *ᵥ r.y) ∧
    (c.rhoMin ≤ r.rho ∧ r.rho ≤ c.rhoMax ∧ ∀ i, 0 < r.rhoVec i) ∧
    (1 ≤ r.iters ∧ r.iters ≤ c.maxQP) ∧
    (r.conv = true ↔ r.iters % c.interval = 0 ∧ 1 < r.iters ∧
      r.rPrim < c.epsAbs + c.epsRel * max (exactNormInf (D.A *ᵥ r.x)) (exactNormInf r.z) ∧
      r.rDual < c.epsAbs + c.epsRel * max (max (exactNormInf D.q) (exactNormInf (D.Aᵀ *ᵥ r.y))) (exactNormInf (D.P *ᵥ r.x))) ∧
    (r.conv = false → r.iters = c.maxQP) := by
  obtain ⟨-, -, i, hi, him, -, hcase⟩ := optimize_ok h
  obtain ⟨j, rfl⟩ : ∃ j, i = j + 1 := ⟨i - 1, by omega⟩
  have hrho := (Rho.init (D := D) h0 h1 s).after (sp := sp) (D := D) h0 h1 j
  have hrho' := (Rho.init (D := D) h0 h1 s).after (sp := sp) (D := D) h0 h1 (j + 1)
  obtain ⟨-, -, e3, e4, e5, e6, e7, e8⟩ := step_spec (sp := sp) (c := c) (D := D) (after sp c D (s.init c D) j) (j + 1)
  have hconv : (after sp c D (s.init c D) (j + 1)).conv = false := after_conv _ _
  change (after sp c D (s.init c D) (j + 1)).z = _ at e3
  change (after sp c D (s.init c D) (j + 1)).y = _ at e4
  change (after sp c D (s.init c D) (j + 1)).rPrim = _ at e5
  change (after sp c D (s.init c D) (j + 1)).rDual = _ at e6
  change (after sp c D (s.init c D) (j + 1)).relP = _ at e7
  change (after sp c D (s.init c D) (j + 1)).relD = _ at e8
  change _ = exactNormInf (D.A *ᵥ (after sp c D (s.init c D) (j + 1)).x - (after sp c D (s.init c D) (j + 1)).z) at e5
  have hs := clip_split hb (w := c.alpha • ((after sp c D (s.init c D) j).solveSys sp c D).zt + (1 - c.alpha) • (after sp c D (s.init c D) j).z)
    (y := (after sp c D (s.init c D) j).y) hrho.pos
  have hz : (after sp c D (s.init c D) (j + 1)).z = _ := e3
  change _ = (after sp c D (s.init c D) j).y + (after sp c D (s.init c D) j).rhoVec * (_ - (after sp c D (s.init c D) (j + 1)).z) at e4
  rw [← hz, ← e4] at hs
  have htest : test c (j + 1) (after sp c D (s.init c D) (j + 1)) = true ↔ (j + 1) % c.interval = 0 ∧ 1 < j + 1 ∧
      (after sp c D (s.init c D) (j + 1)).rPrim < c.epsAbs + c.epsRel * max (exactNormInf (D.A *ᵥ (after sp c D (s.init c D) (j + 1)).x))
        (exactNormInf (after sp c D (s.init c D) (j + 1)).z) ∧
      (after sp c D (s.init c D) (j + 1)).rDual < c.epsAbs + c.epsRel * max (max (exactNormInf D.q)
        (exactNormInf (D.Aᵀ *ᵥ (after sp c D (s.init c D) (j + 1)).y))) (exactNormInf (D.P *ᵥ (after sp c D (s.init c D) (j + 1)).x)) := by
    unfold test OConf.due
    rw [e7, e8]
    simp only [Bool.and_eq_true, beq_iff_eq, decide_eq_true_eq, ltb_exact, and_assoc]
    exact Iff.rfl
  rcases hcase with ⟨ht, rfl⟩ | ⟨ht, hlast, rfl⟩
  · exact ⟨hs.1, hs.2, e5, e6, ⟨hrho'.lo, hrho'.up, hrho'.pos⟩, ⟨Nat.succ_le_succ (Nat.zero_le j), him⟩, ⟨fun _ => htest.1 ht, fun _ => rfl⟩, fun e => (by cases e)⟩
  · refine ⟨hs.1, hs.2, e5, e6, ⟨hrho'.lo, hrho'.up, hrho'.pos⟩, ⟨Nat.succ_le_succ (Nat.zero_le j), him⟩, ⟨fun e => ?_, fun e => ?_⟩, fun _ => hlast⟩
    · exact absurd (hconv.symm.trans e) (by simp)
    · rw [htest.2 e] at ht; cases ht

/-- **C85 (d).**  What a converged answer is worth: for a convex QP its objective exceeds that of every feasible point `w` by at most
`eps_dual · ‖x - w‖₁ + eps_prim · ‖y‖₁`, and it violates the bounds by at most `eps_prim`, where `eps_prim`, `eps_dual` are the
thresholds of the test. -/
theorem C85_osqp_suboptimal {s r : OState K n m} (h0 : 0 < c.rhoMin) (h1 : c.rhoMin ≤ c.rhoMax) (hb : BoxOK D.l D.u) (hP : PSD D.P)
    (h : s.optimize sp c D = .ok r) (hc : r.conv = true) :
    let ep := c.epsAbs + c.epsRel * max (exactNormInf (D.A *ᵥ r.x)) (exactNormInf r.z)
    let ed := c.epsAbs + c.epsRel * max (max (exactNormInf D.q) (exactNormInf (D.Aᵀ *ᵥ r.y))) (exactNormInf (D.P *ᵥ r.x))
    (∀ w, InBox D.l D.u (D.A *ᵥ w) → boxObj D r.x - boxObj D w ≤ ed * (∑ i, |(r.x - w) i|) + ep * ∑ i, |r.y i|) ∧
    (∀ i, (∀ l, D.l i = some l → l - ep ≤ (D.A *ᵥ r.x) i) ∧ ∀ u, D.u i = some u → (D.A *ᵥ r.x) i ≤ u + ep) := by
  intro ep ed
  obtain ⟨hz, hy, hp, hd, -, -, hcv, -⟩ := C85_osqp_result h0 h1 hb h
  obtain ⟨-, -, h3, h4⟩ := hcv.1 hc
  have hep : 0 ≤ ep := le_trans (by rw [hp]; exact ((exactNormInf_le _ _).1 le_rfl).1) h3.le
  have hed : 0 ≤ ed := le_trans (by rw [hd]; exact ((exactNormInf_le _ _).1 le_rfl).1) h4.le
  rw [hp] at h3
  rw [hd] at h4
  have hp' := ((exactNormInf_le _ _).1 h3.le).2
  have hd' := ((exactNormInf_le _ _).1 h4.le).2
  refine ⟨fun w hw => box_subopt hP hy hp' hd' hw, fun i => ?_⟩
  have := abs_le.1 (hp' i)
  simp only [Pi.sub_apply] at this
  exact ⟨fun l hl => by have := (hz i).1 l hl; linarith, fun u hu => by have := (hz i).2 u hu; linarith⟩

/-- **C85 (e).**  With an exact linear solver, a convex QP, `alpha ≠ 0` and positive `sigma` and penalties, an iteration leaves
`(x, z, y)` unchanged iff `z = A x` and `(x, y)` satisfies the KKT conditions of the QP. -/
theorem C85_osqp_fixed (hsp : SpExact sp) (hP : PSD D.P) (hb : BoxOK D.l D.u) (hs : 0 < c.sigma) (ha : c.alpha ≠ 0) (s : OState K n m)
    (hr : ∀ i, 0 < s.rhoVec i) (j : ℕ) :
    ((s.step sp c D j).x = s.x ∧ (s.step sp c D j).z = s.z ∧ (s.step sp c D j).y = s.y) ↔ s.z = D.A *ᵥ s.x ∧ BoxKKT D s.x s.y := by
  obtain ⟨-, e2, e3, e4, -⟩ := step_spec (sp := sp) (c := c) (D := D) s j
  obtain ⟨hzt, hsys⟩ := solveSys_exact hsp hP hs s hr
  rw [e2, e4]
  set xt := (s.solveSys sp c D).xt with hxt
  set zt := (s.solveSys sp c D).zt with hzt'
  constructor
  · rintro ⟨g1, g2, g3⟩
    have hx : xt = s.x := by
      funext i
      have := congrFun g1 i
      simp only [Pi.add_apply, Pi.smul_apply, smul_eq_mul] at this
      have h : c.alpha * (xt i - s.x i) = 0 := by linear_combination this
      exact sub_eq_zero.mp ((mul_eq_zero.mp h).resolve_left ha)
    have hz : s.z = zt := by
      funext i
      have := congrFun g3 i
      rw [g2] at this
      simp only [Pi.add_apply, Pi.smul_apply, smul_eq_mul, Pi.mul_apply, Pi.sub_apply] at this
      have h : s.rhoVec i * (c.alpha * (zt i - s.z i)) = 0 := by linear_combination this
      have h := (mul_eq_zero.mp h).resolve_left (hr i).ne'
      exact (sub_eq_zero.mp ((mul_eq_zero.mp h).resolve_left ha)).symm
    have hzx : s.z = D.A *ᵥ s.x := by rw [hz, hzt, hx]
    have hsplit := clip_split hb (w := c.alpha • zt + (1 - c.alpha) • s.z) (y := s.y) hr
    rw [← e3, g3, g2] at hsplit
    rw [hx, sub_self, smul_zero, ← hzx, sub_self, mul_zero, add_zero, add_zero] at hsys
    exact ⟨hzx, ⟨hzx ▸ hsplit.1, hsys, hzx ▸ hsplit.2⟩⟩
  · rintro ⟨hz, hk⟩
    have hx : xt = s.x := by
      have h := admm_nonsing (v := xt - s.x) hP hr hs (A := D.A) ?_
      · exact sub_eq_zero.mp h
      · have e : (D.P + c.sigma • (1 : Mat K n n) + D.Aᵀ * (diagonal s.rhoVec * D.A)) *ᵥ (xt - s.x) = 0 := by
          rw [add_mulVec, add_mulVec, smul_mulVec, one_mulVec, ← mulVec_mulVec, ← mulVec_mulVec]
          have ed : diagonal s.rhoVec *ᵥ (D.A *ᵥ (xt - s.x)) = s.rhoVec * (D.A *ᵥ xt - s.z) := by
            funext i; rw [mulVec_diagonal, hz, mulVec_sub]; rfl
          rw [ed, mulVec_sub]
          have h1 := hk.stat
          have h2 := hsys
          rw [mulVec_add] at h2
          have h3 : D.P *ᵥ xt + D.q + c.sigma • (xt - s.x) + (D.Aᵀ *ᵥ s.y + D.Aᵀ *ᵥ (s.rhoVec * (D.A *ᵥ xt - s.z))) -
              (D.P *ᵥ s.x + D.q + D.Aᵀ *ᵥ s.y) = 0 := by rw [h1, h2, sub_zero]
          rw [← h3]; abel
        rw [e, dotProduct_zero]
    have hz' : zt = s.z := by rw [hzt, hx, hz]
    have hw : c.alpha • zt + (1 - c.alpha) • s.z = s.z := by rw [hz', ← add_smul]; simp
    have g2 : (s.step sp c D j).z = s.z := by
      rw [e3]
      funext i
      rw [hw]
      exact clip_fixed hb hr (hz ▸ hk.feas) (hz ▸ hk.compl) i
    refine ⟨by rw [hx, ← add_smul]; simp, g2, ?_⟩
    rw [g2, hw, sub_self, mul_zero, add_zero]

/-- **C85 (f).**  With an exact linear solver and a convex QP, an iteration from a state with `z` within the bounds and `y` in their
normal cone (every iterate but the first) decreases the distance to every solution `(xs, ys)` by at least
`alpha (2 - alpha) (sigma ‖x̃ - x‖² + ‖A x̃ - z‖²_rho)`, in the norm of the penalties of that iteration; `x̃` is the new `x` before
the relaxation. -/
theorem C85_osqp_fejer (hsp : SpExact sp) (hP : PSD D.P) (hs : 0 < c.sigma) (ha : 0 < c.alpha) (s : OState K n m)
    (hr : ∀ i, 0 < s.rhoVec i) (hz : InBox D.l D.u s.z) (hy : NormalCone D.l D.u s.z s.y) (j : ℕ) {xs : Vec K n} {ys : Vec K m}
    (hk : BoxKKT D xs ys) :
    osqpDist D s.rhoVec c.sigma (s.step sp c D j).x (s.step sp c D j).z (s.step sp c D j).y xs ys +
      c.alpha * (2 - c.alpha) * (c.sigma * sqDist (s.step sp c D j).xt s.x + wDist s.rhoVec (D.A *ᵥ (s.step sp c D j).xt) s.z) ≤
    osqpDist D s.rhoVec c.sigma s.x s.z s.y xs ys := by
  obtain ⟨e1, e2, e3, e4, -⟩ := step_spec (sp := sp) (c := c) (D := D) s j
  obtain ⟨hzt, hsys⟩ := solveSys_exact hsp hP hs s hr
  rw [e1, e2]
  set xt := (s.solveSys sp c D).xt with hxt
  rw [hzt] at e4
  have hm : ∀ i, (s.step sp c D j).y i + s.rhoVec i * (s.step sp c D j).z i =
      s.y i + s.rhoVec i * s.z i + c.alpha * s.rhoVec i * ((D.A *ᵥ xt) i - s.z i) := by
    intro i
    have := congrFun e4 i
    simp only [Pi.add_apply, Pi.smul_apply, smul_eq_mul, Pi.mul_apply, Pi.sub_apply] at this
    rw [this]; ring
  have hf := node_fejer (cs := D.A *ᵥ xs) (ys := ys) hr hm
  have hmono := cone_mono hy hz hk.compl hk.feas
  -- pairing of the two stationarity conditions with `xt - xs`
  have hpair : (xt - xs) ⬝ᵥ (D.P *ᵥ (xt - xs)) + c.sigma * ((xt - s.x) ⬝ᵥ (xt - xs)) +
      (s.y - ys + s.rhoVec * (D.A *ᵥ xt - s.z)) ⬝ᵥ (D.A *ᵥ xt - D.A *ᵥ xs) = 0 := by
    have e : D.P *ᵥ (xt - xs) + c.sigma • (xt - s.x) + D.Aᵀ *ᵥ (s.y - ys + s.rhoVec * (D.A *ᵥ xt - s.z)) = 0 := by
      have h3 : D.P *ᵥ xt + D.q + c.sigma • (xt - s.x) + D.Aᵀ *ᵥ (s.y + s.rhoVec * (D.A *ᵥ xt - s.z)) -
          (D.P *ᵥ xs + D.q + D.Aᵀ *ᵥ ys) = 0 := by rw [hk.stat, hsys, sub_zero]
      rw [← h3, mulVec_sub, mulVec_add, mulVec_add, mulVec_sub]; abel
    have h := congrArg (fun v => v ⬝ᵥ (xt - xs)) e
    simp only [zero_dotProduct, add_dotProduct, smul_dotProduct, smul_eq_mul] at h
    rw [← h, ← mulVec_sub, dotProduct_comm (xt - xs), add_right_inj]
    rw [mulVec_transpose, ← dotProduct_mulVec, add_dotProduct]
  have hpsd := hP.2 (xt - xs)
  have hx : sqDist (c.alpha • xt + (1 - c.alpha) • s.x) xs = sqDist s.x xs + 2 * c.alpha * ((xt - s.x) ⬝ᵥ (xt - xs)) -
      c.alpha * (2 - c.alpha) * sqDist xt s.x := by
    unfold sqDist dotProduct
    rw [Finset.mul_sum, Finset.mul_sum, ← Finset.sum_add_distrib, ← Finset.sum_sub_distrib]
    refine Finset.sum_congr rfl fun i _ => ?_
    simp only [Pi.add_apply, Pi.smul_apply, smul_eq_mul, Pi.sub_apply]
    ring
  unfold osqpDist
  rw [hf, hx]
  have h1 : 0 ≤ c.alpha * ((xt - xs) ⬝ᵥ (D.P *ᵥ (xt - xs))) := mul_nonneg ha.le hpsd
  have h2 : 0 ≤ c.alpha * ((s.y - ys) ⬝ᵥ (s.z - D.A *ᵥ xs)) := mul_nonneg ha.le hmono
  have h3 := congrArg (fun v => c.alpha * v) hpair
  simp only [mul_zero] at h3
  nlinarith [h1, h2, h3]

end
end OState
end Mim
