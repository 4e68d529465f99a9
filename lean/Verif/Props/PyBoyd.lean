import Verif.Lemmas.PyBoyd

/-!
# `StagewiseQPKKT` (C86)
-/
set_option linter.unusedSectionVars false
set_option linter.unusedSimpArgs false

namespace Mim
open QP Spec Matrix

namespace BState
section
variable {F : Type} [Add F] [Sub F] [Mul F] [Div F] [Neg F] [Zero F] [One F] [FloatOps F] [SqrtOps F] {n e m : ℕ}
variable {sp : SpSolve F} {c : OConf F} {D : BQP F n e m}

/-- **C86 (a).**  `optimize_boyd` raises an exception iff the iteration limit or the update interval is zero. -/
theorem C86_boyd_raises (s : BState F n e m) : (∃ r, s.optimize sp c D = .exn r) ↔ c.maxQP = 0 ∨ c.interval = 0 := by
  unfold optimize
  split
  · rename_i h; exact ⟨fun _ => h, fun _ => ⟨_, rfl⟩⟩
  · rename_i h; exact ⟨fun ⟨_, e⟩ => (by cases e), fun e => absurd e h⟩

end

section
variable {K : Type} [Field K] [LinearOrder K] [IsStrictOrderedRing K] [SqrtOps K] {n e m : ℕ}
variable {sp : SpSolve K} {c : OConf K} {D : BQP K n e m}

/-- **C86 (b).**  Whatever the linear solver returns: `z` is within the bounds and `y` in their normal cone at `z`; the penalty is in
its range and every row's penalty is positive; between 1 and `max_qp_iters` iterations were made; the primal residual is the
larger of `‖A x - z‖∞` (if there are inequality rows) and `‖E x - b‖∞`; the dual residual is `‖A'(rho ∘ (z - z_prev))‖∞` with the `z`
and the penalties of the iteration before; `converged` holds iff the number of iterations is a multiple of the interval, at least 2,
and both residuals are at most `eps_abs + eps_rel · scale`; without convergence all iterations were made. -/
theorem C86_boyd_result {s r : BState K n e m} (h0 : 0 < c.rhoMin) (h1 : c.rhoMin ≤ c.rhoMax) (hb : BoxOK D.l D.u)
    (h : s.optimize sp c D = .ok r) :
    InBox D.l D.u r.z ∧ NormalCone D.l D.u r.z r.y ∧
    (c.rhoMin ≤ r.rho ∧ r.rho ≤ c.rhoMax ∧ ∀ i, 0 < r.rhoVec i) ∧ (1 ≤ r.iters ∧ r.iters ≤ c.maxQP) ∧
    r.rPrim = max (if m = 0 then 0 else exactNormInf (D.A *ᵥ r.x - r.z)) (exactNormInf (D.E *ᵥ r.x - D.b)) ∧
    (∃ rho zp : Vec K m, (∀ i, 0 < rho i) ∧ r.rDual = exactNormInf (D.Aᵀ *ᵥ (rho * (r.z - zp)))) ∧
    (r.conv = true ↔ r.iters % c.interval = 0 ∧ 1 < r.iters ∧
      r.rPrim ≤ c.epsAbs + c.epsRel * (if m = 0 then ((1 / 10 ^ 10 : ℚ) : K) else max (exactNormInf (D.A *ᵥ r.x)) (exactNormInf r.z)) ∧
      r.rDual ≤ c.epsAbs + c.epsRel * (if m = 0 then ((1 / 10 ^ 10 : ℚ) : K) else exactNormInf (D.Aᵀ *ᵥ r.y))) ∧
    (r.conv = false → r.iters = c.maxQP) ∧ r.fresh = false := by
  obtain ⟨-, -, i, hi, him, -, hcase⟩ := optimize_ok h
  obtain ⟨j, rfl⟩ : ∃ j, i = j + 1 := ⟨i - 1, by omega⟩
  have hrho := (Rho.init (D := D) h0 h1 s).after (sp := sp) (D := D) h0 h1 j
  have hrho' := (Rho.init (D := D) h0 h1 s).after (sp := sp) (D := D) h0 h1 (j + 1)
  have hspec := step_spec (sp := sp) (c := c) (D := D) (after sp c D (s.init c D) j) (j + 1)
  have hstep : (after sp c D (s.init c D) j).step sp c D (j + 1) = after sp c D (s.init c D) (j + 1) := rfl
  rw [hstep] at hspec
  obtain ⟨hconv, hfresh⟩ := after_conv (sp := sp) (c := c) (D := D) (s.init c D) (j + 1)
  rw [(init_conv s).1] at hconv
  rw [(init_conv s).2] at hfresh
  have hpos := hrho.pos
  generalize after sp c D (s.init c D) (j + 1) = q at *
  generalize after sp c D (s.init c D) j = p at *
  obtain ⟨e3, e4, e5, e6, e7, e8⟩ := hspec
  have hs := clip_split hb (w := c.alpha • (D.A *ᵥ q.x) + (1 - c.alpha) • p.z) (y := p.y) hpos
  rw [← e3, ← e4] at hs
  have htest : test c (j + 1) q = true ↔ (j + 1) % c.interval = 0 ∧ 1 < j + 1 ∧
      q.rPrim ≤ c.epsAbs + c.epsRel * (if m = 0 then ((1 / 10 ^ 10 : ℚ) : K) else max (exactNormInf (D.A *ᵥ q.x)) (exactNormInf q.z)) ∧
      q.rDual ≤ c.epsAbs + c.epsRel * (if m = 0 then ((1 / 10 ^ 10 : ℚ) : K) else exactNormInf (D.Aᵀ *ᵥ q.y)) := by
    rw [← e7, ← e8]
    unfold test OConf.due
    simp only [Bool.and_eq_true, beq_iff_eq, decide_eq_true_eq, leb_exact, and_assoc]
  rcases hcase with ⟨ht, rfl⟩ | ⟨ht, hlast, rfl⟩
  · exact ⟨hs.1, hs.2, ⟨hrho'.lo, hrho'.up, hrho'.pos⟩, ⟨Nat.succ_le_succ (Nat.zero_le j), him⟩, e5, ⟨p.rhoVec, p.z, hpos, e6⟩,
      ⟨fun _ => htest.1 ht, fun _ => rfl⟩, fun e => (by cases e), hfresh⟩
  · refine ⟨hs.1, hs.2, ⟨hrho'.lo, hrho'.up, hrho'.pos⟩, ⟨Nat.succ_le_succ (Nat.zero_le j), him⟩, e5, ⟨p.rhoVec, p.z, hpos, e6⟩,
      ⟨fun e => ?_, fun e => ?_⟩, fun _ => hlast, hfresh⟩
    · exact absurd (hconv.symm.trans e) (by simp)
    · rw [htest.2 e] at ht; cases ht

/-- **C86 (c).**  With an exact linear solver, a convex QP with independent equality rows and `sigma > 0`: the answer satisfies the
equalities exactly, and its stationarity residual is within
`|alpha - 2| · r_dual + |alpha - 1| · ‖A'(rho ∘ (A x - z))‖∞ + sigma · ‖x - x_prev‖∞`, with the penalties and the `x` of the
iteration before.  (The code compares only `r_dual` with its threshold.) -/
theorem C86_boyd_stationarity {s r : BState K n e m} (hsp : SpExact sp) (hP : PSD D.P) (hE : FullRank D.E) (hs : 0 < c.sigma)
    (h0 : 0 < c.rhoMin) (h1 : c.rhoMin ≤ c.rhoMax) (h : s.optimize sp c D = .ok r) :
    D.E *ᵥ r.x = D.b ∧
    ∃ (rho zp : Vec K m) (xp : Vec K n), (∀ i, 0 < rho i) ∧ r.rDual = exactNormInf (D.Aᵀ *ᵥ (rho * (r.z - zp))) ∧
      D.P *ᵥ r.x + D.q + D.Aᵀ *ᵥ r.y + D.Eᵀ *ᵥ r.v =
        D.Aᵀ *ᵥ (rho * ((c.alpha - 1) • (D.A *ᵥ r.x - zp) - (r.z - zp))) - c.sigma • (r.x - xp) ∧
      ∀ i, |(D.P *ᵥ r.x + D.q + D.Aᵀ *ᵥ r.y + D.Eᵀ *ᵥ r.v) i| ≤
        |c.alpha - 2| * r.rDual + |c.alpha - 1| * exactNormInf (D.Aᵀ *ᵥ (rho * (D.A *ᵥ r.x - r.z))) + c.sigma * exactNormInf (r.x - xp) := by
  obtain ⟨-, -, i, hi, him, -, hcase⟩ := optimize_ok h
  obtain ⟨j, rfl⟩ : ∃ j, i = j + 1 := ⟨i - 1, by omega⟩
  have hrho := (Rho.init (D := D) h0 h1 s).after (sp := sp) (D := D) h0 h1 j
  have hspec := step_spec (sp := sp) (c := c) (D := D) (after sp c D (s.init c D) j) (j + 1)
  have hex := step_exact (c := c) hsp hP hE hs (after sp c D (s.init c D) j) hrho.pos (j + 1)
  have hstep : (after sp c D (s.init c D) j).step sp c D (j + 1) = after sp c D (s.init c D) (j + 1) := rfl
  rw [hstep] at hspec hex
  have hpos := hrho.pos
  generalize after sp c D (s.init c D) (j + 1) = q at *
  generalize after sp c D (s.init c D) j = p at *
  have hr : r.x = q.x ∧ r.z = q.z ∧ r.y = q.y ∧ r.v = q.v ∧ r.rDual = q.rDual := by
    rcases hcase with ⟨-, rfl⟩ | ⟨-, -, rfl⟩ <;> exact ⟨rfl, rfl, rfl, rfl, rfl⟩
  obtain ⟨rx, rz, ry, rv, rd⟩ := hr
  rw [rx, rz, ry, rv, rd]
  obtain ⟨e3, e4, e5, e6, e7, e8⟩ := hspec
  have hid : D.P *ᵥ q.x + D.q + D.Aᵀ *ᵥ q.y + D.Eᵀ *ᵥ q.v =
      D.Aᵀ *ᵥ (p.rhoVec * ((c.alpha - 1) • (D.A *ᵥ q.x - p.z) - (q.z - p.z))) - c.sigma • (q.x - p.x) := by
    have ey : q.y = p.y + p.rhoVec * (D.A *ᵥ q.x - p.z) + p.rhoVec * ((c.alpha - 1) • (D.A *ᵥ q.x - p.z) - (q.z - p.z)) := by
      rw [e4]
      funext k
      simp only [Pi.add_apply, Pi.smul_apply, smul_eq_mul, Pi.mul_apply, Pi.sub_apply]
      ring
    have h2 := hex.2
    rw [ey, mulVec_add]
    generalize D.Aᵀ *ᵥ (p.y + p.rhoVec * (D.A *ᵥ q.x - p.z)) = a at h2 ⊢
    generalize D.Aᵀ *ᵥ (p.rhoVec * ((c.alpha - 1) • (D.A *ᵥ q.x - p.z) - (q.z - p.z))) = b
    funext k
    have := congrFun h2 k
    simp only [Pi.add_apply, Pi.sub_apply, Pi.smul_apply, smul_eq_mul, Pi.zero_apply] at this ⊢
    linarith
  refine ⟨hex.1, p.rhoVec, p.z, p.x, hpos, e6, hid, fun k => ?_⟩
  have ew : p.rhoVec * ((c.alpha - 1) • (D.A *ᵥ q.x - p.z) - (q.z - p.z)) =
      (c.alpha - 2) • (p.rhoVec * (q.z - p.z)) + (c.alpha - 1) • (p.rhoVec * (D.A *ᵥ q.x - q.z)) := by
    funext k
    simp only [Pi.add_apply, Pi.smul_apply, smul_eq_mul, Pi.mul_apply, Pi.sub_apply]
    ring
  rw [hid, ew, mulVec_add, mulVec_smul, mulVec_smul, e6]
  have b1 := ((exactNormInf_le (D.Aᵀ *ᵥ (p.rhoVec * (q.z - p.z))) _).1 le_rfl).2 k
  have b2 := ((exactNormInf_le (D.Aᵀ *ᵥ (p.rhoVec * (D.A *ᵥ q.x - q.z))) _).1 le_rfl).2 k
  have b3 := ((exactNormInf_le (q.x - p.x) _).1 le_rfl).2 k
  simp only [Pi.add_apply, Pi.sub_apply, Pi.smul_apply, smul_eq_mul] at b3 ⊢
  refine (abs_sub _ _).trans (add_le_add ((abs_add_le _ _).trans (add_le_add ?_ ?_)) ?_)
  · rw [abs_mul]; exact mul_le_mul_of_nonneg_left b1 (abs_nonneg _)
  · rw [abs_mul]; exact mul_le_mul_of_nonneg_left b2 (abs_nonneg _)
  · rw [abs_mul, abs_of_pos hs]; exact mul_le_mul_of_nonneg_left b3 hs.le

/-- **C86 (d).**  With an exact linear solver, a convex QP with independent equality rows, `alpha ≠ 0` and positive `sigma` and
penalties, an iteration leaves `(x, z, y)` unchanged iff `z = A x` and `(x, y)`, with the multiplier `v` it computes, satisfies the
KKT conditions of the QP. -/
theorem C86_boyd_fixed (hsp : SpExact sp) (hP : PSD D.P) (hE : FullRank D.E) (hb : BoxOK D.l D.u) (hs : 0 < c.sigma) (ha : c.alpha ≠ 0)
    (s : BState K n e m) (hr : ∀ i, 0 < s.rhoVec i) (j : ℕ) :
    ((s.step sp c D j).x = s.x ∧ (s.step sp c D j).z = s.z ∧ (s.step sp c D j).y = s.y) ↔
      s.z = D.A *ᵥ s.x ∧ BoxEqKKT D s.x s.y (s.step sp c D j).v := by
  obtain ⟨e3, e4, -⟩ := step_spec (sp := sp) (c := c) (D := D) s j
  obtain ⟨hq1, hq2⟩ := step_exact (c := c) hsp hP hE hs s hr j
  constructor
  · rintro ⟨g1, g2, g3⟩
    have hz : s.z = D.A *ᵥ s.x := by
      funext i
      have := congrFun e4 i
      rw [g1, g2, g3] at this
      simp only [Pi.add_apply, Pi.smul_apply, smul_eq_mul, Pi.mul_apply, Pi.sub_apply] at this
      have h : s.rhoVec i * (c.alpha * ((D.A *ᵥ s.x) i - s.z i)) = 0 := by linear_combination -this
      have h := (mul_eq_zero.mp h).resolve_left (hr i).ne'
      exact (sub_eq_zero.mp ((mul_eq_zero.mp h).resolve_left ha)).symm
    have hsplit := clip_split hb (w := c.alpha • (D.A *ᵥ (s.step sp c D j).x) + (1 - c.alpha) • s.z) (y := s.y) hr
    rw [← e3, ← e4, g2, g3] at hsplit
    rw [g1] at hq1 hq2
    rw [sub_self, smul_zero, ← hz, sub_self, mul_zero, add_zero, add_zero] at hq2
    exact ⟨hz, ⟨hq1, hz ▸ hsplit.1, hq2, hz ▸ hsplit.2⟩⟩
  · rintro ⟨hz, hk⟩
    have hx : (s.step sp c D j).x = s.x := by
      refine sub_eq_zero.mp (admm_nonsing (v := (s.step sp c D j).x - s.x) hP hr hs (A := D.A) ?_)
      have e : (D.P + c.sigma • (1 : Mat K n n) + D.Aᵀ * (diagonal s.rhoVec * D.A)) *ᵥ ((s.step sp c D j).x - s.x) = 0 := by
        rw [add_mulVec, add_mulVec, smul_mulVec, one_mulVec, ← mulVec_mulVec, ← mulVec_mulVec]
        have ed : diagonal s.rhoVec *ᵥ (D.A *ᵥ ((s.step sp c D j).x - s.x)) = s.rhoVec * (D.A *ᵥ (s.step sp c D j).x - s.z) := by
          funext i; rw [mulVec_diagonal, hz, mulVec_sub]; rfl
        rw [ed, mulVec_sub]
        have h1 := hk.stat
        have h2 := hq2
        rw [mulVec_add] at h2
        have h3 : D.P *ᵥ (s.step sp c D j).x + D.q + c.sigma • ((s.step sp c D j).x - s.x) + (D.Aᵀ *ᵥ s.y +
            D.Aᵀ *ᵥ (s.rhoVec * (D.A *ᵥ (s.step sp c D j).x - s.z))) + D.Eᵀ *ᵥ (s.step sp c D j).v -
            (D.P *ᵥ s.x + D.q + D.Aᵀ *ᵥ s.y + D.Eᵀ *ᵥ (s.step sp c D j).v) = 0 := by rw [h1, h2, sub_zero]
        rw [← h3]; abel
      rw [e, dotProduct_zero]
    have hw : c.alpha • (D.A *ᵥ (s.step sp c D j).x) + (1 - c.alpha) • s.z = s.z := by rw [hx, ← hz, ← add_smul]; simp
    have g2 : (s.step sp c D j).z = s.z := by
      rw [e3]
      funext i
      rw [hw]
      exact clip_fixed hb hr (hz ▸ hk.feas) (hz ▸ hk.compl) i
    refine ⟨hx, g2, ?_⟩
    rw [e4, g2, hw, sub_self, mul_zero, add_zero]

/-- **C86 (e).**  With an exact linear solver and a convex QP, an iteration from a state with `z` within the bounds and `y` in their
normal cone decreases the distance to every solution `(xs, ys, vs)` by at least
`alpha sigma ‖x' - x‖² + alpha (2 - alpha) ‖A x' - z‖²_rho`, in the norm of the penalties of that iteration. -/
theorem C86_boyd_fejer (hsp : SpExact sp) (hP : PSD D.P) (hE : FullRank D.E) (hs : 0 < c.sigma) (ha : 0 < c.alpha) (s : BState K n e m)
    (hr : ∀ i, 0 < s.rhoVec i) (hz : InBox D.l D.u s.z) (hy : NormalCone D.l D.u s.z s.y) (j : ℕ) {xs : Vec K n} {ys : Vec K m}
    {vs : Vec K e} (hk : BoxEqKKT D xs ys vs) :
    boydDist D.toOQP s.rhoVec c.sigma c.alpha (s.step sp c D j).x (s.step sp c D j).z (s.step sp c D j).y xs ys +
      c.alpha * c.sigma * sqDist (s.step sp c D j).x s.x +
      c.alpha * (2 - c.alpha) * wDist s.rhoVec (D.A *ᵥ (s.step sp c D j).x) s.z ≤
    boydDist D.toOQP s.rhoVec c.sigma c.alpha s.x s.z s.y xs ys := by
  obtain ⟨e3, e4, -⟩ := step_spec (sp := sp) (c := c) (D := D) s j
  obtain ⟨hq1, hq2⟩ := step_exact (c := c) hsp hP hE hs s hr j
  generalize s.step sp c D j = q at *
  have hm : ∀ i, q.y i + s.rhoVec i * q.z i = s.y i + s.rhoVec i * s.z i + c.alpha * s.rhoVec i * ((D.A *ᵥ q.x) i - s.z i) := by
    intro i
    have := congrFun e4 i
    simp only [Pi.add_apply, Pi.smul_apply, smul_eq_mul, Pi.mul_apply, Pi.sub_apply] at this
    rw [this]; ring
  have hf := node_fejer (cs := D.A *ᵥ xs) (ys := ys) hr hm
  have hmono := cone_mono hy hz hk.compl hk.feas
  have hpair : (q.x - xs) ⬝ᵥ (D.P *ᵥ (q.x - xs)) + c.sigma * ((q.x - s.x) ⬝ᵥ (q.x - xs)) +
      (s.y - ys + s.rhoVec * (D.A *ᵥ q.x - s.z)) ⬝ᵥ (D.A *ᵥ q.x - D.A *ᵥ xs) = 0 := by
    have e : D.P *ᵥ (q.x - xs) + c.sigma • (q.x - s.x) + D.Aᵀ *ᵥ (s.y - ys + s.rhoVec * (D.A *ᵥ q.x - s.z)) + D.Eᵀ *ᵥ (q.v - vs) = 0 := by
      have h3 : D.P *ᵥ q.x + D.q + c.sigma • (q.x - s.x) + D.Aᵀ *ᵥ (s.y + s.rhoVec * (D.A *ᵥ q.x - s.z)) + D.Eᵀ *ᵥ q.v -
          (D.P *ᵥ xs + D.q + D.Aᵀ *ᵥ ys + D.Eᵀ *ᵥ vs) = 0 := by rw [hk.stat, hq2, sub_zero]
      rw [← h3, mulVec_sub, mulVec_add, mulVec_add, mulVec_sub, mulVec_sub]; abel
    have h := congrArg (fun v => v ⬝ᵥ (q.x - xs)) e
    simp only [zero_dotProduct, add_dotProduct, smul_dotProduct, smul_eq_mul] at h
    have hv : (D.Eᵀ *ᵥ (q.v - vs)) ⬝ᵥ (q.x - xs) = 0 := by
      rw [mulVec_transpose, ← dotProduct_mulVec, mulVec_sub, hq1, hk.eq, sub_self, dotProduct_zero]
    rw [hv, add_zero] at h
    rw [← h, ← mulVec_sub, dotProduct_comm (q.x - xs), add_right_inj]
    rw [mulVec_transpose, ← dotProduct_mulVec, add_dotProduct]
  have hpsd := hP.2 (q.x - xs)
  have hx := sqDist_step q.x s.x xs
  unfold boydDist
  have e : D.toOQP.A = D.A := rfl
  rw [e, hf]
  have h1 : 0 ≤ c.alpha * ((q.x - xs) ⬝ᵥ (D.P *ᵥ (q.x - xs))) := mul_nonneg ha.le hpsd
  have h2 : 0 ≤ c.alpha * ((s.y - ys) ⬝ᵥ (s.z - D.A *ᵥ xs)) := mul_nonneg ha.le hmono
  have h3 := congrArg (fun v => c.alpha * v) hpair
  have h4 := congrArg (fun v => c.alpha * c.sigma * v) hx
  simp only [mul_zero] at h3
  nlinarith [h1, h2, h3, h4]

end
end BState
end Mim
