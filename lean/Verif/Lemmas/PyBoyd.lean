import Verif.Lemmas.PyOsqp

/-!
# `StagewiseQPKKT` (/repo/python/qp_solvers/stagewise_qp_kkt.py)
-/
set_option linter.unusedSectionVars false
set_option linter.unusedSimpArgs false

namespace Mim
open QP Spec Matrix

namespace BState
section
variable {F : Type} [Add F] [Sub F] [Mul F] [Div F] [Neg F] [Zero F] [One F] [FloatOps F] [SqrtOps F] {n e m : ℕ}
variable {sp : SpSolve F} {c : OConf F} {D : BQP F n e m}

/-- the state after `j` iterations. -/
def after (sp : SpSolve F) (c : OConf F) (D : BQP F n e m) (s : BState F n e m) : ℕ → BState F n e m
  | 0 => s
  | j + 1 => (after sp c D s j).step sp c D (j + 1)

/-- the loop stops at the first iteration whose test succeeds, or at the last one. -/
theorem loop_spec (s : BState F n e m) (k j : ℕ) (hk : 0 < k) : ∃ i, j < i ∧ i ≤ j + k ∧
    (∀ i', j < i' → i' < i → (after sp c D s i').test c i' = false) ∧
    (((after sp c D s i).test c i = true ∧
        loop sp c D k (j + 1) (after sp c D s j) = { after sp c D s i with conv := true, iters := i }) ∨
      ((after sp c D s i).test c i = false ∧ i = j + k ∧
        loop sp c D k (j + 1) (after sp c D s j) = { after sp c D s i with iters := i })) := by
  induction k generalizing j with
  | zero => omega
  | succ k ih =>
    have e : loop sp c D (k + 1) (j + 1) (after sp c D s j) = if (after sp c D s (j + 1)).test c (j + 1) then
        { after sp c D s (j + 1) with conv := true, iters := j + 1 } else loop sp c D k (j + 1 + 1) (after sp c D s (j + 1)) := rfl
    rw [e]
    cases ht : (after sp c D s (j + 1)).test c (j + 1) with
    | true => exact ⟨j + 1, by omega, by omega, fun i' h1 h2 => by omega, .inl ⟨ht, rfl⟩⟩
    | false =>
      rw [if_neg (by simp)]
      rcases Nat.eq_zero_or_pos k with rfl | hk'
      · exact ⟨j + 1, by omega, by omega, fun i' h1 h2 => by omega, .inr ⟨ht, rfl, rfl⟩⟩
      · obtain ⟨i, h1, h2, h3, h4⟩ := ih (j + 1) hk'
        refine ⟨i, by omega, by omega, fun i' a b => ?_, ?_⟩
        · by_cases h : i' = j + 1
          · subst h; exact ht
          · exact h3 i' (by omega) b
        · rcases h4 with h4 | ⟨h4, h5, h6⟩
          · exact .inl h4
          · exact .inr ⟨h4, by omega, h6⟩

/-- what `optimize_boyd` returns. -/
theorem optimize_ok {s r : BState F n e m} (h : s.optimize sp c D = .ok r) : c.maxQP ≠ 0 ∧ c.interval ≠ 0 ∧
    ∃ i, 0 < i ∧ i ≤ c.maxQP ∧ (∀ i', 0 < i' → i' < i → (after sp c D (s.init c D) i').test c i' = false) ∧
    (((after sp c D (s.init c D) i).test c i = true ∧ r = { after sp c D (s.init c D) i with conv := true, iters := i }) ∨
      ((after sp c D (s.init c D) i).test c i = false ∧ i = c.maxQP ∧ r = { after sp c D (s.init c D) i with iters := i })) := by
  unfold optimize at h
  split at h
  · cases h
  · rename_i hc
    push Not at hc
    obtain ⟨i, h1, h2, h3, h4⟩ := loop_spec (sp := sp) (c := c) (D := D) (s.init c D) c.maxQP 0 (Nat.pos_of_ne_zero hc.1)
    refine ⟨hc.1, hc.2, i, h1, by omega, h3, ?_⟩
    rcases h4 with ⟨h4, h5⟩ | ⟨h4, h5, h6⟩
    · exact .inl ⟨h4, by cases h; exact h5⟩
    · exact .inr ⟨h4, by omega, by cases h; exact h6⟩

/-- `updateRho` only writes the penalties. -/
theorem updateRho_frame (s : BState F n e m) (i : ℕ) : ∃ r v w, s.updateRho c D i = { s with rho := r, rhoVec := v, rhoEst := w } := by
  unfold updateRho
  simp only []
  split
  · exact ⟨_, _, _, rfl⟩
  · exact ⟨s.rho, s.rhoVec, _, rfl⟩

theorem step_conv (s : BState F n e m) (i : ℕ) : (s.step sp c D i).conv = s.conv ∧ (s.step sp c D i).fresh = s.fresh := by
  unfold step
  obtain ⟨r, v, w, h⟩ := updateRho_frame (c := c) (D := D) (s.admm sp c D) i
  rw [h]; exact ⟨rfl, rfl⟩

theorem after_conv (s : BState F n e m) (i : ℕ) : (after sp c D s i).conv = s.conv ∧ (after sp c D s i).fresh = s.fresh := by
  induction i with
  | zero => exact ⟨rfl, rfl⟩
  | succ i ih => exact ⟨(step_conv _ _).1.trans ih.1, (step_conv _ _).2.trans ih.2⟩

theorem init_conv (s : BState F n e m) : (s.init c D).conv = false ∧ (s.init c D).fresh = false := by
  unfold init
  simp only []
  cases h : s.fresh <;> simp [h]

end

section
variable {K : Type} [Field K] [LinearOrder K] [IsStrictOrderedRing K] [SqrtOps K] {n e m : ℕ}
variable {sp : SpSolve K} {c : OConf K} {D : BQP K n e m}

/-- the penalties are positive and in their range. -/
structure Rho (c : OConf K) (s : BState K n e m) : Prop where
  lo : c.rhoMin ≤ s.rho
  up : s.rho ≤ c.rhoMax
  pos : ∀ i, 0 < s.rhoVec i

theorem Rho.init (h0 : 0 < c.rhoMin) (h1 : c.rhoMin ≤ c.rhoMax) (s : BState K n e m) : Rho c (s.init c D) := by
  unfold BState.init
  simp only []
  have h : ∀ v : K, c.rhoMin ≤ cppMin (cppMax v c.rhoMin) c.rhoMax ∧ cppMin (cppMax v c.rhoMin) c.rhoMax ≤ c.rhoMax := fun v =>
    OState.clamp_mem h1
  exact ⟨(h _).1, (h _).2, fun i => OState.rowSet_pos h0 (h0.trans_le (h _).1) _ _⟩

theorem Rho.update (h0 : 0 < c.rhoMin) (h1 : c.rhoMin ≤ c.rhoMax) {s : BState K n e m} (h : Rho c s) (i : ℕ) : Rho c (s.updateRho c D i) := by
  unfold updateRho
  simp only []
  split
  · have h := OState.clamp_mem (v := SqrtOps.sqrt (s.rPrim * s.relD / (s.rDual * s.relP)) * s.rho) h1
    exact ⟨h.1, h.2, fun i => OState.rowUpdate_pos h0 (h0.trans_le h.1) _ _⟩
  · exact ⟨h.lo, h.up, h.pos⟩

theorem Rho.step (h0 : 0 < c.rhoMin) (h1 : c.rhoMin ≤ c.rhoMax) {s : BState K n e m} (h : Rho c s) (i : ℕ) : Rho c (s.step sp c D i) :=
  Rho.update h0 h1 (s := s.admm sp c D) ⟨h.lo, h.up, h.pos⟩ i

theorem Rho.after (h0 : 0 < c.rhoMin) (h1 : c.rhoMin ≤ c.rhoMax) {s : BState K n e m} (h : Rho c s) (i : ℕ) : Rho c (after sp c D s i) := by
  induction i with
  | zero => exact h
  | succ i ih => exact ih.step h0 h1 (i + 1)

/-- the first block of rows of the KKT system. -/
theorem kkt_mul (rho : Vec K m) (w : Vec K (n + e)) :
    (∀ i : Fin n, (kktMat c D rho *ᵥ w) (Fin.castAdd e i) =
      ((D.P + c.sigma • (1 : Mat K n n) + D.Aᵀ * (diagonal rho * D.A)) *ᵥ (fun i => w (Fin.castAdd e i)) + D.Eᵀ *ᵥ fun i => w (Fin.natAdd n i)) i) ∧
    ∀ i : Fin e, (kktMat c D rho *ᵥ w) (Fin.natAdd n i) = (D.E *ᵥ fun i => w (Fin.castAdd e i)) i := by
  have eM : addDiag (D.P + mm D.A.transpose (diagMul rho D.A)) c.sigma = D.P + c.sigma • (1 : Mat K n n) + D.Aᵀ * (diagonal rho * D.A) := by
    simp only [addDiag_exact, mm_exact, diagMul_exact]
    abel
  constructor
  · intro i
    unfold kktMat mulVec dotProduct
    simp only [Fin.sum_univ_add, of_apply, Fin.addCases_left, Fin.addCases_right, eM, Pi.add_apply, transpose_apply]
  · intro i
    unfold kktMat mulVec dotProduct
    simp only [Fin.sum_univ_add, of_apply, Fin.addCases_left, Fin.addCases_right, Pi.add_apply, zero_mul, Finset.sum_const_zero, add_zero]

theorem kkt_nonsing (hP : PSD D.P) (hE : FullRank D.E) (hs : 0 < c.sigma) {rho : Vec K m} (hr : ∀ i, 0 < rho i) (w : Vec K (n + e))
    (h : kktMat c D rho *ᵥ w = 0) : w = 0 := by
  obtain ⟨h1, h2⟩ := kkt_mul (c := c) (D := D) rho w
  rw [h] at h1 h2
  have g1 : (D.P + c.sigma • (1 : Mat K n n) + D.Aᵀ * (diagonal rho * D.A)) *ᵥ (fun i => w (Fin.castAdd e i)) +
      D.Eᵀ *ᵥ (fun i => w (Fin.natAdd n i)) = 0 := funext fun i => (h1 i).symm
  have g2 : D.E *ᵥ (fun i => w (Fin.castAdd e i)) = 0 := funext fun i => (h2 i).symm
  have hx : (fun i => w (Fin.castAdd e i)) = 0 := by
    refine admm_nonsing hP hr hs (A := D.A) ?_
    have e1 := congrArg (fun v => (fun i => w (Fin.castAdd e i)) ⬝ᵥ v) g1
    simp only [dotProduct_add, dotProduct_zero] at e1
    have e2 : (fun i => w (Fin.castAdd e i)) ⬝ᵥ (D.Eᵀ *ᵥ fun i => w (Fin.natAdd n i)) = 0 := by
      rw [dotProduct_mulVec, vecMul_transpose, g2, zero_dotProduct]
    linarith
  rw [hx, mulVec_zero, zero_add] at g1
  have hv := hE _ g1
  funext k
  refine Fin.addCases (fun i => ?_) (fun i => ?_) k
  · exact congrFun hx i
  · exact congrFun hv i

/-- what an iteration leaves. -/
theorem step_spec (s : BState K n e m) (i : ℕ) :
    let r := s.step sp c D i
    let w := c.alpha • (D.A *ᵥ r.x) + (1 - c.alpha) • s.z
    r.z = (fun i => npClip (D.l i) (D.u i) (w i + s.y i / s.rhoVec i)) ∧ r.y = s.y + s.rhoVec * (w - r.z) ∧
    r.rPrim = max (if m = 0 then 0 else exactNormInf (D.A *ᵥ r.x - r.z)) (exactNormInf (D.E *ᵥ r.x - D.b)) ∧
    r.rDual = exactNormInf (D.Aᵀ *ᵥ (s.rhoVec * (r.z - s.z))) ∧
    r.relP = (if m = 0 then ((1 / 10 ^ 10 : ℚ) : K) else max (exactNormInf (D.A *ᵥ r.x)) (exactNormInf r.z)) ∧
    r.relD = if m = 0 then ((1 / 10 ^ 10 : ℚ) : K) else exactNormInf (D.Aᵀ *ᵥ r.y) := by
  intro r w
  obtain ⟨a, b, g, h⟩ := updateRho_frame (c := c) (D := D) (s.admm sp c D) i
  have hr : r = { s.admm sp c D with rho := a, rhoVec := b, rhoEst := g } := h
  have hw : w = mv (sm c.alpha D.A) r.x + sv (1 - c.alpha) s.z := by
    rw [mv_exact, sm_exact, sv_exact, smul_mulVec]
  rw [hw, hr]
  refine ⟨rfl, ?_, ?_, ?_, ?_, rfl⟩
  · exact congrArg (fun v => s.y + v) (cw_exact _ _)
  · exact cppMax_exact _ _
  · change normInf (mv _ (cw _ _)) = _
    rw [cw_exact]; rfl
  · change (if m = 0 then _ else cppMax _ _) = _
    rw [cppMax_exact]; rfl

/-- the linear system of an iteration. -/
theorem step_exact (hsp : SpExact sp) (hP : PSD D.P) (hE : FullRank D.E) (hs : 0 < c.sigma) (s : BState K n e m)
    (hr : ∀ i, 0 < s.rhoVec i) (i : ℕ) :
    D.E *ᵥ (s.step sp c D i).x = D.b ∧
    D.P *ᵥ (s.step sp c D i).x + D.q + c.sigma • ((s.step sp c D i).x - s.x) +
      D.Aᵀ *ᵥ (s.y + s.rhoVec * (D.A *ᵥ (s.step sp c D i).x - s.z)) + D.Eᵀ *ᵥ (s.step sp c D i).v = 0 := by
  obtain ⟨a, b, g, h⟩ := updateRho_frame (c := c) (D := D) (s.admm sp c D) i
  have hst : s.step sp c D i = { s.admm sp c D with rho := a, rhoVec := b, rhoEst := g } := h
  set sol := sp (n + e) (kktMat c D s.rhoVec) (s.kktRhs c D) with hsol
  have ex : (s.step sp c D i).x = fun i => sol (Fin.castAdd e i) := by rw [hst]; rfl
  have ev : (s.step sp c D i).v = fun i => sol (Fin.natAdd n i) := by rw [hst]; rfl
  have hk : kktMat c D s.rhoVec *ᵥ sol = s.kktRhs c D := hsp _ _ _ (kkt_nonsing hP hE hs hr)
  obtain ⟨h1, h2⟩ := kkt_mul (c := c) (D := D) s.rhoVec sol
  rw [hk, ← ex, ← ev] at h1
  rw [hk, ← ex] at h2
  constructor
  · funext k
    rw [← h2 k]
    unfold kktRhs
    rw [Fin.addCases_right]
  · have hq : (D.P + c.sigma • (1 : Mat K n n) + D.Aᵀ * (diagonal s.rhoVec * D.A)) *ᵥ (s.step sp c D i).x + D.Eᵀ *ᵥ (s.step sp c D i).v =
        D.Aᵀ *ᵥ (s.rhoVec * s.z - s.y) - D.q + c.sigma • s.x := by
      funext k
      rw [← h1 k]
      unfold kktRhs
      rw [Fin.addCases_left]
      have ey : cw s.rhoVec (s.z - fun i => s.y i / s.rhoVec i) = s.rhoVec * s.z - s.y := by
        funext k
        have := (hr k).ne'
        simp only [cw, Pi.sub_apply, Pi.mul_apply]
        field_simp
      rw [ey]; rfl
    rw [add_mulVec, add_mulVec, smul_mulVec, one_mulVec, ← mulVec_mulVec, ← mulVec_mulVec] at hq
    have ed : diagonal s.rhoVec *ᵥ (D.A *ᵥ (s.step sp c D i).x) = s.rhoVec * (D.A *ᵥ (s.step sp c D i).x) := by
      funext i; rw [mulVec_diagonal]; rfl
    rw [ed, mulVec_sub] at hq
    rw [mul_sub, mulVec_add, mulVec_sub, smul_sub]
    funext k
    have := congrFun hq k
    simp only [Pi.add_apply, Pi.sub_apply, Pi.smul_apply, smul_eq_mul, Pi.zero_apply] at this ⊢
    linarith

end
end BState
end Mim
