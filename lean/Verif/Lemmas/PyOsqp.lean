import Verif.Lemmas.BoxQP

/-!
# `CustomOSQP` (/repo/python/qp_solvers/py_osqp.py)
-/
set_option linter.unusedSectionVars false
set_option linter.unusedSimpArgs false

namespace Mim
open QP Spec Matrix

namespace OState
section
variable {F : Type} [Add F] [Sub F] [Mul F] [Div F] [Neg F] [Zero F] [One F] [FloatOps F] [SqrtOps F] {n m : ℕ}
variable {sp : SpSolve F} {c : OConf F} {D : OQP F n m}

/-- the state after `j` iterations. -/
def after (sp : SpSolve F) (c : OConf F) (D : OQP F n m) (s : OState F n m) : ℕ → OState F n m
  | 0 => s
  | j + 1 => (after sp c D s j).step sp c D (j + 1)

/-- the loop stops at the first iteration whose test succeeds, or at the last one. -/
theorem loop_spec (s : OState F n m) (k j : ℕ) (hk : 0 < k) : ∃ i, j < i ∧ i ≤ j + k ∧
    (∀ i', j < i' → i' < i → (after sp c D s i').test c i' = false) ∧
    (((after sp c D s i).test c i = true ∧
        loop sp c D k (j + 1) (after sp c D s j) = { after sp c D s i with conv := true, iters := i }) ∨
      ((after sp c D s i).test c i = false ∧ i = j + k ∧
        loop sp c D k (j + 1) (after sp c D s j) = { after sp c D s i with iters := i })) := by
  induction k generalizing j with
  | zero => omega
  | succ k ih =>
    have e : loop sp c D (k + 1) (j + 1) (after sp c D s j) = if (after sp c D s (j + 1)).test c (j + 1) then
        { after sp c D s (j + 1) with conv := true, iters := j + 1 } else loop sp c D k (j + 1 + 1) (after sp c D s (j + 1)) := rfl
    rw [e]
    cases ht : (after sp c D s (j + 1)).test c (j + 1) with
    | true => exact ⟨j + 1, by omega, by omega, fun i' h1 h2 => by omega, .inl ⟨ht, rfl⟩⟩
    | false =>
      rw [if_neg (by simp)]
      rcases Nat.eq_zero_or_pos k with rfl | hk'
      · exact ⟨j + 1, by omega, by omega, fun i' h1 h2 => by omega, .inr ⟨ht, rfl, rfl⟩⟩
      · obtain ⟨i, h1, h2, h3, h4⟩ := ih (j + 1) hk'
        refine ⟨i, by omega, by omega, fun i' a b => ?_, ?_⟩
        · by_cases h : i' = j + 1
          · subst h; exact ht
          · exact h3 i' (by omega) b
        · rcases h4 with h4 | ⟨h4, h5, h6⟩
          · exact .inl h4
          · exact .inr ⟨h4, by omega, h6⟩

/-- what `optimize_osqp` returns. -/
theorem optimize_ok {s r : OState F n m} (h : s.optimize sp c D = .ok r) : c.maxQP ≠ 0 ∧ c.interval ≠ 0 ∧
    ∃ i, 0 < i ∧ i ≤ c.maxQP ∧ (∀ i', 0 < i' → i' < i → (after sp c D (s.init c D) i').test c i' = false) ∧
    (((after sp c D (s.init c D) i).test c i = true ∧ r = { after sp c D (s.init c D) i with conv := true, iters := i }) ∨
      ((after sp c D (s.init c D) i).test c i = false ∧ i = c.maxQP ∧ r = { after sp c D (s.init c D) i with iters := i })) := by
  unfold optimize at h
  split at h
  · cases h
  · rename_i hc
    push Not at hc
    obtain ⟨i, h1, h2, h3, h4⟩ := loop_spec (sp := sp) (c := c) (D := D) (s.init c D) c.maxQP 0 (Nat.pos_of_ne_zero hc.1)
    refine ⟨hc.1, hc.2, i, h1, by omega, h3, ?_⟩
    rcases h4 with ⟨h4, h5⟩ | ⟨h4, h5, h6⟩
    · exact .inl ⟨h4, by cases h; exact h5⟩
    · exact .inr ⟨h4, by omega, by cases h; exact h6⟩

/-- `updateRho` only writes the penalties. -/
theorem updateRho_frame (s : OState F n m) (i : ℕ) : ∃ r v e, s.updateRho c D i = { s with rho := r, rhoVec := v, rhoEst := e } := by
  unfold updateRho
  simp only []
  split
  · exact ⟨_, _, _, rfl⟩
  · exact ⟨s.rho, s.rhoVec, _, rfl⟩

theorem step_conv (s : OState F n m) (i : ℕ) : (s.step sp c D i).conv = s.conv := by
  unfold step
  obtain ⟨r, v, e, h⟩ := updateRho_frame (c := c) (D := D) ((s.solveSys sp c D).updateLag c D) i
  rw [h]; rfl

theorem after_conv (s : OState F n m) (i : ℕ) : (after sp c D s i).conv = s.conv := by
  induction i with
  | zero => rfl
  | succ i ih => exact (step_conv _ _).trans ih

theorem updateRho_iters (s : OState F n m) (i k : ℕ) : ({ s with iters := k } : OState F n m).updateRho c D i =
    { s.updateRho c D i with iters := k } := by
  unfold updateRho
  simp only []
  split <;> rfl

/-- fields an iteration reads. -/
def core (s : OState F n m) := (s.x, s.z, s.y, s.rho, s.rhoVec, s.rhoEst, s.conv)

theorem step_core {s s' : OState F n m} (h : core s = core s') (i : ℕ) :
    s.step sp c D i = { s'.step sp c D i with iters := s.iters } := by
  cases s with
  | mk x z y xt zt rho rhoVec rhoEst rPrim rDual relP relD conv iters =>
  cases s' with
  | mk x' z' y' xt' zt' rho' rhoVec' rhoEst' rPrim' rDual' relP' relD' conv' iters' =>
  simp only [core, Prod.mk.injEq] at h
  obtain ⟨rfl, rfl, rfl, rfl, rfl, rfl, rfl⟩ := h
  exact updateRho_iters ((OState.solveSys sp c D ⟨x, z, y, xt', zt', rho, rhoVec, rhoEst, rPrim', rDual', relP', relD', conv, iters'⟩).updateLag c D) i iters

theorem loop_core {s s' : OState F n m} (h : core s = core s') (k i : ℕ) (hk : 0 < k) : loop sp c D k i s = loop sp c D k i s' := by
  induction k generalizing i s s' with
  | zero => omega
  | succ k ih =>
    unfold loop
    rw [step_core h i]
    have ht : test c i { s'.step sp c D i with iters := s.iters } = test c i (s'.step sp c D i) := rfl
    simp only [ht]
    split
    · rfl
    · rcases Nat.eq_zero_or_pos k with rfl | hk'
      · rfl
      · exact ih (s := { s'.step sp c D i with iters := s.iters }) (s' := s'.step sp c D i) rfl (i + 1) hk'

end

section
variable {K : Type} [Field K] [LinearOrder K] [IsStrictOrderedRing K] [SqrtOps K] {n m : ℕ}
variable {sp : SpSolve K} {c : OConf K} {D : OQP K n m}

theorem rowSet_pos {rhoMin r : K} (h : 0 < rhoMin) (hr : 0 < r) (l u : Option K) : 0 < rowSet rhoMin r l u := by
  have h3 : (0 : K) < ((10 ^ 3 : ℚ) : K) * r := mul_pos (by norm_num) hr
  unfold rowSet
  cases l <;> cases u <;> simp only [lit_exact, eqb_exact] <;> first | assumption | skip
  split <;> assumption

theorem rowUpdate_pos {rhoMin r : K} (h : 0 < rhoMin) (hr : 0 < r) (l u : Option K) : 0 < rowUpdate rhoMin r l u := by
  have h3 : (0 : K) < ((10 ^ 3 : ℚ) : K) * r := mul_pos (by norm_num) hr
  unfold rowUpdate
  cases l <;> cases u <;> simp only [lit_exact, ltb_exact] <;> first | assumption | skip
  split <;> assumption

/-- the penalties are positive and in their range. -/
structure Rho (c : OConf K) (s : OState K n m) : Prop where
  lo : c.rhoMin ≤ s.rho
  up : s.rho ≤ c.rhoMax
  pos : ∀ i, 0 < s.rhoVec i

theorem clamp_mem {a b v : K} (h : a ≤ b) : a ≤ cppMin (cppMax v a) b ∧ cppMin (cppMax v a) b ≤ b := by
  rw [cppMin_exact, cppMax_exact]
  exact ⟨le_min (le_max_right _ _) h, min_le_right _ _⟩

theorem Rho.init (h0 : 0 < c.rhoMin) (h1 : c.rhoMin ≤ c.rhoMax) (s : OState K n m) : Rho c (s.init c D) := by
  have h := clamp_mem (v := c.rhoInit) h1
  exact ⟨h.1, h.2, fun i => rowSet_pos h0 (h0.trans_le h.1) _ _⟩

theorem Rho.update (h0 : 0 < c.rhoMin) (h1 : c.rhoMin ≤ c.rhoMax) {s : OState K n m} (h : Rho c s) (i : ℕ) : Rho c (s.updateRho c D i) := by
  unfold updateRho
  simp only []
  split
  · have h := clamp_mem (v := SqrtOps.sqrt (s.rPrim * s.relD / (s.rDual * s.relP)) * s.rho) h1
    exact ⟨h.1, h.2, fun i => rowUpdate_pos h0 (h0.trans_le h.1) _ _⟩
  · exact ⟨h.lo, h.up, h.pos⟩

theorem Rho.step (h0 : 0 < c.rhoMin) (h1 : c.rhoMin ≤ c.rhoMax) {s : OState K n m} (h : Rho c s) (i : ℕ) : Rho c (s.step sp c D i) :=
  Rho.update h0 h1 (s := (s.solveSys sp c D).updateLag c D) ⟨h.lo, h.up, h.pos⟩ i

theorem Rho.after (h0 : 0 < c.rhoMin) (h1 : c.rhoMin ≤ c.rhoMax) {s : OState K n m} (h : Rho c s) (i : ℕ) : Rho c (after sp c D s i) := by
  induction i with
  | zero => exact h
  | succ i ih => exact ih.step h0 h1 (i + 1)

/-- what an iteration leaves. -/
theorem step_spec (s : OState K n m) (i : ℕ) :
    let s1 := s.solveSys sp c D
    let w := c.alpha • s1.zt + (1 - c.alpha) • s.z
    let r := s.step sp c D i
    r.xt = s1.xt ∧ r.x = c.alpha • s1.xt + (1 - c.alpha) • s.x ∧
    r.z = (fun i => npClip (D.l i) (D.u i) (w i + s.y i / s.rhoVec i)) ∧ r.y = s.y + s.rhoVec * (w - r.z) ∧
    r.rPrim = exactNormInf (D.A *ᵥ r.x - r.z) ∧ r.rDual = exactNormInf (D.P *ᵥ r.x + D.q + D.Aᵀ *ᵥ r.y) ∧
    r.relP = max (exactNormInf (D.A *ᵥ r.x)) (exactNormInf r.z) ∧
    r.relD = max (max (exactNormInf D.q) (exactNormInf (D.Aᵀ *ᵥ r.y))) (exactNormInf (D.P *ᵥ r.x)) := by
  intro s1 w r
  obtain ⟨a, b, e, h⟩ := updateRho_frame (c := c) (D := D) ((s.solveSys sp c D).updateLag c D) i
  have hr : r = { (s.solveSys sp c D).updateLag c D with rho := a, rhoVec := b, rhoEst := e } := h
  rw [hr]
  refine ⟨rfl, rfl, rfl, ?_, rfl, rfl, ?_, ?_⟩
  · exact congrArg (fun v => s.y + v) (cw_exact _ _)
  · exact cppMax_exact _ _
  · change cppMax (cppMax _ _) _ = _
    rw [cppMax_exact, cppMax_exact]; rfl

/-- the linear system of an iteration. -/
theorem solveSys_exact (hsp : SpExact sp) (hP : PSD D.P) (hs : 0 < c.sigma) (s : OState K n m) (hr : ∀ i, 0 < s.rhoVec i) :
    (s.solveSys sp c D).zt = D.A *ᵥ (s.solveSys sp c D).xt ∧
    D.P *ᵥ (s.solveSys sp c D).xt + D.q + c.sigma • ((s.solveSys sp c D).xt - s.x) +
      D.Aᵀ *ᵥ (s.y + s.rhoVec * (D.A *ᵥ (s.solveSys sp c D).xt - s.z)) = 0 := by
  refine ⟨rfl, ?_⟩
  have e : (s.solveSys sp c D).xt = sp n (D.P + c.sigma • (1 : Mat K n n) + D.Aᵀ * (diagonal s.rhoVec * D.A))
      (c.sigma • s.x - D.q + D.Aᵀ *ᵥ (s.rhoVec * s.z - s.y)) := by
    unfold solveSys
    simp only [addDiag_exact, mm_exact, diagMul_exact, sv_exact, mv_exact, cw_exact]
    try rfl
  have h := hsp n (D.P + c.sigma • (1 : Mat K n n) + D.Aᵀ * (diagonal s.rhoVec * D.A))
    (c.sigma • s.x - D.q + D.Aᵀ *ᵥ (s.rhoVec * s.z - s.y)) (fun v hv => admm_nonsing hP hr hs (by rw [hv, dotProduct_zero]))
  rw [← e] at h
  rw [add_mulVec, add_mulVec, smul_mulVec, one_mulVec, ← mulVec_mulVec, ← mulVec_mulVec] at h
  have ed : diagonal s.rhoVec *ᵥ (D.A *ᵥ (s.solveSys sp c D).xt) = s.rhoVec * (D.A *ᵥ (s.solveSys sp c D).xt) := by
    funext i; rw [mulVec_diagonal]; rfl
  rw [ed] at h
  rw [mul_sub, mulVec_add, mulVec_sub, smul_sub]
  rw [mulVec_sub] at h
  generalize D.P *ᵥ (s.solveSys sp c D).xt = a at *
  generalize D.Aᵀ *ᵥ (s.rhoVec * (D.A *ᵥ (s.solveSys sp c D).xt)) = b at *
  funext i
  have := congrFun h i
  simp only [Pi.add_apply, Pi.sub_apply, Pi.smul_apply, smul_eq_mul, Pi.zero_apply] at this ⊢
  linarith

end
end OState
end Mim
