import Verif.Lemmas.Backward
import Verif.Lemmas.Riccati

/-!
# The backward pass is the Riccati recursion
-/
set_option linter.unusedSectionVars false
set_option linter.unusedSimpArgs false

namespace Mim
open Matrix Spec

namespace Bwd
section
variable {F : Type} [Add F] [Sub F] [Mul F] [Div F] [Neg F] [Zero F] [One F] [FloatOps F] {P : Problem F}
variable {llt : LLT F} {d : Data P} {fs : ℕ → Vec F P.ndx} {feas : Bool} {preg dreg : F}

/-- the equations stage `t` of a successful pass satisfies. -/
structure StageOK (llt : LLT F) (d : Data P) (fs : ℕ → Vec F P.ndx) (feas : Bool) (preg dreg : F) (b : BP P) (t : ℕ) :
    Prop where
  Qxx : b.Qxx t = Bwd.Qxx d t (b.Vxx (t + 1))
  Qx : b.Qx t = Bwd.Qx d t (b.Vx (t + 1))
  good : badStage (b.Vx t) (b.Vxx t) = false
  zero : P.nu t = 0 → b.Vxx t = Bwd.Vxx preg (Bwd.Qxx d t (b.Vxx (t + 1))) ∧
    b.Vx t = Bwd.Vx feas (Bwd.Qx d t (b.Vx (t + 1))) (b.Vxx t) (fs t)
  pos : 0 < P.nu t → llt (P.nu t) (b.Quu t) = some (b.llt t) ∧
    b.Quu t = Bwd.Quu d t (b.Vxx (t + 1)) dreg ∧
    b.Qu t = Bwd.Qu d t (b.Vx (t + 1)) ∧
    b.Qxu t = Bwd.Qxu d t (b.Vxx (t + 1)) ∧
    b.K t = solveCols (b.llt t) (b.Qxu t).transpose ∧
    b.k t = b.llt t (b.Qu t) ∧
    b.Quuk t = mv (b.Quu t) (b.k t) ∧
    b.Vxx t = Bwd.Vxx preg (b.Qxx t - mm (b.Qxu t) (b.K t)) ∧
    b.Vx t = Bwd.Vx feas (b.Qx t - mv (b.K t).transpose (b.Qu t)) (b.Vxx t) (fs t)

/-- stage `t` writes only index `t`. -/
theorem stage_other {t : ℕ} {b b' : BP P} (h : backwardStage llt d fs feas preg dreg t b = .ok b') (j : ℕ) (hj : j ≠ t) :
    b'.Vxx j = b.Vxx j ∧ b'.Vx j = b.Vx j ∧ b'.Qxx j = b.Qxx j ∧ b'.Qxu j = b.Qxu j ∧ b'.Quu j = b.Quu j ∧
    b'.Qx j = b.Qx j ∧ b'.Qu j = b.Qu j ∧ b'.K j = b.K j ∧ b'.k j = b.k j ∧ b'.Quuk j = b.Quuk j ∧ b'.llt j = b.llt j := by
  rcases Nat.eq_zero_or_pos (P.nu t) with h0 | h0
  · have e := stage_zero (llt := llt) (d := d) (fs := fs) (feas := feas) (preg := preg) (dreg := dreg) t b h0
    simp only [] at e
    rw [e] at h
    split at h
    · cases h
    · cases h
      simp only [Function.update_of_ne hj, and_self]
  · have e := stage_pos (llt := llt) (d := d) (fs := fs) (feas := feas) (preg := preg) (dreg := dreg) t b h0
    simp only [] at e
    cases hs : llt (P.nu t) (Quu d t (b.Vxx (t + 1)) dreg) with
    | none => obtain ⟨c, e⟩ := e.2 hs; rw [e] at h; cases h
    | some s =>
      rw [e.1 s hs] at h
      split at h
      · cases h
      · cases h
        simp only [Function.update_of_ne hj, and_self]

theorem stage_ok {t : ℕ} {b b' : BP P} (h : backwardStage llt d fs feas preg dreg t b = .ok b') :
    StageOK llt d fs feas preg dreg b' t := by
  have hne : t + 1 ≠ t := Nat.succ_ne_self t
  rcases Nat.eq_zero_or_pos (P.nu t) with h0 | h0
  · have e := stage_zero (llt := llt) (d := d) (fs := fs) (feas := feas) (preg := preg) (dreg := dreg) t b h0
    simp only [] at e
    rw [e] at h
    split at h
    · cases h
    · rename_i hg
      cases h
      refine ⟨?_, ?_, ?_, ?_, fun h => by omega⟩ <;>
        simp only [Function.update_self, Function.update_of_ne hne]
      · simpa using hg
      · exact fun _ => ⟨trivial, trivial⟩
  · have e := stage_pos (llt := llt) (d := d) (fs := fs) (feas := feas) (preg := preg) (dreg := dreg) t b h0
    simp only [] at e
    cases hs : llt (P.nu t) (Quu d t (b.Vxx (t + 1)) dreg) with
    | none => obtain ⟨c, e⟩ := e.2 hs; rw [e] at h; cases h
    | some s =>
      rw [e.1 s hs] at h
      split at h
      · cases h
      · rename_i hg
        cases h
        refine ⟨?_, ?_, ?_, fun h => by omega, fun _ => ?_⟩ <;>
          simp only [Function.update_self, Function.update_of_ne hne]
        · simpa using hg
        · exact ⟨hs, trivial, trivial, trivial, rfl, rfl, trivial, rfl, rfl⟩

theorem StageOK.congr {b b' : BP P} {t : ℕ} (h : StageOK llt d fs feas preg dreg b t)
    (h1 : b'.Vxx (t + 1) = b.Vxx (t + 1)) (h2 : b'.Vx (t + 1) = b.Vx (t + 1))
    (h3 : b'.Vxx t = b.Vxx t ∧ b'.Vx t = b.Vx t ∧ b'.Qxx t = b.Qxx t ∧ b'.Qxu t = b.Qxu t ∧ b'.Quu t = b.Quu t ∧
    b'.Qx t = b.Qx t ∧ b'.Qu t = b.Qu t ∧ b'.K t = b.K t ∧ b'.k t = b.k t ∧ b'.Quuk t = b.Quuk t ∧ b'.llt t = b.llt t) :
    StageOK llt d fs feas preg dreg b' t := by
  obtain ⟨a1, a2, a3, a4, a5, a6, a7, a8, a9, a10, a11⟩ := h3
  refine ⟨?_, ?_, ?_, ?_, ?_⟩
  · rw [h1, a3]; exact h.Qxx
  · rw [h2, a6]; exact h.Qx
  · rw [a1, a2]; exact h.good
  · rw [h1, h2, a1, a2]; exact h.zero
  · rw [h1, h2, a1, a2, a3, a4, a5, a6, a7, a8, a9, a10, a11]; exact h.pos

/-- everything a successful backward pass computes. -/
theorem backwardPass_ok {b b' : BP P} (h : backwardPass llt d fs feas preg dreg b = .ok b') :
    (b'.Vxx P.T = (if isnan preg then d.td.Lxx else addDiag d.td.Lxx preg)) ∧
    (b'.Vx P.T = if feas then d.td.Lx else d.td.Lx + mv (b'.Vxx P.T) (fs P.T)) ∧
    ∀ t, t < P.T → StageOK llt d fs feas preg dreg b' t := by
  have key := forDownR_inv (fun n (b' : BP P) =>
    b'.Vxx P.T = (if isnan preg then d.td.Lxx else addDiag d.td.Lxx preg) ∧
    (b'.Vx P.T = if feas then d.td.Lx else d.td.Lx + mv (b'.Vxx P.T) (fs P.T)) ∧
    ∀ t, n ≤ t → t < P.T → StageOK llt d fs feas preg dreg b' t) P.T _ _ b' ?_ ?_ h
  · obtain ⟨k1, k2, k3⟩ := key
    exact ⟨k1, k2, fun t ht => k3 t (Nat.zero_le t) ht⟩
  · refine ⟨?_, ?_, fun t h1 h2 => by omega⟩ <;> simp [backwardInit]
  · rintro t ht b1 b2 ⟨i1, i2, i3⟩ hb
    have ho := stage_other hb
    obtain ⟨o1, o2, _⟩ := ho P.T (by omega)
    refine ⟨by rw [o1, i1], by rw [o1, o2, i2], fun j hj1 hj2 => ?_⟩
    by_cases e : j = t
    · subst e; exact stage_ok hb
    · exact (i3 j (by omega) hj2).congr (ho (j + 1) (by omega)).1 (ho (j + 1) (by omega)).2.1 (ho j e)

end
end Bwd

namespace Spec
variable {K : Type} [Field K] [LinearOrder K] [IsStrictOrderedRing K] {P : Problem K}

/-- the quadratic model of the problem at the point whose derivatives are stored in `d`, with gaps `fs`, regularized by
`preg` on the states and `dreg` on the controls. -/
def lqOf (d : Data P) (fs : ℕ → Vec K P.ndx) (preg dreg : K) : LQ K P.T P.ndx P.nu where
  Hxx t := (d.rd t).Lxx + preg • (1 : Matrix _ _ K)
  Hxu t := (d.rd t).Lxu
  Huu t := (d.rd t).Luu + dreg • (1 : Matrix _ _ K)
  gx t := (d.rd t).Lx
  gu t := (d.rd t).Lu
  A t := (d.rd t).Fx
  B t := (d.rd t).Fu
  c := fs
  HT := d.td.Lxx + preg • (1 : Matrix _ _ K)
  gT := d.td.Lx

/-- the Hessian blocks of the cost are symmetric. -/
structure SymHess (d : Data P) : Prop where
  xx : ∀ t, t < P.T → (d.rd t).Lxxᵀ = (d.rd t).Lxx
  uu : ∀ t, t < P.T → (d.rd t).Luuᵀ = (d.rd t).Luu
  T : d.td.Lxxᵀ = d.td.Lxx
end Spec

section
variable {K : Type} [Field K] [LinearOrder K] [IsStrictOrderedRing K] {P : Problem K}

theorem symm_of_sym {n : ℕ} {A : Mat K n n} (h : Aᵀ = A) : symm A = A := by
  unfold symm
  ext i j
  rw [sm_exact, h]
  simp only [Matrix.smul_apply, Matrix.add_apply, smul_eq_mul, lit_exact]
  push_cast
  ring

theorem symm_transpose {n : ℕ} (A : Mat K n n) : (symm A)ᵀ = symm A := by
  unfold symm
  rw [sm_exact, Matrix.transpose_smul, Matrix.transpose_add, Matrix.transpose_transpose, add_comm]

theorem solveCols_mul {m n : ℕ} {A : Mat K m m} {s : Vec K m → Vec K m} (h : ∀ b, A *ᵥ s b = b) (B : Mat K m n) :
    A * solveCols s B = B := by
  ext i j
  have := congrFun (h fun i' => B i' j) i
  rw [Matrix.mul_apply]
  exact this

theorem sub_reg_transpose {n : ℕ} (c : K) : (c • (1 : Matrix (Fin n) (Fin n) K))ᵀ = c • (1 : Matrix (Fin n) (Fin n) K) := by
  rw [Matrix.transpose_smul, Matrix.transpose_one]

/-- **The backward pass computes the Riccati recursion** of the regularized quadratic model; `v = Vx - Vxx c`. -/
theorem backward_riccati {llt : LLT K} (hllt : LLTExact llt) {d : Data P} (hsym : SymHess d) {fs : ℕ → Vec K P.ndx}
    {feas : Bool} {preg dreg : K} {b b' : BP P} (h : backwardPass llt d fs feas preg dreg b = .ok b') :
    let c : ℕ → Vec K P.ndx := fun t => if feas then 0 else fs t
    Riccati (lqOf d c preg dreg) b'.Vxx (fun t => b'.Vx t - b'.Vxx t *ᵥ c t) b'.K b'.k b'.Quu ∧
    ∀ t, t < P.T → PosDef (b'.Quu t) := by
  obtain ⟨h1, h2, h3⟩ := Bwd.backwardPass_ok h
  simp only [isnan_exact, Bool.false_eq_true, if_false, addDiag_exact] at h1
  have hc : ∀ t (W : Mat K P.ndx P.ndx) (a : Vec K P.ndx),
      Bwd.Vx feas a W (fs t) = a + W *ᵥ (if feas then 0 else fs t) := by
    intro t W a
    unfold Bwd.Vx
    cases feas <;> simp
  -- symmetry of the value Hessian, downwards
  have hV : ∀ t, t ≤ P.T → (b'.Vxx t)ᵀ = b'.Vxx t := by
    intro t ht
    rcases Nat.eq_or_lt_of_le ht with rfl | ht
    · rw [h1, Matrix.transpose_add, hsym.T, sub_reg_transpose]
    · have hs := h3 t ht
      have : ∀ A : Mat K P.ndx P.ndx, (Bwd.Vxx preg A)ᵀ = Bwd.Vxx preg A := by
        intro A
        unfold Bwd.Vxx
        simp only [isnan_exact, Bool.false_eq_true, if_false, addDiag_exact]
        rw [Matrix.transpose_add, symm_transpose, sub_reg_transpose]
      rcases Nat.eq_zero_or_pos (P.nu t) with h0 | h0
      · rw [(hs.zero h0).1, this]
      · rw [(hs.pos h0).2.2.2.2.2.2.2.1, this]
  have hquu : ∀ t, t < P.T → b'.Quu t = (lqOf d (fun t => if feas then 0 else fs t) preg dreg).Huu t +
      ((d.rd t).Fu)ᵀ * b'.Vxx (t + 1) * (d.rd t).Fu := by
    intro t ht
    rcases Nat.eq_zero_or_pos (P.nu t) with h0 | h0
    · ext i; exact (Fin.cast h0 i).elim0
    · rw [((h3 t ht).pos h0).2.1]
      unfold Bwd.Quu lqOf
      simp only [isnan_exact, Bool.false_eq_true, if_false, addDiag_exact, mm_exact]
      abel
  have hsu : ∀ t, t < P.T → (b'.Quu t)ᵀ = b'.Quu t := by
    intro t ht
    rw [hquu t ht]
    unfold lqOf
    simp only [Matrix.transpose_add, sub_reg_transpose, hsym.uu t ht, Matrix.transpose_mul, Matrix.transpose_transpose,
      hV (t + 1) ht, Matrix.mul_assoc]
  have hgain : ∀ t, t < P.T → b'.Quu t * b'.K t =
      ((d.rd t).Lxu + ((d.rd t).Fx)ᵀ * b'.Vxx (t + 1) * (d.rd t).Fu)ᵀ := by
    intro t ht
    rcases Nat.eq_zero_or_pos (P.nu t) with h0 | h0
    · ext i; exact (Fin.cast h0 i).elim0
    · obtain ⟨e1, e2, e3, e4, e5, e6, e7, e8, e9⟩ := (h3 t ht).pos h0
      rw [e5, solveCols_mul (hllt.solves _ _ _ (hsu t ht) e1), e4]
      unfold Bwd.Qxu
      simp only [mm_exact]
  have hff : ∀ t, t < P.T → b'.Quu t *ᵥ b'.k t = (d.rd t).Lu + ((d.rd t).Fu)ᵀ *ᵥ b'.Vx (t + 1) := by
    intro t ht
    rcases Nat.eq_zero_or_pos (P.nu t) with h0 | h0
    · ext i; exact (Fin.cast h0 i).elim0
    · obtain ⟨e1, e2, e3, e4, e5, e6, e7, e8, e9⟩ := (h3 t ht).pos h0
      rw [e6, hllt.solves _ _ _ (hsu t ht) e1, e3]
      rfl
  have hw : ∀ t, b'.Vx t - b'.Vxx t *ᵥ (if feas then 0 else fs t) + b'.Vxx t *ᵥ (if feas then 0 else fs t) = b'.Vx t :=
    fun t => sub_add_cancel _ _
  refine ⟨⟨h1, ?_, hV, hsu, hquu, hgain, ?_, ?_, ?_⟩, ?_⟩
  · simp only []
    rw [h2]
    cases feas <;> simp [lqOf]
  · intro t ht
    simp only []
    rw [hff t ht, ← hw (t + 1)]
    simp only [lqOf, sub_add_cancel]
  · intro t ht
    have hsq : (Q : Mat K P.ndx P.ndx) → Qᵀ = Q → Bwd.Vxx preg Q = Q + preg • (1 : Matrix _ _ K) := by
      intro Q hQ
      unfold Bwd.Vxx
      simp only [isnan_exact, Bool.false_eq_true, if_false, addDiag_exact]
      rw [symm_of_sym hQ]
    have hxx : ((d.rd t).Lxx + ((d.rd t).Fx)ᵀ * b'.Vxx (t + 1) * (d.rd t).Fx)ᵀ =
        (d.rd t).Lxx + ((d.rd t).Fx)ᵀ * b'.Vxx (t + 1) * (d.rd t).Fx := by
      simp only [Matrix.transpose_add, hsym.xx t ht, Matrix.transpose_mul, Matrix.transpose_transpose,
        hV (t + 1) ht, Matrix.mul_assoc]
    have hxk : (((d.rd t).Lxu + ((d.rd t).Fx)ᵀ * b'.Vxx (t + 1) * (d.rd t).Fu) * b'.K t)ᵀ =
        ((d.rd t).Lxu + ((d.rd t).Fx)ᵀ * b'.Vxx (t + 1) * (d.rd t).Fu) * b'.K t := by
      have e : (d.rd t).Lxu + ((d.rd t).Fx)ᵀ * b'.Vxx (t + 1) * (d.rd t).Fu = (b'.Quu t * b'.K t)ᵀ := by
        rw [hgain t ht, Matrix.transpose_transpose]
      rw [e]
      simp only [Matrix.transpose_mul, Matrix.transpose_transpose, hsu t ht, Matrix.mul_assoc]
    rcases Nat.eq_zero_or_pos (P.nu t) with h0 | h0
    · rw [((h3 t ht).zero h0).1]
      have hz : ((d.rd t).Lxu + ((d.rd t).Fx)ᵀ * b'.Vxx (t + 1) * (d.rd t).Fu) * b'.K t = 0 := by
        ext i j
        rw [Matrix.mul_apply]
        exact Finset.sum_eq_zero fun i' _ => (Fin.cast h0 i').elim0
      rw [hsq]
      · unfold Bwd.Qxx lqOf
        simp only [mm_exact]
        rw [hz]; abel
      · exact hxx
    · obtain ⟨e1, e2, e3, e4, e5, e6, e7, e8, e9⟩ := (h3 t ht).pos h0
      rw [e8, (h3 t ht).Qxx, e4, hsq]
      · unfold Bwd.Qxx Bwd.Qxu lqOf
        simp only [mm_exact]
        abel
      · unfold Bwd.Qxx Bwd.Qxu
        simp only [mm_exact]
        rw [Matrix.transpose_sub, hxx, hxk]
  · intro t ht
    have hw' : b'.Vx (t + 1) - b'.Vxx (t + 1) *ᵥ (if feas then 0 else fs (t + 1)) + b'.Vxx (t + 1) *ᵥ
      (lqOf d (fun t => if feas = true then 0 else fs t) preg dreg).c (t + 1) = b'.Vx (t + 1) := hw (t + 1)
    simp only []
    rw [hw']
    rcases Nat.eq_zero_or_pos (P.nu t) with h0 | h0
    · rw [((h3 t ht).zero h0).2, hc]
      have hz : (b'.K t)ᵀ *ᵥ ((d.rd t).Lu + ((d.rd t).Fu)ᵀ *ᵥ b'.Vx (t + 1)) = 0 := by
        funext i
        rw [Matrix.mulVec, dotProduct]
        exact Finset.sum_eq_zero fun i' _ => (Fin.cast h0 i').elim0
      unfold Bwd.Qx lqOf
      simp only [mv_exact]
      rw [hz]; abel
    · obtain ⟨e1, e2, e3, e4, e5, e6, e7, e8, e9⟩ := (h3 t ht).pos h0
      rw [e9, (h3 t ht).Qx, e3, hc]
      unfold Bwd.Qx Bwd.Qu lqOf
      simp only [mv_exact]
      abel
  · intro t ht
    rcases Nat.eq_zero_or_pos (P.nu t) with h0 | h0
    · intro x hx
      exact absurd (funext fun i => (Fin.cast h0 i).elim0) hx
    · exact hllt.posDef _ _ _ (hsu t ht) ((h3 t ht).pos h0).1

end
end Mim
