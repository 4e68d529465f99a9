import Verif.Model.KKT

/-!
# The entries of the matrix SolverKKT assembles
-/
set_option linter.unusedSectionVars false
set_option linter.unusedSimpArgs false

namespace Mim

section
variable {F : Type} [Add F] [Sub F] [Mul F] [Div F] [Neg F] [Zero F] [One F] [FloatOps F] {P : Problem F}

theorem x_lt {t i : ℕ} (hi : i < P.ndx) (ht : t ≤ P.T) : t * P.ndx + i < P.nX := blk_lt hi (Nat.lt_succ_of_le ht)
theorem u_lt {t i : ℕ} (hi : i < P.nu t) (ht : t < P.T) : P.nX + offs P.nu t + i < P.nP := by
  have := offs_lt (d := P.nu) ht hi
  unfold Problem.nP Problem.nU; omega

theorem u_le {t : ℕ} (ht : t < P.T) : P.nX + offs P.nu t + P.nu t ≤ P.nP := by
  have := offs_succ_le (d := P.nu) ht
  unfold Problem.nP Problem.nU; omega

theorem nX_le_nP : P.nX ≤ P.nP := Nat.le_add_right _ _

/-- The system matrix is zero outside its pattern: the Hessian and dynamics blocks (`calcDiff` never touches the rest). -/
structure KPattern (P : Problem F) (M : FMat F) : Prop where
  xx : ∀ t t' (i j : Fin P.ndx), t ≤ P.T → t' ≤ P.T → t ≠ t' → M (t * P.ndx + i) (t' * P.ndx + j) = 0
  xu : ∀ t t' (i : Fin P.ndx) (j : Fin (P.nu t')), t ≤ P.T → t' < P.T → t ≠ t' → M (t * P.ndx + i) (P.nX + offs P.nu t' + j) = 0
  ux : ∀ t t' (i : Fin (P.nu t)) (j : Fin P.ndx), t < P.T → t' ≤ P.T → t ≠ t' → M (P.nX + offs P.nu t + i) (t' * P.ndx + j) = 0
  uu : ∀ t t' (i : Fin (P.nu t)) (j : Fin (P.nu t')), t < P.T → t' < P.T → t ≠ t' →
    M (P.nX + offs P.nu t + i) (P.nX + offs P.nu t' + j) = 0
  lu : ∀ t t' (i : Fin P.ndx) (j : Fin (P.nu t')), t ≤ P.T → t' < P.T → t ≠ t' + 1 →
    M (P.nP + (t * P.ndx + i)) (P.nX + offs P.nu t' + j) = 0
  ll : ∀ t t' (i j : Fin P.ndx), t ≤ P.T → t' ≤ P.T → M (P.nP + (t * P.ndx + i)) (P.nP + (t' * P.ndx + j)) = 0

/-- The entries of the matrix when the first `k` stages are written, mirrored part excluded. -/
structure KPart (d : Data P) (k : ℕ) (M : FMat F) : Prop extends KPattern P M where
  exx : ∀ t (i j : Fin P.ndx), t < k → M (t * P.ndx + i) (t * P.ndx + j) = (d.rd t).Lxx i j
  exu : ∀ t (i : Fin P.ndx) (j : Fin (P.nu t)), t < k → M (t * P.ndx + i) (P.nX + offs P.nu t + j) = (d.rd t).Lxu i j
  eux : ∀ t (i : Fin (P.nu t)) (j : Fin P.ndx), t < k → M (P.nX + offs P.nu t + i) (t * P.ndx + j) = (d.rd t).Lxu j i
  euu : ∀ t (i j : Fin (P.nu t)), t < k → M (P.nX + offs P.nu t + i) (P.nX + offs P.nu t + j) = (d.rd t).Luu i j
  elx : ∀ t t' (i j : Fin P.ndx), t ≤ P.T → t' ≤ P.T → ¬ (t = t' + 1 ∧ t' < k) →
    M (P.nP + (t * P.ndx + i)) (t' * P.ndx + j) = if t = t' ∧ i = j then 1 else 0
  efx : ∀ t (i j : Fin P.ndx), t < k → M (P.nP + ((t + 1) * P.ndx + i)) (t * P.ndx + j) = -(d.rd t).Fx i j
  efu : ∀ t (i : Fin P.ndx) (j : Fin (P.nu t)), t < k → M (P.nP + ((t + 1) * P.ndx + i)) (P.nX + offs P.nu t + j) = -(d.rd t).Fu i j

namespace KKT

variable {M : FMat F} {d : Data P}

theorem part_start (hM : KPattern P M) : KPart d 0 (setBlock P.nP 0 (idMat P.nX) M) := by
  have hle := nX_le_nP (P := P)
  constructor
  · constructor
    · intro t t' i j ht ht' h
      have := x_lt i.2 ht
      rw [setBlock_row _ _ (by omega)]; exact hM.xx t t' i j ht ht' h
    · intro t t' i j ht ht' h
      have := x_lt i.2 ht
      rw [setBlock_row _ _ (by omega)]; exact hM.xu t t' i j ht ht' h
    · intro t t' i j ht ht' h
      have := u_lt i.2 ht
      rw [setBlock_row _ _ (by omega)]; exact hM.ux t t' i j ht ht' h
    · intro t t' i j ht ht' h
      have := u_lt i.2 ht
      rw [setBlock_row _ _ (by omega)]; exact hM.uu t t' i j ht ht' h
    · intro t t' i j ht ht' h
      rw [setBlock_col _ _ (by omega)]; exact hM.lu t t' i j ht ht' h
    · intro t t' i j ht ht'
      rw [setBlock_col _ _ (by omega)]; exact hM.ll t t' i j ht ht'
  · intro t i j h; omega
  · intro t i j h; omega
  · intro t i j h; omega
  · intro t i j h; omega
  · intro t t' i j ht ht' _
    have h1 := x_lt i.2 ht
    have h2 := x_lt j.2 ht'
    have e := setBlock_in (r := P.nP) (c := 0) (idMat P.nX : Mat F P.nX P.nX) M ⟨t * P.ndx + i, h1⟩ ⟨t' * P.ndx + j, h2⟩
    simp only [Nat.zero_add] at e
    rw [e]
    unfold idMat
    simp only [Matrix.of_apply, Fin.mk.injEq]
    by_cases ht2 : t = t'
    · subst ht2
      by_cases hij : i = j
      · subst hij; simp
      · rw [if_neg, if_neg] <;> simp [hij, Fin.ext_iff] <;> omega
    · rw [if_neg, if_neg]
      · rintro ⟨h, _⟩; exact ht2 h
      · intro h
        rcases blk_ne i.2 ht2 with h3 | h3 <;> omega
  · intro t i j h; omega
  · intro t i j h; omega

theorem part_step {k : ℕ} (hk : k < P.T) (h : KPart d k M) : KPart d (k + 1) (fillStage (d.rd k) M) := by
  have hle := nX_le_nP (P := P)
  have hku := u_le hk
  have hkx : k * P.ndx + P.ndx ≤ P.nX := by
    unfold Problem.nX
    have : (k + 1) * P.ndx ≤ (P.T + 1) * P.ndx := Nat.mul_le_mul_right _ (by omega)
    linarith [Nat.succ_mul k P.ndx]
  have hs : ∀ t i, P.nP + ((t + 1) * P.ndx + i) = P.nP + P.ndx + t * P.ndx + i := by intro t i; ring
  -- positions not touched by any of the six blocks
  constructor
  · constructor
    · intro t t' i j ht ht' hne
      have h1 := x_lt i.2 ht
      have h2 := x_lt j.2 ht'
      unfold fillStage
      rw [setBlock_col _ _ (by omega), setBlock_row _ _ (by omega), setBlock_row _ _ (by omega), setBlock_row _ _ (by omega),
        setBlock_col _ _ (by omega)]
      have : setBlock (k * P.ndx) (k * P.ndx) (d.rd k).Lxx M (t * P.ndx + i) (t' * P.ndx + j) = M (t * P.ndx + i) (t' * P.ndx + j) := by
        by_cases hk1 : t = k
        · exact setBlock_col _ _ (blk_ne j.2 (by omega))
        · exact setBlock_row _ _ (blk_ne i.2 hk1)
      rw [this]; exact h.xx t t' i j ht ht' hne
    · intro t t' i j ht ht' hne
      have h1 := x_lt i.2 ht
      unfold fillStage
      rw [setBlock_row _ _ (by omega), setBlock_row _ _ (by omega), setBlock_row _ _ (by omega), setBlock_row _ _ (by omega)]
      have : setBlock (k * P.ndx) (P.nX + offs P.nu k) (d.rd k).Lxu (setBlock (k * P.ndx) (k * P.ndx) (d.rd k).Lxx M)
          (t * P.ndx + i) (P.nX + offs P.nu t' + j) = M (t * P.ndx + i) (P.nX + offs P.nu t' + j) := by
        by_cases hk1 : t = k
        · have := offs_ne j.2 (show t' ≠ k by omega)
          rw [setBlock_col _ _ (by omega), setBlock_col _ _ (by omega)]
        · rw [setBlock_row _ _ (blk_ne i.2 hk1), setBlock_row _ _ (blk_ne i.2 hk1)]
      rw [this]; exact h.xu t t' i j ht ht' hne
    · intro t t' i j ht ht' hne
      have h1 := u_lt i.2 ht
      have h2 := x_lt j.2 ht'
      unfold fillStage
      rw [setBlock_col _ _ (by omega), setBlock_row _ _ (by omega), setBlock_col _ _ (by omega)]
      have : setBlock (P.nX + offs P.nu k) (k * P.ndx) (d.rd k).Lxu.transpose
          (setBlock (k * P.ndx) (P.nX + offs P.nu k) (d.rd k).Lxu (setBlock (k * P.ndx) (k * P.ndx) (d.rd k).Lxx M))
          (P.nX + offs P.nu t + i) (t' * P.ndx + j) = M (P.nX + offs P.nu t + i) (t' * P.ndx + j) := by
        by_cases hk1 : t = k
        · rw [setBlock_col _ _ (blk_ne j.2 (by omega)), setBlock_row _ _ (by omega), setBlock_row _ _ (by omega)]
        · have := offs_ne i.2 hk1
          rw [setBlock_row _ _ (by omega), setBlock_row _ _ (by omega), setBlock_row _ _ (by omega)]
      rw [this]; exact h.ux t t' i j ht ht' hne
    · intro t t' i j ht ht' hne
      have h1 := u_lt i.2 ht
      unfold fillStage
      rw [setBlock_row _ _ (by omega), setBlock_row _ _ (by omega)]
      have : setBlock (P.nX + offs P.nu k) (P.nX + offs P.nu k) (d.rd k).Luu (setBlock (P.nX + offs P.nu k) (k * P.ndx) (d.rd k).Lxu.transpose
          (setBlock (k * P.ndx) (P.nX + offs P.nu k) (d.rd k).Lxu (setBlock (k * P.ndx) (k * P.ndx) (d.rd k).Lxx M)))
          (P.nX + offs P.nu t + i) (P.nX + offs P.nu t' + j) = M (P.nX + offs P.nu t + i) (P.nX + offs P.nu t' + j) := by
        by_cases hk1 : t = k
        · have := offs_ne j.2 (show t' ≠ k by omega)
          rw [setBlock_col _ _ (by omega), setBlock_col _ _ (by omega), setBlock_row _ _ (by omega), setBlock_row _ _ (by omega)]
        · have := offs_ne i.2 hk1
          rw [setBlock_row _ _ (by omega), setBlock_row _ _ (by omega), setBlock_row _ _ (by omega), setBlock_row _ _ (by omega)]
      rw [this]; exact h.uu t t' i j ht ht' hne
    · intro t t' i j ht ht' hne
      unfold fillStage
      have h0 : setBlock (P.nP + P.ndx + k * P.ndx) (P.nX + offs P.nu k) (-(d.rd k).Fu)
          (setBlock (P.nP + P.ndx + k * P.ndx) (k * P.ndx) (-(d.rd k).Fx) (setBlock (P.nX + offs P.nu k) (P.nX + offs P.nu k) (d.rd k).Luu
          (setBlock (P.nX + offs P.nu k) (k * P.ndx) (d.rd k).Lxu.transpose
          (setBlock (k * P.ndx) (P.nX + offs P.nu k) (d.rd k).Lxu (setBlock (k * P.ndx) (k * P.ndx) (d.rd k).Lxx M)))))
          (P.nP + (t * P.ndx + i)) (P.nX + offs P.nu t' + j) = M (P.nP + (t * P.ndx + i)) (P.nX + offs P.nu t' + j) := by
        have hu : setBlock (P.nX + offs P.nu k) (P.nX + offs P.nu k) (d.rd k).Luu
          (setBlock (P.nX + offs P.nu k) (k * P.ndx) (d.rd k).Lxu.transpose
          (setBlock (k * P.ndx) (P.nX + offs P.nu k) (d.rd k).Lxu (setBlock (k * P.ndx) (k * P.ndx) (d.rd k).Lxx M)))
          (P.nP + (t * P.ndx + i)) (P.nX + offs P.nu t' + j) = M (P.nP + (t * P.ndx + i)) (P.nX + offs P.nu t' + j) := by
          rw [setBlock_row _ _ (by omega), setBlock_row _ _ (by omega), setBlock_row _ _ (by omega), setBlock_row _ _ (by omega)]
        by_cases hk1 : t = k + 1
        · have := offs_ne j.2 (show t' ≠ k by omega)
          rw [setBlock_col _ _ (by omega), setBlock_col _ _ (by omega), hu]
        · have := blk_ne i.2 hk1
          have e : (k + 1) * P.ndx = P.ndx + k * P.ndx := by ring
          rw [e] at this
          rw [setBlock_row _ _ (by omega), setBlock_row _ _ (by omega), hu]
      rw [h0]; exact h.lu t t' i j ht ht' hne
    · intro t t' i j ht ht'
      unfold fillStage
      rw [setBlock_col _ _ (by omega), setBlock_col _ _ (by omega), setBlock_row _ _ (by omega), setBlock_row _ _ (by omega),
        setBlock_row _ _ (by omega), setBlock_row _ _ (by omega)]
      exact h.ll t t' i j ht ht'
  · intro t i j ht
    have h1 := x_lt i.2 (show t ≤ P.T by omega)
    have h2 := x_lt j.2 (show t ≤ P.T by omega)
    unfold fillStage
    rw [setBlock_col _ _ (by omega), setBlock_row _ _ (by omega), setBlock_row _ _ (by omega), setBlock_row _ _ (by omega),
      setBlock_col _ _ (by omega)]
    by_cases hk1 : t = k
    · subst hk1; exact setBlock_in _ _ i j
    · rw [setBlock_row _ _ (blk_ne i.2 hk1)]; exact h.exx t i j (by omega)
  · intro t i j ht
    have h1 := x_lt i.2 (show t ≤ P.T by omega)
    unfold fillStage
    rw [setBlock_row _ _ (by omega), setBlock_row _ _ (by omega), setBlock_row _ _ (by omega), setBlock_row _ _ (by omega)]
    by_cases hk1 : t = k
    · subst hk1; exact setBlock_in _ _ i j
    · rw [setBlock_row _ _ (blk_ne i.2 hk1), setBlock_row _ _ (blk_ne i.2 hk1)]; exact h.exu t i j (by omega)
  · intro t i j ht
    have h1 := u_lt i.2 (show t < P.T by omega)
    have h2 := x_lt j.2 (show t ≤ P.T by omega)
    unfold fillStage
    rw [setBlock_col _ _ (by omega), setBlock_row _ _ (by omega), setBlock_col _ _ (by omega)]
    by_cases hk1 : t = k
    · subst hk1; exact setBlock_in _ _ i j
    · have := offs_ne i.2 hk1
      rw [setBlock_row _ _ (by omega), setBlock_row _ _ (by omega), setBlock_row _ _ (by omega)]; exact h.eux t i j (by omega)
  · intro t i j ht
    have h1 := u_lt i.2 (show t < P.T by omega)
    unfold fillStage
    rw [setBlock_row _ _ (by omega), setBlock_row _ _ (by omega)]
    by_cases hk1 : t = k
    · subst hk1; exact setBlock_in _ _ i j
    · have := offs_ne i.2 hk1
      rw [setBlock_row _ _ (by omega), setBlock_row _ _ (by omega), setBlock_row _ _ (by omega), setBlock_row _ _ (by omega)]
      exact h.euu t i j (by omega)
  · intro t t' i j ht ht' hne
    have h2 := x_lt j.2 ht'
    unfold fillStage
    rw [setBlock_col _ _ (by omega)]
    have e : (k + 1) * P.ndx = P.ndx + k * P.ndx := by ring
    have : setBlock (P.nP + P.ndx + k * P.ndx) (k * P.ndx) (-(d.rd k).Fx) (setBlock (P.nX + offs P.nu k) (P.nX + offs P.nu k) (d.rd k).Luu
          (setBlock (P.nX + offs P.nu k) (k * P.ndx) (d.rd k).Lxu.transpose
          (setBlock (k * P.ndx) (P.nX + offs P.nu k) (d.rd k).Lxu (setBlock (k * P.ndx) (k * P.ndx) (d.rd k).Lxx M))))
          (P.nP + (t * P.ndx + i)) (t' * P.ndx + j) = M (P.nP + (t * P.ndx + i)) (t' * P.ndx + j) := by
      have hu : setBlock (P.nX + offs P.nu k) (P.nX + offs P.nu k) (d.rd k).Luu
          (setBlock (P.nX + offs P.nu k) (k * P.ndx) (d.rd k).Lxu.transpose
          (setBlock (k * P.ndx) (P.nX + offs P.nu k) (d.rd k).Lxu (setBlock (k * P.ndx) (k * P.ndx) (d.rd k).Lxx M)))
          (P.nP + (t * P.ndx + i)) (t' * P.ndx + j) = M (P.nP + (t * P.ndx + i)) (t' * P.ndx + j) := by
        rw [setBlock_row _ _ (by omega), setBlock_row _ _ (by omega), setBlock_row _ _ (by omega), setBlock_row _ _ (by omega)]
      by_cases hk1 : t = k + 1
      · rw [setBlock_col _ _ (blk_ne j.2 (by omega)), hu]
      · have := blk_ne i.2 hk1
        rw [e] at this
        rw [setBlock_row _ _ (by omega), hu]
    rw [this]
    exact h.elx t t' i j ht ht' (by omega)
  · intro t i j ht
    have h2 := x_lt j.2 (show t ≤ P.T by omega)
    unfold fillStage
    rw [hs, setBlock_col _ _ (by omega)]
    by_cases hk1 : t = k
    · subst hk1; exact setBlock_in _ _ i j
    · have := blk_ne i.2 hk1
      rw [setBlock_col _ _ (blk_ne j.2 hk1), setBlock_row _ _ (by omega), setBlock_row _ _ (by omega), setBlock_row _ _ (by omega),
        setBlock_row _ _ (by omega), ← hs]
      exact h.efx t i j (by omega)
  · intro t i j ht
    unfold fillStage
    rw [hs]
    by_cases hk1 : t = k
    · subst hk1; exact setBlock_in _ _ i j
    · have := offs_ne j.2 hk1
      rw [setBlock_col _ _ (by omega), setBlock_col _ _ (by omega), setBlock_row _ _ (by omega), setBlock_row _ _ (by omega),
        setBlock_row _ _ (by omega), setBlock_row _ _ (by omega), ← hs]
      exact h.efu t i j (by omega)

/-- All entries of the assembled matrix. -/
structure Entries (d : Data P) (M : FMat F) : Prop extends KPart d P.T M where
  exxT : ∀ i j : Fin P.ndx, M (P.T * P.ndx + i) (P.T * P.ndx + j) = d.td.Lxx i j
  exl : ∀ t t' (i j : Fin P.ndx), t ≤ P.T → t' ≤ P.T →
    M (t * P.ndx + i) (P.nP + (t' * P.ndx + j)) = M (P.nP + (t' * P.ndx + j)) (t * P.ndx + i)
  eul : ∀ t t' (i : Fin (P.nu t)) (j : Fin P.ndx), t < P.T → t' ≤ P.T →
    M (P.nX + offs P.nu t + i) (P.nP + (t' * P.ndx + j)) = M (P.nP + (t' * P.ndx + j)) (P.nX + offs P.nu t + i)

theorem part_terminal (h : KPart d P.T M) : KPart d P.T (setBlock (P.T * P.ndx) (P.T * P.ndx) d.td.Lxx M) := by
  have hle := nX_le_nP (P := P)
  have hT : P.T * P.ndx + P.ndx ≤ P.nX := by unfold Problem.nX; linarith [Nat.succ_mul P.T P.ndx]
  have hx : ∀ t t' (i j : Fin P.ndx), t ≠ P.T ∨ t' ≠ P.T →
      setBlock (P.T * P.ndx) (P.T * P.ndx) d.td.Lxx M (t * P.ndx + i) (t' * P.ndx + j) = M (t * P.ndx + i) (t' * P.ndx + j) := by
    rintro t t' i j (h | h)
    · exact setBlock_row _ _ (blk_ne i.2 h)
    · exact setBlock_col _ _ (blk_ne j.2 h)
  have hc : ∀ r c, P.nX ≤ r ∨ P.nX ≤ c → setBlock (P.T * P.ndx) (P.T * P.ndx) d.td.Lxx M r c = M r c := by
    rintro r c (h | h)
    · exact setBlock_row _ _ (by omega)
    · exact setBlock_col _ _ (by omega)
  constructor
  · constructor
    · intro t t' i j ht ht' hne; rw [hx _ _ _ _ (by omega)]; exact h.xx t t' i j ht ht' hne
    · intro t t' i j ht ht' hne; rw [hc _ _ (by omega)]; exact h.xu t t' i j ht ht' hne
    · intro t t' i j ht ht' hne; rw [hc _ _ (by omega)]; exact h.ux t t' i j ht ht' hne
    · intro t t' i j ht ht' hne; rw [hc _ _ (by omega)]; exact h.uu t t' i j ht ht' hne
    · intro t t' i j ht ht' hne; rw [hc _ _ (by omega)]; exact h.lu t t' i j ht ht' hne
    · intro t t' i j ht ht'; rw [hc _ _ (by omega)]; exact h.ll t t' i j ht ht'
  · intro t i j ht; rw [hx _ _ _ _ (by omega)]; exact h.exx t i j ht
  · intro t i j ht; rw [hc _ _ (by omega)]; exact h.exu t i j ht
  · intro t i j ht; rw [hc _ _ (by omega)]; exact h.eux t i j ht
  · intro t i j ht; rw [hc _ _ (by omega)]; exact h.euu t i j ht
  · intro t t' i j ht ht' hne; rw [hc _ _ (by omega)]; exact h.elx t t' i j ht ht' hne
  · intro t i j ht; rw [hc _ _ (by omega)]; exact h.efx t i j ht
  · intro t i j ht; rw [hc _ _ (by omega)]; exact h.efu t i j ht

theorem entries_assemble (hM : KPattern P M) : Entries d (assemble d M) := by
  have hle := nX_le_nP (P := P)
  have h1 : KPart d P.T (forUp P.T (fun t M => fillStage (d.rd t) M) (setBlock P.nP 0 (idMat P.nX) M)) :=
    forUp_inv (fun k (M : FMat F) => KPart d k M) P.T _ _ (part_start hM) (fun k hk M h => part_step hk h)
  have h2 := part_terminal h1
  have eT : ∀ i j : Fin P.ndx, setBlock (P.T * P.ndx) (P.T * P.ndx) d.td.Lxx
      (forUp P.T (fun t M => fillStage (d.rd t) M) (setBlock P.nP 0 (idMat P.nX) M)) (P.T * P.ndx + i) (P.T * P.ndx + j) = d.td.Lxx i j :=
    fun i j => setBlock_in _ _ i j
  rw [show assemble d M = mirror P (setBlock (P.T * P.ndx) (P.T * P.ndx) d.td.Lxx
      (forUp P.T (fun t M => fillStage (d.rd t) M) (setBlock P.nP 0 (idMat P.nX) M))) from rfl]
  generalize setBlock (P.T * P.ndx) (P.T * P.ndx) d.td.Lxx
    (forUp P.T (fun t M => fillStage (d.rd t) M) (setBlock P.nP 0 (idMat P.nX) M)) = N at h2 eT ⊢
  have hl : ∀ r c, P.nP ≤ r → mirror P N r c = N r c := fun r c h => setBlock_row _ _ (by omega)
  have hp : ∀ r c, c < P.nP → mirror P N r c = N r c := fun r c h => setBlock_col _ _ (by omega)
  have hm : ∀ (r c : ℕ), r < P.nP → c < P.nX → mirror P N r (P.nP + c) = N (P.nP + c) r := by
    intro r c hr hc
    have e := setBlock_in (r := 0) (c := P.nP) (Matrix.of fun (i : Fin P.nP) (j : Fin P.nX) => N (P.nP + j) i) N ⟨r, hr⟩ ⟨c, hc⟩
    simp only [Nat.zero_add] at e
    exact e
  have hxp : ∀ {t i : ℕ}, i < P.ndx → t ≤ P.T → t * P.ndx + i < P.nP := fun hi ht => (x_lt hi ht).trans_le hle
  constructor
  · constructor
    · constructor
      · intro t t' i j ht ht' hne; rw [hp _ _ (hxp j.2 ht')]; exact h2.xx t t' i j ht ht' hne
      · intro t t' i j ht ht' hne; rw [hp _ _ (u_lt j.2 ht')]; exact h2.xu t t' i j ht ht' hne
      · intro t t' i j ht ht' hne; rw [hp _ _ (hxp j.2 ht')]; exact h2.ux t t' i j ht ht' hne
      · intro t t' i j ht ht' hne; rw [hp _ _ (u_lt j.2 ht')]; exact h2.uu t t' i j ht ht' hne
      · intro t t' i j ht ht' hne; rw [hl _ _ (by omega)]; exact h2.lu t t' i j ht ht' hne
      · intro t t' i j ht ht'; rw [hl _ _ (by omega)]; exact h2.ll t t' i j ht ht'
    · intro t i j ht; rw [hp _ _ (hxp j.2 (by omega))]; exact h2.exx t i j ht
    · intro t i j ht; rw [hp _ _ (u_lt j.2 (by omega))]; exact h2.exu t i j ht
    · intro t i j ht; rw [hp _ _ (hxp j.2 (by omega))]; exact h2.eux t i j ht
    · intro t i j ht; rw [hp _ _ (u_lt j.2 (by omega))]; exact h2.euu t i j ht
    · intro t t' i j ht ht' hne; rw [hl _ _ (by omega)]; exact h2.elx t t' i j ht ht' hne
    · intro t i j ht; rw [hl _ _ (by omega)]; exact h2.efx t i j ht
    · intro t i j ht; rw [hl _ _ (by omega)]; exact h2.efu t i j ht
  · intro i j; rw [hp _ _ (hxp j.2 le_rfl)]; exact eT i j
  · intro t t' i j ht ht'
    rw [hm _ _ (hxp i.2 ht) (x_lt j.2 ht'), hl _ _ (by omega)]
  · intro t t' i j ht ht'
    rw [hm _ _ (u_lt i.2 ht) (x_lt j.2 ht'), hl _ _ (by omega)]

/-! ### The right-hand side -/

/-- All entries of the assembled vector. -/
structure RefEntries (d : Data P) (xs : Traj P) (v : FVec F) : Prop where
  x : ∀ t (i : Fin P.ndx), t < P.T → v (t * P.ndx + i) = (d.rd t).Lx i
  xT : ∀ i : Fin P.ndx, v (P.T * P.ndx + i) = d.td.Lx i
  u : ∀ t (i : Fin (P.nu t)), t < P.T → v (P.nX + offs P.nu t + i) = (d.rd t).Lu i
  l0 : ∀ i : Fin P.ndx, v (P.nP + i) = P.diff P.x0 (xs 0) i
  l : ∀ t (i : Fin P.ndx), t < P.T → v (P.nP + ((t + 1) * P.ndx + i)) = P.diff (d.run t).xnext (xs (t + 1)) i

theorem refEntries (hT : 0 < P.T) (xs : Traj P) (v : FVec F) : RefEntries d xs (assembleRef d xs v) := by
  have hle := nX_le_nP (P := P)
  have hTx : P.T * P.ndx + P.ndx ≤ P.nX := by unfold Problem.nX; linarith [Nat.succ_mul P.T P.ndx]
  have hs : ∀ t i, P.nP + ((t + 1) * P.ndx + i) = P.nP + P.ndx + t * P.ndx + i := by intro t i; ring
  have h1 : (fun k (v : FVec F) => (∀ t (i : Fin P.ndx), t < k → v (t * P.ndx + i) = (d.rd t).Lx i) ∧
      (∀ t (i : Fin (P.nu t)), t < k → v (P.nX + offs P.nu t + i) = (d.rd t).Lu i) ∧
      (0 < k → ∀ i : Fin P.ndx, v (P.nP + i) = P.diff P.x0 (xs 0) i) ∧
      (∀ t (i : Fin P.ndx), t < k → v (P.nP + ((t + 1) * P.ndx + i)) = P.diff (d.run t).xnext (xs (t + 1)) i)) P.T
      (forUp P.T (fillRef d xs) v) := by
    refine forUp_inv (fun k (v : FVec F) => (∀ t (i : Fin P.ndx), t < k → v (t * P.ndx + i) = (d.rd t).Lx i) ∧
      (∀ t (i : Fin (P.nu t)), t < k → v (P.nX + offs P.nu t + i) = (d.rd t).Lu i) ∧
      (0 < k → ∀ i : Fin P.ndx, v (P.nP + i) = P.diff P.x0 (xs 0) i) ∧
      (∀ t (i : Fin P.ndx), t < k → v (P.nP + ((t + 1) * P.ndx + i)) = P.diff (d.run t).xnext (xs (t + 1)) i)) P.T _ v ?_ ?_
    · refine ⟨?_, ?_, ?_, ?_⟩ <;> intros <;> omega
    · rintro k hk w ⟨a1, a2, a3, a4⟩
      have hku := u_le hk
      have hkx : k * P.ndx + P.ndx ≤ P.nX := by
        unfold Problem.nX
        have : (k + 1) * P.ndx ≤ (P.T + 1) * P.ndx := Nat.mul_le_mul_right _ (by omega)
        linarith [Nat.succ_mul k P.ndx]
      -- the optional first write
      have hw : ∀ c, (c < P.nP ∨ P.nP + P.ndx ≤ c ∨ k ≠ 0) →
          (if k = 0 then setSeg P.nP (P.diff P.x0 (xs 0)) w else w) c = w c := by
        intro c hc
        split_ifs with h0
        · exact setSeg_out _ _ (by omega)
        · rfl
      have hw0 : ∀ i : Fin P.ndx, (if k = 0 then setSeg P.nP (P.diff P.x0 (xs 0)) w else w) (P.nP + i) = P.diff P.x0 (xs 0) i := by
        intro i
        split_ifs with h0
        · exact setSeg_in _ _ i
        · exact a3 (by omega) i
      refine ⟨?_, ?_, ?_, ?_⟩
      · intro t i ht
        have := x_lt i.2 (show t ≤ P.T by omega)
        unfold fillRef
        rw [setSeg_out _ _ (by omega), setSeg_out _ _ (by omega)]
        by_cases hk1 : t = k
        · subst hk1; exact setSeg_in _ _ i
        · rw [setSeg_out _ _ (blk_ne i.2 hk1), hw _ (by omega)]; exact a1 t i (by omega)
      · intro t i ht
        have := u_lt i.2 (show t < P.T by omega)
        unfold fillRef
        rw [setSeg_out _ _ (by omega)]
        by_cases hk1 : t = k
        · subst hk1; exact setSeg_in _ _ i
        · have := offs_ne i.2 hk1
          rw [setSeg_out _ _ (by omega), setSeg_out _ _ (by omega), hw _ (by omega)]; exact a2 t i (by omega)
      · intro _ i
        unfold fillRef
        rw [setSeg_out _ _ (by omega), setSeg_out _ _ (by omega), setSeg_out _ _ (by omega)]
        exact hw0 i
      · intro t i ht
        unfold fillRef
        rw [hs]
        by_cases hk1 : t = k
        · subst hk1; exact setSeg_in _ _ i
        · have := blk_ne i.2 hk1
          rw [setSeg_out _ _ (by omega), setSeg_out _ _ (by omega), setSeg_out _ _ (by omega), hw _ (by omega), ← hs]
          exact a4 t i (by omega)
  obtain ⟨a1, a2, a3, a4⟩ := h1
  unfold assembleRef
  constructor
  · intro t i ht; rw [setSeg_out _ _ (blk_ne i.2 (by omega))]; exact a1 t i ht
  · intro i; exact setSeg_in _ _ i
  · intro t i ht; rw [setSeg_out _ _ (by omega)]; exact a2 t i ht
  · intro i; rw [setSeg_out _ _ (by omega)]; exact a3 hT i
  · intro t i ht; rw [setSeg_out _ _ (by omega)]; exact a4 t i ht

end KKT
end

/-! ### Rows of the system in exact arithmetic -/
section Exact
variable {K : Type} [Field K] [LinearOrder K] [IsStrictOrderedRing K] {P : Problem K}
open Matrix

/-- a sum over all columns, by kind and stage. -/
theorem sum_nS (f : ℕ → K) : ∑ j ∈ Finset.range P.nS, f j =
    (∑ t ∈ Finset.range (P.T + 1), ∑ i : Fin P.ndx, f (t * P.ndx + i)) +
    (∑ t ∈ Finset.range P.T, ∑ i : Fin (P.nu t), f (P.nX + offs P.nu t + i)) +
    ∑ t ∈ Finset.range (P.T + 1), ∑ i : Fin P.ndx, f (P.nP + (t * P.ndx + i)) := by
  unfold Problem.nS Problem.nP
  rw [Finset.sum_range_add, Finset.sum_range_add]
  unfold Problem.nX Problem.nU
  rw [sum_blk, sum_blk, sum_offs]
  simp only [Nat.add_assoc]

namespace KKT
variable {d : Data P} {M : FMat K}

/-- row of the state `x_t`, `t < T`. -/
theorem row_x (h : Entries d M) (v : FVec K) {t : ℕ} (ht : t < P.T) (i : Fin P.ndx) :
    ∑ j ∈ Finset.range P.nS, M (t * P.ndx + i) j * v j =
      ((d.rd t).Lxx *ᵥ seg (t * P.ndx) P.ndx v + (d.rd t).Lxu *ᵥ seg (P.nX + offs P.nu t) (P.nu t) v +
        seg (P.nP + t * P.ndx) P.ndx v - (d.rd t).Fxᵀ *ᵥ seg (P.nP + (t + 1) * P.ndx) P.ndx v) i := by
  rw [sum_nS]
  have e1 : ∑ t' ∈ Finset.range (P.T + 1), ∑ j : Fin P.ndx, M (t * P.ndx + i) (t' * P.ndx + j) * v (t' * P.ndx + j) =
      ((d.rd t).Lxx *ᵥ seg (t * P.ndx) P.ndx v) i := by
    rw [Finset.sum_eq_single t]
    · simp only [Matrix.mulVec, dotProduct, seg]
      exact Finset.sum_congr rfl fun j _ => by rw [h.exx t i j ht]
    · intro t' ht' hne
      rw [Finset.mem_range] at ht'
      exact Finset.sum_eq_zero fun j _ => by rw [h.xx t t' i j ht.le (by omega) (Ne.symm hne), zero_mul]
    · intro hn; exact absurd (Finset.mem_range.mpr (by omega)) hn
  have e2 : ∑ t' ∈ Finset.range P.T, ∑ j : Fin (P.nu t'), M (t * P.ndx + i) (P.nX + offs P.nu t' + j) * v (P.nX + offs P.nu t' + j) =
      ((d.rd t).Lxu *ᵥ seg (P.nX + offs P.nu t) (P.nu t) v) i := by
    rw [Finset.sum_eq_single t]
    · simp only [Matrix.mulVec, dotProduct, seg]
      exact Finset.sum_congr rfl fun j _ => by rw [h.exu t i j ht]
    · intro t' ht' hne
      rw [Finset.mem_range] at ht'
      exact Finset.sum_eq_zero fun j _ => by rw [h.xu t t' i j ht.le (by omega) (Ne.symm hne), zero_mul]
    · intro hn; exact absurd (Finset.mem_range.mpr ht) hn
  have e3 : ∑ t' ∈ Finset.range (P.T + 1), ∑ j : Fin P.ndx, M (t * P.ndx + i) (P.nP + (t' * P.ndx + j)) * v (P.nP + (t' * P.ndx + j)) =
      seg (P.nP + t * P.ndx) P.ndx v i - ((d.rd t).Fxᵀ *ᵥ seg (P.nP + (t + 1) * P.ndx) P.ndx v) i := by
    rw [Finset.sum_eq_add t (t + 1) (by omega)]
    · rw [sub_eq_add_neg]
      congr 1
      · rw [Finset.sum_eq_single i]
        · rw [h.exl t t i i ht.le ht.le, h.elx t t i i ht.le ht.le (by omega), if_pos ⟨rfl, rfl⟩, one_mul]
          simp only [seg, Nat.add_assoc]
        · intro j _ hne
          rw [h.exl t t i j ht.le ht.le, h.elx t t j i ht.le ht.le (by omega), if_neg (fun hh => hne hh.2), zero_mul]
        · intro hn; exact absurd (Finset.mem_univ _) hn
      · simp only [Matrix.mulVec, dotProduct, seg, Matrix.transpose_apply, ← Finset.sum_neg_distrib]
        refine Finset.sum_congr rfl fun j _ => ?_
        rw [h.exl t (t + 1) i j ht.le ht, h.efx t j i ht, neg_mul, Nat.add_assoc]
    · intro t' ht' hne
      rw [Finset.mem_range] at ht'
      refine Finset.sum_eq_zero fun j _ => ?_
      rw [h.exl t t' i j ht.le (by omega), h.elx t' t j i (by omega) ht.le (by omega), if_neg (fun hh => hne.1 hh.1), zero_mul]
    · intro hn; exact absurd (Finset.mem_range.mpr (by omega)) hn
    · intro hn; exact absurd (Finset.mem_range.mpr (by omega)) hn
  rw [e1, e2, e3]
  simp only [Pi.add_apply, Pi.sub_apply]
  ring

/-- row of the terminal state. -/
theorem row_xT (h : Entries d M) (v : FVec K) (i : Fin P.ndx) :
    ∑ j ∈ Finset.range P.nS, M (P.T * P.ndx + i) j * v j =
      (d.td.Lxx *ᵥ seg (P.T * P.ndx) P.ndx v + seg (P.nP + P.T * P.ndx) P.ndx v) i := by
  rw [sum_nS]
  have e1 : ∑ t' ∈ Finset.range (P.T + 1), ∑ j : Fin P.ndx, M (P.T * P.ndx + i) (t' * P.ndx + j) * v (t' * P.ndx + j) =
      (d.td.Lxx *ᵥ seg (P.T * P.ndx) P.ndx v) i := by
    rw [Finset.sum_eq_single P.T]
    · simp only [Matrix.mulVec, dotProduct, seg]
      exact Finset.sum_congr rfl fun j _ => by rw [h.exxT i j]
    · intro t' ht' hne
      rw [Finset.mem_range] at ht'
      exact Finset.sum_eq_zero fun j _ => by rw [h.xx P.T t' i j le_rfl (by omega) (Ne.symm hne), zero_mul]
    · intro hn; exact absurd (Finset.mem_range.mpr (by omega)) hn
  have e2 : ∑ t' ∈ Finset.range P.T, ∑ j : Fin (P.nu t'), M (P.T * P.ndx + i) (P.nX + offs P.nu t' + j) * v (P.nX + offs P.nu t' + j) = 0 := by
    refine Finset.sum_eq_zero fun t' ht' => ?_
    rw [Finset.mem_range] at ht'
    exact Finset.sum_eq_zero fun j _ => by rw [h.xu P.T t' i j le_rfl ht' (by omega), zero_mul]
  have e3 : ∑ t' ∈ Finset.range (P.T + 1), ∑ j : Fin P.ndx, M (P.T * P.ndx + i) (P.nP + (t' * P.ndx + j)) * v (P.nP + (t' * P.ndx + j)) =
      seg (P.nP + P.T * P.ndx) P.ndx v i := by
    rw [Finset.sum_eq_single P.T]
    · rw [Finset.sum_eq_single i]
      · rw [h.exl P.T P.T i i le_rfl le_rfl, h.elx P.T P.T i i le_rfl le_rfl (by omega), if_pos ⟨rfl, rfl⟩, one_mul]
        simp only [seg, Nat.add_assoc]
      · intro j _ hne
        rw [h.exl P.T P.T i j le_rfl le_rfl, h.elx P.T P.T j i le_rfl le_rfl (by omega), if_neg (fun hh => hne hh.2), zero_mul]
      · intro hn; exact absurd (Finset.mem_univ _) hn
    · intro t' ht' hne
      rw [Finset.mem_range] at ht'
      refine Finset.sum_eq_zero fun j _ => ?_
      rw [h.exl P.T t' i j le_rfl (by omega), h.elx t' P.T j i (by omega) le_rfl (by omega), if_neg (fun hh => hne hh.1), zero_mul]
    · intro hn; exact absurd (Finset.mem_range.mpr (by omega)) hn
  rw [e1, e2, e3]
  simp

/-- row of the control `u_t`. -/
theorem row_u (h : Entries d M) (v : FVec K) {t : ℕ} (ht : t < P.T) (i : Fin (P.nu t)) :
    ∑ j ∈ Finset.range P.nS, M (P.nX + offs P.nu t + i) j * v j =
      ((d.rd t).Lxuᵀ *ᵥ seg (t * P.ndx) P.ndx v + (d.rd t).Luu *ᵥ seg (P.nX + offs P.nu t) (P.nu t) v -
        (d.rd t).Fuᵀ *ᵥ seg (P.nP + (t + 1) * P.ndx) P.ndx v) i := by
  rw [sum_nS]
  have e1 : ∑ t' ∈ Finset.range (P.T + 1), ∑ j : Fin P.ndx, M (P.nX + offs P.nu t + i) (t' * P.ndx + j) * v (t' * P.ndx + j) =
      ((d.rd t).Lxuᵀ *ᵥ seg (t * P.ndx) P.ndx v) i := by
    rw [Finset.sum_eq_single t]
    · simp only [Matrix.mulVec, dotProduct, seg, Matrix.transpose_apply]
      exact Finset.sum_congr rfl fun j _ => by rw [h.eux t i j ht]
    · intro t' ht' hne
      rw [Finset.mem_range] at ht'
      exact Finset.sum_eq_zero fun j _ => by rw [h.ux t t' i j ht (by omega) (Ne.symm hne), zero_mul]
    · intro hn; exact absurd (Finset.mem_range.mpr (by omega)) hn
  have e2 : ∑ t' ∈ Finset.range P.T, ∑ j : Fin (P.nu t'), M (P.nX + offs P.nu t + i) (P.nX + offs P.nu t' + j) * v (P.nX + offs P.nu t' + j) =
      ((d.rd t).Luu *ᵥ seg (P.nX + offs P.nu t) (P.nu t) v) i := by
    rw [Finset.sum_eq_single t]
    · simp only [Matrix.mulVec, dotProduct, seg]
      exact Finset.sum_congr rfl fun j _ => by rw [h.euu t i j ht]
    · intro t' ht' hne
      rw [Finset.mem_range] at ht'
      exact Finset.sum_eq_zero fun j _ => by rw [h.uu t t' i j ht (by omega) (Ne.symm hne), zero_mul]
    · intro hn; exact absurd (Finset.mem_range.mpr ht) hn
  have e3 : ∑ t' ∈ Finset.range (P.T + 1), ∑ j : Fin P.ndx, M (P.nX + offs P.nu t + i) (P.nP + (t' * P.ndx + j)) * v (P.nP + (t' * P.ndx + j)) =
      -((d.rd t).Fuᵀ *ᵥ seg (P.nP + (t + 1) * P.ndx) P.ndx v) i := by
    rw [Finset.sum_eq_single (t + 1)]
    · simp only [Matrix.mulVec, dotProduct, seg, Matrix.transpose_apply, ← Finset.sum_neg_distrib]
      refine Finset.sum_congr rfl fun j _ => ?_
      rw [h.eul t (t + 1) i j ht ht, h.efu t j i ht, neg_mul, Nat.add_assoc]
    · intro t' ht' hne
      rw [Finset.mem_range] at ht'
      exact Finset.sum_eq_zero fun j _ => by rw [h.eul t t' i j ht (by omega), h.lu t' t j i (by omega) ht hne, zero_mul]
    · intro hn; exact absurd (Finset.mem_range.mpr (by omega)) hn
  rw [e1, e2, e3]
  simp only [Pi.add_apply, Pi.sub_apply]
  ring

theorem row_ll (h : Entries d M) (v : FVec K) {t : ℕ} (ht : t ≤ P.T) (i : Fin P.ndx) :
    ∑ t' ∈ Finset.range (P.T + 1), ∑ j : Fin P.ndx, M (P.nP + (t * P.ndx + i)) (P.nP + (t' * P.ndx + j)) * v (P.nP + (t' * P.ndx + j)) = 0 := by
  refine Finset.sum_eq_zero fun t' ht' => Finset.sum_eq_zero fun j _ => ?_
  rw [Finset.mem_range] at ht'
  rw [h.ll t t' i j ht (by omega), zero_mul]

/-- row of the initial condition. -/
theorem row_l0 (h : Entries d M) (v : FVec K) (i : Fin P.ndx) :
    ∑ j ∈ Finset.range P.nS, M (P.nP + i) j * v j = seg (0 * P.ndx) P.ndx v i := by
  rw [sum_nS]
  have e0 : (P.nP + (i : ℕ)) = P.nP + (0 * P.ndx + i) := by simp
  rw [e0, row_ll h v (Nat.zero_le _) i]
  have e2 : ∑ t' ∈ Finset.range P.T, ∑ j : Fin (P.nu t'), M (P.nP + (0 * P.ndx + i)) (P.nX + offs P.nu t' + j) * v (P.nX + offs P.nu t' + j) = 0 := by
    refine Finset.sum_eq_zero fun t' ht' => Finset.sum_eq_zero fun j _ => ?_
    rw [Finset.mem_range] at ht'
    rw [h.lu 0 t' i j (Nat.zero_le _) ht' (by omega), zero_mul]
  rw [e2, Finset.sum_eq_single 0]
  · rw [Finset.sum_eq_single i]
    · rw [h.elx 0 0 i i (Nat.zero_le _) (Nat.zero_le _) (by omega), if_pos ⟨rfl, rfl⟩]; simp [seg]
    · intro j _ hne
      rw [h.elx 0 0 i j (Nat.zero_le _) (Nat.zero_le _) (by omega), if_neg (fun hh => hne hh.2.symm), zero_mul]
    · intro hn; exact absurd (Finset.mem_univ _) hn
  · intro t' ht' hne
    rw [Finset.mem_range] at ht'
    exact Finset.sum_eq_zero fun j _ => by
      rw [h.elx 0 t' i j (Nat.zero_le _) (by omega) (by omega), if_neg (fun hh => hne hh.1.symm), zero_mul]
  · intro hn; exact absurd (Finset.mem_range.mpr (by omega)) hn

/-- row of the dynamics between `t` and `t + 1`. -/
theorem row_l (h : Entries d M) (v : FVec K) {t : ℕ} (ht : t < P.T) (i : Fin P.ndx) :
    ∑ j ∈ Finset.range P.nS, M (P.nP + ((t + 1) * P.ndx + i)) j * v j =
      (seg ((t + 1) * P.ndx) P.ndx v - (d.rd t).Fx *ᵥ seg (t * P.ndx) P.ndx v -
        (d.rd t).Fu *ᵥ seg (P.nX + offs P.nu t) (P.nu t) v) i := by
  rw [sum_nS, row_ll h v (by omega) i]
  have e1 : ∑ t' ∈ Finset.range (P.T + 1), ∑ j : Fin P.ndx, M (P.nP + ((t + 1) * P.ndx + i)) (t' * P.ndx + j) * v (t' * P.ndx + j) =
      -((d.rd t).Fx *ᵥ seg (t * P.ndx) P.ndx v) i + seg ((t + 1) * P.ndx) P.ndx v i := by
    rw [Finset.sum_eq_add t (t + 1) (by omega)]
    · congr 1
      · simp only [Matrix.mulVec, dotProduct, seg, ← Finset.sum_neg_distrib]
        exact Finset.sum_congr rfl fun j _ => by rw [h.efx t i j ht, neg_mul]
      · rw [Finset.sum_eq_single i]
        · rw [h.elx (t + 1) (t + 1) i i ht ht (by omega), if_pos ⟨rfl, rfl⟩, one_mul]; rfl
        · intro j _ hne
          rw [h.elx (t + 1) (t + 1) i j ht ht (by omega), if_neg (fun hh => hne hh.2.symm), zero_mul]
        · intro hn; exact absurd (Finset.mem_univ _) hn
    · intro t' ht' hne
      rw [Finset.mem_range] at ht'
      refine Finset.sum_eq_zero fun j _ => ?_
      rw [h.elx (t + 1) t' i j ht (by omega) (by omega), if_neg (fun hh => hne.2 hh.1.symm), zero_mul]
    · intro hn; exact absurd (Finset.mem_range.mpr (by omega)) hn
    · intro hn; exact absurd (Finset.mem_range.mpr (by omega)) hn
  have e2 : ∑ t' ∈ Finset.range P.T, ∑ j : Fin (P.nu t'), M (P.nP + ((t + 1) * P.ndx + i)) (P.nX + offs P.nu t' + j) * v (P.nX + offs P.nu t' + j) =
      -((d.rd t).Fu *ᵥ seg (P.nX + offs P.nu t) (P.nu t) v) i := by
    rw [Finset.sum_eq_single t]
    · simp only [Matrix.mulVec, dotProduct, seg, ← Finset.sum_neg_distrib]
      exact Finset.sum_congr rfl fun j _ => by rw [h.efu t i j ht, neg_mul]
    · intro t' ht' hne
      rw [Finset.mem_range] at ht'
      exact Finset.sum_eq_zero fun j _ => by rw [h.lu (t + 1) t' i j ht ht' (by omega), zero_mul]
    · intro hn; exact absurd (Finset.mem_range.mpr ht) hn
  rw [e1, e2]
  simp only [Pi.add_apply, Pi.sub_apply]
  ring

end KKT
end Exact
end Mim
