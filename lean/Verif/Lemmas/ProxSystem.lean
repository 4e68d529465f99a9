import Verif.Model.ProxQP

/-!
# The entries of the matrices SolverPROXQP assembles

Node `k + 1` owns block `k` of the state variables.
-/
set_option linter.unusedSectionVars false
set_option linter.unusedSimpArgs false

namespace Mim

theorem forUp_comm {S R : Type} (g : S → R) (n : ℕ) (f : ℕ → S → S) (f' : ℕ → R → R) (s : S)
    (h : ∀ t, t < n → ∀ s, g (f t s) = f' t (g s)) : g (forUp n f s) = forUp n f' (g s) := by
  induction n with
  | zero => rfl
  | succ n ih => rw [forUp_succ, forUp_succ, h n (Nat.lt_succ_self n), ih fun t ht => h t (Nat.lt_succ_of_lt ht)]

section
variable {F : Type} [Add F] [Sub F] [Mul F] [Div F] [Neg F] [Zero F] [One F] [FloatOps F] {P : Problem F}

namespace PROX
variable {M : FMat F} {d : Data P}

theorem x_lt {k i : ℕ} (hi : i < P.ndx) (hk : k < P.T) : k * P.ndx + i < P.nEq := blk_lt hi hk
theorem x_le {k : ℕ} (hk : k < P.T) : k * P.ndx + P.ndx ≤ P.nEq := by
  unfold Problem.nEq
  have : (k + 1) * P.ndx ≤ P.T * P.ndx := Nat.mul_le_mul_right _ hk
  linarith [Nat.succ_mul k P.ndx]
theorem u_lt {t i : ℕ} (hi : i < P.nu t) (ht : t < P.T) : P.nEq + offs P.nu t + i < P.nVars := by
  have := offs_lt (d := P.nu) ht hi
  unfold Problem.nVars; omega

/-! ### The Hessian `P` -/

/-- one stage of the assembly, as seen by `P`. -/
def stageP (d : Data P) (t : ℕ) (M : FMat F) : FMat F :=
  setBlock (P.nEq + offs P.nu t) (P.nEq + offs P.nu t) (d.rd t).Luu
    (if 0 < t then setBlock (P.nEq + offs P.nu t) ((t - 1) * P.ndx) (d.rd t).Lxu.transpose
      (setBlock ((t - 1) * P.ndx) (P.nEq + offs P.nu t) (d.rd t).Lxu (setBlock ((t - 1) * P.ndx) ((t - 1) * P.ndx) (d.rd t).Lxx M))
    else M)

/-- `P` is zero outside its pattern, and holds the data of the nodes `< n`. -/
structure PartP (d : Data P) (n : ℕ) (M : FMat F) : Prop where
  xx0 : ∀ k k' (i j : Fin P.ndx), k < P.T → k' < P.T → k ≠ k' → M (k * P.ndx + i) (k' * P.ndx + j) = 0
  xu0 : ∀ k t (i : Fin P.ndx) (j : Fin (P.nu t)), k < P.T → t < P.T → t ≠ k + 1 → M (k * P.ndx + i) (P.nEq + offs P.nu t + j) = 0
  ux0 : ∀ k t (i : Fin P.ndx) (j : Fin (P.nu t)), k < P.T → t < P.T → t ≠ k + 1 → M (P.nEq + offs P.nu t + j) (k * P.ndx + i) = 0
  uu0 : ∀ t t' (i : Fin (P.nu t)) (j : Fin (P.nu t')), t < P.T → t' < P.T → t ≠ t' →
    M (P.nEq + offs P.nu t + i) (P.nEq + offs P.nu t' + j) = 0
  exx : ∀ k (i j : Fin P.ndx), k + 1 < n → M (k * P.ndx + i) (k * P.ndx + j) = (d.rd (k + 1)).Lxx i j
  exu : ∀ k (i : Fin P.ndx) (j : Fin (P.nu (k + 1))), k + 1 < n →
    M (k * P.ndx + i) (P.nEq + offs P.nu (k + 1) + j) = (d.rd (k + 1)).Lxu i j
  eux : ∀ k (i : Fin P.ndx) (j : Fin (P.nu (k + 1))), k + 1 < n →
    M (P.nEq + offs P.nu (k + 1) + j) (k * P.ndx + i) = (d.rd (k + 1)).Lxu i j
  euu : ∀ t (i j : Fin (P.nu t)), t < n → M (P.nEq + offs P.nu t + i) (P.nEq + offs P.nu t + j) = (d.rd t).Luu i j

/-- the three blocks of the state part. -/
def layerP (d : Data P) (k : ℕ) (M : FMat F) : FMat F :=
  setBlock (P.nEq + offs P.nu (k + 1)) (k * P.ndx) (d.rd (k + 1)).Lxu.transpose
    (setBlock (k * P.ndx) (P.nEq + offs P.nu (k + 1)) (d.rd (k + 1)).Lxu (setBlock (k * P.ndx) (k * P.ndx) (d.rd (k + 1)).Lxx M))

theorem layerP_xx_ne {k a b : ℕ} (hk : k + 1 < P.T) (i j : Fin P.ndx) (ha : a < P.T) (hb : b < P.T) (h : a ≠ k ∨ b ≠ k) :
    layerP d k M (a * P.ndx + i) (b * P.ndx + j) = M (a * P.ndx + i) (b * P.ndx + j) := by
  have h1 := x_lt i.2 ha
  have h2 := x_lt j.2 hb
  unfold layerP
  rw [setBlock_row _ _ (by omega), setBlock_col _ _ (by omega)]
  rcases h with h | h
  · exact setBlock_row _ _ (blk_ne i.2 h)
  · exact setBlock_col _ _ (blk_ne j.2 h)

theorem layerP_xx {k : ℕ} (hk : k + 1 < P.T) (i j : Fin P.ndx) :
    layerP d k M (k * P.ndx + i) (k * P.ndx + j) = (d.rd (k + 1)).Lxx i j := by
  have h1 := x_lt i.2 (show k < P.T by omega)
  have h2 := x_lt j.2 (show k < P.T by omega)
  unfold layerP
  rw [setBlock_row _ _ (by omega), setBlock_col _ _ (by omega), setBlock_in]

theorem layerP_xu_ne {k a t : ℕ} (hk : k + 1 < P.T) (i : Fin P.ndx) (j : Fin (P.nu t)) (ha : a < P.T)
    (h : a ≠ k ∨ t ≠ k + 1) : layerP d k M (a * P.ndx + i) (P.nEq + offs P.nu t + j) = M (a * P.ndx + i) (P.nEq + offs P.nu t + j) := by
  have h1 := x_lt i.2 ha
  have h3 := x_le (P := P) (show k < P.T by omega)
  unfold layerP
  rw [setBlock_col _ _ (by omega)]
  rcases h with h | h
  · rw [setBlock_row _ _ (blk_ne i.2 h), setBlock_row _ _ (blk_ne i.2 h)]
  · have := offs_ne j.2 h
    rw [setBlock_col _ _ (by omega), setBlock_col _ _ (by omega)]

theorem layerP_xu {k : ℕ} (hk : k + 1 < P.T) (i : Fin P.ndx) (j : Fin (P.nu (k + 1))) :
    layerP d k M (k * P.ndx + i) (P.nEq + offs P.nu (k + 1) + j) = (d.rd (k + 1)).Lxu i j := by
  have h3 := x_le (P := P) (show k < P.T by omega)
  unfold layerP
  rw [setBlock_col _ _ (by omega), setBlock_in]

theorem layerP_ux_ne {k a t : ℕ} (hk : k + 1 < P.T) (i : Fin P.ndx) (j : Fin (P.nu t)) (ha : a < P.T)
    (h : a ≠ k ∨ t ≠ k + 1) : layerP d k M (P.nEq + offs P.nu t + j) (a * P.ndx + i) = M (P.nEq + offs P.nu t + j) (a * P.ndx + i) := by
  have h1 := x_lt i.2 ha
  have h3 := x_le (P := P) (show k < P.T by omega)
  have e1 : setBlock (P.nEq + offs P.nu (k + 1)) (k * P.ndx) (d.rd (k + 1)).Lxu.transpose
      (setBlock (k * P.ndx) (P.nEq + offs P.nu (k + 1)) (d.rd (k + 1)).Lxu (setBlock (k * P.ndx) (k * P.ndx) (d.rd (k + 1)).Lxx M))
      (P.nEq + offs P.nu t + j) (a * P.ndx + i) =
      setBlock (k * P.ndx) (P.nEq + offs P.nu (k + 1)) (d.rd (k + 1)).Lxu (setBlock (k * P.ndx) (k * P.ndx) (d.rd (k + 1)).Lxx M)
      (P.nEq + offs P.nu t + j) (a * P.ndx + i) := by
    rcases h with h | h
    · rw [setBlock_col _ _ (blk_ne i.2 h)]
    · have := offs_ne j.2 h
      rw [setBlock_row _ _ (by omega)]
  unfold layerP
  rw [e1, setBlock_row _ _ (by omega), setBlock_row _ _ (by omega)]

theorem layerP_ux {k : ℕ} (i : Fin P.ndx) (j : Fin (P.nu (k + 1))) :
    layerP d k M (P.nEq + offs P.nu (k + 1) + j) (k * P.ndx + i) = (d.rd (k + 1)).Lxu i j := by
  unfold layerP
  rw [setBlock_in]; rfl

theorem layerP_uu {k r c : ℕ} (hk : k + 1 < P.T) (hr : P.nEq ≤ r) (hc : P.nEq ≤ c) : layerP d k M r c = M r c := by
  have h3 := x_le (P := P) (show k < P.T by omega)
  unfold layerP
  rw [setBlock_col _ _ (by omega), setBlock_row _ _ (by omega), setBlock_row _ _ (by omega)]

/-- the diagonal control block. -/
theorem diagP_x {k r c : ℕ} {A : Mat F (P.nu k) (P.nu k)} (h : r < P.nEq ∨ c < P.nEq) :
    setBlock (P.nEq + offs P.nu k) (P.nEq + offs P.nu k) A M r c = M r c := by
  rcases h with h | h
  · exact setBlock_row _ _ (by omega)
  · exact setBlock_col _ _ (by omega)

theorem partP_step {n : ℕ} (hn : n < P.T) (h : PartP d n M) : PartP d (n + 1) (stageP d n M) := by
  have hdu : ∀ (N : FMat F) t t' (i : Fin (P.nu t)) (j : Fin (P.nu t')), t ≠ n ∨ t' ≠ n →
      setBlock (P.nEq + offs P.nu n) (P.nEq + offs P.nu n) (d.rd n).Luu N (P.nEq + offs P.nu t + i) (P.nEq + offs P.nu t' + j) =
      N (P.nEq + offs P.nu t + i) (P.nEq + offs P.nu t' + j) := by
    rintro N t t' i j (h | h)
    · have := offs_ne i.2 h; exact setBlock_row _ _ (by omega)
    · have := offs_ne j.2 h; exact setBlock_col _ _ (by omega)
  cases n with
  | zero =>
    have e : stageP d 0 M = setBlock (P.nEq + offs P.nu 0) (P.nEq + offs P.nu 0) (d.rd 0).Luu M := rfl
    rw [e]
    refine ⟨?_, ?_, ?_, ?_, fun k i j hk => by omega, fun k i j hk => by omega, fun k i j hk => by omega, ?_⟩
    · intro k k' i j hk hk' hne
      rw [diagP_x (.inl (x_lt i.2 hk))]; exact h.xx0 k k' i j hk hk' hne
    · intro k t i j hk ht hne
      rw [diagP_x (.inl (x_lt i.2 hk))]; exact h.xu0 k t i j hk ht hne
    · intro k t i j hk ht hne
      rw [diagP_x (.inr (x_lt i.2 hk))]; exact h.ux0 k t i j hk ht hne
    · intro t t' i j ht ht' hne
      rw [hdu _ _ _ _ _ (by omega)]; exact h.uu0 t t' i j ht ht' hne
    · intro t i j ht
      obtain rfl : t = 0 := by omega
      exact setBlock_in _ _ i j
  | succ n =>
    have e : stageP d (n + 1) M = setBlock (P.nEq + offs P.nu (n + 1)) (P.nEq + offs P.nu (n + 1)) (d.rd (n + 1)).Luu (layerP d n M) := by
      unfold stageP layerP
      rw [if_pos (Nat.succ_pos n)]; rfl
    rw [e]
    refine ⟨?_, ?_, ?_, ?_, ?_, ?_, ?_, ?_⟩
    · intro k k' i j hk hk' hne
      rw [diagP_x (.inl (x_lt i.2 hk)), layerP_xx_ne hn i j hk hk' (by omega)]; exact h.xx0 k k' i j hk hk' hne
    · intro k t i j hk ht hne
      rw [diagP_x (.inl (x_lt i.2 hk)), layerP_xu_ne hn i j hk (by omega)]; exact h.xu0 k t i j hk ht hne
    · intro k t i j hk ht hne
      rw [diagP_x (.inr (x_lt i.2 hk)), layerP_ux_ne hn i j hk (by omega)]; exact h.ux0 k t i j hk ht hne
    · intro t t' i j ht ht' hne
      rw [hdu _ _ _ _ _ (by omega), layerP_uu hn (by omega) (by omega)]; exact h.uu0 t t' i j ht ht' hne
    · intro k i j hk
      rw [diagP_x (.inl (x_lt i.2 (by omega)))]
      by_cases hkn : k = n
      · subst hkn; exact layerP_xx hn i j
      · rw [layerP_xx_ne hn i j (by omega) (by omega) (.inl hkn)]; exact h.exx k i j (by omega)
    · intro k i j hk
      rw [diagP_x (.inl (x_lt i.2 (by omega)))]
      by_cases hkn : k = n
      · subst hkn; exact layerP_xu hn i j
      · rw [layerP_xu_ne hn i j (by omega) (.inl hkn)]; exact h.exu k i j (by omega)
    · intro k i j hk
      rw [diagP_x (.inr (x_lt i.2 (by omega)))]
      by_cases hkn : k = n
      · subst hkn; exact layerP_ux i j
      · rw [layerP_ux_ne hn i j (by omega) (.inl hkn)]; exact h.eux k i j (by omega)
    · intro t i j ht
      by_cases htn : t = n + 1
      · subst htn; exact setBlock_in _ _ i j
      · rw [hdu _ _ _ _ _ (.inl htn), layerP_uu hn (by omega) (by omega)]; exact h.euu t i j (by omega)

/-- the assembled `P`. -/
structure EntP (d : Data P) (M : FMat F) : Prop extends PartP d P.T M where
  exxT : ∀ k (i j : Fin P.ndx), k + 1 = P.T → M (k * P.ndx + i) (k * P.ndx + j) = d.td.Lxx i j

theorem assemble_P (fs : ℕ → Vec F P.ndx) (m : PQP F) : (assemble d fs m).P =
    setBlock ((P.T - 1) * P.ndx) ((P.T - 1) * P.ndx) d.td.Lxx (forUp P.T (stageP d) m.P) := by
  have h1 : (assemble d fs m).P = setBlock ((P.T - 1) * P.ndx) ((P.T - 1) * P.ndx) d.td.Lxx (forUp P.T (fillStage d fs) m).P := by
    unfold assemble fillTerminal
    simp only []
    split <;> rfl
  rw [h1, forUp_comm (fun m : PQP F => m.P) P.T (fillStage d fs) (stageP d) m]
  intro t _ s
  unfold fillStage stageP
  simp only []
  split <;> split <;> rfl

theorem entP (fs : ℕ → Vec F P.ndx) (m : PQP F) (h : PartP d 0 m.P) : EntP d (assemble d fs m).P := by
  rw [assemble_P]
  have h1 : PartP d P.T (forUp P.T (stageP d) m.P) :=
    forUp_inv (fun k (M : FMat F) => PartP d k M) P.T _ _ h (fun k hk M h => partP_step hk h)
  generalize forUp P.T (stageP d) m.P = N at h1
  rcases Nat.eq_zero_or_pos P.T with h0 | h0
  · refine ⟨⟨fun k k' i j hk => by omega, fun k k' i j hk => by omega, fun k k' i j hk => by omega, fun k k' i j hk => by omega,
      fun k i j hk => by omega, fun k i j hk => by omega, fun k i j hk => by omega, fun k i j hk => by omega⟩, fun k i j hk => by omega⟩
  obtain ⟨n, hn⟩ : ∃ n, P.T = n + 1 := ⟨P.T - 1, by omega⟩
  have en : P.T - 1 = n := by omega
  rw [en]
  have hle := x_le (P := P) (show n < P.T by omega)
  have hne : ∀ {r c : ℕ}, P.nEq ≤ r ∨ P.nEq ≤ c → setBlock (n * P.ndx) (n * P.ndx) d.td.Lxx N r c = N r c := by
    rintro r c (h | h)
    · exact setBlock_row _ _ (by omega)
    · exact setBlock_col _ _ (by omega)
  have hx : ∀ a b (i j : Fin P.ndx), a ≠ n ∨ b ≠ n →
      setBlock (n * P.ndx) (n * P.ndx) d.td.Lxx N (a * P.ndx + i) (b * P.ndx + j) = N (a * P.ndx + i) (b * P.ndx + j) := by
    rintro a b i j (h | h)
    · exact setBlock_row _ _ (blk_ne i.2 h)
    · exact setBlock_col _ _ (blk_ne j.2 h)
  refine ⟨⟨?_, ?_, ?_, ?_, ?_, ?_, ?_, ?_⟩, ?_⟩
  · intro k k' i j hk hk' hkk; rw [hx _ _ _ _ (by omega)]; exact h1.xx0 k k' i j hk hk' hkk
  · intro k t i j hk ht hkt; rw [hne (by omega)]; exact h1.xu0 k t i j hk ht hkt
  · intro k t i j hk ht hkt; rw [hne (by omega)]; exact h1.ux0 k t i j hk ht hkt
  · intro t t' i j ht ht' hkt; rw [hne (by omega)]; exact h1.uu0 t t' i j ht ht' hkt
  · intro k i j hk; rw [hx _ _ _ _ (by omega)]; exact h1.exx k i j hk
  · intro k i j hk; rw [hne (by omega)]; exact h1.exu k i j hk
  · intro k i j hk; rw [hne (by omega)]; exact h1.eux k i j hk
  · intro t i j ht; rw [hne (by omega)]; exact h1.euu t i j ht
  · intro k i j hk
    obtain rfl : k = n := by omega
    exact setBlock_in _ _ i j

/-! ### The dynamics `A` -/

/-- one stage of the assembly, as seen by `A`. -/
def stageA (d : Data P) (t : ℕ) (M : FMat F) : FMat F :=
  setBlock (t * P.ndx) (t * P.ndx) (idMat P.ndx) (setBlock (t * P.ndx) (P.nEq + offs P.nu t) (-(d.rd t).Fu)
    (if 0 < t then setBlock (t * P.ndx) ((t - 1) * P.ndx) (-(d.rd t).Fx) M else M))

/-- `A` is zero outside its pattern, and holds the data of the nodes `< n`. -/
structure PartA (d : Data P) (n : ℕ) (M : FMat F) : Prop where
  x0 : ∀ t k (i j : Fin P.ndx), t < P.T → k < P.T → t ≠ k → t ≠ k + 1 → M (t * P.ndx + i) (k * P.ndx + j) = 0
  u0 : ∀ t t' (i : Fin P.ndx) (j : Fin (P.nu t')), t < P.T → t' < P.T → t ≠ t' → M (t * P.ndx + i) (P.nEq + offs P.nu t' + j) = 0
  eid : ∀ t (i j : Fin P.ndx), t < n → M (t * P.ndx + i) (t * P.ndx + j) = if i = j then 1 else 0
  efx : ∀ k (i j : Fin P.ndx), k + 1 < n → M ((k + 1) * P.ndx + i) (k * P.ndx + j) = -(d.rd (k + 1)).Fx i j
  efu : ∀ t (i : Fin P.ndx) (j : Fin (P.nu t)), t < n → M (t * P.ndx + i) (P.nEq + offs P.nu t + j) = -(d.rd t).Fu i j

theorem partA_step {n : ℕ} (hn : n < P.T) (h : PartA d n M) : PartA d (n + 1) (stageA d n M) := by
  have hle := x_le (P := P) hn
  -- rows of other stages are untouched
  have hrow : ∀ t (i : Fin P.ndx) c, t ≠ n → stageA d n M (t * P.ndx + i) c = M (t * P.ndx + i) c := by
    intro t i c ht
    have := blk_ne (n := P.ndx) i.2 ht
    unfold stageA
    rw [setBlock_row _ _ this, setBlock_row _ _ this]
    split
    · exact setBlock_row _ _ this
    · rfl
  -- the row of this stage
  have hid : ∀ i j : Fin P.ndx, stageA d n M (n * P.ndx + i) (n * P.ndx + j) = if i = j then 1 else 0 := by
    intro i j; unfold stageA; rw [setBlock_in]; rfl
  have hx : ∀ k (i j : Fin P.ndx), k < P.T → n ≠ k → n ≠ k + 1 →
      stageA d n M (n * P.ndx + i) (k * P.ndx + j) = M (n * P.ndx + i) (k * P.ndx + j) := by
    intro k i j hk h1 h2
    have := x_lt j.2 hk
    unfold stageA
    rw [setBlock_col _ _ (blk_ne j.2 (Ne.symm h1)), setBlock_col _ _ (by omega)]
    split
    · exact setBlock_col _ _ (blk_ne j.2 (by omega))
    · rfl
  have hf : ∀ k (i j : Fin P.ndx), n = k + 1 → stageA d n M (n * P.ndx + i) (k * P.ndx + j) = -(d.rd n).Fx i j := by
    rintro k i j rfl
    have := x_lt j.2 (show k < P.T by omega)
    unfold stageA
    rw [setBlock_col _ _ (blk_ne j.2 (by omega)), setBlock_col _ _ (by omega), if_pos (Nat.succ_pos k)]
    exact setBlock_in _ _ i j
  have hu : ∀ t (i : Fin P.ndx) (j : Fin (P.nu t)), t ≠ n →
      stageA d n M (n * P.ndx + i) (P.nEq + offs P.nu t + j) = M (n * P.ndx + i) (P.nEq + offs P.nu t + j) := by
    intro t i j ht
    have h1 := offs_ne j.2 ht
    unfold stageA
    rw [setBlock_col _ _ (by omega), setBlock_col _ _ (by omega)]
    split
    · refine setBlock_col _ _ (.inr ?_)
      have := x_le (P := P) (show n - 1 < P.T by omega)
      omega
    · rfl
  have hfu : ∀ (i : Fin P.ndx) (j : Fin (P.nu n)), stageA d n M (n * P.ndx + i) (P.nEq + offs P.nu n + j) = -(d.rd n).Fu i j := by
    intro i j
    unfold stageA
    rw [setBlock_col _ _ (by omega), setBlock_in]; rfl
  refine ⟨?_, ?_, ?_, ?_, ?_⟩
  · intro t k i j ht hk h1 h2
    by_cases htn : t = n
    · subst htn; rw [hx _ _ _ hk h1 h2]; exact h.x0 _ _ _ _ ht hk h1 h2
    · rw [hrow _ _ _ htn]; exact h.x0 _ _ _ _ ht hk h1 h2
  · intro t t' i j ht ht' h1
    by_cases htn : t = n
    · subst htn; rw [hu _ _ _ (Ne.symm h1)]; exact h.u0 _ _ _ _ ht ht' h1
    · rw [hrow _ _ _ htn]; exact h.u0 _ _ _ _ ht ht' h1
  · intro t i j ht
    by_cases htn : t = n
    · subst htn; exact hid i j
    · rw [hrow _ _ _ htn]; exact h.eid _ _ _ (by omega)
  · intro k i j hk
    by_cases hkn : k + 1 = n
    · subst hkn; exact hf k i j rfl
    · rw [hrow _ _ _ hkn]; exact h.efx _ _ _ (by omega)
  · intro t i j ht
    by_cases htn : t = n
    · subst htn; exact hfu i j
    · rw [hrow _ _ _ htn]; exact h.efu _ _ _ (by omega)

theorem entA (fs : ℕ → Vec F P.ndx) (m : PQP F) (h : PartA d 0 m.A) : PartA d P.T (assemble d fs m).A := by
  have h1 : (assemble d fs m).A = forUp P.T (stageA d) m.A := by
    have h2 : (assemble d fs m).A = (forUp P.T (fillStage d fs) m).A := by
      unfold assemble fillTerminal
      simp only []
      split <;> rfl
    rw [h2, forUp_comm (fun m : PQP F => m.A) P.T (fillStage d fs) (stageA d) m]
    intro t _ s
    unfold fillStage stageA
    simp only []
    split <;> split <;> rfl
  rw [h1]
  exact forUp_inv (fun k (M : FMat F) => PartA d k M) P.T _ _ h (fun k hk M h => partA_step hk h)

/-! ### The constraints `C` -/

/-- one stage of the assembly, as seen by `C`. -/
def stageC (d : Data P) (t : ℕ) (M : FMat F) : FMat F :=
  if P.ng t ≠ 0 then
    setBlock (offs P.ng t) (P.nEq + t * P.nu t) (d.rd t).Gu
      (if 0 < t then setBlock (offs P.ng t) ((t - 1) * P.ndx) (d.rd t).Gx M else M)
  else M

/-- The columns of the control block of every constrained node are where the code puts them: the controls of the nodes before
it have together `t * nu_t` entries.  True if all control dimensions are equal. -/
def ColsOK (P : Problem F) : Prop := ∀ t, t < P.T → P.ng t ≠ 0 → t * P.nu t = offs P.nu t

theorem ColsOK.of_const {n : ℕ} (h : ∀ t, P.nu t = n) : ColsOK P := by
  intro t _ _
  have : P.nu = fun _ => n := funext h
  rw [this, offs_const]

/-- `C` is zero outside its pattern, and holds the data of the nodes `< n`. -/
structure PartC (d : Data P) (n : ℕ) (M : FMat F) : Prop where
  x0 : ∀ t k (i : Fin (P.ng t)) (j : Fin P.ndx), t ≤ P.T → k < P.T → t ≠ k + 1 → M (offs P.ng t + i) (k * P.ndx + j) = 0
  u0 : ∀ t t' (i : Fin (P.ng t)) (j : Fin (P.nu t')), t ≤ P.T → t' < P.T → t ≠ t' → M (offs P.ng t + i) (P.nEq + offs P.nu t' + j) = 0
  ex : ∀ k (i : Fin (P.ng (k + 1))) (j : Fin P.ndx), k + 1 < n → M (offs P.ng (k + 1) + i) (k * P.ndx + j) = (d.rd (k + 1)).Gx i j
  eu : ∀ t (i : Fin (P.ng t)) (j : Fin (P.nu t)), t < n → M (offs P.ng t + i) (P.nEq + offs P.nu t + j) = (d.rd t).Gu i j

theorem partC_step (hc : ColsOK P) {n : ℕ} (hn : n < P.T) (h : PartC d n M) : PartC d (n + 1) (stageC d n M) := by
  have hle := x_le (P := P) hn
  have hrow : ∀ t (i : Fin (P.ng t)) c, t ≠ n → stageC d n M (offs P.ng t + i) c = M (offs P.ng t + i) c := by
    intro t i c ht
    have := offs_ne (d := P.ng) i.2 ht
    unfold stageC
    split
    · rw [setBlock_row _ _ this]
      split
      · exact setBlock_row _ _ this
      · rfl
    · rfl
  have hng : Fin (P.ng n) → P.ng n ≠ 0 := fun i h0 => (Fin.cast h0 i).elim0
  have hx : ∀ k (i : Fin (P.ng n)) (j : Fin P.ndx), k < P.T → n ≠ k + 1 →
      stageC d n M (offs P.ng n + i) (k * P.ndx + j) = M (offs P.ng n + i) (k * P.ndx + j) := by
    intro k i j hk h2
    have := x_lt j.2 hk
    unfold stageC
    rw [if_pos (hng i), setBlock_col _ _ (by omega)]
    split
    · exact setBlock_col _ _ (blk_ne j.2 (by omega))
    · rfl
  have hf : ∀ k (i : Fin (P.ng n)) (j : Fin P.ndx), n = k + 1 → stageC d n M (offs P.ng n + i) (k * P.ndx + j) = (d.rd n).Gx i j := by
    rintro k i j rfl
    have := x_lt j.2 (show k < P.T by omega)
    unfold stageC
    rw [if_pos (hng i), setBlock_col _ _ (by omega), if_pos (Nat.succ_pos k)]
    exact setBlock_in _ _ i j
  have hu : ∀ t (i : Fin (P.ng n)) (j : Fin (P.nu t)), t ≠ n →
      stageC d n M (offs P.ng n + i) (P.nEq + offs P.nu t + j) = M (offs P.ng n + i) (P.nEq + offs P.nu t + j) := by
    intro t i j ht
    have h1 := offs_ne j.2 ht
    unfold stageC
    rw [if_pos (hng i), hc n hn (hng i), setBlock_col _ _ (by omega)]
    split
    · refine setBlock_col _ _ (.inr ?_)
      have := x_le (P := P) (show n - 1 < P.T by omega)
      omega
    · rfl
  have hfu : ∀ (i : Fin (P.ng n)) (j : Fin (P.nu n)), stageC d n M (offs P.ng n + i) (P.nEq + offs P.nu n + j) = (d.rd n).Gu i j := by
    intro i j
    unfold stageC
    rw [if_pos (hng i), hc n hn (hng i), setBlock_in]
  refine ⟨?_, ?_, ?_, ?_⟩
  · intro t k i j ht hk h2
    by_cases htn : t = n
    · subst htn; rw [hx _ _ _ hk h2]; exact h.x0 _ _ _ _ ht hk h2
    · rw [hrow _ _ _ htn]; exact h.x0 _ _ _ _ ht hk h2
  · intro t t' i j ht ht' h1
    by_cases htn : t = n
    · subst htn; rw [hu _ _ _ (Ne.symm h1)]; exact h.u0 _ _ _ _ ht ht' h1
    · rw [hrow _ _ _ htn]; exact h.u0 _ _ _ _ ht ht' h1
  · intro k i j hk
    by_cases hkn : k + 1 = n
    · subst hkn; exact hf k i j rfl
    · rw [hrow _ _ _ hkn]; exact h.ex _ _ _ (by omega)
  · intro t i j ht
    by_cases htn : t = n
    · subst htn; exact hfu i j
    · rw [hrow _ _ _ htn]; exact h.eu _ _ _ (by omega)

/-- the assembled `C`. -/
structure EntC (d : Data P) (M : FMat F) : Prop extends PartC d P.T M where
  exT : ∀ k (i : Fin (P.ng P.T)) (j : Fin P.ndx), k + 1 = P.T → M (offs P.ng P.T + i) (k * P.ndx + j) = d.td.Gx i j

theorem assemble_C (fs : ℕ → Vec F P.ndx) (m : PQP F) : (assemble d fs m).C =
    if P.ng P.T ≠ 0 then setBlock (offs P.ng P.T) ((P.T - 1) * P.ndx) d.td.Gx (forUp P.T (stageC d) m.C)
    else forUp P.T (stageC d) m.C := by
  have h1 : (forUp P.T (fillStage d fs) m).C = forUp P.T (stageC d) m.C := by
    rw [forUp_comm (fun m : PQP F => m.C) P.T (fillStage d fs) (stageC d) m]
    intro t _ s
    unfold fillStage stageC
    simp only []
    by_cases h1 : 0 < t <;> by_cases h2 : P.ng t = 0 <;> simp [h1, h2, Problem.nEq]
  unfold assemble fillTerminal
  simp only []
  split
  · rw [← h1]
  · rw [← h1]

theorem entC (hc : ColsOK P) (fs : ℕ → Vec F P.ndx) (m : PQP F) (h : PartC d 0 m.C) (hT : 0 < P.T) : EntC d (assemble d fs m).C := by
  rw [assemble_C]
  have h1 : PartC d P.T (forUp P.T (stageC d) m.C) :=
    forUp_inv (fun k (M : FMat F) => PartC d k M) P.T _ _ h (fun k hk M h => partC_step hc hk h)
  generalize forUp P.T (stageC d) m.C = N at h1
  by_cases hg : P.ng P.T = 0
  · rw [if_neg (by simpa using hg)]
    exact ⟨h1, fun k i => (Fin.cast hg i).elim0⟩
  · rw [if_pos hg]
    obtain ⟨n, hn⟩ : ∃ n, P.T = n + 1 := ⟨P.T - 1, by omega⟩
    have en : P.T - 1 = n := by omega
    rw [en]
    have hle := x_le (P := P) (show n < P.T by omega)
    have hrow : ∀ t (i : Fin (P.ng t)) c, t ≠ P.T → setBlock (offs P.ng P.T) (n * P.ndx) d.td.Gx N (offs P.ng t + i) c = N (offs P.ng t + i) c :=
      fun t i c ht => setBlock_row _ _ (offs_ne (d := P.ng) i.2 ht)
    refine ⟨⟨?_, ?_, ?_, ?_⟩, ?_⟩
    · intro t k i j ht hk hne
      by_cases htn : t = P.T
      · subst htn
        rw [setBlock_col _ _ (blk_ne j.2 (by omega))]; exact h1.x0 _ _ _ _ ht hk hne
      · rw [hrow _ _ _ htn]; exact h1.x0 _ _ _ _ ht hk hne
    · intro t t' i j ht ht' hne
      rw [setBlock_col _ _ (by omega)]; exact h1.u0 _ _ _ _ ht ht' hne
    · intro k i j hk
      rw [hrow _ _ _ (by omega)]; exact h1.ex _ _ _ hk
    · intro t i j ht
      rw [hrow _ _ _ (by omega)]; exact h1.eu _ _ _ ht
    · intro k i j hk
      obtain rfl : k = n := by omega
      exact setBlock_in _ _ i j

/-! ### The vectors -/

/-- the vectors when the nodes `< n` are written. -/
structure PartV (d : Data P) (fs : ℕ → Vec F P.ndx) (n : ℕ) (m : PQP F) : Prop where
  qx : ∀ k (i : Fin P.ndx), k + 1 < n → m.q (k * P.ndx + i) = (d.rd (k + 1)).Lx i
  qu : ∀ t (i : Fin (P.nu t)), t < n → m.q (P.nEq + offs P.nu t + i) = (d.rd t).Lu i
  b : ∀ t (i : Fin P.ndx), t < n → m.b (t * P.ndx + i) = fs (t + 1) i
  l : ∀ t (i : Fin (P.ng t)), t < n → m.l (offs P.ng t + i) = (P.lb t i).map fun l => l - (d.run t).g i
  u : ∀ t (i : Fin (P.ng t)), t < n → m.u (offs P.ng t + i) = (P.ub t i).map fun u => u - (d.run t).g i

variable {m : PQP F} {fs : ℕ → Vec F P.ndx}

theorem fillStage_q (t : ℕ) : (fillStage d fs t m).q = setSeg (P.nEq + offs P.nu t) (d.rd t).Lu
    (if 0 < t then setSeg ((t - 1) * P.ndx) (d.rd t).Lx m.q else m.q) := by
  unfold fillStage
  simp only []
  split <;> split <;> rfl

theorem fillStage_b (t : ℕ) : (fillStage d fs t m).b = setSeg (t * P.ndx) (fs (t + 1)) m.b := by
  unfold fillStage
  simp only []
  split <;> split <;> rfl

theorem fillStage_l (t : ℕ) : (fillStage d fs t m).l =
    if P.ng t ≠ 0 then setSeg (offs P.ng t) (loRow (P.lb t) (d.run t).g) m.l else m.l := by
  unfold fillStage
  simp only []
  split <;> split <;> rfl

theorem fillStage_u (t : ℕ) : (fillStage d fs t m).u =
    if P.ng t ≠ 0 then setSeg (offs P.ng t) (loRow (P.ub t) (d.run t).g) m.u else m.u := by
  unfold fillStage
  simp only []
  split <;> split <;> rfl

theorem partV_step {n : ℕ} (hn : n < P.T) (h : PartV d fs n m) : PartV d fs (n + 1) (fillStage d fs n m) := by
  refine ⟨?_, ?_, ?_, ?_, ?_⟩
  · intro k i hk
    have := x_lt i.2 (show k < P.T by omega)
    rw [fillStage_q, setSeg_out _ _ (by omega)]
    by_cases hkn : k + 1 = n
    · subst hkn
      rw [if_pos (Nat.succ_pos k)]
      exact setSeg_in _ _ i
    · split
      · rw [setSeg_out _ _ (blk_ne i.2 (by omega))]; exact h.qx _ _ (by omega)
      · exact h.qx _ _ (by omega)
  · intro t i ht
    rw [fillStage_q]
    by_cases htn : t = n
    · subst htn; exact setSeg_in _ _ i
    · have := offs_ne i.2 htn
      rw [setSeg_out _ _ (by omega)]
      split
      · have := x_le (P := P) (show n - 1 < P.T by omega)
        rw [setSeg_out _ _ (by omega)]; exact h.qu _ _ (by omega)
      · exact h.qu _ _ (by omega)
  · intro t i ht
    rw [fillStage_b]
    by_cases htn : t = n
    · subst htn; exact setSeg_in _ _ i
    · rw [setSeg_out _ _ (blk_ne i.2 htn)]; exact h.b _ _ (by omega)
  · intro t i ht
    rw [fillStage_l]
    by_cases htn : t = n
    · subst htn
      rw [if_pos (fun h0 => (Fin.cast h0 i).elim0)]; exact setSeg_in _ _ i
    · split
      · rw [setSeg_out _ _ (offs_ne i.2 htn)]; exact h.l _ _ (by omega)
      · exact h.l _ _ (by omega)
  · intro t i ht
    rw [fillStage_u]
    by_cases htn : t = n
    · subst htn
      rw [if_pos (fun h0 => (Fin.cast h0 i).elim0)]; exact setSeg_in _ _ i
    · split
      · rw [setSeg_out _ _ (offs_ne i.2 htn)]; exact h.u _ _ (by omega)
      · exact h.u _ _ (by omega)

/-- the assembled vectors. -/
structure EntV (d : Data P) (fs : ℕ → Vec F P.ndx) (m : PQP F) : Prop extends PartV d fs P.T m where
  qxT : ∀ k (i : Fin P.ndx), k + 1 = P.T → m.q (k * P.ndx + i) = d.td.Lx i
  lT : ∀ i : Fin (P.ng P.T), m.l (offs P.ng P.T + i) = (P.lb P.T i).map fun l => l - d.ter.g i
  uT : ∀ i : Fin (P.ng P.T), m.u (offs P.ng P.T + i) = (P.ub P.T i).map fun u => u - d.ter.g i

theorem entV (hT : 0 < P.T) : EntV d fs (assemble d fs m) := by
  have h1 : PartV d fs P.T (forUp P.T (fillStage d fs) m) :=
    forUp_inv (fun k (m : PQP F) => PartV d fs k m) P.T _ _
      ⟨fun _ _ h => by omega, fun _ _ h => by omega, fun _ _ h => by omega, fun _ _ h => by omega, fun _ _ h => by omega⟩
      (fun k hk m h => partV_step hk h)
  unfold assemble
  generalize forUp P.T (fillStage d fs) m = N at h1
  have eq : (fillTerminal d N).q = setSeg ((P.T - 1) * P.ndx) d.td.Lx N.q := by
    unfold fillTerminal; simp only []; split <;> rfl
  have eb : (fillTerminal d N).b = N.b := by
    unfold fillTerminal; simp only []; split <;> rfl
  have el : (fillTerminal d N).l = if P.ng P.T ≠ 0 then setSeg (offs P.ng P.T) (loRow (P.lb P.T) d.ter.g) N.l else N.l := by
    unfold fillTerminal; simp only []; split <;> rfl
  have eu : (fillTerminal d N).u = if P.ng P.T ≠ 0 then setSeg (offs P.ng P.T) (loRow (P.ub P.T) d.ter.g) N.u else N.u := by
    unfold fillTerminal; simp only []; split <;> rfl
  refine ⟨⟨?_, ?_, ?_, ?_, ?_⟩, ?_, ?_, ?_⟩
  · intro k i hk
    rw [eq, setSeg_out _ _ (blk_ne i.2 (by omega))]; exact h1.qx _ _ hk
  · intro t i ht
    have := x_le (P := P) (show P.T - 1 < P.T by omega)
    rw [eq, setSeg_out _ _ (by omega)]; exact h1.qu _ _ ht
  · intro t i ht; rw [eb]; exact h1.b _ _ ht
  · intro t i ht
    rw [el]
    split
    · rw [setSeg_out _ _ (offs_ne i.2 (by omega))]; exact h1.l _ _ ht
    · exact h1.l _ _ ht
  · intro t i ht
    rw [eu]
    split
    · rw [setSeg_out _ _ (offs_ne i.2 (by omega))]; exact h1.u _ _ ht
    · exact h1.u _ _ ht
  · intro k i hk
    obtain rfl : k = P.T - 1 := by omega
    rw [eq]; exact setSeg_in _ _ i
  · intro i
    rw [el, if_pos (fun h0 => (Fin.cast h0 i).elim0)]; exact setSeg_in _ _ i
  · intro i
    rw [eu, if_pos (fun h0 => (Fin.cast h0 i).elim0)]; exact setSeg_in _ _ i

/-- Everything the QP holds after `calc`. -/
structure Ent (d : Data P) (fs : ℕ → Vec F P.ndx) (m : PQP F) : Prop where
  hP : EntP d m.P
  hA : PartA d P.T m.A
  hC : EntC d m.C
  hv : EntV d fs m

/-- The QP matrices are zero outside their patterns (true of a new solver, kept by `calc`). -/
structure Pattern (P : Problem F) (m : PQP F) : Prop where
  hP : ∀ d : Data P, PartP d 0 m.P
  hA : ∀ d : Data P, PartA d 0 m.A
  hC : ∀ d : Data P, PartC d 0 m.C

theorem Pattern.new (d : Data P) : Pattern P (PROX.new d).m := by
  refine ⟨fun d => ⟨?_, ?_, ?_, ?_, ?_, ?_, ?_, ?_⟩, fun d => ⟨?_, ?_, ?_, ?_, ?_⟩, fun d => ⟨?_, ?_, ?_, ?_⟩⟩
  all_goals first
    | (intros; omega)
    | (intros; rfl)

theorem Pattern.assemble (hT : 0 < P.T) (hc : ColsOK P) (h : Pattern P m) : Ent d fs (assemble d fs m) ∧ Pattern P (assemble d fs m) := by
  have h1 := entP fs m (h.hP d)
  have h2 := entA fs m (h.hA d)
  have h3 := entC hc fs m (h.hC d) hT
  refine ⟨⟨h1, h2, h3, entV hT⟩, fun d' => ⟨h1.xx0, h1.xu0, h1.ux0, h1.uu0, ?_, ?_, ?_, ?_⟩, fun d' => ⟨h2.x0, h2.u0, ?_, ?_, ?_⟩,
    fun d' => ⟨h3.x0, h3.u0, ?_, ?_⟩⟩
  all_goals (intros; omega)

end PROX
end
end Mim
