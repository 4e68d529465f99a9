import Verif.Lemmas.KKTSystem
import Verif.Lemmas.Newton
import Verif.Props.SQPReturn

/-!
# Invariants of SolverKKT and the exact linear system
-/
set_option linter.unusedSectionVars false
set_option linter.unusedSimpArgs false

namespace Mim
open Spec

section
variable {F : Type} [Add F] [Sub F] [Mul F] [Div F] [Neg F] [Zero F] [One F] [FloatOps F] {P : Problem F}

namespace KKT

/-- Everything the solver keeps between iterations and calls. -/
structure Inv (s : KKT P) : Prop where
  pattern : KPattern P s.kkt
  fs : ∀ t, s.fs t = zeroV F P.ndx

theorem inv_new (d : Data P) : Inv (KKT.new d) := by
  refine ⟨⟨?_, ?_, ?_, ?_, ?_, ?_⟩, fun _ => rfl⟩ <;> intros <;> rfl

theorem inv_direction (lu : LU F) {s : KKT P} (h : Inv s) : Inv (s.direction lu) :=
  ⟨(entries_assemble h.pattern).toKPart.toKPattern, h.fs⟩

theorem search_frame (as : List F) (s : KKT P) :
    (search as s).kkt = s.kkt ∧ (search as s).fs = s.fs ∧ (search as s).ref = s.ref ∧ (search as s).data.rd = s.data.rd ∧
    (search as s).data.td = s.data.td ∧ (search as s).lam = s.lam ∧ (search as s).kktRes = s.kktRes ∧ (search as s).c = s.c ∧
    (search as s).iter = s.iter ∧ (search as s).nDir = s.nDir ∧ (search as s).log = s.log ∧ (search as s).dxs = s.dxs ∧
    (search as s).dus = s.dus ∧ (search as s).d0 = s.d0 ∧ (search as s).d1 = s.d1 := by
  induction as generalizing s with
  | nil => exact ⟨rfl, rfl, rfl, rfl, rfl, rfl, rfl, rfl, rfl, rfl, rfl, rfl, rfl, rfl, rfl⟩
  | cons a as ih =>
    rw [search]
    simp only
    split
    · exact ⟨rfl, rfl, rfl, rfl, rfl, rfl, rfl, rfl, rfl, rfl, rfl, rfl, rfl, rfl, rfl⟩
    · exact ih _

theorem inv_body (lu : LU F) {s : KKT P} (h : Inv s) : Inv (body lu s).2 := by
  have h1 := inv_direction lu h
  rw [body]
  simp only
  split
  · exact ⟨h1.pattern, h1.fs⟩
  · have hf := search_frame ((s.direction lu).improve).c.alphas (s.direction lu).improve
    split
    · exact ⟨by change KPattern P (search _ _).kkt; rw [hf.1]; exact h1.pattern,
        by change ∀ t, (search _ _).fs t = _; rw [hf.2.1]; exact h1.fs⟩
    · exact ⟨by change KPattern P (search _ _).kkt; rw [hf.1]; exact h1.pattern,
        by change ∀ t, (search _ _).fs t = _; rw [hf.2.1]; exact h1.fs⟩

theorem inv_iterate (lu : LU F) (n : ℕ) {s : KKT P} (h : Inv s) : Inv (iterate lu n s).2 := by
  induction n generalizing s with
  | zero => exact h
  | succ n ih =>
    have hb := inv_body lu h
    rw [iterate]
    cases hr : body lu s with
    | mk o s1 =>
      rw [hr] at hb
      cases o with
      | some b => exact hb
      | none => exact ih (s := { s1 with iter := s1.iter + 1 }) ⟨hb.pattern, hb.fs⟩

theorem inv_solve (lu : LU F) (xs : Option (Traj P)) (us : Option (Ctrls P)) (n : ℕ) (feas : Bool) {s : KKT P} (h : Inv s) :
    Inv (solve lu xs us n feas s).2 := by
  have := inv_iterate lu n (s := { s with
    xs := xs.getD fun _ => P.zeroX, us := us.getD fun t => zeroV F (P.nu t), feas := feas, iter := 0 }) ⟨h.pattern, h.fs⟩
  rw [solve]
  generalize iterate lu n _ = r at *
  obtain ⟨o, s1⟩ := r
  cases o <;> exact this

end KKT
end

section Exact
variable {K : Type} [Field K] [LinearOrder K] [IsStrictOrderedRing K] {P : Problem K}
open Matrix

namespace KKT

/-- `calcDiff` leaves the data of the current trajectory. -/
theorem fresh_calc (d : Data P) (xs : Traj P) (us : Ctrls P) {t : ℕ} (ht : t < P.T) :
    ((d.calcAll xs us).calcDiffAll xs us).run t = P.calcR t (xs t) (us t) := if_pos ht
theorem fresh_diff (d : Data P) (xs : Traj P) (us : Ctrls P) {t : ℕ} (ht : t < P.T) :
    ((d.calcAll xs us).calcDiffAll xs us).rd t = P.calcDiffR t (xs t) (us t) := if_pos ht

/-- every position of the stacked vector belongs to a state, a control or a multiplier. -/
theorem nS_cover {i : ℕ} (h : i < P.nS) : (∃ t, t ≤ P.T ∧ ∃ j : Fin P.ndx, i = t * P.ndx + j) ∨
    (∃ t, t < P.T ∧ ∃ j : Fin (P.nu t), i = P.nX + offs P.nu t + j) ∨
    ∃ t, t ≤ P.T ∧ ∃ j : Fin P.ndx, i = P.nP + (t * P.ndx + j) := by
  have cov : ∀ k, k < P.nX → ∃ t, t ≤ P.T ∧ ∃ j : Fin P.ndx, k = t * P.ndx + j := by
    intro k hk
    have hk' : k < offs (fun _ => P.ndx) (P.T + 1) := by rw [offs_const]; exact hk
    obtain ⟨t, ht, j, hj, e⟩ := offs_cover hk'
    rw [offs_const] at e
    exact ⟨t, by omega, ⟨j, hj⟩, e⟩
  by_cases h1 : i < P.nX
  · exact Or.inl (cov i h1)
  · by_cases h2 : i < P.nP
    · obtain ⟨t, ht, j, hj, e⟩ := offs_cover (d := P.nu) (n := P.T) (j := i - P.nX) (by rw [Problem.nP, Problem.nU] at h2; omega)
      exact Or.inr (Or.inl ⟨t, ht, ⟨j, hj⟩, by simp only; omega⟩)
    · obtain ⟨t, ht, j, e⟩ := cov (i - P.nP) (by rw [Problem.nS] at h; omega)
      exact Or.inr (Or.inr ⟨t, ht, j, by omega⟩)

/-- a solution of the assembled system is a Newton step. -/
theorem newton_of_solves (hT : 0 < P.T) {d : Data P} {M : FMat K} {v b : FVec K} {xs : Traj P} {us : Ctrls P}
    (hE : Entries ((d.calcAll xs us).calcDiffAll xs us) M) (hR : RefEntries ((d.calcAll xs us).calcDiffAll xs us) xs b)
    (hv : Solves P.nS M (fun i => -b i) v) :
    NewtonStep P xs us (fun t => seg (t * P.ndx) P.ndx v) (fun t => seg (P.nX + offs P.nu t) (P.nu t) v)
      (fun t => seg (P.nP + t * P.ndx) P.ndx v) := by
  have lX : ∀ t (i : Fin P.ndx), t ≤ P.T → t * P.ndx + i < P.nS := fun t i ht =>
    lt_of_lt_of_le (x_lt i.isLt ht) (le_trans nX_le_nP (Nat.le_add_right _ _))
  have lU : ∀ t (i : Fin (P.nu t)), t < P.T → P.nX + offs P.nu t + i < P.nS := fun t i ht =>
    lt_of_lt_of_le (u_lt i.isLt ht) (Nat.le_add_right _ _)
  have lL : ∀ t (i : Fin P.ndx), t ≤ P.T → P.nP + (t * P.ndx + i) < P.nS := fun t i ht =>
    Nat.add_lt_add_left (x_lt i.isLt ht) _
  replace hv : ∀ i, i < P.nS → ∑ j ∈ Finset.range P.nS, M i j * v j = -b i := hv
  refine ⟨?_, ?_, ?_, ?_, ?_⟩
  · funext i
    have h := hv _ (lL 0 i (by omega))
    rw [Nat.zero_mul, Nat.zero_add, row_l0 hE v i, hR.l0 i] at h
    exact h
  · intro t ht
    funext i
    have h := hv _ (lL (t + 1) i (by omega))
    rw [row_l hE v ht i, hR.l t i ht, fresh_diff d xs us ht, fresh_calc d xs us ht] at h
    simp only [Pi.sub_apply, Pi.add_apply] at h ⊢
    linarith
  · intro t ht
    funext i
    have h := hv _ (lX t i (by omega))
    rw [row_x hE v ht i, hR.x t i ht, fresh_diff d xs us ht] at h
    simp only [Pi.sub_apply, Pi.add_apply, Pi.zero_apply] at h ⊢
    linarith
  · intro t ht
    funext i
    have h := hv _ (lU t i (by omega))
    rw [row_u hE v ht i, hR.u t i ht, fresh_diff d xs us ht] at h
    simp only [Pi.sub_apply, Pi.add_apply, Pi.zero_apply] at h ⊢
    linarith
  · funext i
    have h := hv _ (lX P.T i le_rfl)
    rw [row_xT hE v i, hR.xT i] at h
    change ((P.calcDiffT (xs P.T)).Lxx *ᵥ _ + _) i = -(P.calcDiffT (xs P.T)).Lx i at h
    simp only [Pi.sub_apply, Pi.add_apply, Pi.zero_apply] at h ⊢
    linarith

/-- the assembled matrix of a convex problem is nonsingular. -/
theorem nonsingular_of_convex {d : Data P} {M : FMat K} {xs : Traj P} {us : Ctrls P}
    (hE : Entries ((d.calcAll xs us).calcDiffAll xs us) M) (hc : ConvexAt P xs us) : Nonsingular P.nS M := by
  intro v hv
  have lX : ∀ t (i : Fin P.ndx), t ≤ P.T → t * P.ndx + i < P.nS := fun t i ht =>
    lt_of_lt_of_le (x_lt i.isLt ht) (le_trans nX_le_nP (Nat.le_add_right _ _))
  have lU : ∀ t (i : Fin (P.nu t)), t < P.T → P.nX + offs P.nu t + i < P.nS := fun t i ht =>
    lt_of_lt_of_le (u_lt i.isLt ht) (Nat.le_add_right _ _)
  have lL : ∀ t (i : Fin P.ndx), t ≤ P.T → P.nP + (t * P.ndx + i) < P.nS := fun t i ht =>
    Nat.add_lt_add_left (x_lt i.isLt ht) _
  have := hom_zero hc (x := fun t => seg (t * P.ndx) P.ndx v) (u := fun t => seg (P.nX + offs P.nu t) (P.nu t) v)
    (lam := fun t => seg (P.nP + t * P.ndx) P.ndx v)
    (by
      funext i
      have h := hv _ (lL 0 i (by omega))
      rw [Nat.zero_mul, Nat.zero_add, row_l0 hE v i] at h
      exact h)
    (fun t ht => by
      funext i
      have h := hv _ (lL (t + 1) i (by omega))
      rw [row_l hE v ht i, fresh_diff d xs us ht] at h
      simp only [Pi.sub_apply, Pi.add_apply] at h ⊢
      linarith)
    (fun t ht => by
      funext i
      have h := hv _ (lX t i (by omega))
      rw [row_x hE v ht i, fresh_diff d xs us ht] at h
      exact h)
    (fun t ht => by
      funext i
      have h := hv _ (lU t i (by omega))
      rw [row_u hE v ht i, fresh_diff d xs us ht] at h
      exact h)
    (by
      funext i
      have h := hv _ (lX P.T i le_rfl)
      rw [row_xT hE v i] at h
      exact h)
  intro i hi
  rcases nS_cover hi with ⟨t, ht, j, rfl⟩ | ⟨t, ht, j, rfl⟩ | ⟨t, ht, j, rfl⟩
  · exact congrFun (this.1 t ht) j
  · exact congrFun (this.2.1 t ht) j
  · have h := congrFun (this.2.2 t ht) j
    rw [← Nat.add_assoc]
    exact h

/-- the residual, entry by entry. -/
theorem residual_le (d : Data P) (fs lam : ℕ → Vec K P.ndx) (c : K) : residual d fs lam ≤ c ↔ 0 ≤ c ∧
    (∀ t, t < P.T → (∀ i, |((d.rd t).Lx + (d.rd t).Fxᵀ *ᵥ lam (t + 1) - lam t) i| ≤ c) ∧
      ∀ i, |((d.rd t).Lu + (d.rd t).Fuᵀ *ᵥ lam (t + 1)) i| ≤ c) ∧
    (∀ i, |(d.td.Lx - lam P.T) i| ≤ c) ∧ ∀ t, t ≤ P.T → ∀ i, |fs t i| ≤ c := by
  have hloop : ∀ n, forUp n (fun t (k : K) =>
      max (max k (exactNormInf ((d.rd t).Lx + (d.rd t).Fxᵀ *ᵥ lam (t + 1) - lam t)))
        (exactNormInf ((d.rd t).Lu + (d.rd t).Fuᵀ *ᵥ lam (t + 1)))) (0 : K) ≤ c ↔ 0 ≤ c ∧
      ∀ t, t < n → (∀ i, |((d.rd t).Lx + (d.rd t).Fxᵀ *ᵥ lam (t + 1) - lam t) i| ≤ c) ∧
        ∀ i, |((d.rd t).Lu + (d.rd t).Fuᵀ *ᵥ lam (t + 1)) i| ≤ c := by
    intro n
    induction n with
    | zero => simp
    | succ n ih =>
      rw [forUp_succ]
      simp only [max_le_iff, ih, exactNormInf_le]
      constructor
      · rintro ⟨⟨⟨h0, h1⟩, _, h2⟩, _, h3⟩
        refine ⟨h0, fun t ht => ?_⟩
        rcases Nat.lt_succ_iff_lt_or_eq.mp ht with h | rfl
        · exact h1 t h
        · exact ⟨h2, h3⟩
      · rintro ⟨h0, h1⟩
        exact ⟨⟨⟨h0, fun t ht => h1 t (by omega)⟩, h0, (h1 n (by omega)).1⟩, h0, (h1 n (by omega)).2⟩
  rw [residual]
  simp only [cppMax_exact, normInf_exact, mv_exact, max_le_iff, exactNormInf_le]
  rw [hloop]
  constructor
  · rintro ⟨⟨⟨h0, h1⟩, _, h2⟩, _, h3⟩
    refine ⟨h0, h1, h2, fun t ht i => ?_⟩
    have := h3 ⟨t * P.ndx + i, blk_lt i.isLt (by omega)⟩
    have e1 : (Fin.divNat (m := P.T + 1) (n := P.ndx) ⟨t * P.ndx + i, blk_lt i.isLt (by omega)⟩ : ℕ) = t := by
      simp only [Fin.coe_divNat]
      have : 0 < P.ndx := by have := i.isLt; omega
      rw [Nat.mul_comm, Nat.mul_add_div this, Nat.div_eq_of_lt i.isLt, Nat.add_zero]
    have e2 : Fin.modNat (m := P.T + 1) (n := P.ndx) ⟨t * P.ndx + i, blk_lt i.isLt (by omega)⟩ = i := by
      apply Fin.ext
      simp only [Fin.coe_modNat]
      rw [Nat.mul_comm, Nat.mul_add_mod, Nat.mod_eq_of_lt i.isLt]
    rwa [e1, e2] at this
  · rintro ⟨h0, h1, h2, h3⟩
    exact ⟨⟨⟨h0, h1⟩, h0, h2⟩, h0, fun i => h3 _ (by have := (i.divNat).isLt; omega) _⟩

end KKT
end Exact
end Mim
