import Verif.Lemmas.Riccati
import Verif.Spec.Curvature
import Mathlib.LinearAlgebra.Matrix.NonsingularInverse
import Mathlib.LinearAlgebra.Matrix.ToLin
import Mathlib.Algebra.BigOperators.Fin
import Mathlib.Algebra.BigOperators.Field

/-!
# When the Riccati recursion exists

It exists, with positive definite `Quu`, exactly if the problem has positive curvature along its directions.
-/
set_option linter.unusedSectionVars false
set_option linter.unusedSimpArgs false

namespace Mim
open Matrix Spec

variable {K : Type} [Field K] [LinearOrder K] [IsStrictOrderedRing K] {T n : ℕ} {m : ℕ → ℕ}

namespace Spec.LQ

/-- the problem without linear terms and gaps. -/
def hom (Q : LQ K T n m) : LQ K T n m := { Q with gx := 0, gu := fun _ => 0, c := 0, gT := 0 }

theorem hom_cost (Q : LQ K T n m) (x : ℕ → Vec K n) (u : (t : ℕ) → Vec K (m t)) : Q.hom.cost x u = Q.curv x u / 2 := by
  unfold cost curv stageCost hom
  simp only [Pi.zero_apply, zero_dotProduct, add_zero]
  rw [add_div, Finset.sum_div]
  congr 1
  refine Finset.sum_congr rfl fun t _ => ?_
  ring

/-- the problem without its first stage. -/
def tail (Q : LQ K (T + 1) n m) : LQ K T n (fun t => m (t + 1)) where
  Hxx t := Q.Hxx (t + 1)
  Hxu t := Q.Hxu (t + 1)
  Huu t := Q.Huu (t + 1)
  gx t := Q.gx (t + 1)
  gu t := Q.gu (t + 1)
  A t := Q.A (t + 1)
  B t := Q.B (t + 1)
  c t := Q.c (t + 1)
  HT := Q.HT
  gT := Q.gT

theorem curv_tail (Q : LQ K (T + 1) n m) (x : ℕ → Vec K n) (u : (t : ℕ) → Vec K (m t)) :
    Q.curv x u = (x 0 ⬝ᵥ (Q.Hxx 0 *ᵥ x 0) + 2 * (x 0 ⬝ᵥ (Q.Hxu 0 *ᵥ u 0)) + u 0 ⬝ᵥ (Q.Huu 0 *ᵥ u 0)) +
      Q.tail.curv (fun t => x (t + 1)) (fun t => u (t + 1)) := by
  unfold curv
  rw [Finset.sum_range_succ']
  simp only [tail]
  ring

theorem PosCurv.tail {Q : LQ K (T + 1) n m} (h : Q.PosCurv) : Q.tail.PosCurv := by
  intro x u hd ⟨t, ht, hu⟩
  let x' : ℕ → Vec K n := fun t => match t with | 0 => 0 | t + 1 => x t
  let u' : (t : ℕ) → Vec K (m t) := fun t => match t with | 0 => 0 | t + 1 => u t
  have hd' : Q.Direction x' u' := by
    refine ⟨rfl, fun t ht => ?_⟩
    cases t with
    | zero => change x 0 = Q.A 0 *ᵥ 0 + Q.B 0 *ᵥ 0; rw [hd.init]; simp
    | succ t => exact hd.step t (by omega)
  have h1 := h x' u' hd' ⟨t + 1, by omega, hu⟩
  rw [curv_tail] at h1
  have e : (0 : Vec K n) ⬝ᵥ (Q.Hxx 0 *ᵥ 0) + 2 * ((0 : Vec K n) ⬝ᵥ (Q.Hxu 0 *ᵥ 0)) + (0 : Vec K (m 0)) ⬝ᵥ (Q.Huu 0 *ᵥ 0) = 0 := by simp
  have h2 : 0 < (0 : Vec K n) ⬝ᵥ (Q.Hxx 0 *ᵥ 0) + 2 * ((0 : Vec K n) ⬝ᵥ (Q.Hxu 0 *ᵥ 0)) + (0 : Vec K (m 0)) ⬝ᵥ (Q.Huu 0 *ᵥ 0) +
    Q.tail.curv x u := h1
  rw [e, zero_add] at h2
  exact h2

end Spec.LQ

/-- a positive definite matrix is invertible. -/
theorem posDef_isUnit {n : ℕ} {A : Mat K n n} (h : PosDef A) : IsUnit A := by
  rw [← Matrix.mulVec_injective_iff_isUnit]
  intro x y hxy
  by_contra hne
  have h1 := h (x - y) (sub_ne_zero.mpr hne)
  rw [Matrix.mulVec_sub, show A *ᵥ x = A *ᵥ y from hxy, sub_self, dotProduct_zero] at h1
  exact lt_irrefl _ h1

namespace Riccati
variable {Q : LQ K T n m} {V : ℕ → Mat K n n} {v : ℕ → Vec K n} {G : (t : ℕ) → Mat K (m t) n}
    {k : (t : ℕ) → Vec K (m t)} {Quu : (t : ℕ) → Mat K (m t) (m t)}

theorem hom (h : Riccati Q V v G k Quu) : Riccati Q.hom V 0 G (fun _ => 0) Quu where
  VT := h.VT
  vT := rfl
  sym := h.sym
  symU := h.symU
  quu := h.quu
  gain := h.gain
  ff t _ := by simp [LQ.hom]
  hess := h.hess
  grad t _ := by simp [LQ.hom]

/-- the curvature along a homogeneous trajectory, from any first state. -/
theorem curv (h : Riccati Q V v G k Quu) {x : ℕ → Vec K n} {u : (t : ℕ) → Vec K (m t)}
    (hd : ∀ t, t < T → x (t + 1) = Q.A t *ᵥ x t + Q.B t *ᵥ u t) :
    Q.curv x u = x 0 ⬝ᵥ (V 0 *ᵥ x 0) + ∑ t ∈ Finset.range T, (u t + G t *ᵥ x t) ⬝ᵥ (Quu t *ᵥ (u t + G t *ᵥ x t)) := by
  have e := h.hom.cost_sq (x := x) (u := u) (fun t ht => by rw [hd t ht]; simp [LQ.hom])
  rw [LQ.hom_cost] at e
  have ho : ∑ t ∈ Finset.range T, offset Q.hom V 0 (fun _ => 0) Quu t = 0 :=
    Finset.sum_eq_zero fun t _ => by simp [offset, LQ.hom]
  rw [ho] at e
  simp only [Pi.zero_apply, zero_dotProduct, add_zero] at e
  rw [← Finset.sum_div] at e
  linarith

/-- the recursion with positive definite `Quu` proves positive curvature. -/
theorem posCurv (h : Riccati Q V v G k Quu) (hpd : ∀ t, t < T → PosDef (Quu t)) : Q.PosCurv := by
  intro x u hd ⟨t, ht, hu⟩
  rw [h.curv hd.step, hd.init]
  simp only [zero_dotProduct, zero_add]
  have hnn : ∀ s ∈ Finset.range T, 0 ≤ (u s + G s *ᵥ x s) ⬝ᵥ (Quu s *ᵥ (u s + G s *ᵥ x s)) := by
    intro s hs
    by_cases h0 : u s + G s *ᵥ x s = 0
    · rw [h0]; simp
    · exact (hpd s (Finset.mem_range.mp hs) _ h0).le
  rcases (Finset.sum_nonneg hnn).lt_or_eq with h1 | h1
  · exact h1
  · exfalso
    have h2 := (Finset.sum_eq_zero_iff_of_nonneg hnn).mp h1.symm
    have h3 : ∀ s, s < T → u s + G s *ᵥ x s = 0 := by
      intro s hs
      by_contra h4
      have := hpd s hs _ h4
      rw [h2 s (Finset.mem_range.mpr hs)] at this
      exact lt_irrefl _ this
    have h4 : ∀ s, s ≤ T → x s = 0 := by
      intro s
      induction s with
      | zero => intro _; exact hd.init
      | succ s ih =>
        intro hs
        have e1 := ih (by omega)
        have e2 := h3 s (by omega)
        rw [e1, Matrix.mulVec_zero, add_zero] at e2
        rw [hd.step s (by omega), e1, e2]; simp
    have e2 := h3 t ht
    rw [h4 t ht.le, Matrix.mulVec_zero, add_zero] at e2
    exact hu e2

/-- two solutions of the recursion agree. -/
theorem unique (h : Riccati Q V v G k Quu) (hpd : ∀ t, t < T → PosDef (Quu t))
    {V' : ℕ → Mat K n n} {v' : ℕ → Vec K n} {G' : (t : ℕ) → Mat K (m t) n} {k' : (t : ℕ) → Vec K (m t)}
    {Quu' : (t : ℕ) → Mat K (m t) (m t)} (h' : Riccati Q V' v' G' k' Quu') :
    ∀ j, j ≤ T → V (T - j) = V' (T - j) ∧ v (T - j) = v' (T - j) := by
  intro j
  induction j with
  | zero => intro _; rw [Nat.sub_zero, h.VT, h.vT, h'.VT, h'.vT]; exact ⟨rfl, rfl⟩
  | succ j ih =>
    intro hj
    obtain ⟨e1, e2⟩ := ih (by omega)
    have hs : T - j = T - (j + 1) + 1 := by omega
    have ht : T - (j + 1) < T := by omega
    rw [hs] at e1 e2
    generalize T - (j + 1) = t at *
    have e3 : Quu t = Quu' t := by rw [h.quu t ht, h'.quu t ht, e1]
    have e4 : G t = G' t := by
      have e : Quu t * G t = Quu t * G' t := by rw [h.gain t ht, e3, h'.gain t ht, e1]
      have hu := (Matrix.isUnit_iff_isUnit_det (Quu t)).mp (posDef_isUnit (hpd t ht))
      rw [← Matrix.one_mul (G t), ← Matrix.nonsing_inv_mul (Quu t) hu, Matrix.mul_assoc, e, ← Matrix.mul_assoc,
        Matrix.nonsing_inv_mul (Quu t) hu, Matrix.one_mul]
    exact ⟨by rw [h.hess t ht, h'.hess t ht, e1, e4], by rw [h.grad t ht, h'.grad t ht, e1, e2, e4]⟩

end Riccati

/-- **Existence.**  A symmetric problem with positive curvature along its directions has a Riccati recursion with positive definite
`Quu`. -/
theorem exists_riccati : ∀ (T : ℕ) {m : ℕ → ℕ} (Q : LQ K T n m), Q.Sym → Q.PosCurv →
    ∃ V v G k Quu, Riccati Q V v G k Quu ∧ ∀ t, t < T → PosDef (Quu t)
  | 0, m, Q, hs, hc =>
    ⟨fun _ => Q.HT, fun _ => Q.gT, fun _ => 0, fun _ => 0, fun _ => 0,
      ⟨rfl, rfl, fun _ _ => hs.T, fun t ht => absurd ht (by omega), fun t ht => absurd ht (by omega), fun t ht => absurd ht (by omega),
        fun t ht => absurd ht (by omega), fun t ht => absurd ht (by omega), fun t ht => absurd ht (by omega)⟩,
      fun t ht => absurd ht (by omega)⟩
  | T + 1, m, Q, hs, hc => by
    obtain ⟨V, v, G, k, Quu, h, hpd⟩ := exists_riccati T Q.tail
      ⟨fun t ht => hs.xx (t + 1) (by omega), fun t ht => hs.uu (t + 1) (by omega), hs.T⟩ hc.tail
    have sV : (V 0)ᵀ = V 0 := h.sym 0 (Nat.zero_le _)
    let U : Mat K (m 0) (m 0) := Q.Huu 0 + (Q.B 0)ᵀ * V 0 * Q.B 0
    have sU : Uᵀ = U := by
      simp only [U, Matrix.transpose_add, Matrix.transpose_mul, Matrix.transpose_transpose, hs.uu 0 (by omega), sV, Matrix.mul_assoc]
    have pU : PosDef U := by
      intro w hw
      -- the trajectory that applies `w` first and the optimal feedback afterwards
      let xt : ℕ → Vec K n := Nat.rec (Q.B 0 *ᵥ w) fun t y => Q.tail.A t *ᵥ y + Q.tail.B t *ᵥ (-(G t *ᵥ y))
      let x : ℕ → Vec K n := fun t => match t with | 0 => 0 | t + 1 => xt t
      let u : (t : ℕ) → Vec K (m t) := fun t => match t with | 0 => w | t + 1 => -(G t *ᵥ xt t)
      have hd : Q.Direction x u := by
        refine ⟨rfl, fun t ht => ?_⟩
        cases t with
        | zero => change Q.B 0 *ᵥ w = Q.A 0 *ᵥ 0 + Q.B 0 *ᵥ w; simp
        | succ t => rfl
      have h1 := hc x u hd ⟨0, by omega, hw⟩
      have h2 : Q.tail.curv (fun t => x (t + 1)) (fun t => u (t + 1)) = (Q.B 0 *ᵥ w) ⬝ᵥ (V 0 *ᵥ (Q.B 0 *ᵥ w)) := by
        rw [h.curv (fun t ht => hd.step (t + 1) (by omega))]
        rw [Finset.sum_eq_zero, add_zero]
        intro t _
        have : u (t + 1) + G t *ᵥ x (t + 1) = 0 := neg_add_cancel _
        rw [this]; simp
      rw [LQ.curv_tail, h2] at h1
      have e0 : x 0 = 0 := rfl
      have e1 : u 0 = w := rfl
      rw [e0, e1] at h1
      simp only [zero_dotProduct, mul_zero, zero_add] at h1
      have e2 : w ⬝ᵥ (U *ᵥ w) = w ⬝ᵥ (Q.Huu 0 *ᵥ w) + (Q.B 0 *ᵥ w) ⬝ᵥ (V 0 *ᵥ (Q.B 0 *ᵥ w)) := by
        simp only [U, Matrix.add_mulVec, dotProduct_add, ← Matrix.mulVec_mulVec]
        rw [dot_mulVec_comm w (Q.B 0)ᵀ, Matrix.transpose_transpose]
      rw [e2]; exact h1
    have hinv : ∀ {j : ℕ} (B : Mat K (m 0) j), U * (U⁻¹ * B) = B := fun B => by
      rw [← Matrix.mul_assoc, Matrix.mul_nonsing_inv U ((Matrix.isUnit_iff_isUnit_det U).mp (posDef_isUnit pU)), Matrix.one_mul]
    let X : Mat K n (m 0) := Q.Hxu 0 + (Q.A 0)ᵀ * V 0 * Q.B 0
    let G0 : Mat K (m 0) n := U⁻¹ * Xᵀ
    let w1 : Vec K n := v 0 + V 0 *ᵥ Q.c 1
    let k0 : Vec K (m 0) := U⁻¹ *ᵥ (Q.gu 0 + (Q.B 0)ᵀ *ᵥ w1)
    have eG : U * G0 = Xᵀ := hinv _
    have ek : U *ᵥ k0 = Q.gu 0 + (Q.B 0)ᵀ *ᵥ w1 := by
      simp only [k0]
      rw [Matrix.mulVec_mulVec, Matrix.mul_nonsing_inv U ((Matrix.isUnit_iff_isUnit_det U).mp (posDef_isUnit pU)), Matrix.one_mulVec]
    let V0 : Mat K n n := Q.Hxx 0 + (Q.A 0)ᵀ * V 0 * Q.A 0 - X * G0
    have sV0 : V0ᵀ = V0 := by
      have e : X * G0 = (U * G0)ᵀ * G0 := by rw [eG, Matrix.transpose_transpose]
      simp only [V0]
      rw [e]
      simp only [Matrix.transpose_sub, Matrix.transpose_add, Matrix.transpose_mul, Matrix.transpose_transpose, hs.xx 0 (by omega), sV, sU,
        Matrix.mul_assoc]
    refine ⟨fun t => match t with | 0 => V0 | t + 1 => V t,
      fun t => match t with
        | 0 => Q.gx 0 + (Q.A 0)ᵀ *ᵥ w1 - G0ᵀ *ᵥ (Q.gu 0 + (Q.B 0)ᵀ *ᵥ w1)
        | t + 1 => v t,
      fun t => match t with | 0 => G0 | t + 1 => G t, fun t => match t with | 0 => k0 | t + 1 => k t,
      fun t => match t with | 0 => U | t + 1 => Quu t, ⟨h.VT, h.vT, ?_, ?_, ?_, ?_, ?_, ?_, ?_⟩, ?_⟩
    · intro t ht; cases t with
      | zero => exact sV0
      | succ t => exact h.sym t (by omega)
    · intro t ht; cases t with
      | zero => exact sU
      | succ t => exact h.symU t (by omega)
    · intro t ht; cases t with
      | zero => rfl
      | succ t => exact h.quu t (by omega)
    · intro t ht; cases t with
      | zero => exact eG
      | succ t => exact h.gain t (by omega)
    · intro t ht; cases t with
      | zero => exact ek
      | succ t => exact h.ff t (by omega)
    · intro t ht; cases t with
      | zero => rfl
      | succ t => exact h.hess t (by omega)
    · intro t ht; cases t with
      | zero => rfl
      | succ t => exact h.grad t (by omega)
    · intro t ht; cases t with
      | zero => exact pU
      | succ t => exact hpd t (by omega)

/-- Convex costs that are strictly convex in the controls have positive curvature. -/
theorem Spec.LQ.ConvexCosts.posCurv {Q : LQ K T n m} (h : Q.ConvexCosts) : Q.PosCurv := by
  intro x u hd hu
  classical
  -- the first time with a nonzero control: the state is still zero there
  have hu' : ∃ t, t < T ∧ u t ≠ 0 := hu
  obtain ⟨h1, h2⟩ := Nat.find_spec hu'
  have hmin : ∀ s, s < Nat.find hu' → u s = 0 := by
    intro s hs
    by_contra hne
    exact Nat.find_min hu' hs ⟨hs.trans h1, hne⟩
  generalize Nat.find hu' = t at *
  have hx : ∀ s, s ≤ t → x s = 0 := by
    intro s
    induction s with
    | zero => intro _; exact hd.init
    | succ s ih => intro hs; rw [hd.step s (by omega), ih (by omega), hmin s (by omega)]; simp
  unfold LQ.curv
  have hpos : 0 < ∑ t ∈ Finset.range T, (x t ⬝ᵥ (Q.Hxx t *ᵥ x t) + 2 * (x t ⬝ᵥ (Q.Hxu t *ᵥ u t)) + u t ⬝ᵥ (Q.Huu t *ᵥ u t)) := by
    refine Finset.sum_pos' (fun s hs => h.stage s (Finset.mem_range.mp hs) _ _) ⟨t, Finset.mem_range.mpr h1, ?_⟩
    rw [hx t le_rfl]
    simp only [zero_dotProduct, mul_zero, zero_add]
    exact h.ctrl t h1 _ h2
  have := h.term (x T)
  linarith

end Mim
