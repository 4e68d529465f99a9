import Verif.Spec.LQ
import Mathlib.Tactic.Abel

/-!
# The Riccati recursion solves the linear-quadratic problem

Pure linear algebra over an ordered field: the relation `Riccati` between a problem and value functions / gains, and its
consequences (KKT conditions, completing the square).  The solvers' backward passes are shown to satisfy `Riccati`.
-/
set_option linter.unusedSectionVars false
set_option linter.unusedSimpArgs false

namespace Mim
open Matrix Spec

variable {K : Type} [Field K] [LinearOrder K] [IsStrictOrderedRing K] {T n : ℕ} {m : ℕ → ℕ}

/-- value functions `½ x'V_t x + v_t'x` and feedback `u = -G x - k`; `w t = v t + V t c_t` is the gradient after the gap. -/
structure Riccati (Q : LQ K T n m) (V : ℕ → Mat K n n) (v : ℕ → Vec K n) (G : (t : ℕ) → Mat K (m t) n)
    (k : (t : ℕ) → Vec K (m t)) (Quu : (t : ℕ) → Mat K (m t) (m t)) : Prop where
  VT : V T = Q.HT
  vT : v T = Q.gT
  sym : ∀ t, t ≤ T → (V t)ᵀ = V t
  symU : ∀ t, t < T → (Quu t)ᵀ = Quu t
  quu : ∀ t, t < T → Quu t = Q.Huu t + (Q.B t)ᵀ * V (t + 1) * Q.B t
  gain : ∀ t, t < T → Quu t * G t = (Q.Hxu t + (Q.A t)ᵀ * V (t + 1) * Q.B t)ᵀ
  ff : ∀ t, t < T → Quu t *ᵥ k t = Q.gu t + (Q.B t)ᵀ *ᵥ (v (t + 1) + V (t + 1) *ᵥ Q.c (t + 1))
  hess : ∀ t, t < T → V t = Q.Hxx t + (Q.A t)ᵀ * V (t + 1) * Q.A t - (Q.Hxu t + (Q.A t)ᵀ * V (t + 1) * Q.B t) * G t
  grad : ∀ t, t < T → v t = Q.gx t + (Q.A t)ᵀ *ᵥ (v (t + 1) + V (t + 1) *ᵥ Q.c (t + 1)) -
    (G t)ᵀ *ᵥ (Q.gu t + (Q.B t)ᵀ *ᵥ (v (t + 1) + V (t + 1) *ᵥ Q.c (t + 1)))

theorem dot_mulVec_comm {a b : ℕ} (x : Vec K a) (M : Mat K a b) (y : Vec K b) : x ⬝ᵥ (M *ᵥ y) = (Mᵀ *ᵥ x) ⬝ᵥ y := by
  rw [Matrix.dotProduct_mulVec, Matrix.mulVec_transpose]

namespace Riccati
variable {Q : LQ K T n m} {V : ℕ → Mat K n n} {v : ℕ → Vec K n} {G : (t : ℕ) → Mat K (m t) n}
    {k : (t : ℕ) → Vec K (m t)} {Quu : (t : ℕ) → Mat K (m t) (m t)}

/-- `K'Qu = Qxu k`. -/
theorem cross (h : Riccati Q V v G k Quu) {t : ℕ} (ht : t < T) :
    (G t)ᵀ *ᵥ (Q.gu t + (Q.B t)ᵀ *ᵥ (v (t + 1) + V (t + 1) *ᵥ Q.c (t + 1))) =
      (Q.Hxu t + (Q.A t)ᵀ * V (t + 1) * Q.B t) *ᵥ k t := by
  have hg : (Q.Hxu t + (Q.A t)ᵀ * V (t + 1) * Q.B t) = (Quu t * G t)ᵀ := by
    rw [h.gain t ht, Matrix.transpose_transpose]
  rw [← h.ff t ht, hg, Matrix.transpose_mul, h.symU t ht, Matrix.mulVec_mulVec]

/-- the rollout of the feedback law satisfies the KKT conditions with `λ_t = V_t x_t + v_t`. -/
theorem kkt (h : Riccati Q V v G k Quu) {x : ℕ → Vec K n} {u : (t : ℕ) → Vec K (m t)} {lam : ℕ → Vec K n}
    (hd : Q.Dyn x u) (hu : ∀ t, t < T → u t = -(G t *ᵥ x t) - k t) (hl : ∀ t, t ≤ T → lam t = V t *ᵥ x t + v t) :
    Q.KKT x u lam := by
  have hl1 : ∀ t, t < T → lam (t + 1) = V (t + 1) *ᵥ (Q.A t *ᵥ x t + Q.B t *ᵥ u t + Q.c (t + 1)) + v (t + 1) :=
    fun t ht => by rw [hl (t + 1) ht, hd t ht]
  refine ⟨?_, ?_, ?_, hd⟩
  · intro t ht
    rw [hl1 t ht, hl t (by omega), h.hess t ht, h.grad t ht, h.cross ht, hu t ht]
    simp only [Matrix.mulVec_add, Matrix.mulVec_sub, Matrix.add_mulVec, Matrix.sub_mulVec, Matrix.mulVec_neg,
      Matrix.mulVec_mulVec, Matrix.mul_assoc, Matrix.add_mul]
    abel
  · intro t ht
    have hq : (Q.Hxu t)ᵀ + (Q.B t)ᵀ * V (t + 1) * Q.A t = Quu t * G t := by
      rw [h.gain t ht, Matrix.transpose_add, Matrix.transpose_mul, Matrix.transpose_mul, Matrix.transpose_transpose,
        h.sym (t + 1) ht, Matrix.mul_assoc]
    have e : (Q.Hxu t)ᵀ *ᵥ x t + Q.Huu t *ᵥ u t + Q.gu t + (Q.B t)ᵀ *ᵥ lam (t + 1) =
        ((Q.Hxu t)ᵀ + (Q.B t)ᵀ * V (t + 1) * Q.A t) *ᵥ x t + (Q.Huu t + (Q.B t)ᵀ * V (t + 1) * Q.B t) *ᵥ u t +
          (Q.gu t + (Q.B t)ᵀ *ᵥ (v (t + 1) + V (t + 1) *ᵥ Q.c (t + 1))) := by
      rw [hl1 t ht]
      simp only [Matrix.mulVec_add, Matrix.add_mulVec, Matrix.mulVec_mulVec, Matrix.mul_assoc]
      abel
    rw [e, hq, ← h.quu t ht, ← h.ff t ht, hu t ht]
    simp only [Matrix.mulVec_sub, Matrix.mulVec_neg, Matrix.mulVec_mulVec]
    abel
  · rw [hl T le_rfl, h.VT, h.vT]

/-- the constant of the value function. -/
def offset (Q : LQ K T n m) (V : ℕ → Mat K n n) (v : ℕ → Vec K n) (k : (t : ℕ) → Vec K (m t))
    (Quu : (t : ℕ) → Mat K (m t) (m t)) (t : ℕ) : K :=
  (Q.c (t + 1) ⬝ᵥ (V (t + 1) *ᵥ Q.c (t + 1))) / 2 + v (t + 1) ⬝ᵥ Q.c (t + 1) - (k t ⬝ᵥ (Quu t *ᵥ k t)) / 2

/-- one stage of completing the square. -/
theorem stage_sq (h : Riccati Q V v G k Quu) {t : ℕ} (ht : t < T) (x : Vec K n) (u : Vec K (m t)) :
    let x' := Q.A t *ᵥ x + Q.B t *ᵥ u + Q.c (t + 1)
    Q.stageCost t x u + ((x' ⬝ᵥ (V (t + 1) *ᵥ x')) / 2 + v (t + 1) ⬝ᵥ x') =
      ((x ⬝ᵥ (V t *ᵥ x)) / 2 + v t ⬝ᵥ x) +
      ((u + G t *ᵥ x + k t) ⬝ᵥ (Quu t *ᵥ (u + G t *ᵥ x + k t))) / 2 + offset Q V v k Quu t := by
  simp only []
  set W := V (t + 1) with hW
  set A := Q.A t with hA
  set B := Q.B t with hB
  set c := Q.c (t + 1) with hc
  have symW : Wᵀ = W := h.sym (t + 1) ht
  have e1 : Quu t = Q.Huu t + Bᵀ * W * B := h.quu t ht
  have e2 : Quu t * G t = (Q.Hxu t + Aᵀ * W * B)ᵀ := h.gain t ht
  have e3 : Quu t *ᵥ k t = Q.gu t + Bᵀ *ᵥ (v (t + 1) + W *ᵥ c) := h.ff t ht
  have e4 : V t = Q.Hxx t + Aᵀ * W * A - (Q.Hxu t + Aᵀ * W * B) * G t := h.hess t ht
  have e5 : v t = Q.gx t + Aᵀ *ᵥ (v (t + 1) + W *ᵥ c) - (G t)ᵀ *ᵥ (Q.gu t + Bᵀ *ᵥ (v (t + 1) + W *ᵥ c)) := h.grad t ht
  have symU := h.symU t ht
  -- the quadratic form in the square, expanded
  have f1 : ∀ a b : Vec K (m t), a ⬝ᵥ (Quu t *ᵥ b) = b ⬝ᵥ (Quu t *ᵥ a) := by
    intro a b
    rw [dot_mulVec_comm, symU, dotProduct_comm]
  have f2 : ∀ a : Vec K (m t), a ⬝ᵥ (Quu t *ᵥ (G t *ᵥ x)) = x ⬝ᵥ ((Q.Hxu t + Aᵀ * W * B) *ᵥ a) := by
    intro a
    rw [Matrix.mulVec_mulVec, e2, dot_mulVec_comm, Matrix.transpose_transpose, dotProduct_comm]
  have fW : ∀ a b : Vec K n, a ⬝ᵥ (W *ᵥ b) = b ⬝ᵥ (W *ᵥ a) := by
    intro a b
    rw [dot_mulVec_comm, symW, dotProduct_comm]
  have g1 : (u + G t *ᵥ x + k t) ⬝ᵥ (Quu t *ᵥ (u + G t *ᵥ x + k t)) =
      u ⬝ᵥ (Quu t *ᵥ u) + 2 * (x ⬝ᵥ ((Q.Hxu t + Aᵀ * W * B) *ᵥ u)) + x ⬝ᵥ ((Q.Hxu t + Aᵀ * W * B) *ᵥ (G t *ᵥ x)) +
        2 * (u ⬝ᵥ (Quu t *ᵥ k t)) + 2 * ((G t *ᵥ x) ⬝ᵥ (Quu t *ᵥ k t)) + k t ⬝ᵥ (Quu t *ᵥ k t) := by
    simp only [Matrix.mulVec_add, add_dotProduct, dotProduct_add]
    rw [f2 u, f2 (G t *ᵥ x), f1 (G t *ᵥ x) u, f2 u, f1 (k t) u, f1 (k t) (G t *ᵥ x)]
    ring
  rw [g1, e3, e4, e5, e1]
  unfold LQ.stageCost offset
  rw [e3]
  rw [← hW, ← hc]
  have h3 : ∀ (a : Vec K n) , (Aᵀ *ᵥ a) ⬝ᵥ x = a ⬝ᵥ (A *ᵥ x) := fun a => (dot_mulVec_comm a A x).symm
  have h4 : ∀ (a : Vec K n) (b : Vec K (m t)), (Bᵀ *ᵥ a) ⬝ᵥ b = (B *ᵥ b) ⬝ᵥ a := fun a b => by
    rw [← dot_mulVec_comm, dotProduct_comm]
  have h5 : ∀ (a : Vec K (m t)), ((G t)ᵀ *ᵥ a) ⬝ᵥ x = a ⬝ᵥ (G t *ᵥ x) := fun a => (dot_mulVec_comm a (G t) x).symm
  have h6 : ∀ (a b : Vec K n), a ⬝ᵥ (Aᵀ *ᵥ b) = (A *ᵥ a) ⬝ᵥ b := fun a b => by
    rw [dot_mulVec_comm, Matrix.transpose_transpose]
  have h7 : ∀ (a : Vec K (m t)) (b : Vec K n), a ⬝ᵥ (Bᵀ *ᵥ b) = (B *ᵥ a) ⬝ᵥ b := fun a b => by
    rw [dot_mulVec_comm, Matrix.transpose_transpose]
  simp only [Matrix.mulVec_add, Matrix.add_mulVec, Matrix.sub_mulVec, add_dotProduct, dotProduct_add, sub_dotProduct,
    dotProduct_sub, ← Matrix.mulVec_mulVec, h3, h4, h5, h6, h7]
  rw [fW (B *ᵥ u) (A *ᵥ x), fW c (A *ᵥ x), fW c (B *ᵥ u), dotProduct_comm (W *ᵥ c) (A *ᵥ x),
    dotProduct_comm (Q.gu t) u, dotProduct_comm (v (t + 1)) (B *ᵥ u), dotProduct_comm (Q.gu t) (G t *ᵥ x)]
  ring

/-- completing the square over the whole horizon. -/
theorem cost_sq (h : Riccati Q V v G k Quu) {x : ℕ → Vec K n} {u : (t : ℕ) → Vec K (m t)} (hd : Q.Dyn x u) :
    Q.cost x u = (x 0 ⬝ᵥ (V 0 *ᵥ x 0)) / 2 + v 0 ⬝ᵥ x 0 + ∑ t ∈ Finset.range T, offset Q V v k Quu t +
      ∑ t ∈ Finset.range T, ((u t + G t *ᵥ x t + k t) ⬝ᵥ (Quu t *ᵥ (u t + G t *ᵥ x t + k t))) / 2 := by
  have key : ∀ j, j ≤ T → ∑ t ∈ Finset.range j, Q.stageCost t (x t) (u t) +
      ((x j ⬝ᵥ (V j *ᵥ x j)) / 2 + v j ⬝ᵥ x j) =
      (x 0 ⬝ᵥ (V 0 *ᵥ x 0)) / 2 + v 0 ⬝ᵥ x 0 + ∑ t ∈ Finset.range j, offset Q V v k Quu t +
      ∑ t ∈ Finset.range j, ((u t + G t *ᵥ x t + k t) ⬝ᵥ (Quu t *ᵥ (u t + G t *ᵥ x t + k t))) / 2 := by
    intro j
    induction j with
    | zero => intro _; simp
    | succ j ih =>
      intro hj
      have e := h.stage_sq hj (x j) (u j)
      simp only [] at e
      rw [← hd j hj] at e
      have ih' := ih (by omega)
      rw [Finset.sum_range_succ, Finset.sum_range_succ, Finset.sum_range_succ]
      linarith
  have e := key T le_rfl
  rw [h.VT, h.vT] at e
  unfold LQ.cost
  rw [← e]; ring

/-- with positive definite `Quu` the rollout of the feedback law is the unique minimiser among all trajectories with the
same first state. -/
theorem minimal (h : Riccati Q V v G k Quu) (hpd : ∀ t, t < T → PosDef (Quu t))
    {x x' : ℕ → Vec K n} {u u' : (t : ℕ) → Vec K (m t)} (hd : Q.Dyn x u) (hd' : Q.Dyn x' u') (h0 : x' 0 = x 0)
    (hu : ∀ t, t < T → u t = -(G t *ᵥ x t) - k t) :
    Q.cost x u ≤ Q.cost x' u' ∧
    (Q.cost x' u' = Q.cost x u → (∀ t, t < T → u' t = u t) ∧ ∀ t, t ≤ T → x' t = x t) := by
  have hz : ∀ t, t < T → u t + G t *ᵥ x t + k t = 0 := fun t ht => by rw [hu t ht]; abel
  have hs : ∑ t ∈ Finset.range T, ((u t + G t *ᵥ x t + k t) ⬝ᵥ (Quu t *ᵥ (u t + G t *ᵥ x t + k t))) / 2 = 0 :=
    Finset.sum_eq_zero fun t ht => by rw [hz t (Finset.mem_range.mp ht)]; simp
  have hnn : ∀ t ∈ Finset.range T, 0 ≤ ((u' t + G t *ᵥ x' t + k t) ⬝ᵥ (Quu t *ᵥ (u' t + G t *ᵥ x' t + k t))) / 2 := by
    intro t ht
    by_cases e : u' t + G t *ᵥ x' t + k t = 0
    · rw [e]; simp
    · have := hpd t (Finset.mem_range.mp ht) _ e
      linarith
  have c1 := h.cost_sq hd
  have c2 := h.cost_sq hd'
  rw [hs] at c1
  rw [h0] at c2
  refine ⟨?_, ?_⟩
  · have := Finset.sum_nonneg hnn
    rw [c1, c2]; linarith
  · intro e
    rw [c1, c2] at e
    have hsum : ∑ t ∈ Finset.range T, ((u' t + G t *ᵥ x' t + k t) ⬝ᵥ (Quu t *ᵥ (u' t + G t *ᵥ x' t + k t))) / 2 = 0 := by
      linarith
    have hall := (Finset.sum_eq_zero_iff_of_nonneg hnn).mp hsum
    have hu' : ∀ t, t < T → u' t = -(G t *ᵥ x' t) - k t := by
      intro t ht
      have h1 := hall t (Finset.mem_range.mpr ht)
      by_contra hne
      have hne' : u' t + G t *ᵥ x' t + k t ≠ 0 := by
        intro h2
        apply hne
        have : u' t = u' t + G t *ᵥ x' t + k t - G t *ᵥ x' t - k t := by abel
        rw [this, h2]; abel
      have := hpd t ht _ hne'
      linarith
    have hx : ∀ t, t ≤ T → x' t = x t := by
      intro t
      induction t with
      | zero => intro _; exact h0
      | succ t ih =>
        intro ht
        have hxt := ih (by omega)
        rw [hd t ht, hd' t ht, hu t ht, hu' t ht, hxt]
    exact ⟨fun t ht => by rw [hu t ht, hu' t ht, hx t (by omega)], hx⟩

/-- The KKT system has exactly one solution for a given first state, namely the rollout of the feedback law. -/
theorem kkt_unique (h : Riccati Q V v G k Quu) (hpd : ∀ t, t < T → PosDef (Quu t))
    {x : ℕ → Vec K n} {u : (t : ℕ) → Vec K (m t)} {lam : ℕ → Vec K n} (hk : Q.KKT x u lam) :
    (∀ t, t < T → u t = -(G t *ᵥ x t) - k t) ∧ ∀ t, t ≤ T → lam t = V t *ᵥ x t + v t := by
  have hl : ∀ j, j ≤ T → lam (T - j) = V (T - j) *ᵥ x (T - j) + v (T - j) ∧
      ∀ t, T - j ≤ t → t < T → u t = -(G t *ᵥ x t) - k t := by
    intro j
    induction j with
    | zero => intro _; exact ⟨by rw [Nat.sub_zero, ← hk.stat_T, h.VT, h.vT], fun t h1 h2 => by omega⟩
    | succ j ih =>
      intro hj
      obtain ⟨i1, i2⟩ := ih (by omega)
      have ht : T - (j + 1) < T := by omega
      have e : T - j = T - (j + 1) + 1 := by omega
      rw [e] at i1
      generalize T - (j + 1) = t at *
      rw [hk.dyn t ht] at i1
      have hq : (Q.Hxu t)ᵀ + (Q.B t)ᵀ * V (t + 1) * Q.A t = Quu t * G t := by
        rw [h.gain t ht, Matrix.transpose_add, Matrix.transpose_mul, Matrix.transpose_mul, Matrix.transpose_transpose,
          h.sym (t + 1) ht, Matrix.mul_assoc]
      have e1 : (Q.Hxu t)ᵀ *ᵥ x t + Q.Huu t *ᵥ u t + Q.gu t + (Q.B t)ᵀ *ᵥ lam (t + 1) =
          ((Q.Hxu t)ᵀ + (Q.B t)ᵀ * V (t + 1) * Q.A t) *ᵥ x t + (Q.Huu t + (Q.B t)ᵀ * V (t + 1) * Q.B t) *ᵥ u t +
            (Q.gu t + (Q.B t)ᵀ *ᵥ (v (t + 1) + V (t + 1) *ᵥ Q.c (t + 1))) := by
        rw [i1]
        simp only [Matrix.mulVec_add, Matrix.add_mulVec, Matrix.mulVec_mulVec, Matrix.mul_assoc]
        abel
      rw [hk.stat_u t ht, hq, ← h.quu t ht, ← h.ff t ht, ← Matrix.mulVec_mulVec, ← Matrix.mulVec_add,
        ← Matrix.mulVec_add] at e1
      have hz : G t *ᵥ x t + u t + k t = 0 := by
        by_contra hne
        have := hpd t ht _ hne
        rw [← e1] at this
        simp at this
      have hu : u t = -(G t *ᵥ x t) - k t := by
        have : u t = (G t *ᵥ x t + u t + k t) - G t *ᵥ x t - k t := by abel
        rw [this, hz]; abel
      refine ⟨?_, ?_⟩
      · rw [← hk.stat_x t ht, i1, h.hess t ht, h.grad t ht, h.cross ht, hu]
        simp only [Matrix.mulVec_add, Matrix.mulVec_sub, Matrix.add_mulVec, Matrix.sub_mulVec, Matrix.mulVec_neg,
          Matrix.mulVec_mulVec, Matrix.mul_assoc, Matrix.add_mul]
        abel
      · intro t' h1 h2
        by_cases he : t' = t
        · rw [he]; exact hu
        · exact i2 t' (by omega) h2
  refine ⟨?_, ?_⟩
  · intro t ht
    exact (hl T le_rfl).2 t (by omega) ht
  · intro t ht
    have := (hl (T - t) (by omega)).1
    rwa [show T - (T - t) = t by omega] at this

end Riccati
end Mim
