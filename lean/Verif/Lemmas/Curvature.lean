import Verif.Lemmas.BackwardExact
import Verif.Lemmas.RiccatiExist
import Verif.Spec.Curvature
import Mathlib.Tactic.Linarith
import Mathlib.Algebra.Order.BigOperators.Ring.Finset

/-!
# How the regularization changes the curvature
-/
set_option linter.unusedSectionVars false
set_option linter.unusedSimpArgs false

namespace Mim
open Matrix Spec
variable {K : Type} [Field K] [LinearOrder K] [IsStrictOrderedRing K] {P : Problem K}

theorem dot_self_nonneg {n : ℕ} (x : Vec K n) : 0 ≤ x ⬝ᵥ x := Finset.sum_nonneg fun i _ => mul_self_nonneg (x i)

theorem dot_self_pos {n : ℕ} {x : Vec K n} (h : x ≠ 0) : 0 < x ⬝ᵥ x := by
  rcases lt_or_eq_of_le (dot_self_nonneg x) with h' | h'
  · exact h'
  · exfalso
    apply h
    funext i
    have := (Finset.sum_eq_zero_iff_of_nonneg (fun i _ => mul_self_nonneg (x i))).mp h'.symm i (Finset.mem_univ i)
    simpa using this

/-- squared norm of the states and of the controls of a direction. -/
def sqX (T : ℕ) {n : ℕ} (x : ℕ → Vec K n) : K := ∑ t ∈ Finset.range T, x t ⬝ᵥ x t + x T ⬝ᵥ x T
def sqU (T : ℕ) {m : ℕ → ℕ} (u : (t : ℕ) → Vec K (m t)) : K := ∑ t ∈ Finset.range T, u t ⬝ᵥ u t

theorem sqX_nonneg (T : ℕ) {n : ℕ} (x : ℕ → Vec K n) : 0 ≤ sqX T x :=
  add_nonneg (Finset.sum_nonneg fun _ _ => dot_self_nonneg _) (dot_self_nonneg _)

theorem sqU_pos (T : ℕ) {m : ℕ → ℕ} {u : (t : ℕ) → Vec K (m t)} (h : ∃ t, t < T ∧ u t ≠ 0) : 0 < sqU T u := by
  obtain ⟨t, ht, h⟩ := h
  exact Finset.sum_pos' (fun _ _ => dot_self_nonneg _) ⟨t, Finset.mem_range.mpr ht, dot_self_pos h⟩

theorem quad_reg {n : ℕ} (A : Mat K n n) (p : K) (x : Vec K n) : x ⬝ᵥ ((A + p • (1 : Matrix _ _ K)) *ᵥ x) = x ⬝ᵥ (A *ᵥ x) + p * (x ⬝ᵥ x) := by
  rw [Matrix.add_mulVec, dotProduct_add, Matrix.smul_mulVec, Matrix.one_mulVec, dotProduct_smul, smul_eq_mul]

/-- **Regularization adds its value times the squared norm to the curvature.** -/
theorem curv_reg (d : Data P) (fs : ℕ → Vec K P.ndx) (p q : K) (x : ℕ → Vec K P.ndx) (u : (t : ℕ) → Vec K (P.nu t)) :
    (lqOf d fs p q).curv x u = (lqOf d fs 0 0).curv x u + p * sqX P.T x + q * sqU P.T u := by
  unfold LQ.curv sqX sqU
  simp only [lqOf, quad_reg, zero_mul, add_zero]
  rw [mul_add, Finset.mul_sum, Finset.mul_sum]
  have e : ∀ t, x t ⬝ᵥ ((d.rd t).Lxx *ᵥ x t) + p * (x t ⬝ᵥ x t) + 2 * (x t ⬝ᵥ ((d.rd t).Lxu *ᵥ u t)) +
      (u t ⬝ᵥ ((d.rd t).Luu *ᵥ u t) + q * (u t ⬝ᵥ u t)) = (x t ⬝ᵥ ((d.rd t).Lxx *ᵥ x t) + 2 * (x t ⬝ᵥ ((d.rd t).Lxu *ᵥ u t)) +
      u t ⬝ᵥ ((d.rd t).Luu *ᵥ u t)) + p * (x t ⬝ᵥ x t) + q * (u t ⬝ᵥ u t) := fun t => by ring
  simp only [e, Finset.sum_add_distrib]
  ring

theorem direction_reg {d : Data P} {fs fs' : ℕ → Vec K P.ndx} {p q p' q' : K} {x : ℕ → Vec K P.ndx} {u : (t : ℕ) → Vec K (P.nu t)}
    (h : (lqOf d fs p q).Direction x u) : (lqOf d fs' p' q').Direction x u := ⟨h.init, h.step⟩

/-- positive curvature does not depend on the gaps, and more regularization never destroys it. -/
theorem posCurv_mono {d : Data P} {fs fs' : ℕ → Vec K P.ndx} {p q p' q' : K} (hp : p ≤ p') (hq : q ≤ q')
    (h : (lqOf d fs p q).PosCurv) : (lqOf d fs' p' q').PosCurv := by
  intro x u hd hu
  have h1 := h x u (direction_reg hd) hu
  have e : (lqOf d fs p q).curv x u = (lqOf d fs' p q).curv x u := rfl
  rw [e, curv_reg] at h1
  rw [curv_reg]
  have := mul_nonneg (sub_nonneg.mpr hp) (sqX_nonneg P.T x)
  have := mul_nonneg (sub_nonneg.mpr hq) (sqU_pos P.T hu).le
  linarith

/-! ### enough regularization -/

/-- sum of the absolute values of the entries. -/
def absSum {m n : ℕ} (A : Mat K m n) : K := ∑ i, ∑ j, |A i j|

theorem absSum_nonneg {m n : ℕ} (A : Mat K m n) : 0 ≤ absSum A :=
  Finset.sum_nonneg fun _ _ => Finset.sum_nonneg fun _ _ => abs_nonneg _

theorem bilin_bound {m n : ℕ} (A : Mat K m n) (x : Vec K m) (y : Vec K n) :
    -(absSum A * (x ⬝ᵥ x + y ⬝ᵥ y)) ≤ 2 * (x ⬝ᵥ (A *ᵥ y)) := by
  have hx : ∀ i, x i * x i ≤ x ⬝ᵥ x := fun i =>
    Finset.single_le_sum (f := fun i => x i * x i) (fun j _ => mul_self_nonneg (x j)) (Finset.mem_univ i)
  have hy : ∀ i, y i * y i ≤ y ⬝ᵥ y := fun i =>
    Finset.single_le_sum (f := fun i => y i * y i) (fun j _ => mul_self_nonneg (y j)) (Finset.mem_univ i)
  have e1 : 2 * (x ⬝ᵥ (A *ᵥ y)) = ∑ i, ∑ j, 2 * (x i * (A i j * y j)) := by
    simp only [dotProduct, Matrix.mulVec, Finset.mul_sum]
  have e2 : -(absSum A * (x ⬝ᵥ x + y ⬝ᵥ y)) = ∑ i, ∑ j, -(|A i j| * (x ⬝ᵥ x + y ⬝ᵥ y)) := by
    unfold absSum
    rw [Finset.sum_mul, ← Finset.sum_neg_distrib]
    refine Finset.sum_congr rfl fun i _ => ?_
    rw [Finset.sum_mul, ← Finset.sum_neg_distrib]
  rw [e1, e2]
  refine Finset.sum_le_sum fun i _ => Finset.sum_le_sum fun j _ => ?_
  have h1 := hx i
  have h2 := hy j
  have h3 : -(|A i j| * (x i * x i + y j * y j)) ≤ 2 * (x i * (A i j * y j)) := by
    rcases abs_cases (A i j) with ⟨e, h⟩ | ⟨e, h⟩
    · rw [e]; nlinarith [mul_nonneg h (mul_self_nonneg (x i + y j))]
    · rw [e]; nlinarith [mul_nonneg (neg_nonneg.mpr h.le) (mul_self_nonneg (x i - y j))]
  have h4 := mul_le_mul_of_nonneg_left (add_le_add h1 h2) (abs_nonneg (A i j))
  linarith

/-- **the bound**: sums of the absolute values of the Hessian blocks. -/
def hessSum (d : Data P) : K :=
  ∑ t ∈ Finset.range P.T, (absSum (d.rd t).Lxx + absSum (d.rd t).Lxu + absSum (d.rd t).Luu) + absSum d.td.Lxx

theorem hessSum_nonneg (d : Data P) : 0 ≤ hessSum d :=
  add_nonneg (Finset.sum_nonneg fun _ _ => add_nonneg (add_nonneg (absSum_nonneg _) (absSum_nonneg _)) (absSum_nonneg _)) (absSum_nonneg _)

theorem curv_lower (d : Data P) (fs : ℕ → Vec K P.ndx) (x : ℕ → Vec K P.ndx) (u : (t : ℕ) → Vec K (P.nu t)) :
    -(hessSum d * (sqX P.T x + sqU P.T u)) ≤ (lqOf d fs 0 0).curv x u := by
  have hS : ∀ t, t ∈ Finset.range P.T → absSum (d.rd t).Lxx + absSum (d.rd t).Lxu + absSum (d.rd t).Luu ≤ hessSum d := by
    intro t ht
    have := Finset.single_le_sum (f := fun t => absSum (d.rd t).Lxx + absSum (d.rd t).Lxu + absSum (d.rd t).Luu)
      (fun t _ => add_nonneg (add_nonneg (absSum_nonneg _) (absSum_nonneg _)) (absSum_nonneg _)) ht
    unfold hessSum
    linarith [absSum_nonneg d.td.Lxx]
  have hT : absSum d.td.Lxx ≤ hessSum d := by
    unfold hessSum
    have := Finset.sum_nonneg (s := Finset.range P.T) (f := fun t => absSum (d.rd t).Lxx + absSum (d.rd t).Lxu + absSum (d.rd t).Luu)
      (fun t _ => add_nonneg (add_nonneg (absSum_nonneg _) (absSum_nonneg _)) (absSum_nonneg _))
    linarith
  have e : -(hessSum d * (sqX P.T x + sqU P.T u)) = ∑ t ∈ Finset.range P.T, -(hessSum d * (x t ⬝ᵥ x t + u t ⬝ᵥ u t)) +
      -(hessSum d * (x P.T ⬝ᵥ x P.T)) := by
    unfold sqX sqU
    rw [Finset.sum_neg_distrib, ← Finset.mul_sum, Finset.sum_add_distrib]
    ring
  rw [e]
  unfold LQ.curv
  simp only [lqOf, quad_reg, zero_mul, add_zero]
  refine add_le_add (Finset.sum_le_sum fun t ht => ?_) ?_
  · have h1 := bilin_bound (d.rd t).Lxx (x t) (x t)
    have h2 := bilin_bound (d.rd t).Lxu (x t) (u t)
    have h3 := bilin_bound (d.rd t).Luu (u t) (u t)
    have hx := dot_self_nonneg (x t)
    have hu := dot_self_nonneg (u t)
    have h4 := mul_le_mul_of_nonneg_right (hS t ht) (add_nonneg hx hu)
    have h5 := mul_nonneg (absSum_nonneg (d.rd t).Lxx) hu
    have h6 := mul_nonneg (absSum_nonneg (d.rd t).Luu) hx
    linarith
  · have h1 := bilin_bound d.td.Lxx (x P.T) (x P.T)
    have hx := dot_self_nonneg (x P.T)
    have h4 := mul_le_mul_of_nonneg_right hT hx
    linarith

/-- **Enough regularization gives positive curvature.** -/
theorem posCurv_of_large {d : Data P} {fs : ℕ → Vec K P.ndx} {p q : K} (hp : hessSum d ≤ p) (hq : hessSum d < q) :
    (lqOf d fs p q).PosCurv := by
  intro x u _ hu
  rw [curv_reg]
  have := curv_lower d fs x u
  have := mul_nonneg (sub_nonneg.mpr hp) (sqX_nonneg P.T x)
  have := mul_pos (sub_pos.mpr hq) (sqU_pos P.T hu)
  linarith

/-! ### convex problems -/

/-- convexity of the costs as evaluated in `d`. -/
theorem posCurv_of_convexData {d : Data P} {fs : ℕ → Vec K P.ndx} {p q : K} (hp : 0 ≤ p) (hq : 0 ≤ q)
    (stage : ∀ t, t < P.T → ∀ (x : Vec K P.ndx) (u : Vec K (P.nu t)),
      0 ≤ x ⬝ᵥ ((d.rd t).Lxx *ᵥ x) + 2 * (x ⬝ᵥ ((d.rd t).Lxu *ᵥ u)) + u ⬝ᵥ ((d.rd t).Luu *ᵥ u))
    (term : ∀ x : Vec K P.ndx, 0 ≤ x ⬝ᵥ (d.td.Lxx *ᵥ x))
    (ctrl : (∀ t, t < P.T → PosDef (d.rd t).Luu) ∨ 0 < q) : (lqOf d fs p q).PosCurv := by
  apply LQ.ConvexCosts.posCurv
  refine ⟨fun t ht x u => ?_, fun x => ?_, fun t ht => ?_⟩
  · simp only [lqOf, quad_reg]
    have := stage t ht x u
    have := mul_nonneg hp (dot_self_nonneg x)
    have := mul_nonneg hq (dot_self_nonneg u)
    linarith
  · simp only [lqOf, quad_reg]
    have := term x
    have := mul_nonneg hp (dot_self_nonneg x)
    linarith
  · intro u hu
    simp only [lqOf, quad_reg]
    rcases ctrl with h | h
    · have := h t ht u hu
      have := mul_nonneg hq (dot_self_nonneg u)
      linarith
    · have h0 := stage t ht 0 u
      simp only [zero_dotProduct, mul_zero, zero_add] at h0
      have := mul_pos h (dot_self_pos hu)
      linarith

end Mim
