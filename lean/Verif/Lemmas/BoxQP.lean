import Verif.Spec.BoxQP
import Verif.Lemmas.Fejer

/-!
# Facts about dense QPs and one ADMM iteration on them
-/
set_option linter.unusedSectionVars false
set_option linter.unusedSimpArgs false

namespace Mim
open QP Spec Matrix
variable {K : Type} [Field K] [LinearOrder K] [IsStrictOrderedRing K] {n e m : ℕ}

theorem npClip_exact (l u : Option K) (v : K) : npClip l u v =
    (let a := match l with | none => v | some l => max v l
     match u with | none => a | some u => min a u) := by
  unfold npClip
  cases l <;> cases u <;> simp

/-- what clipping does: the result is within the bounds, and the clipped-off part points out of them. -/
theorem npClip_spec {l u : Option K} (hb : ∀ a b, l = some a → u = some b → a ≤ b) (v : K) :
    ((∀ a, l = some a → a ≤ npClip l u v) ∧ ∀ b, u = some b → npClip l u v ≤ b) ∧
    (npClip l u v < v → u = some (npClip l u v)) ∧ (v < npClip l u v → l = some (npClip l u v)) := by
  rw [npClip_exact]
  cases l with
  | none =>
    cases u with
    | none => simp
    | some b =>
      refine ⟨⟨by simp, by simp⟩, fun h => ?_, fun h => ?_⟩
      · simp only [min_lt_iff, lt_self_iff_false, false_or] at h
        simp [h.le]
      · simp at h
  | some a =>
    cases u with
    | none =>
      refine ⟨⟨by simp, by simp⟩, fun h => ?_, fun h => ?_⟩
      · simp at h
      · simp only [lt_max_iff, lt_self_iff_false, false_or] at h
        simp [h.le]
    | some b =>
      have hab := hb a b rfl rfl
      refine ⟨⟨?_, ?_⟩, fun h => ?_, fun h => ?_⟩
      · rintro a' ⟨⟩; simp [hab]
      · rintro b' ⟨⟩; simp
      · simp only [min_lt_iff, max_lt_iff, lt_self_iff_false, false_and, false_or] at h
        simp only [Option.some.injEq]
        exact (min_eq_right (h.le.trans (le_max_left _ _))).symm
      · simp only [lt_min_iff, lt_max_iff, lt_self_iff_false, false_or] at h
        simp only [Option.some.injEq]
        rw [max_eq_right h.1.le, min_eq_left hab]

/-- a number is the clip of `v` iff it is within the bounds and the difference points out of them. -/
theorem npClip_unique {l u : Option K} (hb : ∀ a b, l = some a → u = some b → a ≤ b) {v z : K}
    (h1 : ∀ a, l = some a → a ≤ z) (h2 : ∀ b, u = some b → z ≤ b) (h3 : z < v → u = some z) (h4 : v < z → l = some z) :
    npClip l u v = z := by
  obtain ⟨⟨a1, a2⟩, a3, a4⟩ := npClip_spec hb v
  rcases lt_trichotomy (npClip l u v) z with h | h | h
  · rcases lt_or_ge v z with h5 | h5
    · exact absurd (a1 z (h4 h5)) (not_le.mpr h)
    · exact absurd (h2 _ (a3 (lt_of_lt_of_le h h5))) (not_le.mpr h)
  · exact h
  · rcases lt_or_ge z v with h5 | h5
    · exact absurd (a2 z (h3 h5)) (not_le.mpr h)
    · exact absurd (h1 _ (a4 (lt_of_le_of_lt h5 h))) (not_le.mpr h)

/-- the update of `z` and `y` of both QP solvers. -/
theorem clip_split {l u : Fin m → Option K} (hb : BoxOK l u) {rho w y : Vec K m} (hr : ∀ i, 0 < rho i) :
    InBox l u (fun i => npClip (l i) (u i) (w i + y i / rho i)) ∧
    NormalCone l u (fun i => npClip (l i) (u i) (w i + y i / rho i))
      (y + rho * (w - fun i => npClip (l i) (u i) (w i + y i / rho i))) := by
  have e : ∀ i, (y + rho * (w - fun i => npClip (l i) (u i) (w i + y i / rho i))) i =
      rho i * (w i + y i / rho i - npClip (l i) (u i) (w i + y i / rho i)) := by
    intro i
    have := (hr i).ne'
    simp only [Pi.add_apply, Pi.mul_apply, Pi.sub_apply]
    generalize npClip (l i) (u i) (w i + y i / rho i) = a
    field_simp
    ring
  refine ⟨fun i => (npClip_spec (hb i) _).1, fun i => ?_⟩
  rw [e]
  obtain ⟨-, h1, h2⟩ := npClip_spec (hb i) (w i + y i / rho i)
  refine ⟨fun h => h1 ?_, fun h => h2 ?_⟩
  · have := (mul_pos_iff_of_pos_left (hr i)).mp h
    linarith
  · have := (mul_neg_iff.mp h).resolve_right (fun h => absurd h.1 (not_lt.mpr (hr i).le))
    linarith [this.2]

/-- clipping leaves a point of the box with a multiplier of its normal cone where it is. -/
theorem clip_fixed {l u : Fin m → Option K} (hb : BoxOK l u) {rho z y : Vec K m} (hr : ∀ i, 0 < rho i) (h : InBox l u z)
    (hc : NormalCone l u z y) (i : Fin m) : npClip (l i) (u i) (z i + y i / rho i) = z i := by
  refine npClip_unique (hb i) (h i).1 (h i).2 (fun h => (hc i).1 ?_) (fun h => (hc i).2 ?_)
  · have h : 0 < y i / rho i := by linarith
    exact (div_pos_iff_of_pos_right (hr i)).mp h
  · have h : y i / rho i < 0 := by linarith
    exact (div_neg_iff.mp h).resolve_left (fun h => absurd h.2 (not_lt.mpr (hr i).le)) |>.1

theorem psd_symm {M : Mat K n n} (h : PSD M) (v w : Vec K n) : v ⬝ᵥ (M *ᵥ w) = w ⬝ᵥ (M *ᵥ v) := by
  rw [dotProduct_mulVec, ← mulVec_transpose, h.1, dotProduct_comm]

/-- second-order expansion of the objective. -/
theorem boxObj_sub {D : OQP K n m} (hP : PSD D.P) (x w : Vec K n) :
    boxObj D w - boxObj D x = (D.P *ᵥ x + D.q) ⬝ᵥ (w - x) + ((w - x) ⬝ᵥ (D.P *ᵥ (w - x))) / 2 := by
  unfold boxObj
  have := psd_symm hP w x
  have e : (D.P *ᵥ x) ⬝ᵥ w = w ⬝ᵥ (D.P *ᵥ x) := dotProduct_comm _ _
  have e' : (D.P *ᵥ x) ⬝ᵥ x = x ⬝ᵥ (D.P *ᵥ x) := dotProduct_comm _ _
  simp only [mulVec_sub, sub_dotProduct, dotProduct_sub, add_dotProduct, e, e', this]
  ring

theorem dot_abs_le (a b : Vec K n) (c : K) (h : ∀ i, |a i| ≤ c) : |a ⬝ᵥ b| ≤ c * ∑ i, |b i| := by
  unfold dotProduct
  refine (Finset.abs_sum_le_sum_abs _ _).trans ?_
  rw [Finset.mul_sum]
  refine Finset.sum_le_sum fun i _ => ?_
  rw [abs_mul]
  exact mul_le_mul_of_nonneg_right (h i) (abs_nonneg _)

/-- how far from optimal a point with small residuals is. -/
theorem box_subopt {D : OQP K n m} (hP : PSD D.P) {x w : Vec K n} {z y : Vec K m}
    (hc : NormalCone D.l D.u z y) {ep ed : K} (hp : ∀ i, |(D.A *ᵥ x - z) i| ≤ ep)
    (hd : ∀ i, |(D.P *ᵥ x + D.q + D.Aᵀ *ᵥ y) i| ≤ ed) (hw : InBox D.l D.u (D.A *ᵥ w)) :
    boxObj D x - boxObj D w ≤ ed * (∑ i, |(x - w) i|) + ep * ∑ i, |y i| := by
  have h1 := boxObj_sub hP x w
  have h2 := hP.2 (w - x)
  have h3 := cone_dot hc hw
  have h4 := dot_abs_le _ (x - w) ed hd
  have h5 := dot_abs_le _ y ep hp
  have e : (D.P *ᵥ x + D.q) ⬝ᵥ (w - x) = -((D.P *ᵥ x + D.q + D.Aᵀ *ᵥ y) ⬝ᵥ (x - w)) - y ⬝ᵥ (D.A *ᵥ w - z) + (D.A *ᵥ x - z) ⬝ᵥ y := by
    have a1 : (D.Aᵀ *ᵥ y) ⬝ᵥ x = y ⬝ᵥ (D.A *ᵥ x) := by rw [mulVec_transpose, ← dotProduct_mulVec]
    have a2 : (D.Aᵀ *ᵥ y) ⬝ᵥ w = y ⬝ᵥ (D.A *ᵥ w) := by rw [mulVec_transpose, ← dotProduct_mulVec]
    have a3 : (D.A *ᵥ x) ⬝ᵥ y = y ⬝ᵥ (D.A *ᵥ x) := dotProduct_comm _ _
    have a4 : z ⬝ᵥ y = y ⬝ᵥ z := dotProduct_comm _ _
    simp only [add_dotProduct, sub_dotProduct, dotProduct_sub, a1, a2, a3, a4]
    ring
  have h6 := neg_abs_le ((D.A *ᵥ x - z) ⬝ᵥ y)
  have h7 := le_abs_self ((D.P *ᵥ x + D.q + D.Aᵀ *ᵥ y) ⬝ᵥ (x - w))
  linarith

/-- a KKT point of a convex QP is a minimiser. -/
theorem BoxKKT.global {D : OQP K n m} (hP : PSD D.P) {x : Vec K n} {y : Vec K m} (h : BoxKKT D x y) {w : Vec K n}
    (hw : InBox D.l D.u (D.A *ᵥ w)) : boxObj D x ≤ boxObj D w := by
  have := box_subopt hP (x := x) (y := y) (ep := 0) (ed := 0) h.compl (fun i => by simp) (fun i => by rw [h.stat]; simp) hw
  linarith

theorem boxSqDist_nonneg (a b : Vec K n) : 0 ≤ sqDist a b := Finset.sum_nonneg fun _ _ => sq_nonneg _
theorem boxWDist_nonneg {rho : Vec K m} (h : ∀ i, 0 < rho i) (a b : Vec K m) : 0 ≤ wDist rho a b :=
  Finset.sum_nonneg fun i _ => mul_nonneg (h i).le (sq_nonneg _)

/-- the matrix of the linear system is positive definite. -/
theorem admm_nonsing {Q : Mat K n n} (hP : PSD Q) {A : Mat K m n} {rho : Vec K m} (hr : ∀ i, 0 < rho i) {sigma : K} (hs : 0 < sigma)
    {v : Vec K n} (h : v ⬝ᵥ ((Q + sigma • (1 : Mat K n n) + Aᵀ * (diagonal rho * A)) *ᵥ v) = 0) : v = 0 := by
  have e : v ⬝ᵥ ((Q + sigma • (1 : Mat K n n) + Aᵀ * (diagonal rho * A)) *ᵥ v) =
      v ⬝ᵥ (Q *ᵥ v) + sigma * (v ⬝ᵥ v) + ∑ i, rho i * (A *ᵥ v) i ^ 2 := by
    rw [add_mulVec, add_mulVec, smul_mulVec, one_mulVec, dotProduct_add, dotProduct_add, dotProduct_smul, smul_eq_mul]
    congr 1
    rw [← mulVec_mulVec, ← mulVec_mulVec, dotProduct_mulVec, vecMul_transpose]
    unfold dotProduct
    refine Finset.sum_congr rfl fun i _ => ?_
    rw [mulVec_diagonal]; ring
  rw [e] at h
  have h1 := hP.2 v
  have h2 : 0 ≤ v ⬝ᵥ v := Finset.sum_nonneg fun i _ => mul_self_nonneg _
  have h3 : 0 ≤ ∑ i, rho i * (A *ᵥ v) i ^ 2 := Finset.sum_nonneg fun i _ => mul_nonneg (hr i).le (sq_nonneg _)
  have h4 : v ⬝ᵥ v = 0 := by
    rcases h2.lt_or_eq with h5 | h5
    · have := mul_pos hs h5; linarith
    · exact h5.symm
  funext i
  have := (Finset.sum_eq_zero_iff_of_nonneg (fun i _ => mul_self_nonneg (v i))).mp h4 i (Finset.mem_univ i)
  exact mul_self_eq_zero.mp this

end Mim
