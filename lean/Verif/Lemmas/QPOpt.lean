import Verif.Spec.QP
import Verif.Lemmas.QPAug
import Mathlib.Tactic.Linarith

/-!
# A KKT point of a convex QP is a global minimiser
-/
set_option linter.unusedSectionVars false
set_option linter.unusedSimpArgs false

namespace Mim.Spec
open Matrix

section
variable {K : Type} [Field K] [LinearOrder K] [IsStrictOrderedRing K] {P : Problem K}

/-- the stage Hessians (with regularization) are positive semidefinite. -/
structure Convex (d : Data P) (preg dreg : K) : Prop where
  run : ∀ t, t < P.T → ∀ (x : Vec K P.ndx) (u : Vec K (P.nu t)),
    0 ≤ x ⬝ᵥ ((d.rd t).Lxx *ᵥ x) + preg * (x ⬝ᵥ x) + 2 * (x ⬝ᵥ ((d.rd t).Lxu *ᵥ u)) + u ⬝ᵥ ((d.rd t).Luu *ᵥ u) + dreg * (u ⬝ᵥ u)
  ter : ∀ x : Vec K P.ndx, 0 ≤ x ⬝ᵥ (d.td.Lxx *ᵥ x) + preg * (x ⬝ᵥ x)

/-- moving inside the bounds away from `c` does not increase along a normal. -/
theorem cone_dot {n : ℕ} {lb ub : Fin n → Option K} {c c' y : Vec K n} (h : NormalCone lb ub c y) (hc : InBox lb ub c') :
    y ⬝ᵥ (c' - c) ≤ 0 := by
  unfold dotProduct
  refine Finset.sum_nonpos fun i _ => ?_
  rcases lt_trichotomy (y i) 0 with h1 | h1 | h1
  · have := (hc i).1 _ ((h i).2 h1)
    exact mul_nonpos_of_nonpos_of_nonneg h1.le (by simpa using this)
  · rw [h1, zero_mul]
  · have := (hc i).2 _ ((h i).1 h1)
    exact mul_nonpos_of_nonneg_of_nonpos h1.le (by simpa using this)

theorem quad_expand {n : ℕ} {A : Mat K n n} (hA : Aᵀ = A) (x y : Vec K n) :
    y ⬝ᵥ (A *ᵥ y) = x ⬝ᵥ (A *ᵥ x) + 2 * ((A *ᵥ x) ⬝ᵥ (y - x)) + (y - x) ⬝ᵥ (A *ᵥ (y - x)) := by
  have h1 : x ⬝ᵥ (A *ᵥ y) = y ⬝ᵥ (A *ᵥ x) := by rw [dot_mulVec_comm, hA, dotProduct_comm]
  simp only [dotProduct_sub, sub_dotProduct, mulVec_sub, dotProduct_comm (A *ᵥ x)]
  linear_combination h1

/-- one stage: expansion of the cost around a point. -/
theorem stage_expand {d : Data P} {fs : ℕ → Vec K P.ndx} {preg dreg : K} (hs : SymHess d) {t : ℕ} (ht : t < P.T)
    (x x' : Vec K P.ndx) (u u' : Vec K (P.nu t)) :
    (lqOf d fs preg dreg).stageCost t x' u' = (lqOf d fs preg dreg).stageCost t x u +
      ((d.rd t).Lxx *ᵥ x + preg • x + (d.rd t).Lxu *ᵥ u + (d.rd t).Lx) ⬝ᵥ (x' - x) +
      ((d.rd t).Lxuᵀ *ᵥ x + (d.rd t).Luu *ᵥ u + dreg • u + (d.rd t).Lu) ⬝ᵥ (u' - u) +
      ((x' - x) ⬝ᵥ ((d.rd t).Lxx *ᵥ (x' - x)) + preg * ((x' - x) ⬝ᵥ (x' - x)) +
        2 * ((x' - x) ⬝ᵥ ((d.rd t).Lxu *ᵥ (u' - u))) + (u' - u) ⬝ᵥ ((d.rd t).Luu *ᵥ (u' - u)) +
        dreg * ((u' - u) ⬝ᵥ (u' - u))) / 2 := by
  have h1 := quad_expand (hs.xx t ht) x x'
  have h2 := quad_expand (hs.uu t ht) u u'
  have h3 : ∀ w : Vec K (P.nu t), ((d.rd t).Lxuᵀ *ᵥ x) ⬝ᵥ w = x ⬝ᵥ ((d.rd t).Lxu *ᵥ w) := fun w => (dot_mulVec_comm _ _ _).symm
  have h4 : ((d.rd t).Lxu *ᵥ u) ⬝ᵥ x' = x' ⬝ᵥ ((d.rd t).Lxu *ᵥ u) := dotProduct_comm _ _
  have h5 : ((d.rd t).Lxu *ᵥ u) ⬝ᵥ x = x ⬝ᵥ ((d.rd t).Lxu *ᵥ u) := dotProduct_comm _ _
  have h6 : x' ⬝ᵥ x = x ⬝ᵥ x' := dotProduct_comm _ _
  have h7 : u' ⬝ᵥ u = u ⬝ᵥ u' := dotProduct_comm _ _
  simp only [LQ.stageCost, lqOf, add_dotProduct, sub_dotProduct, dotProduct_sub, mulVec_sub, mulVec_add, add_mulVec,
    dotProduct_add, smul_mulVec, one_mulVec, smul_dotProduct, dotProduct_smul, smul_eq_mul, h3, h4, h5, h6, h7] at h1 h2 ⊢
  linear_combination h1 / 2 + h2 / 2

/-- **KKT point of a convex QP ⇒ global minimiser.** -/
theorem QPKKT.global {d : Data P} {fs : ℕ → Vec K P.ndx} {preg dreg : K} (hs : SymHess d) (hc : Convex d preg dreg)
    {x x' lam : ℕ → Vec K P.ndx} {u u' : (t : ℕ) → Vec K (P.nu t)} {y : (t : ℕ) → Vec K (P.ng t)}
    (h : QPKKT d fs preg dreg x u lam y) (h' : QPFeasible d fs x' u') :
    (lqOf d fs preg dreg).cost x u ≤ (lqOf d fs preg dreg).cost x' u' := by
  have key : ∀ n, n ≤ P.T → (∑ t ∈ Finset.range n, (lqOf d fs preg dreg).stageCost t (x t) (u t)) + lam n ⬝ᵥ (x n - x' n) *
      (if n = 0 then 0 else 1) ≤ ∑ t ∈ Finset.range n, (lqOf d fs preg dreg).stageCost t (x' t) (u' t) := by
    intro n
    induction n with
    | zero => intro _; simp
    | succ n ih =>
      intro hn
      have hn' : n < P.T := hn
      have hi := ih (by omega)
      have he := stage_expand (fs := fs) (preg := preg) (dreg := dreg) hs hn' (x n) (x' n) (u n) (u' n)
      have hq := hc.run n hn' (x' n - x n) (u' n - u n)
      have hcone := cone_dot (h.compl n hn') (h'.con n hn')
      have hd : (d.rd n).Fx *ᵥ (x' n - x n) + (d.rd n).Fu *ᵥ (u' n - u n) = x' (n + 1) - x (n + 1) := by
        rw [h.feas.dyn n hn', h'.dyn n hn', mulVec_sub, mulVec_sub]; abel
      have hcl : y n ⬝ᵥ (((d.run n).g + conLin d n (x' n) (u' n)) - ((d.run n).g + conLin d n (x n) (u n))) =
          ((d.rd n).Gxᵀ *ᵥ y n) ⬝ᵥ (x' n - x n) + ((d.rd n).Guᵀ *ᵥ y n) ⬝ᵥ (u' n - u n) := by
        rw [← dot_mulVec_comm, ← dot_mulVec_comm, ← dotProduct_add]
        congr 1
        unfold conLin
        rw [mulVec_sub, mulVec_sub]; abel
      have hu : ((d.rd n).Lxuᵀ *ᵥ x n + (d.rd n).Luu *ᵥ u n + dreg • u n + (d.rd n).Lu) ⬝ᵥ (u' n - u n) =
          -(lam (n + 1) ⬝ᵥ ((d.rd n).Fu *ᵥ (u' n - u n))) - ((d.rd n).Guᵀ *ᵥ y n) ⬝ᵥ (u' n - u n) := by
        have e := h.stat_u n hn'
        have e' : (d.rd n).Lxuᵀ *ᵥ x n + (d.rd n).Luu *ᵥ u n + dreg • u n + (d.rd n).Lu =
            -((d.rd n).Fuᵀ *ᵥ lam (n + 1)) - (d.rd n).Guᵀ *ᵥ y n := by
          have := congrArg (fun w => w - (d.rd n).Fuᵀ *ᵥ lam (n + 1) - (d.rd n).Guᵀ *ᵥ y n) e
          simp only [zero_sub] at this
          rw [← this]; abel
        rw [e', sub_dotProduct, neg_dotProduct, dot_mulVec_comm (lam (n + 1))]
      have hx : ((d.rd n).Lxx *ᵥ x n + preg • x n + (d.rd n).Lxu *ᵥ u n + (d.rd n).Lx) ⬝ᵥ (x' n - x n) =
          (lam n ⬝ᵥ (x' n - x n)) * (if n = 0 then 0 else 1) - (lam (n + 1) ⬝ᵥ ((d.rd n).Fx *ᵥ (x' n - x n))) -
            ((d.rd n).Gxᵀ *ᵥ y n) ⬝ᵥ (x' n - x n) := by
        rcases Nat.eq_zero_or_pos n with rfl | h0
        · have : x' 0 - x 0 = 0 := by rw [h.feas.start, h'.start, sub_zero]
          rw [this]; simp
        · have e := h.stat_x n h0 hn'
          have e' : (d.rd n).Lxx *ᵥ x n + preg • x n + (d.rd n).Lxu *ᵥ u n + (d.rd n).Lx =
              lam n - (d.rd n).Fxᵀ *ᵥ lam (n + 1) - (d.rd n).Gxᵀ *ᵥ y n := by
            rw [← e]; abel
          rw [e', sub_dotProduct, sub_dotProduct, dot_mulVec_comm (lam (n + 1)), if_neg h0.ne', mul_one]
      have hdd : lam (n + 1) ⬝ᵥ ((d.rd n).Fx *ᵥ (x' n - x n)) + lam (n + 1) ⬝ᵥ ((d.rd n).Fu *ᵥ (u' n - u n)) =
          -(lam (n + 1) ⬝ᵥ (x (n + 1) - x' (n + 1))) := by
        rw [← dotProduct_add, hd, ← dotProduct_neg, neg_sub]
      have hl : lam n ⬝ᵥ (x n - x' n) = -(lam n ⬝ᵥ (x' n - x n)) := by rw [← dotProduct_neg, neg_sub]
      rw [Finset.sum_range_succ, Finset.sum_range_succ, if_neg (Nat.succ_ne_zero n), mul_one]
      rw [hcl] at hcone
      rw [hl, neg_mul] at hi
      rw [he, hx, hu]
      linarith
  have hT := key P.T le_rfl
  have hq := hc.ter (x' P.T - x P.T)
  have hcone := cone_dot h.complT h'.conT
  have hcl : y P.T ⬝ᵥ ((d.ter.g + d.td.Gx *ᵥ x' P.T) - (d.ter.g + d.td.Gx *ᵥ x P.T)) =
      (d.td.Gxᵀ *ᵥ y P.T) ⬝ᵥ (x' P.T - x P.T) := by
    rw [← dot_mulVec_comm, mulVec_sub]
    congr 1
    abel
  rw [hcl] at hcone
  have h1 := quad_expand hs.T (x P.T) (x' P.T)
  have hst : d.td.Lxx *ᵥ x P.T + preg • x P.T + d.td.Lx = lam P.T - d.td.Gxᵀ *ᵥ y P.T := by
    rw [← h.stat_T]; abel
  have hst' : (d.td.Lxx *ᵥ x P.T + preg • x P.T + d.td.Lx) ⬝ᵥ (x' P.T - x P.T) =
      lam P.T ⬝ᵥ (x' P.T - x P.T) - (d.td.Gxᵀ *ᵥ y P.T) ⬝ᵥ (x' P.T - x P.T) := by rw [hst, sub_dotProduct]
  have hl : lam P.T ⬝ᵥ (x P.T - x' P.T) = -(lam P.T ⬝ᵥ (x' P.T - x P.T)) := by rw [← dotProduct_neg, neg_sub]
  have hz : (if P.T = 0 then (0 : K) else 1) * (lam P.T ⬝ᵥ (x' P.T - x P.T)) = lam P.T ⬝ᵥ (x' P.T - x P.T) := by
    by_cases h0 : P.T = 0
    · have : x' P.T - x P.T = 0 := by rw [h0, h.feas.start, h'.start, sub_zero]
      rw [this]; simp
    · rw [if_neg h0, one_mul]
  have h6 : x' P.T ⬝ᵥ x P.T = x P.T ⬝ᵥ x' P.T := dotProduct_comm _ _
  unfold LQ.cost
  have e : ∀ w : Vec K P.ndx, (w ⬝ᵥ ((lqOf d fs preg dreg).HT *ᵥ w)) / 2 + (lqOf d fs preg dreg).gT ⬝ᵥ w =
      (w ⬝ᵥ (d.td.Lxx *ᵥ w) + preg * (w ⬝ᵥ w)) / 2 + d.td.Lx ⬝ᵥ w := by
    intro w
    simp only [lqOf, add_mulVec, dotProduct_add, smul_mulVec, one_mulVec, dotProduct_smul, smul_eq_mul]
  rw [add_assoc, add_assoc, e, e]
  rw [hl, neg_mul, mul_comm, hz] at hT
  simp only [add_dotProduct, smul_dotProduct, smul_eq_mul, dotProduct_sub, sub_dotProduct, h6] at hst' hq h1 hT hcone ⊢
  linarith

end
end Mim.Spec
