import Verif.Spec.QP
import Verif.Lemmas.QPPass
import Mathlib.Tactic.LinearCombination
import Mathlib.Algebra.BigOperators.Field

/-!
# The full backward pass works on the augmented problem
-/
set_option linter.unusedSectionVars false
set_option linter.unusedSimpArgs false

namespace Mim
open Matrix Spec
namespace QP
variable {K : Type} [Field K] [LinearOrder K] [IsStrictOrderedRing K] {P : Problem K}

/-- the ADMM step data read from the solver's variables. -/
def admmOf (E : QEnv P) (v : CVars P) : Admm P := ⟨E.c.sigma, v.dx, v.du, v.z, v.y, v.rho⟩

/-- the linear-quadratic problem the full backward pass solves. -/
def fullLQ (E : QEnv P) (v : CVars P) : LQ K P.T P.ndx P.nu where
  Hxx t := (E.d.rd t).Lxx + E.c.sigma • (1 : Matrix _ _ K) + E.preg • (1 : Matrix _ _ K) +
    if 0 < t then (E.d.rd t).Gxᵀ * (Matrix.diagonal (v.rho t) * (E.d.rd t).Gx) else 0
  Hxu t := (E.d.rd t).Lxu + if 0 < t then (E.d.rd t).Gxᵀ * (Matrix.diagonal (v.rho t) * (E.d.rd t).Gu) else 0
  Huu t := (E.d.rd t).Luu + E.c.sigma • (1 : Matrix _ _ K) + E.dreg • (1 : Matrix _ _ K) +
    (E.d.rd t).Guᵀ * (Matrix.diagonal (v.rho t) * (E.d.rd t).Gu)
  gx t := (E.d.rd t).Lx - E.c.sigma • v.dx t + if 0 < t then (E.d.rd t).Gxᵀ *ᵥ (v.y t - v.rho t * v.z t) else 0
  gu t := (E.d.rd t).Lu - E.c.sigma • v.du t + (E.d.rd t).Guᵀ *ᵥ (v.y t - v.rho t * v.z t)
  A t := (E.d.rd t).Fx
  B t := (E.d.rd t).Fu
  c := E.fs
  HT := E.d.td.Lxx + E.c.sigma • (1 : Matrix _ _ K) + E.preg • (1 : Matrix _ _ K) +
    E.d.td.Gxᵀ * (Matrix.diagonal (v.rho P.T) * E.d.td.Gx)
  gT := E.d.td.Lx - E.c.sigma • v.dx P.T + E.d.td.Gxᵀ *ᵥ (v.y P.T - v.rho P.T * v.z P.T)

theorem mul_empty {a m b : ℕ} (h : m = 0) (A : Matrix (Fin a) (Fin m) K) (B : Matrix (Fin m) (Fin b) K) : A * B = 0 := by
  ext i j
  rw [Matrix.mul_apply]
  exact Finset.sum_eq_zero fun i' _ => (Fin.cast h i').elim0

theorem mulVec_empty {a m : ℕ} (h : m = 0) (A : Matrix (Fin a) (Fin m) K) (x : Vec K m) : A *ᵥ x = 0 := by
  funext i
  rw [Matrix.mulVec, dotProduct]
  exact Finset.sum_eq_zero fun i' _ => (Fin.cast h i').elim0

theorem gram_sym {m n : ℕ} (r : Vec K m) (G : Mat K m n) :
    (Gᵀ * (Matrix.diagonal r * G))ᵀ = Gᵀ * (Matrix.diagonal r * G) := by
  simp only [Matrix.transpose_mul, Matrix.transpose_transpose, Matrix.diagonal_transpose, Matrix.mul_assoc]

theorem fullLQ_sym (E : QEnv P) (v : CVars P) (hsym : SymHess E.d) : (fullLQ E v).Sym := by
  refine ⟨fun t ht => ?_, fun t ht => ?_, ?_⟩ <;> unfold fullLQ <;>
    simp only [Matrix.transpose_add, sub_reg_transpose, hsym.T, gram_sym]
  · rw [hsym.xx t ht]
    split
    · rw [gram_sym]
    · rw [Matrix.transpose_zero]
  · rw [hsym.uu t ht]

theorem full_termsOf (E : QEnv P) (v : CVars P) (hsym : SymHess E.d) : TermsOf (fullTerms E v) E.preg (fullLQ E v) := by
  refine ⟨fullLQ_sym E v hsym, ?_, ?_, ?_, ?_, ?_⟩
  · intro t ht w
    unfold fullTerms fullLQ locQx dualShift
    simp only [mv_exact, sv_exact, cw_exact]
    by_cases hg : P.ng t = 0 <;> by_cases h0 : 0 < t <;> simp [hg, h0, mulVec_empty]
  · intro t ht w
    unfold fullTerms fullLQ locQu dualShift
    simp only [mv_exact, sv_exact, cw_exact]
    by_cases hg : P.ng t = 0 <;> simp [hg, mulVec_empty]
  · intro t ht V
    unfold fullTerms fullLQ locQxx
    simp only [mm_exact, addDiag_exact, diagMul_exact]
    by_cases hg : P.ng t = 0
    · rw [if_neg (by simp [hg]), mul_empty hg]
      simp only [ite_self]
      abel
    · by_cases h0 : 0 < t
      · rw [if_pos ⟨h0, hg⟩, if_pos h0]; abel
      · rw [if_neg (by simp [h0]), if_neg h0]; abel
  · intro t ht V
    unfold fullTerms fullLQ rhoGuGu
    simp only [mm_exact, addDiag_exact, diagMul_exact, regDiag_exact]
    by_cases hg : P.ng t = 0
    · rw [if_neg (by simp [hg]), mul_empty hg]; abel
    · rw [if_pos hg]; abel
  · intro t ht V
    unfold fullTerms fullLQ locQxu
    simp only [mm_exact, diagMul_exact]
    by_cases hg : P.ng t = 0
    · rw [if_neg (by simp [hg]), mul_empty hg]
      simp only [ite_self]
      abel
    · by_cases h0 : 0 < t
      · rw [if_pos ⟨h0, hg⟩, if_pos h0]
      · rw [if_neg (by simp [h0]), if_neg h0, add_zero]

theorem terVxx_exact (E : QEnv P) (v : CVars P) : terVxx E v = (fullLQ E v).HT := by
  unfold terVxx fullLQ
  simp only [mm_exact, addDiag_exact, diagMul_exact, regDiag_exact]
  by_cases hg : P.ng P.T = 0
  · rw [if_neg (by simp [hg]), mul_empty hg]; abel
  · rw [if_pos hg]; abel

theorem terVx_exact (E : QEnv P) (v : CVars P) : terVx E v = (fullLQ E v).gT := by
  unfold terVx fullLQ dualShift
  simp only [mv_exact, sv_exact, cw_exact]
  by_cases hg : P.ng P.T = 0
  · rw [if_neg (by simp [hg]), mulVec_empty hg]; abel
  · rw [if_pos hg]

/-- **The full backward pass is the Riccati recursion of the augmented problem.** -/
theorem full_riccati {llt : LLT K} (hllt : LLTExact llt) {E : QEnv P} {v : CVars P} (hsym : SymHess E.d) {B B' : CBP P}
    (h : fullPass llt E v B = .ok B') :
    Riccati (fullLQ E v) B'.bp.Vxx B'.bp.Vx B'.bp.K B'.bp.k B'.bp.Quu ∧ ∀ t, t < P.T → PosDef (B'.bp.Quu t) := by
  obtain ⟨h1, h2, h3, h4, _⟩ := fullPass_ok h
  exact sweep_riccati hllt (full_termsOf E v hsym) rfl (by rw [h1, terVxx_exact]) (by rw [h2, terVx_exact]) h3 h4

/-! ## the cost -/

theorem sqDist_eq {n : ℕ} (a b : Vec K n) : sqDist a b = a ⬝ᵥ a - 2 * (b ⬝ᵥ a) + b ⬝ᵥ b := by
  unfold sqDist dotProduct
  rw [Finset.mul_sum, ← Finset.sum_sub_distrib, ← Finset.sum_add_distrib]
  exact Finset.sum_congr rfl fun i _ => by ring

/-- the part of the penalty that does not depend on the constraint value. -/
def penConst {m : ℕ} (rho y z : Vec K m) : K := ∑ i, rho i * (y i / rho i - z i) ^ 2 / 2

theorem penalty_eq {m : ℕ} {rho : Vec K m} (y z c : Vec K m) (h : ∀ i, rho i ≠ 0) :
    penalty rho y z c = (c ⬝ᵥ (Matrix.diagonal rho *ᵥ c)) / 2 + (y - rho * z) ⬝ᵥ c + penConst rho y z := by
  unfold penalty penConst dotProduct
  rw [Finset.sum_div, ← Finset.sum_add_distrib, ← Finset.sum_add_distrib]
  refine Finset.sum_congr rfl fun i _ => ?_
  rw [Matrix.mulVec_diagonal]
  simp only [Pi.sub_apply, Pi.mul_apply]
  have := h i
  field_simp
  ring

/-- quadratic form of `G'DG`. -/
theorem quad_gram {m a b : ℕ} (r : Vec K m) (G : Mat K m a) (H : Mat K m b) (x : Vec K a) (u : Vec K b) :
    (G *ᵥ x) ⬝ᵥ (Matrix.diagonal r *ᵥ (H *ᵥ u)) = x ⬝ᵥ ((Gᵀ * (Matrix.diagonal r * H)) *ᵥ u) := by
  rw [dot_mulVec_comm x, Matrix.transpose_mul, Matrix.transpose_transpose, ← Matrix.mulVec_mulVec,
    ← dot_mulVec_comm, ← Matrix.mulVec_mulVec]

theorem quad_comm {m a b : ℕ} (r : Vec K m) (G : Mat K m a) (H : Mat K m b) (x : Vec K a) (u : Vec K b) :
    (H *ᵥ u) ⬝ᵥ (Matrix.diagonal r *ᵥ (G *ᵥ x)) = (G *ᵥ x) ⬝ᵥ (Matrix.diagonal r *ᵥ (H *ᵥ u)) := by
  rw [dot_mulVec_comm, Matrix.diagonal_transpose, dotProduct_comm]

/-- one stage. -/
theorem stage_aug (E : QEnv P) (v : CVars P) {t : ℕ} (hr : ∀ i, v.rho t i ≠ 0) (x : Vec K P.ndx) (u : Vec K (P.nu t))
    (h0 : t = 0 → x = 0) :
    (lqOf E.d E.fs E.preg E.dreg).stageCost t x u +
      (E.c.sigma / 2 * (sqDist x (v.dx t) + sqDist u (v.du t)) + penalty (v.rho t) (v.y t) (v.z t) (conLin E.d t x u)) =
    (fullLQ E v).stageCost t x u +
      (E.c.sigma / 2 * (v.dx t ⬝ᵥ v.dx t + v.du t ⬝ᵥ v.du t) + penConst (v.rho t) (v.y t) (v.z t)) := by
  rw [penalty_eq _ _ _ hr, sqDist_eq, sqDist_eq]
  unfold LQ.stageCost lqOf fullLQ conLin
  simp only [Matrix.add_mulVec, Matrix.mulVec_add, dotProduct_add, add_dotProduct, Matrix.smul_mulVec,
    Matrix.one_mulVec, dotProduct_smul, smul_dotProduct, sub_dotProduct, smul_eq_mul]
  have e1 : ∀ (w : Vec K (P.ng t)), w ⬝ᵥ ((E.d.rd t).Gu *ᵥ u) = ((E.d.rd t).Guᵀ *ᵥ w) ⬝ᵥ u :=
    fun w => dot_mulVec_comm _ _ _
  have e2 : ∀ (w : Vec K (P.ng t)), w ⬝ᵥ ((E.d.rd t).Gx *ᵥ x) = ((E.d.rd t).Gxᵀ *ᵥ w) ⬝ᵥ x :=
    fun w => dot_mulVec_comm _ _ _
  rw [quad_comm (v.rho t) (E.d.rd t).Gx (E.d.rd t).Gu x u, quad_gram, quad_gram, quad_gram]
  by_cases ht : 0 < t
  · simp only [if_pos ht]
    have e3 := e1 (v.y t - v.rho t * v.z t)
    have e4 := e2 (v.y t - v.rho t * v.z t)
    simp only [sub_dotProduct] at e3 e4
    linear_combination e3 + e4
  · have hx := h0 (by omega)
    subst hx
    have e3 := e1 (v.y t - v.rho t * v.z t)
    simp only [sub_dotProduct] at e3
    simp only [if_neg ht, Matrix.mulVec_zero, zero_dotProduct, dotProduct_zero, Matrix.zero_mulVec]
    linear_combination e3

/-- the constant by which the two costs differ. -/
def augConst (E : QEnv P) (v : CVars P) : K :=
  (∑ t ∈ Finset.range P.T, (E.c.sigma / 2 * (v.dx t ⬝ᵥ v.dx t + v.du t ⬝ᵥ v.du t) + penConst (v.rho t) (v.y t) (v.z t))) +
    (E.c.sigma / 2 * (v.dx P.T ⬝ᵥ v.dx P.T) + penConst (v.rho P.T) (v.y P.T) (v.z P.T))

theorem augCost_eq (E : QEnv P) (v : CVars P) (hr : ∀ t, t ≤ P.T → ∀ i, v.rho t i ≠ 0) (x : ℕ → Vec K P.ndx)
    (u : (t : ℕ) → Vec K (P.nu t)) (h0 : x 0 = 0) :
    augCost E.d E.fs E.preg E.dreg (admmOf E v) x u = (fullLQ E v).cost x u + augConst E v := by
  have hs : ∑ t ∈ Finset.range P.T, (lqOf E.d E.fs E.preg E.dreg).stageCost t (x t) (u t) +
      ∑ t ∈ Finset.range P.T, (E.c.sigma / 2 * (sqDist (x t) (v.dx t) + sqDist (u t) (v.du t)) +
        penalty (v.rho t) (v.y t) (v.z t) (conLin E.d t (x t) (u t))) =
      ∑ t ∈ Finset.range P.T, (fullLQ E v).stageCost t (x t) (u t) +
      ∑ t ∈ Finset.range P.T, (E.c.sigma / 2 * (v.dx t ⬝ᵥ v.dx t + v.du t ⬝ᵥ v.du t) +
        penConst (v.rho t) (v.y t) (v.z t)) := by
    rw [← Finset.sum_add_distrib, ← Finset.sum_add_distrib]
    refine Finset.sum_congr rfl fun t ht => stage_aug E v (hr t (Finset.mem_range.mp ht).le) _ _ fun e => by rw [e, h0]
  unfold augCost LQ.cost augConst admmOf
  simp only []
  rw [penalty_eq _ _ _ (hr P.T le_rfl), sqDist_eq]
  have hT : (x P.T ⬝ᵥ ((fullLQ E v).HT *ᵥ x P.T)) / 2 + (fullLQ E v).gT ⬝ᵥ x P.T =
      (x P.T ⬝ᵥ ((lqOf E.d E.fs E.preg E.dreg).HT *ᵥ x P.T)) / 2 + (lqOf E.d E.fs E.preg E.dreg).gT ⬝ᵥ x P.T +
      E.c.sigma / 2 * (x P.T ⬝ᵥ x P.T - 2 * (v.dx P.T ⬝ᵥ x P.T)) +
      ((E.d.td.Gx *ᵥ x P.T) ⬝ᵥ (Matrix.diagonal (v.rho P.T) *ᵥ (E.d.td.Gx *ᵥ x P.T))) / 2 +
      (v.y P.T - v.rho P.T * v.z P.T) ⬝ᵥ (E.d.td.Gx *ᵥ x P.T) := by
    rw [quad_gram]
    unfold fullLQ lqOf
    simp only [Matrix.add_mulVec, Matrix.mulVec_add, dotProduct_add, add_dotProduct, Matrix.smul_mulVec,
      Matrix.one_mulVec, dotProduct_smul, smul_dotProduct, sub_dotProduct, smul_eq_mul]
    have e4 := dot_mulVec_comm (v.y P.T - v.rho P.T * v.z P.T) E.d.td.Gx (x P.T)
    simp only [sub_dotProduct] at e4
    linear_combination -e4
  linear_combination hs - hT

/-- the forward pass follows the feedback law and the linearised dynamics. -/
theorem fwdLoop_spec (E : QEnv P) (b : BP P) (x : (ℕ → Vec K P.ndx) × ((t : ℕ) → Vec K (P.nu t))) :
    (∀ t, t < P.T → (fwdLoop E b x).1 (t + 1) = (E.d.rd t).Fx *ᵥ (fwdLoop E b x).1 t +
      (E.d.rd t).Fu *ᵥ (fwdLoop E b x).2 t + E.fs (t + 1)) ∧
    (∀ t, t < P.T → (fwdLoop E b x).2 t = -(b.K t *ᵥ (fwdLoop E b x).1 t) - b.k t) ∧ (fwdLoop E b x).1 0 = x.1 0 := by
  have key := forUp_inv (fun n (s : (ℕ → Vec K P.ndx) × ((t : ℕ) → Vec K (P.nu t))) =>
      (∀ t, t < n → s.1 (t + 1) = (E.d.rd t).Fx *ᵥ s.1 t + (E.d.rd t).Fu *ᵥ s.2 t + E.fs (t + 1)) ∧
      (∀ t, t < n → s.2 t = -(b.K t *ᵥ s.1 t) - b.k t) ∧ s.1 0 = x.1 0) P.T (fwdStage E b) x
      ⟨fun t ht => by omega, fun t ht => by omega, rfl⟩ ?_
  · exact key
  · rintro t ht s ⟨i1, i2, i3⟩
    unfold fwdStage
    simp only []
    refine ⟨fun j hj => ?_, fun j hj => ?_, by rw [Function.update_of_ne (by omega)]; exact i3⟩
    · rcases Nat.lt_succ_iff_lt_or_eq.mp hj with hj | rfl
      · rw [Function.update_of_ne (by omega), Function.update_of_ne (by omega), Function.update_of_ne (by omega)]
        exact i1 j hj
      · rw [Function.update_self, Function.update_self, Function.update_of_ne (by omega)]
        simp only [mv_exact]
        abel
    · rcases Nat.lt_succ_iff_lt_or_eq.mp hj with hj | rfl
      · rw [Function.update_of_ne (by omega), Function.update_of_ne (by omega)]
        exact i2 j hj
      · rw [Function.update_self, Function.update_of_ne (by omega)]
        simp only [mv_exact]
        abel

end QP
end Mim
