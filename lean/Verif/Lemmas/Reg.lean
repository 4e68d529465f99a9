import Verif.Model.DDP

/-!
# Regularization arithmetic shared by all solvers
-/
set_option linter.unusedSectionVars false
set_option linter.unusedSimpArgs false

namespace Mim

section
variable {K : Type} [Field K] [LinearOrder K] [IsStrictOrderedRing K]

/-- `increaseRegularization` in exact arithmetic. -/
theorem incReg_exact (p : Params K) (r : K) : incReg p r = min p.regMax (r * p.regInc) := by
  unfold incReg
  by_cases h : p.regMax < r * p.regInc
  · simp [h, min_eq_left h.le]
  · simp [h, min_eq_right (not_lt.mp h)]

/-- `decreaseRegularization` in exact arithmetic. -/
theorem decReg_exact (p : Params K) (r : K) : decReg p r = max p.regMin (r / p.regDec) := by
  unfold decReg
  by_cases h : r / p.regDec < p.regMin
  · simp [h, max_eq_left h.le]
  · simp [h, max_eq_right (not_lt.mp h)]

theorem initReg_exact (p : Params K) (r : K) : initReg p r = r := by simp [initReg]

/-- parameters under which the regularization stays in range. -/
structure RegOK (p : Params K) : Prop where
  min_pos : 0 < p.regMin
  min_le : p.regMin ≤ p.regMax
  inc : 1 < p.regInc
  dec : 1 < p.regDec

/-- the regularization range. -/
def InRange (p : Params K) (r : K) : Prop := p.regMin ≤ r ∧ r ≤ p.regMax

theorem InRange.incReg {p : Params K} (hp : RegOK p) {r : K} (h : InRange p r) : InRange p (incReg p r) := by
  rw [incReg_exact]
  refine ⟨le_min hp.min_le ?_, min_le_left _ _⟩
  have h0 : 0 < r := lt_of_lt_of_le hp.min_pos h.1
  nlinarith [h.1, hp.inc]

theorem InRange.decReg {p : Params K} (hp : RegOK p) {r : K} (h : InRange p r) : InRange p (decReg p r) := by
  rw [decReg_exact]
  refine ⟨le_max_left _ _, max_le hp.min_le ?_⟩
  have h0 : 0 < r := lt_of_lt_of_le hp.min_pos h.1
  exact (div_le_self h0.le hp.dec.le).trans h.2

theorem incReg_lt {p : Params K} (hp : RegOK p) {r : K} (h : p.regMin ≤ r) (h2 : r < p.regMax) : r < incReg p r := by
  rw [incReg_exact]
  have h0 : 0 < r := lt_of_lt_of_le hp.min_pos h
  exact lt_min h2 (by nlinarith [hp.inc])

/-- the default parameters are in order. -/
theorem RegOK.default : RegOK (Params.default : Params K) := by
  constructor
  · simp only [Params.default, lit_exact]; exact_mod_cast (by norm_num : (0 : ℚ) < 1 / 10 ^ 9)
  · simp only [Params.default, lit_exact]; exact_mod_cast (by norm_num : (1 / 10 ^ 9 : ℚ) ≤ 10 ^ 9)
  · simp only [Params.default, lit_exact]; exact_mod_cast (by norm_num : (1 : ℚ) < 10)
  · simp only [Params.default, lit_exact]; exact_mod_cast (by norm_num : (1 : ℚ) < 10)

end
end Mim
