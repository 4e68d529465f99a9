import Verif.Model.Construct
import Verif.Props.SQPReg
import Verif.Props.DDPReturn
import Verif.Props.DDPLine
import Verif.Props.CSQPReg
import Verif.Props.CSQPReturn
import Verif.Props.Setters
import Verif.Spec.ExamplesC

/-!
# C42 and C49: construction
-/
set_option linter.unusedSectionVars false
set_option linter.unusedSimpArgs false

namespace Mim

/-! ## C42 -/

theorem nEqCrocoddyl_eq (T : ℕ) (nh : ℕ → ℕ) : nEqCrocoddyl T nh = (∑ t ∈ Finset.range (T + 1), nh t) % 2 ^ 64 := by
  have h : forUp T (fun t n => addSize n (nh t)) 0 = (∑ t ∈ Finset.range T, nh t) % 2 ^ 64 := by
    induction T with
    | zero => rfl
    | succ n ih => rw [forUp_succ, ih, Finset.sum_range_succ]; unfold addSize; omega
  unfold nEqCrocoddyl
  rw [h, Finset.sum_range_succ]
  unfold addSize
  omega

section
variable {F : Type} [Add F] [Sub F] [Mul F] [Div F] [Neg F] [Zero F] [One F] [FloatOps F] {P : Problem F}

/-- **C42 (both constructors).**  The test of the constructors fails exactly when some model, running or terminal, has equality
constraints (the total number of which is assumed to fit in 64 bits). -/
theorem C42_test_iff (T : ℕ) (nh : ℕ → ℕ) (hw : ∑ t ∈ Finset.range (T + 1), nh t < 2 ^ 64) :
    nEqCrocoddyl T nh ≠ 0 ↔ ∃ t, t ≤ T ∧ 0 < nh t := by
  rw [nEqCrocoddyl_eq, Nat.mod_eq_of_lt hw, Ne, Finset.sum_eq_zero_iff]
  push Not
  simp only [Finset.mem_range, Nat.lt_succ_iff, Nat.pos_iff_ne_zero]

/-- **C42 (CSQP).**  Construction throws exactly when some model has equality constraints; otherwise it yields the solver the other
theorems are about. -/
theorem C42_csqp_construct (nh : ℕ → ℕ) (hw : ∑ t ∈ Finset.range (P.T + 1), nh t < 2 ^ 64) (d : Data P)
    (rho0 inv0 : (t : ℕ) → Vec F (P.ng t)) (lag0 : F) :
    ((∃ t, t ≤ P.T ∧ 0 < nh t) ∧ CSQP.construct nh d rho0 inv0 lag0 = none) ∨
    ((∀ t, t ≤ P.T → nh t = 0) ∧ CSQP.construct nh d rho0 inv0 lag0 = some (CSQP.new d rho0 inv0 lag0)) := by
  have h := C42_test_iff P.T nh hw
  by_cases hc : ∃ t, t ≤ P.T ∧ 0 < nh t
  · exact .inl ⟨hc, by simp [CSQP.construct, h.mpr hc]⟩
  · refine .inr ⟨fun t ht => ?_, ?_⟩
    · by_contra hne; exact hc ⟨t, ht, Nat.pos_of_ne_zero hne⟩
    · have : nEqCrocoddyl P.T nh = 0 := by by_contra hne; exact hc (h.mp hne)
      simp [CSQP.construct, this]

/-- without the assumption on the total the test can be fooled by wrap-around. -/
theorem C42_wraps : nEqCrocoddyl 1 (fun _ => 2 ^ 63) = 0 := by decide

/-- C42: a problem with an equality constraint at the terminal node only is refused, one without is accepted. -/
example : nEqCrocoddyl 2 (fun t => if t = 2 then 1 else 0) ≠ 0 ∧ nEqCrocoddyl 2 (fun _ => 0) = 0 := by decide

end

/-! ## C49 -/
section Exact
variable {K : Type} [Field K] [LinearOrder K] [IsStrictOrderedRing K] {P : Problem K}

theorem lit_lt {a b : ℚ} (h : a < b) : (a : K) < (b : K) := by exact_mod_cast h
theorem lit_le {a b : ℚ} (h : a ≤ b) : (a : K) ≤ (b : K) := by exact_mod_cast h

theorem defaultAlphas_getElem (i : ℕ) (h : i < (defaultAlphas : List K).length) : (defaultAlphas : List K)[i] = 1 / 2 ^ i := by
  simp [defaultAlphas]

theorem default_last : (defaultAlphas : List K).getLast? = some (((1 / 512 : ℚ)) : K) := by
  rw [List.getLast?_eq_getElem?]
  simp [defaultAlphas]
  norm_num

/-- **C49, the values.**  What the constructors store, in exact arithmetic: `0 < reg_min <= reg_max`, factors above 1, the step lengths are
`1, 1/2, ..., 1/512`, strictly decreasing in `(0, 1]`, the last of them is `<= th_stepinc` and `<= th_stepdec`, thresholds in `(0, 1)`,
and all documented ranges of the setters hold. -/
theorem C49_defaults : RegOK (Params.default : Params K) ∧ (Params.default : Params K).Legal ∧
    (Params.default : Params K).alphas = (List.range 10).map (fun n => (1 / 2 ^ n : K)) ∧
    (Params.default : Params K).alphas.Pairwise (· > ·) ∧ (∀ a ∈ (Params.default : Params K).alphas, 0 < a ∧ a ≤ 1) ∧
    (∃ a, (Params.default : Params K).alphas.getLast? = some a ∧ a ≤ (Params.default : Params K).thStepInc ∧
      a ≤ (Params.default : Params K).thStepDec) ∧
    0 < (Params.default : Params K).thStepDec ∧ (Params.default : Params K).thStepDec < 1 ∧
    0 < (Params.default : Params K).thStepInc ∧ (Params.default : Params K).thStepInc < 1 := by
  have hR : RegOK (Params.default : Params K) := RegOK.default
  have hd : (Params.default : Params K).thStepDec = ((1 / 2 : ℚ) : K) := rfl
  have hi : (Params.default : Params K).thStepInc = ((1 / 100 : ℚ) : K) := by
    show adjustStepInc (lit (1 / 100) : K) defaultAlphas = _
    rw [adjustStepInc, default_last]
    simp only [lit_exact, ltb_exact]
    exact if_neg (by simpa using not_lt.mpr (lit_le (K := K) (a := 1 / 512) (b := 1 / 100) (by norm_num)))
  have hp : (defaultAlphas : List K).Pairwise (· > ·) := by
    rw [List.pairwise_iff_getElem]
    intro i j hi hj hij
    rw [defaultAlphas_getElem, defaultAlphas_getElem]
    exact one_div_pow_lt_one_div_pow_of_lt (by norm_num) hij
  have hr : ∀ a ∈ (defaultAlphas : List K), 0 < a ∧ a ≤ 1 := by
    intro a ha
    obtain ⟨i, hi, rfl⟩ := List.getElem_of_mem ha
    rw [defaultAlphas_getElem]
    exact ⟨by positivity, by rw [div_le_one (by positivity)]; exact one_le_pow₀ (by norm_num)⟩
  have t1 : (0 : K) < (Params.default : Params K).thStepDec := by rw [hd]; exact_mod_cast (by norm_num : (0 : ℚ) < 1 / 2)
  have t2 : (Params.default : Params K).thStepDec < 1 := by rw [hd]; exact_mod_cast (by norm_num : (1 / 2 : ℚ) < 1)
  have t3 : (0 : K) < (Params.default : Params K).thStepInc := by rw [hi]; exact_mod_cast (by norm_num : (0 : ℚ) < 1 / 100)
  have t4 : (Params.default : Params K).thStepInc < 1 := by rw [hi]; exact_mod_cast (by norm_num : (1 / 100 : ℚ) < 1)
  refine ⟨hR, ?_, ?_, hp, hr, ⟨_, default_last, ?_, ?_⟩, t1, t2, t3, t4⟩
  · constructor
    · simpa using hR.inc
    · simpa using hR.dec
    · simpa using hR.min_pos.le
    · simpa using hR.min_pos.le.trans hR.min_le
    · simp only [leb_exact, decide_eq_true_eq, Params.default, lit_exact]; exact_mod_cast (by norm_num : (0 : ℚ) ≤ 1 / 10 ^ 12)
    · simpa using ⟨t1, t2.le⟩
    · simpa using ⟨t3, t4.le⟩
    · rw [C36_exact]
      exact ⟨hp, fun a ha => (hr a (List.mem_of_mem_tail ha)).1⟩
    · simp [Params.default, defaultAlphas]
  · simp [Params.default, defaultAlphas]
  · rw [hi]; exact lit_le (by norm_num)
  · rw [hd]; exact lit_le (by norm_num)

theorem default_reach {ri : K} (h : InRange (Params.default : Params K) ri) : (Params.default : Params K).regMax ≤
    min (min (Params.default : Params K).regMin (Params.default : Params K).regMax) ri * (Params.default : Params K).regInc ^ 18 := by
  have hR : RegOK (Params.default : Params K) := RegOK.default
  rw [min_eq_left hR.min_le, min_eq_left h.1]
  simp only [Params.default, lit_exact]
  exact_mod_cast (by norm_num : (10 ^ 9 : ℚ) ≤ 1 / 10 ^ 9 * 10 ^ 18)

variable {llt : LLT K} {xs : Option (Traj P)} {us : Option (Ctrls P)} {m : ℕ} {fe : Bool} {ri : K}

/-- **C49 (SQP).**  A default-constructed solver called with a regularization in `[1e-9, 1e9]` — in particular with the default, see
`C49_default_reginit` — returns for every problem, guess, iteration limit and linear solver; no direction is attempted more than 18
times; the regularization is in range at the end and `preg = dreg`. -/
theorem C49_sqp (d : Data P) (h : InRange (Params.default : Params K) ri) :
    ∃ b s', SQP.solve llt 18 xs us m ri (SQP.new d) = some (b, s') ∧ InRange (Params.default : Params K) s'.preg ∧ s'.dreg = s'.preg := by
  have hR : RegOK (Params.default : Params K) := RegOK.default
  obtain ⟨b, s', e⟩ := C09_sqp_terminates_bound (s := SQP.new d) (llt := llt) (xs := xs) (us := us) (m := m) hR.min_pos
    (hR.min_pos.trans_le hR.min_le) hR.inc (hR.min_pos.trans_le h.1) 18 (by norm_num) (default_reach h)
  have := C10_sqp_range (s := SQP.new d) hR h e
  exact ⟨b, s', e, ⟨this.1, this.2.1⟩, this.2.2⟩

/-- **C49 (DDP, FDDP).** -/
theorem C49_ddp {k : DDP.Kind P} (hk : DDP.IsSolver k) (d : Data P) (h : InRange (Params.default : Params K) ri) :
    ∃ b s', DDP.solve k llt 18 xs us m fe ri (DDP.new d) = some (b, s') ∧ InRange (Params.default : Params K) s'.preg ∧
      s'.dreg = s'.preg := by
  have hR : RegOK (Params.default : Params K) := RegOK.default
  obtain ⟨b, s', e⟩ := C09_ddp_terminates_bound (s := DDP.new d) (llt := llt) (xs := xs) (us := us) (m := m) (fe := fe) hk hR.min_pos
    (hR.min_pos.trans_le hR.min_le) hR.inc (hR.min_pos.trans_le h.1) 18 (by norm_num) (default_reach h)
  have := C10_ddp_range (s := DDP.new d) hk hR h e
  exact ⟨b, s', e, ⟨this.1, this.2.1⟩, this.2.2⟩

/-- **C49 (CSQP).**  The same for every clock and every schedule of the parallel loops. -/
theorem C49_csqp [SqrtOps K] {W : World K} (d : Data P) (rho0 inv0 : (t : ℕ) → Vec K (P.ng t)) (lag0 : K)
    (h : InRange (Params.default : Params K) ri) :
    ∃ b s', CSQP.solve W 18 xs us m ri (CSQP.new d rho0 inv0 lag0) = some (.ret b, s') ∧
      InRange (Params.default : Params K) s'.preg ∧ s'.dreg = s'.preg := by
  have hR : RegOK (Params.default : Params K) := RegOK.default
  obtain ⟨o, s', e⟩ := C09_csqp_terminates_bound (s := CSQP.new d rho0 inv0 lag0) (W := W) (xs := xs) (us := us) (m := m) rfl hR.min_pos
    (hR.min_pos.trans_le hR.min_le) hR.inc (hR.min_pos.trans_le h.1) 18 (by norm_num) (default_reach h)
  have := C10_csqp_range (s := CSQP.new d rho0 inv0 lag0) hR rfl h e
  cases o with
  | ret b => exact ⟨b, s', e, ⟨this.1, this.2.1⟩, this.2.2⟩
  | thrown => exact absurd rfl (C43_csqp_no_escape (s := CSQP.new d rho0 inv0 lag0) rfl e)

/-- **C49 (SQP), line search.**  With the constructor's parameters, in whatever state the solver is: an iteration whose line search
accepts no step length raises the regularization as long as it is below `reg_max`. -/
theorem C49_sqp_failed_search_increases (hT : 0 < P.T) (s : SQP P) (hpar : s.par = Params.default)
    (hfail : ∀ a ∈ s.par.alphas, ¬ SQP.Acceptable s a) (hr : InRange s.par s.preg) (hr2 : s.preg < s.par.regMax) :
    s.preg < (SQP.updateReg (SQP.search s)).2.preg := by
  obtain ⟨hR, _, _, _, _, ⟨a, ha, h1, h2⟩, _⟩ := C49_defaults (K := K)
  rw [← hpar] at hR ha h1 h2
  exact C37_sqp_failed_search_increases hT s hR hfail ha h1 h2 hr.1 hr2

/-- **C49 (DDP, FDDP), line search.** -/
theorem C49_ddp_failed_search_increases {k : DDP.Kind P} (hk : DDP.IsSolver k) (s : DDP P) (h0 : s.y.xs 0 = P.x0)
    (hpar : s.c.par = Params.default) (hfail : ∀ a ∈ s.c.par.alphas, ¬ Accept k s a) (hr : InRange s.c.par s.preg)
    (hr2 : s.preg < s.c.par.regMax) : s.preg < (DDP.updateReg (DDP.search k s)).2.preg := by
  obtain ⟨hR, _, _, _, _, ⟨a, ha, h1, h2⟩, _⟩ := C49_defaults (K := K)
  rw [← hpar] at hR ha h1 h2
  exact C37_ddp_failed_search_increases hk s h0 hR hfail ha h1 h2 hr.1 hr2

end Exact

/-- **C49.**  The default argument `regInit = NaN` makes `solve` start with `reg_min`, which is in the range. -/
theorem C49_default_reginit {F : Type} [Add F] [Sub F] [Mul F] [Div F] [Neg F] [Zero F] [One F] [FloatOps F] (p : Params F) {ri : F}
    (h : isnan ri = true) : initReg p ri = p.regMin := by
  simp [initReg, h]

namespace Ex

/-- C49: `reg_min` itself is in range, so the three theorems apply to the default call. -/
example : InRange (Params.default : Params ℚ) (Params.default : Params ℚ).regMin := ⟨le_rfl, RegOK.default.min_le⟩

/-- C49: the solver of the linear-quadratic example has the constructor's parameters. -/
example : lqSolver.par = Params.default := rfl

end Ex
end Mim
