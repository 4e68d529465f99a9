import Verif.Props.PyDense
import Verif.Spec.ExamplesC

/-!
# Concrete runs of the QP solvers written in Python; two things `StagewiseQPKKT` does not guarantee (C85, C86)
-/
set_option linter.unusedSectionVars false
set_option linter.unusedSimpArgs false

namespace Mim
open QP Spec Matrix

/-- exact linear solvers exist: `M⁻¹ b`. -/
theorem spExact_inv {K : Type} [Field K] [LinearOrder K] [IsStrictOrderedRing K] : SpExact (fun _ M b => M⁻¹ *ᵥ b : SpSolve K) := by
  intro n M b h
  have hi : Function.Injective M.mulVec := by
    intro v w hvw
    have := h (v - w) (by rw [mulVec_sub]; exact sub_eq_zero.mpr hvw)
    exact sub_eq_zero.mp this
  have hu : IsUnit M := mulVec_injective_iff_isUnit.mp hi
  have hd : IsUnit M.det := (Matrix.isUnit_iff_isUnit_det M).mp hu
  rw [mulVec_mulVec, mul_nonsing_inv M hd, one_mulVec]

namespace Ex

/-- solves systems with a diagonal matrix. -/
def spDiag : SpSolve ℚ := fun _ M b i => b i / M i i

/-- settings with a short interval. -/
def oconf : OConf ℚ where
  sigma := 1
  rhoInit := 1
  rhoMin := 1 / 1000
  rhoMax := 1000
  alpha := 1
  epsAbs := 1
  epsRel := 0
  adaptTol := 5
  interval := 2
  maxQP := 20

/-- `min ½ x² - 2 x` subject to `0 ≤ x ≤ 1`: the solution is 1 with multiplier 1. -/
def box1 : OQP ℚ 1 1 where
  P := 1
  q _ := -2
  A := 1
  l _ := some 0
  u _ := some 1

def oz : OState ℚ 1 1 := ⟨0, 0, 0, 0, 0, 0, 0, 0, 0, 0, 0, 0, false, 0⟩

def obox : Option (OState ℚ 1 1) :=
  match oz.optimize spDiag oconf box1 with
  | .ok r => some r
  | .exn _ => none

theorem box1_psd : PSD box1.P := ⟨by simp [box1], fun v => by
  simp only [box1, one_mulVec, dotProduct]
  exact Finset.sum_nonneg fun i _ => mul_self_nonneg _⟩
theorem box1_ok : BoxOK box1.l box1.u := by
  intro i a b ha hb
  have ea : a = 0 := (Option.some.inj ha).symm
  have eb : b = 1 := (Option.some.inj hb).symm
  rw [ea, eb]; norm_num

/-- C85 applies: the run converges after 2 iterations. -/
theorem obox_run : (obox.map fun r => (r.conv, r.iters, r.x 0 == 1, r.z 0 == 1)) = some (true, 2, false, true) := by decide +kernel

example : ∃ r, oz.optimize spDiag oconf box1 = .ok r ∧ r.conv = true ∧ InBox box1.l box1.u r.z ∧
    r.rPrim < 1 ∧ r.rDual < 1 := by
  have h := obox_run
  unfold obox at h
  cases ho : oz.optimize spDiag oconf box1 with
  | exn r => rw [ho] at h; cases h
  | ok r =>
    rw [ho] at h
    simp only [Option.map_some, Option.some.injEq, Prod.mk.injEq] at h
    obtain ⟨h1, -, -, -, -, -, h7, -⟩ := OState.C85_osqp_result (c := oconf) (by norm_num [oconf]) (by norm_num [oconf]) box1_ok ho
    obtain ⟨-, -, a, b⟩ := h7.1 h.1
    refine ⟨r, rfl, h.1, h1, ?_, ?_⟩
    · simpa [oconf] using a
    · simpa [oconf] using b

/-- the solution is a KKT point; C85 (e) and (f) apply with the exact solver `M⁻¹ b` at it and at any other point. -/
theorem box1_kkt : BoxKKT box1 1 1 := by
  refine ⟨fun i => ⟨fun l hl => ?_, fun u hu => ?_⟩, ?_, fun i => ⟨fun _ => ?_, fun h => ?_⟩⟩
  · have el : l = 0 := (Option.some.inj hl).symm
    rw [el]; simp [box1]
  · have eu : u = 1 := (Option.some.inj hu).symm
    rw [eu]; simp [box1]
  · funext i; simp [box1]; norm_num
  · simp [box1]
  · norm_num at h

example (s : OState ℚ 1 1) (hr : ∀ i, 0 < s.rhoVec i) (hz : InBox box1.l box1.u s.z) (hy : NormalCone box1.l box1.u s.z s.y) :
    osqpDist box1 s.rhoVec 1 (s.step (fun _ M b => M⁻¹ *ᵥ b) oconf box1 1).x (s.step (fun _ M b => M⁻¹ *ᵥ b) oconf box1 1).z
      (s.step (fun _ M b => M⁻¹ *ᵥ b) oconf box1 1).y 1 1 ≤ osqpDist box1 s.rhoVec 1 s.x s.z s.y 1 1 := by
  have := OState.C85_osqp_fejer (c := oconf) spExact_inv box1_psd (by norm_num [oconf]) (by norm_num [oconf]) s hr hz hy 1 box1_kkt
  have h2 := boxSqDist_nonneg (s.step (fun _ M b => M⁻¹ *ᵥ b) oconf box1 1).xt s.x
  have h3 := boxWDist_nonneg hr (box1.A *ᵥ (s.step (fun _ M b => M⁻¹ *ᵥ b) oconf box1 1).xt) s.z
  simp only [oconf] at this h2 h3 ⊢
  linarith

/-! ### `StagewiseQPKKT` -/

/-- `min ½ x² + 4 x`, no constraints. -/
def free1 : BQP ℚ 1 0 0 where
  P := 1
  q _ := 4
  A := 0
  l _ := none
  u _ := none
  E := 0
  b _ := 0

def bconf : OConf ℚ := { oconf with epsAbs := 0, maxQP := 2 }

def bz : BState ℚ 1 0 0 := ⟨0, 0, 0, 0, 1, 0, 0, 0, 0, 0, 0, false, 0, true⟩

def bfirst : Option (BState ℚ 1 0 0) :=
  match bz.optimize spDiag bconf free1 with
  | .ok r => some r
  | .exn _ => none

def bsecond : Option (BState ℚ 1 0 0) :=
  match bfirst with
  | some r => (match r.optimize spDiag bconf free1 with
    | .ok r => some r
    | .exn _ => none)
  | none => none

theorem bfirst_run : (bfirst.map fun r => (r.conv, r.iters, r.x 0)) = some (true, 2, -3) := by decide +kernel
theorem bsecond_run : (bsecond.map fun r => (r.conv, r.iters, r.x 0)) = some (true, 2, -15 / 4) := by decide +kernel

end Ex

namespace BState

/-- **C86 (f), negative part.**  A converged answer of `StagewiseQPKKT` need not be stationary to the tolerance: with tolerance 0 and
no constraints the solver reports convergence at a point where the gradient of the objective is 1 (its dual test looks at the change
of the constraint values only, and the proximal term `sigma (x - x_prev)` is not in it). -/
theorem C86_boyd_converged_not_stationary : ∃ r, Ex.bz.optimize Ex.spDiag Ex.bconf Ex.free1 = .ok r ∧ r.conv = true ∧
    Ex.bconf.epsAbs = 0 ∧ Ex.bconf.epsRel = 0 ∧ (Ex.free1.P *ᵥ r.x + Ex.free1.q) 0 = 1 := by
  have h := Ex.bfirst_run
  unfold Ex.bfirst at h
  cases ho : Ex.bz.optimize Ex.spDiag Ex.bconf Ex.free1 with
  | exn r => rw [ho] at h; cases h
  | ok r =>
    rw [ho] at h
    simp only [Option.map_some, Option.some.injEq, Prod.mk.injEq] at h
    refine ⟨r, rfl, h.1, rfl, rfl, ?_⟩
    have hx : r.x 0 = -3 := h.2.2
    simp only [Ex.free1, one_mulVec, Pi.add_apply, hx]
    norm_num

/-- **C86 (g), negative part.**  `StagewiseQPKKT` keeps its iterate between calls: the same call on the same QP, made twice in a row,
gives two different answers, both reported as converged. -/
theorem C86_boyd_has_memory : ∃ r r', Ex.bz.optimize Ex.spDiag Ex.bconf Ex.free1 = .ok r ∧
    r.optimize Ex.spDiag Ex.bconf Ex.free1 = .ok r' ∧ r.conv = true ∧ r'.conv = true ∧ r.x ≠ r'.x := by
  have h1 := Ex.bfirst_run
  have h2 := Ex.bsecond_run
  unfold Ex.bsecond at h2
  unfold Ex.bfirst at h1 h2
  cases ho : Ex.bz.optimize Ex.spDiag Ex.bconf Ex.free1 with
  | exn r => rw [ho] at h1; cases h1
  | ok r =>
    rw [ho] at h1 h2
    simp only [] at h2
    cases ho' : r.optimize Ex.spDiag Ex.bconf Ex.free1 with
    | exn r' => rw [ho'] at h2; cases h2
    | ok r' =>
      rw [ho'] at h2
      simp only [Option.map_some, Option.some.injEq, Prod.mk.injEq] at h1 h2
      refine ⟨r, r', rfl, ho', h1.1, h2.1, fun e => ?_⟩
      have := congrFun e 0
      rw [h1.2.2, h2.2.2] at this
      norm_num at this

end BState
end Mim
