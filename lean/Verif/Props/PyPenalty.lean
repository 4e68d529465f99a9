import Verif.Props.PyOsqpEx

/-!
# The penalties of `CustomOSQP` and `StagewiseQPKKT` (C85 (g), C86 (h))
-/
set_option linter.unusedSectionVars false
set_option linter.unusedSimpArgs false
set_option autoImplicit false

namespace Mim
open QP Spec Matrix

namespace Spec
variable {K : Type} [Field K] [LinearOrder K]

/-- the penalty `v` of a row with bounds `l`, `u` (`none`: infinite), smallest penalty `rhoMin` and base penalty `r`: rows without bounds get the smallest
one, equality rows 1000 times the base, all others (bounds that differ by at least 1e-4, or one infinite) the base. -/
structure RowPenalty (rhoMin r : K) (l u : Option K) (v : K) : Prop where
  free : l = none → u = none → v = rhoMin
  eq : ∀ b, l = some b → u = some b → v = 1000 * r
  wide : ∀ a b, l = some a → u = some b → 1 / 10000 ≤ |a - b| → v = r
  lower : ∀ a, l = some a → u = none → v = r
  upper : ∀ b, l = none → u = some b → v = r
end Spec

section
variable {K : Type} [Field K] [LinearOrder K] [IsStrictOrderedRing K]

theorem rowSet_penalty (rhoMin r : K) (l u : Option K) : RowPenalty rhoMin r l u (rowSet rhoMin r l u) := by
  refine ⟨?_, ?_, ?_, ?_, ?_⟩
  · rintro rfl rfl; rfl
  · rintro b rfl rfl; simp only [rowSet, eqb_exact, lit_exact, decide_true, if_true]; norm_num
  · rintro a b rfl rfl h
    have hab : a ≠ b := by rintro rfl; rw [sub_self, abs_zero] at h; norm_num at h
    simp [rowSet, eqb_exact, hab]
  · rintro a rfl rfl; rfl
  · rintro b rfl rfl; rfl

theorem rowUpdate_penalty (rhoMin r : K) (l u : Option K) : RowPenalty rhoMin r l u (rowUpdate rhoMin r l u) := by
  refine ⟨?_, ?_, ?_, ?_, ?_⟩
  · rintro rfl rfl; rfl
  · rintro b rfl rfl
    simp only [rowUpdate, ltb_exact, lit_exact, absf_exact, sub_self, abs_zero]
    rw [if_pos (by norm_num)]; norm_num
  · rintro a b rfl rfl h
    simp only [rowUpdate, ltb_exact, lit_exact, absf_exact]
    rw [if_neg]
    simp only [decide_eq_true_eq, not_lt]
    refine le_trans (le_of_eq ?_) h
    norm_num
  · rintro a rfl rfl; rfl
  · rintro b rfl rfl; rfl
end

namespace OState
variable {K : Type} [Field K] [LinearOrder K] [IsStrictOrderedRing K] [SqrtOps K] {n m : ℕ}
variable {sp : SpSolve K} {c : OConf K} {D : OQP K n m}

/-- **C85 (g).**  After every call, whatever the linear solver answered, each row has the penalty of its kind; and as long as no update is due the base penalty is
`rho_init` clamped to its range. -/
theorem C85_osqp_penalties {s r : OState K n m} (h : s.optimize sp c D = .ok r) :
    (∀ i, RowPenalty c.rhoMin r.rho (D.l i) (D.u i) (r.rhoVec i)) ∧
    (c.maxQP < c.interval → r.rho = min (max c.rhoInit c.rhoMin) c.rhoMax) := by
  obtain ⟨-, h0, i, hi, him, -, hcase⟩ := optimize_ok h
  have key : ∀ i, (∀ k, RowPenalty c.rhoMin (after sp c D (s.init c D) i).rho (D.l k) (D.u k) ((after sp c D (s.init c D) i).rhoVec k)) ∧
      (i < c.interval → (after sp c D (s.init c D) i).rho = min (max c.rhoInit c.rhoMin) c.rhoMax) := by
    intro i
    induction i with
    | zero =>
      refine ⟨fun k => rowSet_penalty _ _ _ _, fun _ => ?_⟩
      change cppMin (cppMax c.rhoInit c.rhoMin) c.rhoMax = _
      rw [cppMin_exact, cppMax_exact]
    | succ i ih =>
      change (∀ k, RowPenalty c.rhoMin ((after sp c D (s.init c D) i).step sp c D (i + 1)).rho (D.l k) (D.u k)
        (((after sp c D (s.init c D) i).step sp c D (i + 1)).rhoVec k)) ∧ (_ → ((after sp c D (s.init c D) i).step sp c D (i + 1)).rho = _)
      unfold OState.step updateRho
      simp only []
      split
      · rename_i hd
        refine ⟨fun k => rowUpdate_penalty _ _ _ _, fun hlt => ?_⟩
        rw [Bool.and_eq_true] at hd
        simp only [OConf.due, Nat.mod_eq_of_lt hlt] at hd
        simp at hd
      · exact ⟨ih.1, fun hlt => ih.2 (by omega)⟩
  rcases hcase with ⟨-, rfl⟩ | ⟨-, -, rfl⟩
  · exact ⟨(key i).1, fun hlt => (key i).2 (by omega)⟩
  · exact ⟨(key i).1, fun hlt => (key i).2 (by omega)⟩
end OState

namespace Ex
/-- an equality row, a row without bounds and one with an upper bound only. -/
def rows3 : OQP ℚ 1 3 where
  P := 1
  q _ := -2
  A := fun _ _ => 1
  l := ![some 1, none, none]
  u := ![some 1, none, some 5]

def oz3 : OState ℚ 1 3 := ⟨0, 0, 0, 0, 0, 0, 0, 0, 0, 0, 0, 0, false, 0⟩

/-- a call that returns; base penalty 1, rows 1000, 1/1000 and 1. -/
example : (match oz3.optimize spDiag { oconf with interval := 10, maxQP := 3 } rows3 with
    | .ok r => some (r.rho, r.rhoVec 0, r.rhoVec 1, r.rhoVec 2)
    | .exn _ => none) = some (1, 1000, 1 / 1000, 1) := by decide +kernel

/-- the penalty 7 left by an earlier call is used, although `rho_init` is 1. -/
example : (match ({ bz with rho := 7 } : BState ℚ 1 0 0).optimize spDiag { bconf with interval := 10 } free1 with
    | .ok r => some r.rho
    | .exn _ => none) = some 7 := by decide +kernel
end Ex

namespace BState
variable {K : Type} [Field K] [LinearOrder K] [IsStrictOrderedRing K] [SqrtOps K] {n e m : ℕ}
variable {sp : SpSolve K} {c : OConf K} {D : BQP K n e m}

/-- **C86 (h).**  The same rows; but here the base penalty goes on from the one the previous call ended with (`rho_init` plays no role). -/
theorem C86_boyd_penalties {s r : BState K n e m} (h : s.optimize sp c D = .ok r) :
    (∀ i, RowPenalty c.rhoMin r.rho (D.l i) (D.u i) (r.rhoVec i)) ∧
    (c.maxQP < c.interval → r.rho = min (max s.rho c.rhoMin) c.rhoMax) := by
  obtain ⟨-, h0, i, hi, him, -, hcase⟩ := optimize_ok h
  have key : ∀ i, (∀ k, RowPenalty c.rhoMin (after sp c D (s.init c D) i).rho (D.l k) (D.u k) ((after sp c D (s.init c D) i).rhoVec k)) ∧
      (i < c.interval → (after sp c D (s.init c D) i).rho = min (max s.rho c.rhoMin) c.rhoMax) := by
    intro i
    induction i with
    | zero =>
      refine ⟨fun k => rowSet_penalty _ _ _ _, fun _ => ?_⟩
      change cppMin (cppMax (if s.fresh then { s with x := zeroV K n, z := zeroV K m, y := zeroV K m, fresh := false } else s).rho c.rhoMin) c.rhoMax = _
      rw [cppMin_exact, cppMax_exact]
      cases s.fresh <;> rfl
    | succ i ih =>
      change (∀ k, RowPenalty c.rhoMin ((after sp c D (s.init c D) i).step sp c D (i + 1)).rho (D.l k) (D.u k)
        (((after sp c D (s.init c D) i).step sp c D (i + 1)).rhoVec k)) ∧ (_ → ((after sp c D (s.init c D) i).step sp c D (i + 1)).rho = _)
      unfold BState.step updateRho
      simp only []
      split
      · rename_i hd
        refine ⟨fun k => rowUpdate_penalty _ _ _ _, fun hlt => ?_⟩
        rw [Bool.and_eq_true] at hd
        simp only [OConf.due, Nat.mod_eq_of_lt hlt] at hd
        simp at hd
      · exact ⟨ih.1, fun hlt => ih.2 (by omega)⟩
  rcases hcase with ⟨-, rfl⟩ | ⟨-, -, rfl⟩
  · exact ⟨(key i).1, fun hlt => (key i).2 (by omega)⟩
  · exact ⟨(key i).1, fun hlt => (key i).2 (by omega)⟩
end BState
end Mim
