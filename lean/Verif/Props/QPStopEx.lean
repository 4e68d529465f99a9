import Verif.Props.QPStop

/-!
# Non-vacuity of C53 and C54
-/
set_option linter.unusedSectionVars false
set_option linter.unusedSimpArgs false

namespace Mim.Ex
open QP Spec Matrix CSQP

/-- the solver of `lin` with a tolerance for the penalty so large that it never adapts; tolerances tested after every iteration. -/
def linNSolver : CSQP lin :=
  { linSolver with c := { linSolver.c with adaptTol := 10 ^ 9, maxQP := 3, interval := 1 } }

theorem linN_reachable : Reachable linNSolver := .setParams linSolver linNSolver.c rfl lin_reachable

noncomputable def linNCall : CSQP lin := entry (linNSolver.start world none none 5 0)

theorem linN_calls : Calls world 20 none none 5 0 linNSolver linNCall :=
  Calls.head AtHead.start (by decide +kernel) (by decide +kernel) (.inl rfl)

noncomputable def linNFirst : CQP lin := { linNCall.q.resetParams linNSolver.c with qpIters := 1, exec := 0 }
noncomputable def linNSecond : CQP lin :=
  (({ linNFirst with tick := linNFirst.tick + 1 } : CQP lin).step world.llt (linNCall.env world)).st.between (linNCall.env world)
noncomputable def linNThird : CQP lin :=
  (({ linNSecond with tick := linNSecond.tick + 1 } : CQP lin).step world.llt (linNCall.env world)).st

theorem linN_first : AtIter world.llt (linNCall.env world) linNCall.q linNFirst := .first rfl

theorem linN_second : AtIter world.llt (linNCall.env world) linNCall.q linNSecond :=
  .next linN_first (by decide +kernel) (ok_st (by decide +kernel)) (by decide +kernel)

/-- the multipliers of the solution of the QP at `u = 0`: the bound `u ≤ 1` is active. -/
def linNy : (t : ℕ) → Vec ℚ (lin.ng t) := fun t _ => if t = 0 then 1 else 0

theorem linN_kkt : QPKKT linNCall.data linNCall.e.fs linNCall.preg linNCall.dreg (fun _ _ => 0) (fun _ _ => 1) (fun _ _ => 0) linNy := by
  have ht : ∀ t, t < lin.T → t = 0 := fun t h => Nat.lt_one_iff.mp h
  refine ⟨⟨rfl, ?_, ?_, ?_⟩, ?_, ?_, ?_, ?_, ?_⟩
  · decide +kernel
  · intro t h i
    obtain rfl := ht t h
    refine ⟨fun l hl => (by cases hl), fun u hu => ?_⟩
    obtain rfl : u = 1 := by cases hu; rfl
    have : ∀ i : Fin 1, ((linNCall.data.run 0).g + conLin linNCall.data 0 (fun _ => 0) (fun _ => 1)) i ≤ (1 : ℚ) := by decide +kernel
    exact this i
  · intro i
    exact ⟨fun l hl => (by cases hl), fun u hu => (by cases hu)⟩
  · intro t h1 h2
    exact absurd (ht t h2) (by omega)
  · decide +kernel
  · decide +kernel
  · intro t h i
    obtain rfl := ht t h
    have : ∀ i : Fin 1, ((linNCall.data.run 0).g + conLin linNCall.data 0 (fun _ => 0) (fun _ => 1)) i = (1 : ℚ) := by decide +kernel
    refine ⟨fun _ => ?_, fun hn => absurd hn (by decide +kernel : ¬ (1 : ℚ) < 0)⟩
    rw [this i]; rfl
  · intro i
    exact ⟨fun hn => absurd hn (by decide +kernel : ¬ (0 : ℚ) < 0), fun hn => absurd hn (by decide +kernel : ¬ (0 : ℚ) < 0)⟩

theorem linN_convex : Convex linNCall.data linNCall.preg linNCall.dreg := by
  have ht : ∀ t, t < lin.T → t = 0 := fun t h => Nat.lt_one_iff.mp h
  have h1 : (linNCall.data.rd 0).Lxx = 0 ∧ (linNCall.data.rd 0).Lxu = 0 ∧ (linNCall.data.rd 0).Luu = 0 ∧ linNCall.data.td.Lxx = 0 ∧
      linNCall.preg = 0 ∧ linNCall.dreg = 0 := by decide +kernel
  obtain ⟨a, b, c, d, e, f⟩ := h1
  refine ⟨fun t h x u => ?_, fun x => ?_⟩
  · obtain rfl := ht t h
    rw [a, b, c, e, f]
    simp
  · rw [d, e]; simp

/-- C53 applied to the second iteration: before it the distance is positive and it decreases. -/
theorem C53_example :
    admmDist linNCall.data linNSecond.v.rho linNSolver.c.sigma linNSolver.c.alpha linNThird.v.dx linNThird.v.du linNThird.v.z
      linNThird.v.y (fun _ _ => 0) (fun _ _ => 1) linNy <
    admmDist linNCall.data linNSecond.v.rho linNSolver.c.sigma linNSolver.c.alpha linNSecond.v.dx linNSecond.v.du linNSecond.v.z
      linNSecond.v.y (fun _ _ => 0) (fun _ _ => 1) linNy := by
  have := C53_csqp_iteration_closer llt1_exact lin_sym (fun l h => (by cases h)) (by constructor <;> decide +kernel) lin_bounds
    linN_reachable (by decide +kernel) linN_calls linN_convex linN_second (by decide +kernel) (q' := linNThird) (ok_st (by decide +kernel))
    linN_kkt
  have h2 : (0 : ℚ) < linNSolver.c.alpha * (2 - linNSolver.c.alpha) *
      splitGap linNCall.data linNSecond.v.rho linNThird.v.dx linNThird.v.du linNSecond.v.z +
      linNSolver.c.alpha * linNSolver.c.sigma * stepDist lin linNThird.v.dx linNSecond.v.dx linNThird.v.du linNSecond.v.du := by decide +kernel
  linarith

/-- C54 applied. -/
theorem C54_example : ∃ N, ∀ M, N < M → ∀ q', linNCall.q.computeDirection world.llt ((linNCall.env world).withMax M) = .ok q' →
    q'.why = .tol ∨ q'.why = .time := by
  obtain ⟨N, _, h⟩ := C54_csqp_qp_terminates llt1_exact lin_sym (fun l h => (by cases h)) (by constructor <;> decide +kernel)
    (by constructor <;> decide +kernel) lin_bounds linN_reachable (by decide +kernel) (by decide +kernel) (by decide +kernel)
    (by decide +kernel) (by decide +kernel) (by decide +kernel) (by decide +kernel) linN_calls linN_convex
    ⟨_, _, _, _, linN_kkt⟩
  exact ⟨N, h⟩

end Mim.Ex
