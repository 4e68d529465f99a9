import Verif.Lemmas.ParallelLag
import Verif.Props.QPPasses
import Verif.Props.ParallelTryEx

/-!
# C47: the multi-threaded `update_lagrangian_parameters` of SolverCSQP
-/
set_option linter.unusedSectionVars false
set_option linter.unusedSimpArgs false

namespace Mim
open Omp QP
section
variable {F : Type} [Add F] [Sub F] [Mul F] [Div F] [Neg F] [Zero F] [One F] [FloatOps F] {P : Problem F} {n : ℕ} {E : QEnv P}

/-- **C47, any arithmetic: the multipliers.**  Under every schedule the multi-threaded `update_lagrangian_parameters` leaves the
same `z, y, dx, du, …` as the sequential one; only the four residual norms may differ. -/
theorem C47_csqp_multipliers_memory {σ : Sched n LagEv} (hσ : σ.Valid P.T (lagOps P)) (idn : F) (q : CQP P) :
    ∃ nm, q.updateLagMt E σ idn = some { q.updateLag E with n := nm } := by
  have h : ∀ (v : CVars P) (a b : CNorms F), (lagTerm E q.qpIters (v, a)).1 = (lagTerm E q.qpIters (v, b)).1 := by
    intro v a b
    unfold lagTerm
    simp only []
    split <;> rfl
  unfold CQP.updateLagMt CQP.updateLag
  rw [exec_lag_trace hσ, lag_seq]
  simp only []
  generalize CNorms.mk _ _ _ _ = a
  refine ⟨(lagTerm E q.qpIters (forList (List.range P.T) (lagV E) q.v, a)).2, ?_⟩
  rw [h _ a]

end

section
variable {K : Type} [Field K] [LinearOrder K] [IsStrictOrderedRing K] {P : Problem K} {n : ℕ} {E : QEnv P}

/-- **C47, exact arithmetic: multipliers and residual norms.**  Under every schedule, with any initial value `idn` of the private
copies that is not above `-inf`'s representation, the multi-threaded `update_lagrangian_parameters` computes exactly what the
sequential one computes. -/
theorem C47_csqp_multipliers {σ : Sched n LagEv} (hσ : σ.Valid P.T (lagOps P)) {idn : K} (hid : idn ≤ negInf) (q : CQP P) :
    q.updateLagMt E σ idn = some (q.updateLag E) := by
  unfold CQP.updateLagMt CQP.updateLag
  rw [exec_lag_trace hσ, lag_seq]
  simp only []
  obtain ⟨⟨B1, h1⟩, ⟨B2, h2⟩, ⟨B3, h3⟩, ⟨B4, h4⟩⟩ := normB_all (E := E) (iter := q.qpIters) q.v
  have e1 := h1.comb hσ 0 ⟨negInf, negInf, negInf, negInf⟩ ⟨idn, idn, idn, idn⟩ hid
  have e2 := h2.comb hσ 1 ⟨negInf, negInf, negInf, negInf⟩ ⟨idn, idn, idn, idn⟩ hid
  have e3 := h3.comb hσ 2 ⟨negInf, negInf, negInf, negInf⟩ ⟨idn, idn, idn, idn⟩ hid
  have e4 := h4.comb hσ 3 ⟨negInf, negInf, negInf, negInf⟩ ⟨idn, idn, idn, idn⟩ hid
  unfold lagNs
  simp only [] at e1 e2 e3 e4
  rw [e1, e2, e3, e4]

end

namespace Ex

/-- two threads, the first one runs node 1, the second one node 0; their operations interleave. -/
def lag2 : Sched 2 LagEv where
  chunk i := if i = 0 then [1] else [0]
  trace := [(1, .zPrev 0), (0, .zPrev 1), (0, .zRel 1), (1, .zRel 0), (1, .z 0), (1, .y 0), (1, .dx 0), (0, .z 1), (1, .du 0),
    (0, .y 1), (0, .dx 1), (1, .norms 0), (0, .du 1), (0, .norms 1)]
  comb v := if v = 0 then .node (.leaf (some 1)) (.node (.leaf none) (.leaf (some 0)))
    else .node (.node (.leaf (some 0)) (.leaf none)) (.leaf (some 1))

theorem lag2_valid : lag2.Valid (clq 2 1 1 1 1).T (lagOps (clq 2 1 1 1 1)) := by
  refine ⟨by decide, fun i => ?_, fun v => ?_⟩
  · revert i; decide
  · by_cases h : v = 0
    · subst h; decide
    · rw [show lag2.comb v = .node (.node (.leaf (some 0)) (.leaf none)) (.leaf (some 1)) from if_neg h]; decide

/-- C47 applied: at this iterate the norms are not trivial. -/
def lagQ : CQP (clq 2 1 1 1 1) :=
  let q := (CSQP.new (Data.zero (clq 2 1 1 1 1)) (fun _ _ => 1) (fun _ _ => 1) 0).q
  { q with qpIters := 25, v := { q.v with dxt := fun _ _ => 1, dut := fun t _ => if t = 0 then 5 else 3, y := fun t _ => t } }

def lagE : QEnv (clq 2 1 1 1 1) :=
  let s := (CSQP.new (Data.zero (clq 2 1 1 1 1)) (fun _ _ => 1) (fun _ _ => 1) 0).calcEval
  { c := s.c, d := s.data, fs := s.e.fs, preg := 0, dreg := 0, clock := fun _ => 0, sched := none }

example : lagQ.updateLagMt lagE lag2 (-7) = some (lagQ.updateLag lagE) :=
  C47_csqp_multipliers (P := clq 2 1 1 1 1) lag2_valid (by decide +kernel) lagQ

example : (lagQ.updateLag lagE).n.p = 4 ∧ (lagQ.updateLag lagE).n.d = 1 ∧ (lagQ.updateLag lagE).n.pr = 5 := by decide +kernel

end Ex
end Mim
