import Verif.Lemmas.MtRefine

/-!
# C52: multi-threaded `SolverCSQP::solve`
-/
set_option linter.unusedSectionVars false
set_option linter.unusedSimpArgs false

namespace Mim
open Omp QP Spec
namespace CSQP
section
variable {K : Type} [Field K] [LinearOrder K] [IsStrictOrderedRing K] [SqrtOps K] {P : Problem K} {n n' : ℕ} {M : MtWorld n K}

/-- everything a user can ask the solver for after `solve` agrees: configuration, regularization, iteration count, step length,
trajectory, gaps, cost and norms of the iterate, search direction, ADMM variables, penalties, residuals, feedback gains, value
function, multipliers, KKT residual, merit, filter memory and the calls of the callbacks. -/
structure SameAnswer (s s' : CSQP P) : Prop where
  c : s'.c = s.c
  reg : s'.preg = s.preg ∧ s'.dreg = s.dreg
  iter : s'.iter = s.iter
  steplength : s'.steplength = s.steplength
  xs : s'.xs = s.xs
  us : s'.us = s.us
  feas : s'.feas = s.feas
  e : s'.e = s.e
  m : s'.m = s.m
  lagMul : s'.lagMul = s.lagMul
  log : s'.log = s.log
  v : s'.q.v = s.q.v
  n : s'.q.n = s.q.n
  tol : s'.q.tolP = s.q.tolP ∧ s'.q.tolD = s.q.tolD
  rho : s'.q.rhoSparse = s.q.rhoSparse ∧ s'.q.rhoEst = s.q.rhoEst
  qpIters : s'.q.qpIters = s.q.qpIters
  reached : s'.q.reached = s.q.reached
  gains : s'.q.b.bp.K = s.q.b.bp.K ∧ s'.q.b.bp.k = s.q.b.bp.k
  value : s'.q.b.bp.Vx = s.q.b.bp.Vx ∧ s'.q.b.bp.Vxx = s.q.b.bp.Vxx

theorem Sim.same {s s' : CSQP P} (h : Sim s s') : SameAnswer s s' := by
  obtain ⟨d, b, w, rfl, hd, hb, hw⟩ := h.ex
  exact ⟨rfl, ⟨rfl, rfl⟩, rfl, rfl, rfl, rfl, rfl, rfl, rfl, rfl, rfl, rfl, rfl, ⟨rfl, rfl⟩, ⟨rfl, rfl⟩, rfl, rfl,
    ⟨hb.bp.K, hb.bp.k⟩, ⟨hb.bp.Vx, hb.bp.Vxx⟩⟩

/-- **C52.**  Exact arithmetic, non-negative costs, any number of threads and any schedules of the parallel loops: if the
multi-threaded `solve` ends, the single-threaded one ends in the same way and with the same answer; if it is in an endless retry
loop, so is the single-threaded one; if the program is terminated, then in one of the iterations of the single-threaded run some
step length in `[0, 1]` leads to a trajectory with cost ≥ 1e30. -/
theorem C52_csqp_parallel_solve (hM : M.OK P) (hid : M.idn ≤ negInf) (hc : ∀ xs us, NonnegCosts P xs us) (fuel : ℕ)
    (initXs : Option (Traj P)) (initUs : Option (Ctrls P)) (maxiter : ℕ) (reginit : K) (s : CSQP P) :
    (∀ o s', solveMt M fuel initXs initUs maxiter reginit s = .val (o, s') →
      ∃ s1, solve ⟨M.llt, M.clock, none⟩ fuel initXs initUs maxiter reginit s = some (o, s1) ∧ SameAnswer s1 s') ∧
    (solveMt M fuel initXs initUs maxiter reginit s = .running →
      solve ⟨M.llt, M.clock, none⟩ fuel initXs initUs maxiter reginit s = none) ∧
    (solveMt M fuel initXs initUs maxiter reginit s = .dead →
      ∃ s2 ∈ visited ⟨M.llt, M.clock, none⟩ fuel maxiter (s.start ⟨M.llt, M.clock, none⟩ initXs initUs maxiter reginit),
        CostlyTrial ⟨M.llt, M.clock, none⟩ fuel s2) := by
  have := solve_refines hM hid hc fuel initXs initUs maxiter reginit s
  generalize solve ⟨M.llt, M.clock, none⟩ fuel initXs initUs maxiter reginit s = x at this ⊢
  generalize solveMt M fuel initXs initUs maxiter reginit s = y at this ⊢
  cases this with
  | running => exact ⟨fun _ _ e => (by cases e), fun _ => rfl, fun e => (by cases e)⟩
  | dead h => exact ⟨fun _ _ e => (by cases e), fun e => (by cases e), fun _ => h⟩
  | @val s1 s' a h =>
    refine ⟨fun o s2 e => ?_, fun e => (by cases e), fun e => (by cases e)⟩
    cases e
    exact ⟨s1, rfl, h.same⟩

/-- **C52, without huge costs**: the multi-threaded `solve` ends exactly when the single-threaded one does, with the same outcome
and the same answer. -/
theorem C52_csqp_parallel_solve_same (hM : M.OK P) (hid : M.idn ≤ negInf) (hc : ∀ xs us, NonnegCosts P xs us) (fuel : ℕ)
    (initXs : Option (Traj P)) (initUs : Option (Ctrls P)) (maxiter : ℕ) (reginit : K) (s : CSQP P)
    (hb : ∀ s2 ∈ visited ⟨M.llt, M.clock, none⟩ fuel maxiter (s.start ⟨M.llt, M.clock, none⟩ initXs initUs maxiter reginit),
      ¬ CostlyTrial ⟨M.llt, M.clock, none⟩ fuel s2) :
    (∃ o s1 s', solve ⟨M.llt, M.clock, none⟩ fuel initXs initUs maxiter reginit s = some (o, s1) ∧
      solveMt M fuel initXs initUs maxiter reginit s = .val (o, s') ∧ SameAnswer s1 s') ∨
    (solve ⟨M.llt, M.clock, none⟩ fuel initXs initUs maxiter reginit s = none ∧
      solveMt M fuel initXs initUs maxiter reginit s = .running) := by
  have := solve_refines hM hid hc fuel initXs initUs maxiter reginit s
  generalize solve ⟨M.llt, M.clock, none⟩ fuel initXs initUs maxiter reginit s = x at this ⊢
  generalize solveMt M fuel initXs initUs maxiter reginit s = y at this ⊢
  cases this with
  | running => exact .inr ⟨rfl, rfl⟩
  | dead h => obtain ⟨s2, h1, h2⟩ := h; exact absurd h2 (hb s2 h1)
  | @val s1 s' a h => exact .inl ⟨_, _, _, rfl, rfl, h.same⟩

/-- **C52, two machines**: runs with different numbers of threads and different schedules that both end give the same answer. -/
theorem C52_csqp_schedule_independent {M' : MtWorld n' K} (hM : M.OK P) (hid : M.idn ≤ negInf) (hM' : M'.OK P) (hid' : M'.idn ≤ negInf)
    (hl : M'.llt = M.llt) (hk : M'.clock = M.clock) (hc : ∀ xs us, NonnegCosts P xs us) (fuel : ℕ)
    (initXs : Option (Traj P)) (initUs : Option (Ctrls P)) (maxiter : ℕ) (reginit : K) (s : CSQP P) {o o' : Out} {s1 s2 : CSQP P}
    (h : solveMt M fuel initXs initUs maxiter reginit s = .val (o, s1))
    (h' : solveMt M' fuel initXs initUs maxiter reginit s = .val (o', s2)) : o' = o ∧ SameAnswer s1 s2 := by
  have r := solve_refines hM hid hc fuel initXs initUs maxiter reginit s
  have r' := solve_refines hM' hid' hc fuel initXs initUs maxiter reginit s
  rw [hl, hk] at r'
  rw [h] at r
  rw [h'] at r'
  generalize solve ⟨M.llt, M.clock, none⟩ fuel initXs initUs maxiter reginit s = x at r r'
  cases r with
  | val a h1 =>
    cases r' with
    | val b h2 => exact ⟨rfl, (h1.symm.trans h2).same⟩

end
end CSQP

namespace Ex
open CSQP

/-- the schedule of a trial: thread 0 runs node 1, thread 1 runs node 0, interleaved. -/
def tr2 : Sched 2 TryEv where
  chunk i := if i = 0 then [1] else [0]
  trace := [(1, .eval 0), (0, .eval 1), (0, .cost 1), (1, .cost 0), (1, .diff 0), (1, .gap 0), (0, .diff 1), (1, .low 0), (0, .gap 1),
    (0, .low 1), (0, .up 1), (1, .up 0), (0, .check 1), (1, .check 0)]
  comb v := if v = 0 then .node (.leaf (some 1)) (.node (.leaf none) (.leaf (some 0)))
    else .node (.node (.leaf none) (.leaf (some 0))) (.leaf (some 1))

theorem tr2_valid : tr2.Valid 2 tryOps := by
  refine ⟨by decide, fun i => ?_, fun v => ?_⟩
  · revert i; decide
  · by_cases h : v = 0
    · subst h; decide
    · rw [show tr2.comb v = .node (.node (.leaf none) (.leaf (some 0))) (.leaf (some 1)) from if_neg h]; decide

/-- two threads, running the nodes in reverse order. -/
noncomputable def mt2 : MtWorld 2 ℚ := ⟨world.llt, world.clock, fun _ => [1, 0], fun _ => lag2, fun _ => tr2, -1⟩

theorem mt2_ok : mt2.OK (clq 2 1 1 1 1) :=
  ⟨fun _ => show List.Perm [1, 0] (List.range 2) by decide, fun _ => lag2_valid, fun _ => tr2_valid⟩

theorem clq2_nonneg (xs : Traj (clq 2 1 1 1 1)) (us : Ctrls (clq 2 1 1 1 1)) : NonnegCosts (clq 2 1 1 1 1) xs us := by
  have key : ∀ x u : ℚ, 0 ≤ (1 * x * x + 1 * u * u) / 2 := fun x u => by
    have h1 := mul_self_nonneg x
    have h2 := mul_self_nonneg u
    linarith
  have key2 : ∀ x : ℚ, 0 ≤ 1 * x * x / 2 := fun x => by
    have h1 := mul_self_nonneg x
    linarith
  exact ⟨fun t _ => key _ _, key2 _⟩

/-- two nodes, three QP iterations per iteration. -/
def clq2Solver : CSQP (clq 2 1 1 1 1) :=
  let s := CSQP.new (Data.zero _) (fun _ _ => 0) (fun _ _ => 0) 0
  { s with c := { s.c with maxQP := 3, maxTime := 1 } }

/-- the hypotheses of C52 are met and the run takes a step. -/
example : ∃ o s1 s', solve ⟨mt2.llt, mt2.clock, none⟩ 3 none none 1 0 clq2Solver = some (o, s1) ∧
    solveMt mt2 3 none none 1 0 clq2Solver = .val (o, s') ∧ SameAnswer s1 s' := by
  have h1 : (solve ⟨mt2.llt, mt2.clock, none⟩ 3 none none 1 0 clq2Solver).isSome = true := by decide +kernel
  have h2 : (match body ⟨mt2.llt, mt2.clock, none⟩ 3 (clq2Solver.start ⟨mt2.llt, mt2.clock, none⟩ none none 1 0) with
      | some (.next, _) => true
      | _ => false) = true := by decide +kernel
  have h3 : (match direction ⟨mt2.llt, mt2.clock, none⟩ 3 true
      ({ clq2Solver.start ⟨mt2.llt, mt2.clock, none⟩ none none 1 0 with
        q := { (clq2Solver.start ⟨mt2.llt, mt2.clock, none⟩ none none 1 0).q with
          tick := (clq2Solver.start ⟨mt2.llt, mt2.clock, none⟩ none none 1 0).q.tick + 1 } } : CSQP (clq 2 1 1 1 1)).prepare with
      | some (none, s1) => s1.c.par.alphas.all fun a =>
        decide (trajCost (clq 2 1 1 1 1) (stepX (clq 2 1 1 1 1) s1.xs s1.q.v.dx a) (stepU (clq 2 1 1 1 1) s1.us s1.q.v.du a) < 10 ^ 30)
      | _ => true) = true := by decide +kernel
  rcases C52_csqp_parallel_solve_same (P := clq 2 1 1 1 1) mt2_ok (by decide +kernel) clq2_nonneg 3 none none 1 0 clq2Solver (by
    intro s2 hs2 ⟨s1, hd, a, ha, _, _, hcost⟩
    obtain rfl : s2 = clq2Solver.start ⟨mt2.llt, mt2.clock, none⟩ none none 1 0 := by
      rw [visited] at hs2
      rcases List.mem_cons.mp hs2 with h | h
      · exact h
      · revert h
        split <;> simp [visited]
    rw [hd] at h3
    simp only [List.all_eq_true, decide_eq_true_eq] at h3
    exact absurd hcost (not_le.mpr (h3 a ha))) with h | ⟨h, -⟩
  · exact h
  · rw [h] at h1; cases h1

example : ((solve ⟨mt2.llt, mt2.clock, none⟩ 3 none none 1 0 clq2Solver).map fun r => (r.1, r.2.acc)) = some (.ret false, [1]) := by
  decide +kernel

end Ex
end Mim
