import Verif.Lemmas.SQPHist
import Verif.Lemmas.SQPDir
import Verif.Props.SQPFilter
import Verif.Spec.Examples

/-!
# C55 for `SolverSQP`: a solve does not depend on what the solver object did before

`SolverSQP` keeps a large amount of state between calls of `solve`: the datas of the shooting problem, the last direction,
gains, multipliers, gaps, costs, residual, trial trajectory, filter memory, step length.  C55 says that none of it
influences the next solve.
-/

set_option linter.unusedSectionVars false
set_option linter.unusedSimpArgs false

namespace Mim
section
variable {F : Type} [Add F] [Sub F] [Mul F] [Div F] [Neg F] [Zero F] [One F] [FloatOps F] {P : Problem F}

namespace SQP

/-- What two solves have in common: the candidate, the number of iterations, the regularization they ended with, and
the sequence of callback events since the logs were `l`, `l'` (each event records callback index, iteration, KKT
residual, cost and gap norm at the time of the call). -/
structure SameOutcome (l l' : List (CbEvent F)) (a a' : SQP P) : Prop where
  xs : ∀ t, t ≤ P.T → a.xs t = a'.xs t
  us : ∀ t, t < P.T → a.us t = a'.us t
  iter : a.iter = a'.iter
  preg : a.preg = a'.preg
  dreg : a.dreg = a'.dreg
  events : ∃ e, a.log = l ++ e ∧ a'.log = l' ++ e

/-- What two successful solves have in common in addition: everything a user can read about the solution. -/
structure SameReport (a a' : SQP P) : Prop where
  KKT : a.KKT = a'.KKT
  cost : a.cost = a'.cost
  gap : a.gap = a'.gap
  merit : a.merit = a'.merit
  fs : ∀ t, t ≤ P.T → a.fs t = a'.fs t
  lagMul : ∀ t, t ≤ P.T → a.lagMul t = a'.lagMul t
  dx : ∀ t, t ≤ P.T → a.dx t = a'.dx t
  du : ∀ t, t < P.T → a.du t = a'.du t
  K : ∀ t, t < P.T → a.bp.K t = a'.bp.K t
  k : ∀ t, t < P.T → a.bp.k t = a'.bp.k t
  run : ∀ t, t < P.T → a.data.run t = a'.data.run t
  rd : ∀ t, t < P.T → a.data.rd t = a'.data.rd t
  ter : a.data.ter = a'.data.ter
  td : a.data.td = a'.data.td

theorem Alike.outcome {l l' : List (CbEvent F)} {a b : SQP P} (h : Alike l l' a b) : SameOutcome l l' a b := by
  obtain ⟨c1, c2, c3, c4, c5, c6, c7, c8, c9, c10, c11, c12, c13⟩ := ctl_all h.ctl
  exact ⟨h.xs, h.us, c10, c8, c9, h.log⟩

theorem Dir.report {l l' : List (CbEvent F)} {a b : SQP P} (h : Dir l l' a b) (hk : a.KKT = b.KKT) : SameReport a b :=
  ⟨hk, h.cost, h.gap, h.merit, h.fs, h.lag, h.dx, h.du, fun t ht => h.bp.K t (by omega) ht, fun t ht => h.bp.k t (by omega) ht,
    h.data.run, h.data.rd, h.data.ter, h.data.td⟩

end SQP

open SQP in
/-- **C55 (SQP).**  Take two solvers for the same problem, each in any state the public API can reach (constructed,
configured, solved with before, `computeDirection`/`tryStep` called in between, …), with the same parameters now, whose
filters were not shrunk (`FilterWF`), and call `solve` on both with the same arguments.  Then either both retry forever,
or both return the same value, with the same trajectories, iteration count and regularization after the same sequence of
callback events; and if they return true they also agree in everything they report about the solution. -/
theorem C55_sqp_history_independence (llt : LLT F) (fuel : ℕ) (xs : Option (Traj P)) (us : Option (Ctrls P)) (m : ℕ) (ri : F)
    {s s' : SQP P} (hT : 0 < P.T) (hr : SQP.Reachable s) (hr' : SQP.Reachable s') (hf : FilterWF s) (hf' : FilterWF s')
    (hp : SameParams s s') (ha : s.par.alphas ≠ []) :
    (solve llt fuel xs us m ri s = none ∧ solve llt fuel xs us m ri s' = none) ∨
    ∃ r a a', solve llt fuel xs us m ri s = some (r, a) ∧ solve llt fuel xs us m ri s' = some (r, a') ∧
      SameOutcome s.log s'.log a a' ∧ (r = true → SameReport a a') := by
  have hfil : s'.gapList.Full s.filterSize ∧ s'.costList.Full s.filterSize := by
    rw [hp.filterSize]; exact ⟨hf'.2, hf'.1⟩
  have key := solve_alike llt fuel hT xs us m ri (s := { s with gapList := s'.gapList, costList := s'.costList }) (s' := s') ha
    ⟨hp.par, hp.tol, hp.mu, hp.useFilter, hp.filterSize, hp.extra, hp.ncb⟩ (hr.dx0.trans hr'.dx0.symm) rfl rfl
  rcases C12_sqp_filter_noninterference (llt := llt) (fuel := fuel) (xs := xs) (us := us) (m := m) (ri := ri)
    s'.gapList s'.costList hf hfil.1 hfil.2 with ⟨h1, h2⟩ | ⟨b, a, g, c, h1, h2⟩
  · rcases key with ⟨h3, h4⟩ | ⟨r, a, a', h3, h4, _⟩
    · exact .inl ⟨h1, h4⟩
    · rw [h2] at h3; cases h3
  · rcases key with ⟨h3, h4⟩ | ⟨r, x, a', h3, h4, h5, h6⟩
    · rw [h2] at h3; cases h3
    · rw [h2] at h3
      cases h3
      refine .inr ⟨b, a, a', h1, h4, ?_, fun hb => ?_⟩
      · obtain ⟨h1, h2, h3, h4, h5, h6⟩ := h5.outcome
        exact ⟨h1, h2, h3, h4, h5, h6⟩
      · obtain ⟨h5, h6⟩ := h6 hb
        obtain ⟨h1, h2, h3, h4, h5, h6, h7, h8, h9, h10, h11, h12, h13, h14⟩ := h5.report h6
        exact ⟨h1, h2, h3, h4, h5, h6, h7, h8, h9, h10, h11, h12, h13, h14⟩

/-- a newly constructed solver, configured through the setters like `s`. -/
def SQP.newLike (d : Data P) (s : SQP P) : SQP P :=
  { ({ SQP.new d with par := s.par, tol := s.tol, mu := s.mu, useFilter := s.useFilter, extra := s.extra, ncb := s.ncb }).setFilterSize s.filterSize with
    log := [] }

open SQP in
/-- **C55 (SQP), read as "like new".**  A solver with any history behaves, from now on, as a newly constructed solver with
the same configuration would: whatever the previous solves and direct calls were. -/
theorem C55_sqp_like_new (llt : LLT F) (fuel : ℕ) (xs : Option (Traj P)) (us : Option (Ctrls P)) (m : ℕ) (ri : F)
    {s : SQP P} (d : Data P) (hT : 0 < P.T) (hr : SQP.Reachable s) (hf : FilterWF s) (hn : 1 ≤ s.filterSize) (ha : s.par.alphas ≠ []) :
    (solve llt fuel xs us m ri s = none ∧ solve llt fuel xs us m ri (newLike d s) = none) ∨
    ∃ r a a', solve llt fuel xs us m ri s = some (r, a) ∧ solve llt fuel xs us m ri (newLike d s) = some (r, a') ∧
      SameOutcome s.log [] a a' ∧ (r = true → SameReport a a') := by
  have h1 : SQP.Reachable (newLike d s) := .setFilterSize _ _ (.setParams _ _ _ _ _ _ _ (.new d))
  have h2 : FilterWF (newLike d s) := (FilterWF.new d).grow s.filterSize hn
  exact C55_sqp_history_independence llt fuel xs us m ri hT hr h1 hf h2 ⟨rfl, rfl, rfl, rfl, rfl, rfl, rfl⟩ ha

end

/-! ## The hypotheses are met -/

namespace Ex

/-- a solve of `lq` from the guess `x = 5`, `u = 2` with a filter of size 3. -/
noncomputable def usedSolver : Option (Bool × SQP lq) :=
  SQP.solve llt1 20 (some fun _ => (5 : ℚ)) (some fun _ _ => 2) 3 (1 / 1000) (lqSolver.setFilterSize 3)

theorem usedSolver_some : ∃ r s, usedSolver = some (r, s) ∧ s.cost ≠ 0 ∧ s.gapList.items ≠ [0, 0, 0] := by
  have h : usedSolver.any (fun x : Bool × SQP lq => decide (¬ x.2.cost = 0) && decide (¬ x.2.gapList.items = [0, 0, 0])) = true := by
    decide +kernel
  match e : usedSolver, h with
  | some (r, s), h =>
    simp only [Option.any_some, Bool.and_eq_true, decide_eq_true_eq] at h
    exact ⟨r, s, rfl, h⟩

/-- a used solver: its cost and filter differ from those of a new one, and it meets the hypotheses of
`C55_sqp_like_new`. -/
example : ∃ s : SQP lq, SQP.Reachable s ∧ FilterWF s ∧ 1 ≤ s.filterSize ∧ s.par.alphas ≠ [] ∧ 0 < lq.T ∧ s.cost ≠ 0 ∧
    s.gapList.items ≠ [0, 0, 0] := by
  obtain ⟨r, s, h, hx⟩ := usedSolver_some
  have hw := (FilterWF.grow (FilterWF.new (Data.zero lq)) 3 (by decide)).solve h
  have hpf : (s.par, s.filterSize) = ((lqSolver.setFilterSize 3).par, (lqSolver.setFilterSize 3).filterSize) :=
    SQP.solve_frame (fun s => (s.par, s.filterSize)) (fun _ _ _ _ _ _ _ _ _ _ _ _ => rfl) (fun _ _ _ => rfl)
      (fun _ _ _ _ _ _ _ _ _ => rfl) (fun _ _ _ _ _ _ => rfl) (fun _ _ _ _ => rfl) (fun _ _ _ _ => rfl) (fun _ _ => rfl) (fun _ _ => rfl) h
  simp only [Prod.mk.injEq] at hpf
  refine ⟨s, .solve _ s llt1 20 _ _ 3 _ r (.setFilterSize _ 3 (.new _)) h, hw, ?_, ?_, by decide, hx⟩
  · rw [hpf.2]; decide
  · rw [hpf.1]; decide +kernel

/-- a new solver, and one that has been used with the single trial step `1/1000`; then both get an empty list of trial
steps. -/
noncomputable def noAlphas (s : SQP lq) : SQP lq := { s with par := { s.par with alphas := [] } }

noncomputable def smallSteps : Option (Bool × SQP lq) :=
  SQP.solve llt1 20 none none 1 (1 / 1000) { lqSolver with par := { lqSolver.par with alphas := [1 / 1000] } }

/-- the final regularization of a solve of a solver with an empty list of trial steps. -/
noncomputable def finalReg (s : SQP lq) : Option ℚ := (SQP.solve llt1 20 none none 1 (1 / 1000) (noAlphas s)).map fun x => x.2.preg

/-- **The hypothesis on the list of trial steps is needed.**  With an empty list the line search does not set the step
length, and the regularization is updated from the step length of the previous solve: a new solver ends with the
regularization `10⁻⁴`, a solver used before with small steps with `10⁻²`. -/
theorem C55_sqp_no_trial_steps : ∃ r s, smallSteps = some (r, s) ∧ SQP.Reachable s ∧ SQP.SameParams (noAlphas s) (noAlphas lqSolver) ∧
    finalReg lqSolver = some (1 / 10000) ∧ finalReg s = some (1 / 100) := by
  have h : smallSteps.any (fun x : Bool × SQP lq => decide (finalReg x.2 = some (1 / 100))) = true := by
    decide +kernel
  have h0 : finalReg lqSolver = some (1 / 10000) := by decide +kernel
  match e : smallSteps, h with
  | some (r, s), h =>
    simp only [Option.any_some, decide_eq_true_eq] at h
    refine ⟨r, s, rfl, .solve _ s llt1 20 _ _ 1 _ r (.setParams _ _ _ _ _ _ _ (.new _)) e, ?_, h0, h⟩
    have hpf := SQP.solve_frame (fun s => (s.par, s.tol, s.mu, s.useFilter, s.filterSize, s.extra, s.ncb)) (fun _ _ _ _ _ _ _ _ _ _ _ _ => rfl)
      (fun _ _ _ => rfl) (fun _ _ _ _ _ _ _ _ _ => rfl) (fun _ _ _ _ _ _ => rfl) (fun _ _ _ _ => rfl) (fun _ _ _ _ => rfl) (fun _ _ => rfl)
      (fun _ _ => rfl) e
    simp only [Prod.mk.injEq] at hpf
    obtain ⟨h1, h2, h3, h4, h5, h6, h7⟩ := hpf
    exact ⟨by unfold noAlphas; simp only [h1], h2, h3, h4, h5, h6, h7⟩

end Ex
end Mim
