import Verif.Lemmas.ProxHist
import Verif.Props.ProxFilter
import Verif.Props.ProxRecognise

/-!
# C55 for `SolverPROXQP`: which leftovers of earlier calls influence a solve

`computeDirection` checks the KKT conditions *before* it solves the QP, with the multipliers of the QP solved last.  So the
first check of a solve uses the multipliers of the previous solve (zero for a new solver).  C55 says that this is the only
channel from the past: in particular the large QP matrices, which are only partly rewritten by each evaluation, are not one,
and the filter memory is not.
-/
set_option linter.unusedSectionVars false
set_option linter.unusedSimpArgs false

namespace Mim
section
variable {F : Type} [Add F] [Sub F] [Mul F] [Div F] [Neg F] [Zero F] [One F] [FloatOps F] {P : Problem F}

namespace PROX

/-- What two solves have in common: the candidate, the number of iterations, the regularization they ended with, the
multipliers, and the sequence of printed lines since the logs were `l`, `l'`. -/
structure SameOutcome (l l' : List (CbEvent F)) (a a' : PROX P) : Prop where
  xs : ∀ t, t ≤ P.T → a.xs t = a'.xs t
  us : ∀ t, t < P.T → a.us t = a'.us t
  iter : a.iter = a'.iter
  preg : a.preg = a'.preg
  dreg : a.dreg = a'.dreg
  lagMul : ∀ t, 0 < t → t ≤ P.T → a.lam t = a'.lam t
  y : ∀ t, t ≤ P.T → a.y t = a'.y t
  events : ∃ e, a.log = l ++ e ∧ a'.log = l' ++ e

/-- What two successful solves have in common in addition: everything a user can read about the solution. -/
structure SameReport (a a' : PROX P) : Prop where
  KKT : a.KKT = a'.KKT
  cost : a.e.cost = a'.e.cost
  gap : a.e.gap = a'.e.gap
  con : a.e.con = a'.e.con
  merit : a.merit = a'.merit
  fs : ∀ t, t ≤ P.T → a.e.fs t = a'.e.fs t
  dx : ∀ t, t ≤ P.T → a.dx t = a'.dx t
  du : ∀ t, t < P.T → a.du t = a'.du t
  qpIters : a.qpIters = a'.qpIters
  primal : a.pri = a'.pri
  dual : a.dua = a'.dua
  qp : a.m = a'.m
  run : ∀ t, t < P.T → a.data.run t = a'.data.run t
  rd : ∀ t, t < P.T → a.data.rd t = a'.data.rd t
  ter : a.data.ter = a'.data.ter
  td : a.data.td = a'.data.td

/-- the multipliers left by the last QP (or by construction) agree. -/
structure SameMultipliers (s s' : PROX P) : Prop where
  lagMul : ∀ t, 0 < t → t ≤ P.T → s.lam t = s'.lam t
  y : ∀ t, t ≤ P.T → s.y t = s'.y t

/-- ProxSuite gives the same answer to the same QP (the code creates a new ProxSuite object for every QP). -/
def Deterministic (qp : PSolve F) : Prop := ∀ i j m, qp i m = qp j m

/-- **C55 (PROXQP).**  Take two solvers for the same problem, each in any state the public API can reach, with the same
parameters now, whose filters were not shrunk (`FilterWF`), and with the same multipliers left over; let ProxSuite be
deterministic.  Call `solve` on both with the same arguments.  Then either both retry forever, or both return the same
value with the same trajectories, multipliers, iteration count and regularization after printing the same lines; and if
they return true they also agree in everything they report about the solution. -/
theorem C55_prox_history_only_multipliers {qp : PSolve F} (hq : Deterministic qp) (fuel : ℕ) (xs : Option (Traj P)) (us : Option (Ctrls P))
    (m : ℕ) (ri : F) {s s' : PROX P} (hT : 0 < P.T) (hr : Reachable s) (hr' : Reachable s') (hf : FilterWF s) (hf' : FilterWF s')
    (hc : s.c = s'.c) (ha : s.c.par.alphas ≠ []) (hm : SameMultipliers s s') :
    (solve qp fuel xs us m ri s = none ∧ solve qp fuel xs us m ri s' = none) ∨
    ∃ r a a', solve qp fuel xs us m ri s = some (r, a) ∧ solve qp fuel xs us m ri s' = some (r, a') ∧
      SameOutcome s.log s'.log a a' ∧ (r = true → SameReport a a') := by
  have hmm : MSame P s.m s'.m := fun d fs => (hr.msame s.data d fs).trans (hr'.msame s.data d fs).symm
  have key := solve_alike hq hT fuel xs us m ri (s := { s with gapList := s'.gapList, costList := s'.costList, conList := s'.conList }) (s' := s')
    ha hc rfl rfl rfl (hr.fs0.trans hr'.fs0.symm) (hr.dx0.trans hr'.dx0.symm) hmm hm.lagMul hm.y
  rcases C12_prox_filter_noninterference (qp := qp) (fuel := fuel) (xs := xs) (us := us) (m := m) (ri := ri) (s0 := s)
    s'.gapList s'.costList s'.conList hf (by rw [hc]; exact hf'.2.1) (by rw [hc]; exact hf'.1) (by rw [hc]; exact hf'.2.2) with
    ⟨h1, h2⟩ | ⟨o, a, g, c, n, h1, h2⟩
  · rcases key with ⟨h3, h4⟩ | ⟨r, a, a', h3, h4, _⟩
    · exact .inl ⟨h1, h4⟩
    · rw [h2] at h3; cases h3
  · rcases key with ⟨h3, h4⟩ | ⟨r, x, a', h3, h4, h5, h6⟩
    · rw [h2] at h3; cases h3
    · rw [h2] at h3
      simp only [Option.some.injEq, Prod.mk.injEq] at h3
      obtain ⟨rfl, rfl⟩ := h3
      refine .inr ⟨o, a, a', h1, h4, ⟨h5.xs, h5.us, h5.iter, h5.preg, h5.dreg, h5.lam, h5.y, h5.log⟩, fun hb => ?_⟩
      have k := h6 hb
      exact ⟨k.KKT, k.cost, k.gap, k.con, k.merit, k.fs, k.dx, k.du, k.it, k.pri, k.dua, k.meq, k.data.run, k.data.rd, k.data.ter, k.data.td⟩

end PROX
end

namespace Ex
open PROX

/-- the verdict of one iteration started at the exact solution. -/
def pVerdict (s : PROX (clq 1 1 1 1 1)) : Option Bool := (PROX.solve qp2 5 (some solX) (some solU) 1 0 s).map (·.1)

/-- **The verdict depends on the past.**  The same call — one iteration from the exact solution, default parameters, exact
and deterministic QP solver — returns false on a new solver and true on one that has solved the problem before. -/
theorem C55_prox_depends_on_history : Deterministic qp2 ∧ ∃ r s, PROX.solve qp2 5 none none 10 0 pNew = some (r, s) ∧ PROX.Reachable s ∧
    s.c = pNew.c ∧ PROX.FilterWF s ∧ pVerdict pNew = some false ∧ pVerdict s = some true := by
  refine ⟨fun _ _ _ => rfl, ?_⟩
  have h : (PROX.solve qp2 5 none none 10 0 pNew).any (fun r : Bool × PROX (clq 1 1 1 1 1) => decide (pVerdict r.2 = some true)) = true := by
    decide +kernel
  have h0 : pVerdict pNew = some false := by decide +kernel
  match e : PROX.solve qp2 5 none none 10 0 pNew, h with
  | some (r, s), h =>
    simp only [Option.any_some, decide_eq_true_eq] at h
    have hr : PROX.Reachable pNew := .new _
    refine ⟨r, s, rfl, .solve _ s qp2 5 _ _ 10 _ r hr e, ?_, (PROX.FilterWF.new _).solve e, h0, h⟩
    rcases solve_end e with ⟨_, h1, _⟩ | ⟨s1, h1, _, h3⟩
    · exact h1.conf
    · exact (body_iter h3).2.trans h1.conf

/-- a used solver and the same solver after evaluating another trajectory meet the hypotheses of
`C55_prox_history_only_multipliers`, although their QP matrices differ. -/
example : ∃ r s, PROX.solve qp2 5 none none 10 0 pNew = some (r, s) ∧ PROX.Reachable s ∧ PROX.Reachable ({ s with c := s.c } : PROX _).calcEval ∧
    SameMultipliers s ({ s with c := s.c } : PROX _).calcEval ∧ s.c.par.alphas ≠ [] ∧ 0 < (clq 1 1 1 1 1).T := by
  have h : (PROX.solve qp2 5 none none 10 0 pNew).any (fun r : Bool × PROX (clq 1 1 1 1 1) => decide (¬ r.2.c.par.alphas = [])) = true := by
    decide +kernel
  match e : PROX.solve qp2 5 none none 10 0 pNew, h with
  | some (r, s), h =>
    simp only [Option.any_some, decide_eq_true_eq] at h
    have hr : PROX.Reachable s := .solve _ s qp2 5 _ _ 10 _ r (.new _) e
    exact ⟨r, s, rfl, hr, .calcEval _ hr, ⟨fun _ _ _ => rfl, fun _ _ => rfl⟩, h, Nat.zero_lt_one⟩

end Ex
end Mim
