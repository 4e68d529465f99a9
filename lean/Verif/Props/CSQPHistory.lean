import Verif.Lemmas.CSQPHist
import Verif.Props.CSQPFilter
import Verif.Spec.ExamplesC

/-!
# C55 for `SolverCSQP`: which leftovers of earlier calls influence a solve

`SolverCSQP` documents that it warm starts: unless `reset_y` is set the constraint multipliers `y` are kept, and unless
`equality_qp_initial_guess` is set the first QP starts from the step left over.  C55 says that these two are the *only*
channels from the past into a solve (besides the penalties of rows with crossed bounds, which no code sets), as long as
the QP is allowed at least one iteration and no time limit is hit.
-/
set_option linter.unusedSectionVars false
set_option linter.unusedSimpArgs false

namespace Mim
section
variable {F : Type} [Add F] [Sub F] [Mul F] [Div F] [Neg F] [Zero F] [One F] [FloatOps F] [SqrtOps F] {P : Problem F}

namespace CSQP

/-- What two solves have in common: the candidate, the number of iterations, the regularization they ended with, and
the sequence of callback events since the logs were `l`, `l'` (each event records callback index, iteration, KKT
residual, cost and gap norm at the time of the call). -/
structure SameOutcome (l l' : List (CbEvent F)) (a a' : CSQP P) : Prop where
  xs : ∀ t, t ≤ P.T → a.xs t = a'.xs t
  us : ∀ t, t < P.T → a.us t = a'.us t
  iter : a.iter = a'.iter
  preg : a.preg = a'.preg
  dreg : a.dreg = a'.dreg
  events : ∃ e, a.log = l ++ e ∧ a'.log = l' ++ e

/-- What two successful solves have in common in addition: everything a user can read about the solution. -/
structure SameReport (a a' : CSQP P) : Prop where
  KKT : a.m.KKT = a'.m.KKT
  cost : a.e.cost = a'.e.cost
  gap : a.e.gap = a'.e.gap
  con : a.e.con = a'.e.con
  fs : ∀ t, t ≤ P.T → a.e.fs t = a'.e.fs t
  lagMul : ∀ t, t ≤ P.T → a.lagMul t = a'.lagMul t
  y : ∀ t, t ≤ P.T → a.q.v.y t = a'.q.v.y t
  z : ∀ t, t ≤ P.T → a.q.v.z t = a'.q.v.z t
  dx : ∀ t, t ≤ P.T → a.q.v.dx t = a'.q.v.dx t
  du : ∀ t, t < P.T → a.q.v.du t = a'.q.v.du t
  dxt : ∀ t, t ≤ P.T → a.q.v.dxt t = a'.q.v.dxt t
  dut : ∀ t, t < P.T → a.q.v.dut t = a'.q.v.dut t
  rho : ∀ t, t ≤ P.T → a.q.v.rho t = a'.q.v.rho t
  rhoSparse : a.q.rhoSparse = a'.q.rhoSparse
  qpIters : a.q.qpIters = a'.q.qpIters
  norms : a.q.n = a'.q.n
  K : ∀ t, t < P.T → a.q.b.bp.K t = a'.q.b.bp.K t
  k : ∀ t, t < P.T → a.q.b.bp.k t = a'.q.b.bp.k t
  run : ∀ t, t < P.T → a.data.run t = a'.data.run t
  rd : ∀ t, t < P.T → a.data.rd t = a'.data.rd t
  ter : a.data.ter = a'.data.ter
  td : a.data.td = a'.data.td

/-- `steplength_` is never written. -/
theorem Reachable.steplength {s : CSQP P} (h : Reachable s) : s.steplength = 1 := by
  induction h with
  | new d rho0 inv0 lag0 => rfl
  | setParams s c _ _ ih => exact ih
  | setFilterSize s n _ ih => exact ih
  | setRhoSparse s r _ ih => exact ih
  | dir s W _ ih => rw [dir_st]; exact ih
  | calcEval s _ ih => exact ih
  | checkKKT s _ ih => exact ih
  | tryStep s a _ ih =>
    obtain ⟨d, w, e⟩ := tryStep_set a s
    rw [e]; exact ih
  | backward s b _ ih => exact ih
  | forward s W _ ih => exact ih
  | forwardPlain s W _ ih => exact ih
  | updateLag s W _ ih => exact ih
  | updateRho s W _ ih => exact ih
  | resetParams s _ ih => exact ih
  | resetRho s _ ih => exact ih
  | solve s s' W fuel xs us m ri o _ h ih =>
    refine solve_inv1 (fun s => s.steplength = 1) (fun _ _ _ h => h) (fun _ _ h => h) ?_ (fun _ h => h) ?_ (fun _ h => h) ?_
      (fun _ _ _ _ h => h) ((start_conf W xs us m ri s).2.1.trans ih) h
    · intro s h
      obtain ⟨q, h1, _, hq⟩ := prepare_set s
      rw [h1]; exact h
    · intro s s' chk o hI h
      obtain ⟨q, p, d, rfl⟩ := direction_set h
      exact hI
    · intro s h
      obtain ⟨_, _, _, _, _, _, _, _, _, e⟩ := lineSearch_set s.c.par.alphas s.pushFilter.setMerit
      rw [e]; exact h

/-- The part of the past a solve is documented to use: the constraint multipliers unless they are reset, and the last step
unless the first QP guess is computed afresh. -/
structure SameWarmStart (s s' : CSQP P) : Prop where
  y : s.c.resetY = true ∨ ∀ t, t ≤ P.T → s.q.v.y t = s'.q.v.y t
  step : s.c.eqGuess = true ∨ ((∀ t, t ≤ P.T → s.q.v.dx t = s'.q.v.dx t) ∧ ∀ t, t < P.T → s.q.v.du t = s'.q.v.du t)

/-- row `i` of node `t` has a lower bound that is neither within `1e-6` of the upper bound nor below it. -/
def CrossedRow (P : Problem F) (t : ℕ) (i : Fin (P.ng t)) : Prop :=
  ∃ lo hi, P.lb t i = some lo ∧ P.ub t i = some hi ∧ leb (absf (lo - hi)) (lit (1 / 10 ^ 6)) = false ∧ ltb lo hi = false

/-- the penalties of the rows with crossed bounds agree (trivially so if there is no such row). -/
def SameCrossed (s s' : CSQP P) : Prop :=
  ∀ t, t ≤ P.T → ∀ i, CrossedRow P t i → s.q.v.rho t i = s'.q.v.rho t i ∧ s.q.v.inv t i = s'.q.v.inv t i

/-- the clock never shows that the time limit `limit` has passed between two readings. -/
def NoTimeout (limit : F) (W : World F) : Prop := ∀ i j, leb limit (W.clock i - W.clock j) = false

/-- **C55 (CSQP).**  Take two solvers for the same problem, each in any state the public API can reach, with the same
parameters now, whose filters were not shrunk (`FilterWF`), with the same warm start and penalties on rows with crossed
bounds; let the QP have at least one iteration.  Call `solve` on both with the same arguments, single threaded, without
hitting the time limit.  Then either both retry forever, or both end the same way (same returned value, or both throw),
with the same trajectories, iteration count and regularization after the same sequence of callback events; and if they
return true they also agree in everything they report about the solution. -/
theorem C55_csqp_history_independence {W W' : World F} (fuel : ℕ) (xs : Option (Traj P)) (us : Option (Ctrls P)) (m : ℕ) (ri : F)
    {s s' : CSQP P} (hr : Reachable s) (hr' : Reachable s') (hf : FilterWF s) (hf' : FilterWF s') (hc : s.c = s'.c)
    (hw : SameWarmStart s s') (hx : SameCrossed s s') (hm : s.c.maxQP ≠ 0) (hl : W.llt = W'.llt) (hs : W.sched = none) (hs' : W'.sched = none)
    (ht : NoTimeout s.c.maxTime W) (ht' : NoTimeout s.c.maxTime W') :
    (solve W fuel xs us m ri s = none ∧ solve W' fuel xs us m ri s' = none) ∨
    ∃ o a a', solve W fuel xs us m ri s = some (o, a) ∧ solve W' fuel xs us m ri s' = some (o, a') ∧
      SameOutcome s.log s'.log a a' ∧ (o = .ret true → SameReport a a') := by
  obtain ⟨⟨n1, n2⟩, n3⟩ := hr.node0
  obtain ⟨⟨n1', n2'⟩, n3'⟩ := hr'.node0
  have key := solve_alike (W := W) (W' := W') ⟨hl, hs, hs'⟩ fuel xs us m ri
    (s := { s with m := { s.m with gapList := s'.m.gapList, costList := s'.m.costList, conList := s'.m.conList } }) (s' := s')
    ⟨hc, hr.steplength.trans hr'.steplength.symm, rfl, rfl, rfl, n3.trans n3'.symm, n1.trans n1'.symm, n2.trans n2'.symm, hw.y, hw.step, hx⟩
    hm ht ht'
  rcases C12_csqp_filter_noninterference (W := W) (fuel := fuel) (xs := xs) (us := us) (m := m) (ri := ri) (s0 := s)
    s'.m.gapList s'.m.costList s'.m.conList hf (by rw [hc]; exact hf'.2.1) (by rw [hc]; exact hf'.1) (by rw [hc]; exact hf'.2.2) with
    ⟨h1, h2⟩ | ⟨o, a, g, c, n, h1, h2⟩
  · rcases key with ⟨h3, h4⟩ | ⟨r, a, a', h3, h4, _⟩
    · exact .inl ⟨h1, h4⟩
    · rw [h2] at h3; cases h3
  · rcases key with ⟨h3, h4⟩ | ⟨r, x, a', h3, h4, h5, h6⟩
    · rw [h2] at h3; cases h3
    · rw [h2] at h3
      simp only [Option.some.injEq, Prod.mk.injEq] at h3
      obtain ⟨rfl, rfl⟩ := h3
      refine .inr ⟨o, a, a', h1, h4, ⟨h5.xs, h5.us, h5.iter, h5.preg, h5.dreg, h5.log⟩, fun hb => ?_⟩
      have k := h6 hb
      exact ⟨k.KKT, k.ev.cost, k.ev.gap, k.ev.con, k.ev.fs, k.lag, k.q.v.y, k.q.v.z, k.q.v.dx, k.q.v.du, k.q.v.dxt, k.q.v.dut,
        k.q.v.rho, k.q.rs, k.q.it, k.q.n, fun t ht => k.q.b.bp.K t (by omega) ht, fun t ht => k.q.b.bp.k t (by omega) ht,
        k.ev.data.run, k.ev.data.rd, k.ev.data.ter, k.ev.data.td⟩

/-- a newly constructed solver, configured through the setters like `s`. -/
def newLike (d : Data P) (rho0 inv0 : (t : ℕ) → Vec F (P.ng t)) (lag0 : F) (s : CSQP P) : CSQP P :=
  let n := (CSQP.new d rho0 inv0 lag0).setFilterSize s.c.filterSize
  { n with c := s.c }

/-- **C55 (CSQP), read as "like new".**  If the solver is told to forget (`reset_y` and `equality_qp_initial_guess` set),
and no row has crossed bounds, then after any history it behaves as a newly constructed solver with the same
configuration would — whatever the uninitialised penalties and multiplier norm of the new one hold. -/
theorem C55_csqp_like_new {W W' : World F} (fuel : ℕ) (xs : Option (Traj P)) (us : Option (Ctrls P)) (m : ℕ) (ri : F)
    {s : CSQP P} (d : Data P) (rho0 inv0 : (t : ℕ) → Vec F (P.ng t)) (lag0 : F) (hr : Reachable s) (hf : FilterWF s)
    (hn : 1 ≤ s.c.filterSize) (hy : s.c.resetY = true) (hg : s.c.eqGuess = true) (hx : ∀ t, t ≤ P.T → ∀ i, ¬ CrossedRow P t i)
    (hm : s.c.maxQP ≠ 0) (hl : W.llt = W'.llt) (hs : W.sched = none) (hs' : W'.sched = none)
    (ht : NoTimeout s.c.maxTime W) (ht' : NoTimeout s.c.maxTime W') :
    (solve W fuel xs us m ri s = none ∧ solve W' fuel xs us m ri (newLike d rho0 inv0 lag0 s) = none) ∨
    ∃ o a a', solve W fuel xs us m ri s = some (o, a) ∧ solve W' fuel xs us m ri (newLike d rho0 inv0 lag0 s) = some (o, a') ∧
      SameOutcome s.log [] a a' ∧ (o = .ret true → SameReport a a') := by
  have h1 : Reachable (newLike d rho0 inv0 lag0 s) := .setParams _ _ rfl (.setFilterSize _ _ (.new d rho0 inv0 lag0))
  have h2 : FilterWF (newLike d rho0 inv0 lag0 s) := (FilterWF.new d rho0 inv0 lag0).grow s.c.filterSize hn
  exact C55_csqp_history_independence fuel xs us m ri hr h1 hf h2 rfl ⟨.inl hy, .inl hg⟩ (fun t ht i k => absurd k (hx t ht i)) hm hl hs hs' ht ht'

end CSQP
end

/-! ## The hypotheses are met, and none of them can be dropped -/

namespace Ex
open CSQP

/-- the scalar problem with the bound `u ≤ 1` and initial state `-10` (the bound is active at the optimum). -/
abbrev pz : Problem ℚ := clq 1 1 1 1 (-10)

/-- a new solver for `pz` with `reset_y` and `equality_qp_initial_guess` as given, `mq` QP iterations, `σ` and tolerance as given,
`ρ = 2`, no relaxation, no regularization, time limit 1. -/
def hz (ry eg : Bool) (mq : ℕ) (sg tol : ℚ) : CSQP pz :=
  let s := CSQP.new (Data.zero pz) (fun _ _ => 0) (fun _ _ => 0) 0
  { s with c := { s.c with sigma := sg, tol := tol, rhoBase := 2, alpha := 1, maxQP := mq, resetY := ry, eqGuess := eg, maxTime := 1, removeReg := true } }

theorem hz_reachable (ry eg : Bool) (mq : ℕ) (sg tol : ℚ) : Reachable (hz ry eg mq sg tol) := .setParams _ _ rfl (.new _ _ _ _)

theorem hz_wf (ry eg : Bool) (mq : ℕ) (sg tol : ℚ) : CSQP.FilterWF (hz ry eg mq sg tol) :=
  CSQP.FilterWF.new (P := pz) (Data.zero pz) (fun _ _ => 0) (fun _ _ => 0) 0

/-- one iteration from the controls `u`. -/
noncomputable def hzGo (u : ℚ) (s : CSQP pz) : Option (Out × CSQP pz) := CSQP.solve world 20 none (some fun _ _ => u) 1 0 s

/-- the control found by one iteration from the control `1`. -/
noncomputable def hzU (s : CSQP pz) : Option ℚ := (hzGo 1 s).map fun r => sc (r.2.us 0)

theorem hz_noCross (t : ℕ) (i : Fin (pz.ng t)) : ¬ CrossedRow pz t i := by
  rintro ⟨lo, hi, h, _⟩
  cases h

theorem hz_time : NoTimeout (1 : ℚ) world := by
  intro i j
  change decide ((1 : ℚ) ≤ 0 - 0) = false
  decide +kernel

/-- a solver used before: multiplier, cost and step differ from those of a new one, and it meets the hypotheses of
`C55_csqp_like_new`. -/
example : ∃ o s, hzGo 3 (hz true true 1 0 (1 / 10)) = some (o, s) ∧ s.q.v.y 0 ≠ (fun _ => 0) ∧ s.e.cost ≠ 0 ∧
    Reachable s ∧ CSQP.FilterWF s ∧ 1 ≤ s.c.filterSize ∧ s.c.resetY = true ∧ s.c.eqGuess = true ∧ s.c.maxQP ≠ 0 ∧ NoTimeout s.c.maxTime world ∧
    world.sched = none ∧ ∀ t, t ≤ pz.T → ∀ i, ¬ CrossedRow pz t i := by
  have h : (hzGo 3 (hz true true 1 0 (1 / 10))).any (fun r : Out × CSQP pz => decide (¬ sc (r.2.q.v.y 0) = 0) && decide (¬ r.2.e.cost = 0) &&
      decide (r.2.c.filterSize = 1) && r.2.c.resetY && r.2.c.eqGuess && decide (r.2.c.maxQP = 1) && decide (r.2.c.maxTime = 1)) = true := by
    decide +kernel
  match e : hzGo 3 (hz true true 1 0 (1 / 10)), h with
  | some (o, s), h =>
    simp only [Option.any_some, Bool.and_eq_true, decide_eq_true_eq] at h
    obtain ⟨⟨⟨⟨⟨⟨h1, h2⟩, h3⟩, h4⟩, h5⟩, h6⟩, h7⟩ := h
    refine ⟨o, s, rfl, fun k => h1 (by unfold sc; rw [k]), h2, .solve _ s world 20 _ _ 1 _ o (hz_reachable _ _ _ _ _) e,
      (hz_wf true true 1 0 (1 / 10)).solve e, by rw [h3], h4, h5, by rw [h6]; decide, ?_, rfl, fun t _ i => hz_noCross t i⟩
    rw [h7]; exact hz_time

/-- **The multipliers are a channel from the past.**  Without `reset_y` (the default), one iteration from `u = 1` ends at `u = 3`
for a new solver and at `u = 3/2` for one that has been used before, although all parameters and arguments are the same. -/
theorem C55_csqp_warm_multipliers : ∃ o s, hzGo 3 (hz false true 1 0 (1 / 10)) = some (o, s) ∧ Reachable s ∧ s.c = (hz false true 1 0 (1 / 10)).c ∧
    hzU (hz false true 1 0 (1 / 10)) = some 3 ∧ hzU s = some (3 / 2) := by
  have h : (hzGo 3 (hz false true 1 0 (1 / 10))).any (fun r : Out × CSQP pz => decide (hzU r.2 = some (3 / 2))) = true := by decide +kernel
  have h0 : hzU (hz false true 1 0 (1 / 10)) = some 3 := by decide +kernel
  match e : hzGo 3 (hz false true 1 0 (1 / 10)), h with
  | some (o, s), h =>
    simp only [Option.any_some, decide_eq_true_eq] at h
    exact ⟨o, s, rfl, .solve _ s world 20 _ _ 1 _ o (hz_reachable _ _ _ _ _) e, (solve_conf e).1, h0, h⟩

/-- **The last step is a channel from the past.**  Without `equality_qp_initial_guess` the first QP starts from the step left
over by the previous solve, even with `reset_y`: one iteration from `u = 1` ends at `u = 23/6` for a new solver and at
`u = 59/18` for a used one. -/
theorem C55_csqp_warm_step : ∃ o s, hzGo 3 (hz true false 1 1 (1 / 10)) = some (o, s) ∧ Reachable s ∧ s.c = (hz true false 1 1 (1 / 10)).c ∧
    hzU (hz true false 1 1 (1 / 10)) = some (23 / 6) ∧ hzU s = some (59 / 18) := by
  have h : (hzGo 3 (hz true false 1 1 (1 / 10))).any (fun r : Out × CSQP pz => decide (hzU r.2 = some (59 / 18))) = true := by decide +kernel
  have h0 : hzU (hz true false 1 1 (1 / 10)) = some (23 / 6) := by decide +kernel
  match e : hzGo 3 (hz true false 1 1 (1 / 10)), h with
  | some (o, s), h =>
    simp only [Option.any_some, decide_eq_true_eq] at h
    exact ⟨o, s, rfl, .solve _ s world 20 _ _ 1 _ o (hz_reachable _ _ _ _ _) e, (solve_conf e).1, h0, h⟩

/-- the verdict of a solve from the guess `x = (-10, -9)`, `u = 1` with no QP iterations allowed. -/
noncomputable def hzVerdict (s : CSQP pz) : Option Out :=
  (CSQP.solve world 20 (some fun t => (if t = 0 then (-10 : ℚ) else (-9 : ℚ))) (some fun _ _ => 1) 1 0 { s with c := { s.c with maxQP := 0 } }).map (·.1)

/-- **With `max_qp_iters = 0` the verdict depends on the past.**  Then the QP loop is not entered, and the multipliers of the
KKT check are computed from the step left over by the last QP ever solved: at the same guess, with the same parameters and
tolerance 10, a new solver returns true and a used one false. -/
theorem C55_csqp_no_qp_iterations : ∃ o s, hzGo 3 (hz true true 1 0 10) = some (o, s) ∧ Reachable s ∧ s.c = (hz true true 1 0 10).c ∧
    hzVerdict (hz true true 1 0 10) = some (.ret true) ∧ hzVerdict s = some (.ret false) := by
  have h : (hzGo 3 (hz true true 1 0 10)).any (fun r : Out × CSQP pz => decide (hzVerdict r.2 = some (.ret false))) = true := by decide +kernel
  have h0 : hzVerdict (hz true true 1 0 10) = some (.ret true) := by decide +kernel
  match e : hzGo 3 (hz true true 1 0 10), h with
  | some (o, s), h =>
    simp only [Option.any_some, decide_eq_true_eq] at h
    exact ⟨o, s, rfl, .solve _ s world 20 _ _ 1 _ o (hz_reachable _ _ _ _ _) e, (solve_conf e).1, h0, h⟩

end Ex
end Mim
