import Verif.Lemmas.DDPHist
import Verif.Props.FDDPFilter
import Verif.Props.DDPLine

/-!
# C55 for `SolverDDP` and `SolverFDDP`: a solve depends on the past through the stored multipliers only

Both solvers test convergence with the multipliers the last forward pass stored, and a forward pass computes them from the
displacements the previous one stored.  The first convergence test of a solve therefore uses the multipliers of the
previous solve (zero for a new solver), and C55 as it holds for `SolverSQP` is false here (`C55_ddp_depends_on_history`).
What holds is that nothing else is carried over.
-/

set_option linter.unusedSectionVars false
set_option linter.unusedSimpArgs false

namespace Mim
section
variable {F : Type} [Add F] [Sub F] [Mul F] [Div F] [Neg F] [Zero F] [One F] [FloatOps F] {P : Problem F}

namespace DDP

/-- members of `SolverFDDP` that `SolverDDP` does not have. -/
def fddpOnly (s : DDP P) := (s.e.gap, s.m.gapList, s.m.costList)

/-- `SolverDDP` has no `gap_norm_` and no filter: the model variables keep their initial values. -/
theorem ddp_retry_only {llt : LLT F} {fuel : ℕ} {s s' : DDP P} {b : Bool} (h : retry (ddp P) llt fuel s = some (b, s')) : s'.fddpOnly = s.fddpOnly := by
  induction fuel generalizing s with
  | zero => cases h
  | succ n ih =>
    have hd : (dirDDP llt s.recalc s).st.fddpOnly = s.fddpOnly := by
      unfold dirDDP
      cases s.recalc <;> simp only [Bool.false_eq_true, if_true, if_false] <;>
        (generalize backwardPass llt _ _ _ _ _ _ = x; cases x <;> rfl)
    unfold retry at h
    change (match dirDDP llt s.recalc s with | .ok s => _ | .exn s => _) = _ at h
    generalize dirDDP llt s.recalc s = x at *
    cases x with
    | ok a => cases h; exact hd
    | exn a =>
      simp only [] at h
      split at h
      · cases h; exact hd
      · exact (ih h).trans hd

theorem ddp_body_only {llt : LLT F} {fuel : ℕ} {s s' : DDP P} {r : Option Bool} (h : body (ddp P) llt fuel s = some (r, s')) : s'.fddpOnly = s.fddpOnly := by
  have hs : ∀ s1 : DDP P, (search (ddp P) (checked (ddp P) s1)).updateReg.2.fddpOnly = s1.fddpOnly := by
    intro s1
    obtain ⟨p, q, e1⟩ := updateReg_frame (search (ddp P) (checked (ddp P) s1))
    obtain ⟨st, x, u, f, w, y, r, n, cst, d0, d1, dv, dV, ex, rej, e2, -⟩ := search_frame ddp_laws (checked (ddp P) s1)
    rw [e1, e2]; rfl
  cases body_cases h with
  | gaveUp hr hb => exact ddp_retry_only hr
  | converged s1 hr _ e _ => rw [e]; exact (ddp_retry_only hr :)
  | stuck s1 hr _ _ e _ => rw [e]; exact (hs s1).trans (ddp_retry_only hr)
  | next s1 hr _ _ e _ => rw [e]; exact (hs s1).trans (ddp_retry_only hr)

theorem ddp_solve_only {llt : LLT F} {fuel : ℕ} {xs : Option (Traj P)} {us : Option (Ctrls P)} {m : ℕ} {fe : Bool} {ri : F}
    {s s' : DDP P} {b : Bool} (h : solve (ddp P) llt fuel xs us m fe ri s = some (b, s')) : s'.fddpOnly = s.fddpOnly :=
  solve_inv (fun _ x => x.fddpOnly = s.fddpOnly) (fun _ x => x.fddpOnly = s.fddpOnly)
    (fun _ _ _ h hb => (ddp_body_only hb :).trans h) (fun _ _ _ _ h hb => (ddp_body_only hb).trans h) (fun _ h => h) rfl h

/-- The states of a `SolverDDP`: constructed, configured, solved with. -/
inductive Reachable : DDP P → Prop
  | new (d : Data P) : Reachable (DDP.new d)
  | setConf (s : DDP P) (c : DConf F) : Reachable s → Reachable { s with c := c }
  | solve (s s' : DDP P) (llt : LLT F) (fuel : ℕ) (xs : Option (Traj P)) (us : Option (Ctrls P)) (m : ℕ) (fe : Bool) (ri : F) (b : Bool) :
      Reachable s → solve (ddp P) llt fuel xs us m fe ri s = some (b, s') → Reachable s'

theorem Reachable.only {s : DDP P} (h : Reachable s) : s.fddpOnly = (0, CBuf.empty.resize 1, CBuf.empty.resize 1) := by
  induction h with
  | new d => rfl
  | setConf s c _ ih => exact ih
  | solve s s' llt fuel xs us m fe ri b _ h ih => exact (ddp_solve_only h).trans ih

/-- what two solves have in common: candidate, iteration count, regularization, feasibility flag, stored multipliers and
displacements, callback events. -/
structure SameOutcome (l l' : List (CbEvent F)) (a a' : DDP P) : Prop where
  xs : ∀ t, t ≤ P.T → a.xs t = a'.xs t
  us : ∀ t, t < P.T → a.us t = a'.us t
  iter : a.iter = a'.iter
  preg : a.preg = a'.preg
  dreg : a.dreg = a'.dreg
  feas : a.feas = a'.feas
  lagMul : ∀ t, t ≤ P.T → a.y.lagMul t = a'.y.lagMul t
  dx : ∀ t, t < P.T → a.y.dx t = a'.y.dx t
  events : ∃ e, a.log = l ++ e ∧ a'.log = l' ++ e

/-- what two successful solves have in common in addition. -/
structure SameReport (a a' : DDP P) : Prop where
  KKT : a.m.KKT = a'.m.KKT
  cost : a.e.cost = a'.e.cost
  gap : a.e.gap = a'.e.gap
  fs : ∀ t, t ≤ P.T → a.e.fs t = a'.e.fs t
  K : ∀ t, t < P.T → a.e.bp.K t = a'.e.bp.K t
  k : ∀ t, t < P.T → a.e.bp.k t = a'.e.bp.k t
  Vxx : ∀ t, t ≤ P.T → a.e.bp.Vxx t = a'.e.bp.Vxx t
  Vx : ∀ t, t ≤ P.T → a.e.bp.Vx t = a'.e.bp.Vx t
  run : ∀ t, t < P.T → a.y.data.run t = a'.y.data.run t
  rd : ∀ t, t < P.T → a.y.data.rd t = a'.y.data.rd t
  ter : a.y.data.ter = a'.y.data.ter
  td : a.y.data.td = a'.y.data.td

theorem Core.outcome {g : Bool} {l l' : List (CbEvent F)} {a b : DDP P} (h : Core g l l' a b) : SameOutcome l l' a b := by
  obtain ⟨c1, c2, c3, c4, c5, c6, c7, c8⟩ := ctl_all h.ctl
  exact ⟨h.xs, h.us, c4, c2, c3, c5, h.y.lag, h.y.dx, h.log⟩

theorem Chk.report {g : Bool} {l l' : List (CbEvent F)} {a b : DDP P} (h : Chk g l l' a b) : SameReport a b :=
  ⟨h.KKT, h.cost, h.egap, h.fs, fun t ht => h.bp.K t (by omega) ht, fun t ht => h.bp.k t (by omega) ht,
    fun t ht => h.bp.Vxx t (by omega) ht, fun t ht => h.bp.Vx t (by omega) ht, h.data.run, h.data.rd, h.data.ter, h.data.td⟩

/-- the multipliers and displacements stored by the last forward pass agree. -/
structure SameMultipliers (s s' : DDP P) : Prop where
  lagMul : ∀ t, t ≤ P.T → s.y.lagMul t = s'.y.lagMul t
  dx : ∀ t, t < P.T → s.y.dx t = s'.y.dx t

end DDP

open DDP in
/-- **C55 (DDP).**  Two `SolverDDP` objects in any reachable states with the same configuration whose stored multipliers and
displacements agree behave identically when `solve` is called on both with the same arguments: no other part of the
state left behind by earlier solves matters. -/
theorem C55_ddp_history_only_multipliers (llt : LLT F) (fuel : ℕ) (xs : Option (Traj P)) (us : Option (Ctrls P)) (m : ℕ) (fe : Bool) (ri : F)
    {s s' : DDP P} (hT : 0 < P.T) (hr : DDP.Reachable s) (hr' : DDP.Reachable s') (hc : s.c = s'.c) (hm : SameMultipliers s s')
    (ha : s.c.par.alphas ≠ []) :
    (solve (ddp P) llt fuel xs us m fe ri s = none ∧ solve (ddp P) llt fuel xs us m fe ri s' = none) ∨
    ∃ r a a', solve (ddp P) llt fuel xs us m fe ri s = some (r, a) ∧ solve (ddp P) llt fuel xs us m fe ri s' = some (r, a') ∧
      DDP.SameOutcome s.log s'.log a a' ∧ (r = true → DDP.SameReport a a') := by
  have ho : s.fddpOnly = s'.fddpOnly := hr.only.trans hr'.only.symm
  simp only [fddpOnly, Prod.mk.injEq] at ho
  rcases solve_alike (lock_ddp hT) ddp_laws llt fuel xs us m fe ri ha hc hm.lagMul hm.dx (fun _ => ho.1) ho.2.1 ho.2.2 with h | ⟨r, a, b, h1, h2, h3, h4⟩
  · exact .inl h
  · exact .inr ⟨r, a, b, h1, h2, h3.outcome, fun hr => (h4 hr).report⟩

open DDP in
/-- **C55 (FDDP).**  The same for `SolverFDDP`, for any two states whose filter memory has the configured size
(see C12; `FDDPWF` holds for every state the API reaches without decreasing the filter size). -/
theorem C55_fddp_history_only_multipliers (llt : LLT F) (fuel : ℕ) (xs : Option (Traj P)) (us : Option (Ctrls P)) (m : ℕ) (fe : Bool) (ri : F)
    {s s' : DDP P} (hT : 0 < P.T) (hf : FDDPWF s) (hf' : FDDPWF s') (hc : s.c = s'.c) (hm : SameMultipliers s s')
    (ha : s.c.par.alphas ≠ []) :
    (solve (fddp P) llt fuel xs us m fe ri s = none ∧ solve (fddp P) llt fuel xs us m fe ri s' = none) ∨
    ∃ r a a', solve (fddp P) llt fuel xs us m fe ri s = some (r, a) ∧ solve (fddp P) llt fuel xs us m fe ri s' = some (r, a') ∧
      DDP.SameOutcome s.log s'.log a a' ∧ (r = true → DDP.SameReport a a') := by
  have hfil : s'.m.gapList.Full s.c.filterSize ∧ s'.m.costList.Full s.c.filterSize := by
    rw [hc]; exact ⟨hf'.2, hf'.1⟩
  have key := solve_alike (lock_fddp hT) fddp_laws llt fuel xs us m fe ri (s := withFBufs s'.m.gapList s'.m.costList s) (s' := s') ha hc
    hm.lagMul hm.dx nofun rfl rfl
  rcases C12_fddp_filter_noninterference (llt := llt) (fuel := fuel) (xs := xs) (us := us) (m := m) (fe := fe) (ri := ri)
    s'.m.gapList s'.m.costList hf hfil.1 hfil.2 with ⟨h1, h2⟩ | ⟨b, a, g, c, h1, h2⟩
  · rcases key with ⟨h3, h4⟩ | ⟨r, a, a', h3, h4, _⟩
    · exact .inl ⟨h1, h4⟩
    · rw [h2] at h3; cases h3
  · rcases key with ⟨h3, h4⟩ | ⟨r, x, a', h3, h4, h5, h6⟩
    · rw [h2] at h3; cases h3
    · rw [h2] at h3
      cases h3
      refine .inr ⟨b, a, a', h1, h4, ?_, fun hb => ?_⟩
      · obtain ⟨h1, h2, h3, h4, h5, h6, h7, h8, h9⟩ := h5.outcome
        exact ⟨h1, h2, h3, h4, h5, h6, h7, h8, h9⟩
      · obtain ⟨h1, h2, h3, h4, h5, h6, h7, h8, h9, h10, h11, h12⟩ := (h6 hb).report
        exact ⟨h1, h2, h3, h4, h5, h6, h7, h8, h9, h10, h11, h12⟩

end

namespace Ex
open DDP

/-- a `SolverDDP` after a converged solve of `lq`. -/
noncomputable def usedDDP (k : Kind lq) : Option (Bool × DDP lq) := DDP.solve k llt1 20 none none 10 false 0 lqDDP

/-- the value returned by a solve with `maxiter = 1` from the solution of `lq` (which is feasible). -/
noncomputable def again (k : Kind lq) (x : DDP lq) (s : DDP lq) : Option Bool :=
  (DDP.solve k llt1 20 (some x.xs) (some x.us) 1 true 0 s).map (·.1)

/-- **C55 is false for `SolverDDP` and `SolverFDDP` without the condition on the multipliers.**  A solver that has just
solved `lq` is asked to solve it again from the solution with `maxiter = 1`: it returns true, because its stored
multipliers are those of the solution.  A new solver with the same configuration, called with the same arguments, returns
false, because its first convergence test uses zero multipliers. -/
theorem C55_ddp_depends_on_history : ∃ r s, usedDDP (ddp lq) = some (r, s) ∧ DDP.Reachable s ∧ s.c = lqDDP.c ∧
    again (ddp lq) s s = some true ∧ again (ddp lq) s lqDDP = some false := by
  have h : (usedDDP (ddp lq)).any (fun x => decide (again (ddp lq) x.2 x.2 = some true) && decide (again (ddp lq) x.2 lqDDP = some false)) = true := by
    decide +kernel
  match e : usedDDP (ddp lq), h with
  | some (r, s), h =>
    simp only [Option.any_some, Bool.and_eq_true, decide_eq_true_eq] at h
    refine ⟨r, s, rfl, .solve _ s llt1 20 _ _ 10 _ _ r (.new _) e, ?_, h⟩
    exact solve_inv (fun _ x => x.c = lqDDP.c) (fun _ x => x.c = lqDDP.c)
      (fun _ _ _ h hb => (body_frame ddp_laws hb).1.trans h) (fun _ _ _ _ h hb => (body_frame ddp_laws hb).1.trans h) (fun _ h => h) rfl e

theorem C55_fddp_depends_on_history : ∃ r s, usedDDP (fddp lq) = some (r, s) ∧ s.c = lqDDP.c ∧
    again (fddp lq) s s = some true ∧ again (fddp lq) s lqDDP = some false := by
  have h : (usedDDP (fddp lq)).any (fun x => decide (again (fddp lq) x.2 x.2 = some true) && decide (again (fddp lq) x.2 lqDDP = some false)) = true := by
    decide +kernel
  match e : usedDDP (fddp lq), h with
  | some (r, s), h =>
    simp only [Option.any_some, Bool.and_eq_true, decide_eq_true_eq] at h
    refine ⟨r, s, rfl, ?_, h⟩
    exact solve_inv (fun _ x => x.c = lqDDP.c) (fun _ x => x.c = lqDDP.c)
      (fun _ _ _ h hb => (body_frame fddp_laws hb).1.trans h) (fun _ _ _ _ h hb => (body_frame fddp_laws hb).1.trans h) (fun _ h => h) rfl e

/-- a solve whose only trial step is invalid (`2 > 1`): the candidate is evaluated, no forward pass is made. -/
noncomputable def noTrial : Option (Bool × DDP lq) :=
  DDP.solve (ddp lq) llt1 20 (some fun _ => (5 : ℚ)) none 1 false 1 { lqDDP with c := { lqDDP.c with par := { lqDDP.c.par with alphas := [2] } } }

/-- the hypotheses of the positive theorems are met by a new solver and a used one: same multipliers, different cost. -/
example : ∃ s s' : DDP lq, DDP.Reachable s ∧ DDP.Reachable s' ∧ s.c = s'.c ∧ SameMultipliers s s' ∧ s.c.par.alphas ≠ [] ∧ 0 < lq.T ∧
    s.e.cost ≠ s'.e.cost := by
  have h : noTrial.any (fun x : Bool × DDP lq => decide (x.2.e.cost ≠ 0) && (List.range 3).all (fun t => decide (x.2.y.lagMul t (0 : Fin 1) = 0)) &&
      (List.range 2).all (fun t => decide (x.2.y.dx t (0 : Fin 1) = 0))) = true := by
    decide +kernel
  match e : noTrial, h with
  | some (r, s), h =>
    simp only [Option.any_some, Bool.and_eq_true, decide_eq_true_eq, List.all_eq_true, List.mem_range] at h
    exact ⟨{ s with c := lqDDP.c }, lqDDP, .setConf _ _ (.solve _ s llt1 20 _ _ 1 _ _ r (.setConf _ _ (.new _)) e), .new _, rfl,
      ⟨fun t ht => funext fun i : Fin 1 => by
        obtain rfl : i = 0 := Subsingleton.elim _ _
        exact h.1.2 t (Nat.lt_succ_of_le ht), fun t ht => funext fun i : Fin 1 => by
        obtain rfl : i = 0 := Subsingleton.elim _ _
        exact h.2 t ht⟩, (by decide +kernel : lqDDP.c.par.alphas ≠ []), by decide, h.1.1⟩

end Ex
end Mim
