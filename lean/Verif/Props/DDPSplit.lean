import Verif.Lemmas.DDPSplit
import Verif.Props.DDPLine
import Verif.Props.DDPReturn
import Verif.Spec.Examples

/-!
# C103: a solve of `SolverDDP` or `SolverFDDP` may be split into several calls
-/
set_option autoImplicit false
set_option linter.unusedSectionVars false
set_option linter.unusedSimpArgs false

namespace Mim
namespace Spec
section
variable {F : Type} {P : Problem F}

/-- two DDP-type solvers hold the same trajectory, feasibility flag and regularization. -/
structure SameTrajDDP (s s' : DDP P) : Prop where
  xs : ∀ t, t ≤ P.T → s.xs t = s'.xs t
  us : ∀ t, t < P.T → s.us t = s'.us t
  feas : s.feas = s'.feas
  preg : s.preg = s'.preg

/-- … and report the same cost, gap norm, gaps, residual, multipliers, feedback policy and value function. -/
structure SameReportDDP (s s' : DDP P) : Prop extends SameTrajDDP s s' where
  cost : s.e.cost = s'.e.cost
  gap : s.e.gap = s'.e.gap
  gaps : ∀ t, t ≤ P.T → s.e.fs t = s'.e.fs t
  KKT : s.m.KKT = s'.m.KKT
  lag : ∀ t, t ≤ P.T → s.y.lagMul t = s'.y.lagMul t
  gains : ∀ t, t < P.T → s.e.bp.K t = s'.e.bp.K t ∧ s.e.bp.k t = s'.e.bp.k t
  value : ∀ t, t ≤ P.T → s.e.bp.Vx t = s'.e.bp.Vx t ∧ s.e.bp.Vxx t = s'.e.bp.Vxx t
end
end Spec

section
variable {F : Type} [Add F] [Sub F] [Mul F] [Div F] [Neg F] [Zero F] [One F] [FloatOps F] {P : Problem F}
open DDP Spec
variable {k : Kind P} {llt : LLT F} {fuel m m1 m2 : ℕ} {xs : Option (Traj P)} {us : Option (Ctrls P)} {fe : Bool} {ri : F} {s a : DDP P} {r : Bool}

namespace DDP.Split

theorem iterate_succ (n : ℕ) (s : DDP P) : iterate k llt fuel (n + 1) s =
    match body k llt fuel s with
    | none => none
    | some (some b, s) => some (some b, s)
    | some (none, s) => iterate k llt fuel n { s with iter := s.iter + 1 } := rfl

theorem iterate_add (m1 m2 : ℕ) (s : DDP P) : iterate k llt fuel (m1 + m2) s =
    match iterate k llt fuel m1 s with
    | none => none
    | some (some b, a) => some (some b, a)
    | some (none, a) => iterate k llt fuel m2 a := by
  induction m1 generalizing s with
  | zero => rw [Nat.zero_add]; rfl
  | succ n ih =>
    rw [show n + 1 + m2 = (n + m2) + 1 by omega]
    rw [iterate_succ, iterate_succ]
    cases body k llt fuel s with
    | none => rfl
    | some x =>
      obtain ⟨r, x⟩ := x
      cases r with
      | some b => rfl
      | none =>
        simp only []
        exact ih _

/-- a call that used all its iterations. -/
theorem limit (hk : k.Laws) (h : solve k llt fuel xs us m fe ri s = some (r, a)) (hi : a.iter = m) :
    iterate k llt fuel m (s.start xs us fe ri) = some (none, a) ∧ r = false := by
  rcases solve_cases h with h1 | ⟨h1, h2⟩
  · exfalso
    rcases iterate_inv fuel (fun j s1 => s1.iter + j = m) (fun _ s1 => s1.iter < m)
      (fun j s2 s3 hI hb => by
        have := (body_frame hk hb).2
        change s3.iter + 1 + j = m
        omega)
      (fun j s2 b s3 hI hb => by
        have := (body_frame hk hb).2
        omega) m _ (by change 0 + m = m; omega) _ _ h1 with ⟨h, _⟩ | ⟨_, _, h⟩
    · cases h
    · omega
  · exact ⟨h2, h1⟩

theorem Core.traj {g : Bool} {s s' : DDP P} (h : Core g s s') : SameTrajDDP s s' :=
  ⟨h.xs, h.us, (ctl_all h.ctl).2.2.2.2.1, (ctl_all h.ctl).2.1⟩

theorem Chk.report {g : Bool} {s s' : DDP P} (h : Chk g s s') : SameReportDDP s s' :=
  ⟨h.toCore.traj, h.cost, h.egap, h.fs, h.KKT, h.y.lag, fun t ht => ⟨h.bp.K t (by omega) ht, h.bp.k t (by omega) ht⟩,
    fun t ht => ⟨h.bp.Vx t (by omega) ht, h.bp.Vxx t (by omega) ht⟩⟩

theorem split (g : Bool) (hl : Lock k g) (hk : k.Laws) (ha : s.c.par.alphas ≠ [])
    (hf : g = false → s.c.useFilter = false ∨ s.c.filterSize ≤ 1)
    (h2 : iterate k llt fuel m1 (s.start xs us fe ri) = some (none, a)) (hd : a.dreg = a.preg) (hn : isnan a.preg = false)
    (hx : g = true → a.y.xs 0 = P.x0) :
    (solve k llt fuel xs us (m1 + m2) fe ri s = none ∧ solve k llt fuel (some a.xs) (some a.us) m2 a.feas a.preg a = none) ∨
    ∃ q b c, solve k llt fuel xs us (m1 + m2) fe ri s = some (q, b) ∧
      solve k llt fuel (some a.xs) (some a.us) m2 a.feas a.preg a = some (q, c) ∧
      SameTrajDDP b c ∧ (q = true → SameReportDDP b c) := by
  obtain ⟨hI, hc, _⟩ := iterate_headInv hk s xs us fe ri m1 h2
  have hh : Head g a (a.start (some a.xs) (some a.us) a.feas a.preg) := by
    refine ⟨⟨?_, fun t _ => rfl, fun t _ => rfl, ⟨fun t _ => rfl, fun t _ => rfl, fun h => ?_⟩, by rw [hc]; exact hf, fun _ => rfl⟩, hI,
      start_headInv _ _ _ _ _⟩
    · simp only [Split.ctl, start, setCandidate, initReg, hn, Bool.false_eq_true, if_false, hd]
    · change a.y.xs 0 = Function.update a.y.xs 0 P.x0 0
      rw [Function.update_self, hx h]
  have e : solve k llt fuel xs us (m1 + m2) fe ri s = match iterate k llt fuel m2 a with
      | none => none
      | some (some b, s) => some (b, s)
      | some (none, s) => some (false, s) := by
    unfold solve
    rw [iterate_add, h2]
    rfl
  rw [e]
  unfold solve
  rcases iterate_alike hl hk llt fuel m2 (by rw [hc]; exact ha) hh with
    ⟨e1, e2⟩ | ⟨b, c, e1, e2, hd⟩ | ⟨b, c, e1, e2, hd⟩ | ⟨b, c, e1, e2, hd⟩
  · rw [e1, e2]; exact .inl ⟨rfl, rfl⟩
  · rw [e1, e2]; exact .inr ⟨true, b, c, rfl, rfl, hd.toCore.traj, fun _ => hd.report⟩
  · rw [e1, e2]; exact .inr ⟨false, b, c, rfl, rfl, hd.traj, nofun⟩
  · rw [e1, e2]; exact .inr ⟨false, b, c, rfl, rfl, hd.traj, nofun⟩

end DDP.Split

open DDP.Split in
/-- **C103 (DDP).**  Suppose a call of `solve` with `maxiter = m1` used all its iterations.  Calling `solve` again with `maxiter = m2`, the
trajectory, feasibility flag and regularization held by the solver, gives what a single call with `maxiter = m1 + m2` would have given: the same
return value, trajectory, flag and regularization, and if it converges the same cost, gaps, residual, multipliers, policy and value function.
(Any arithmetic; no condition on the line searches of the first call, unlike C102.) -/
theorem C103_ddp_split (hT : 0 < P.T) (ha : s.c.par.alphas ≠ [])
    (h1 : solve (ddp P) llt fuel xs us m1 fe ri s = some (r, a)) (hi : a.iter = m1) (hn : isnan a.preg = false) :
    (solve (ddp P) llt fuel xs us (m1 + m2) fe ri s = none ∧ solve (ddp P) llt fuel (some a.xs) (some a.us) m2 a.feas a.preg a = none) ∨
    ∃ q b c, solve (ddp P) llt fuel xs us (m1 + m2) fe ri s = some (q, b) ∧
      solve (ddp P) llt fuel (some a.xs) (some a.us) m2 a.feas a.preg a = some (q, c) ∧
      SameTrajDDP b c ∧ (q = true → SameReportDDP b c) := by
  obtain ⟨h2, rfl⟩ := limit ddp_laws h1 hi
  exact split true (lock_ddp hT) ddp_laws ha nofun h2 (C10_ddp_preg_eq_dreg (.inl rfl) h1) hn fun _ => ddp_searches_from_x0 m1 h2

open DDP.Split in
/-- **C103 (FDDP).**  The same for `SolverFDDP`, with the merit-style test or a filter of size at most 1 (the default). -/
theorem C103_fddp_split (hT : 0 < P.T) (ha : s.c.par.alphas ≠ []) (hf : s.c.useFilter = false ∨ s.c.filterSize ≤ 1)
    (h1 : solve (fddp P) llt fuel xs us m1 fe ri s = some (r, a)) (hi : a.iter = m1) (hn : isnan a.preg = false) :
    (solve (fddp P) llt fuel xs us (m1 + m2) fe ri s = none ∧ solve (fddp P) llt fuel (some a.xs) (some a.us) m2 a.feas a.preg a = none) ∨
    ∃ q b c, solve (fddp P) llt fuel xs us (m1 + m2) fe ri s = some (q, b) ∧
      solve (fddp P) llt fuel (some a.xs) (some a.us) m2 a.feas a.preg a = some (q, c) ∧
      SameTrajDDP b c ∧ (q = true → SameReportDDP b c) := by
  obtain ⟨h2, rfl⟩ := limit fddp_laws h1 hi
  exact split false (lock_fddp hT) fddp_laws ha (fun _ => hf) h2 (C10_ddp_preg_eq_dreg (.inr rfl) h1) hn nofun

end

namespace Ex
open DDP Spec

/-- C103 on the scalar problem: `SolverDDP`, one iteration, then at most three more; the second call converges. -/
theorem C103_ddp_example : ∃ a, solve (ddp lq) llt1 20 none none 1 false 0 lqDDP = some (false, a) ∧
    ∃ b c, solve (ddp lq) llt1 20 none none (1 + 3) false 0 lqDDP = some (true, b) ∧
      solve (ddp lq) llt1 20 (some a.xs) (some a.us) 3 a.feas a.preg a = some (true, c) ∧ SameReportDDP b c ∧ b.e.cost = (4 / 5 : ℚ) := by
  have hrun : (solve (ddp lq) llt1 20 none none 1 false 0 lqDDP).map (fun r => (r.1, r.2.iter)) = some (false, 1) := by decide +kernel
  have hall : (solve (ddp lq) llt1 20 none none (1 + 3) false 0 lqDDP).map (fun r => (r.1, (r.2.e.cost : ℚ))) = some (true, (4 / 5 : ℚ)) := by
    decide +kernel
  cases h1 : solve (ddp lq) llt1 20 none none 1 false 0 lqDDP with
  | none => rw [h1] at hrun; cases hrun
  | some x =>
    obtain ⟨r, a⟩ := x
    rw [h1] at hrun
    simp only [Option.map_some, Option.some.injEq, Prod.mk.injEq] at hrun
    obtain ⟨rfl, hi⟩ := hrun
    refine ⟨a, rfl, ?_⟩
    rcases C103_ddp_split (s := lqDDP) (m2 := 3) (by decide) (by decide +kernel) h1 hi rfl with ⟨e1, _⟩ | ⟨q, b, c, e1, e2, _, h⟩
    · rw [e1] at hall; cases hall
    · rw [e1] at hall
      have hall := Option.some.inj hall
      have hq : q = true := congrArg Prod.fst hall
      have hx : b.e.cost = (4 / 5 : ℚ) := congrArg Prod.snd hall
      subst hq
      exact ⟨b, c, e1, e2, h rfl, hx⟩

/-- `SolverFDDP`, split after two iterations, the second of which had a failed line search. -/
theorem C103_fddp_example : ∃ a, solve (fddp lq) llt1 20 none none 2 false 0 lqDDP = some (false, a) ∧ a.nRej = 1 ∧
    ∃ b c, solve (fddp lq) llt1 20 none none (2 + 2) false 0 lqDDP = some (true, b) ∧
      solve (fddp lq) llt1 20 (some a.xs) (some a.us) 2 a.feas a.preg a = some (true, c) ∧ SameReportDDP b c ∧ b.e.cost = (4 / 5 : ℚ) := by
  have hrun : (solve (fddp lq) llt1 20 none none 2 false 0 lqDDP).map (fun r => (r.1, r.2.iter, r.2.nRej)) = some (false, 2, 1) := by decide +kernel
  have hall : (solve (fddp lq) llt1 20 none none (2 + 2) false 0 lqDDP).map (fun r => (r.1, (r.2.e.cost : ℚ))) = some (true, (4 / 5 : ℚ)) := by
    decide +kernel
  cases h1 : solve (fddp lq) llt1 20 none none 2 false 0 lqDDP with
  | none => rw [h1] at hrun; cases hrun
  | some x =>
    obtain ⟨r, a⟩ := x
    rw [h1] at hrun
    simp only [Option.map_some, Option.some.injEq, Prod.mk.injEq] at hrun
    obtain ⟨rfl, hi, hn⟩ := hrun
    refine ⟨a, rfl, hn, ?_⟩
    rcases C103_fddp_split (s := lqDDP) (m2 := 2) (by decide) (by decide +kernel) (.inr le_rfl) h1 hi rfl with ⟨e1, _⟩ | ⟨q, b, c, e1, e2, _, h⟩
    · rw [e1] at hall; cases hall
    · rw [e1] at hall
      have hall := Option.some.inj hall
      have hq : q = true := congrArg Prod.fst hall
      have hx : b.e.cost = (4 / 5 : ℚ) := congrArg Prod.snd hall
      subst hq
      exact ⟨b, c, e1, e2, h rfl, hx⟩

end Ex
end Mim
