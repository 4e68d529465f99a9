import Verif.Lemmas.ProxSplit
import Verif.Props.ProxHistory
import Verif.Props.ProxReg
import Verif.Props.ProxReturn

/-!
# C105: a solve of `SolverPROXQP` may be split into several calls
-/
set_option autoImplicit false
set_option linter.unusedSectionVars false
set_option linter.unusedSimpArgs false

namespace Mim
namespace Spec
section
variable {F : Type} [Add F] [Sub F] [Mul F] [Div F] [Neg F] [Zero F] [One F] [FloatOps F] {P : Problem F}

/-- two solvers hold the same trajectory, regularizations and multipliers. -/
structure SameTrajPROX (s s' : PROX P) : Prop where
  xs : ∀ t, t ≤ P.T → s.xs t = s'.xs t
  us : ∀ t, t < P.T → s.us t = s'.us t
  preg : s.preg = s'.preg
  dreg : s.dreg = s'.dreg
  lagMul : ∀ t, 0 < t → t ≤ P.T → s.lam t = s'.lam t
  y : ∀ t, t ≤ P.T → s.y t = s'.y t
end
end Spec

section
variable {F : Type} [Add F] [Sub F] [Mul F] [Div F] [Neg F] [Zero F] [One F] [FloatOps F] {P : Problem F}
open PROX Spec
variable {qp : PSolve F} {fuel : ℕ} {xs : Option (Traj P)} {us : Option (Ctrls P)} {m m1 m2 : ℕ} {ri : F} {s a : PROX P} {r : Bool}

namespace PROX.Split

theorem iterate_succ (n : ℕ) (s : PROX P) : iterate qp fuel (n + 1) s =
    match body qp fuel s with
    | none => none
    | some (some b, s) => some (some b, s)
    | some (none, s) => iterate qp fuel n { s with iter := s.iter + 1 } := rfl

theorem iterate_add (m1 m2 : ℕ) (s : PROX P) : iterate qp fuel (m1 + m2) s =
    match iterate qp fuel m1 s with
    | none => none
    | some (some b, a) => some (some b, a)
    | some (none, a) => iterate qp fuel m2 a := by
  induction m1 generalizing s with
  | zero => rw [Nat.zero_add]; rfl
  | succ n ih =>
    rw [show n + 1 + m2 = (n + m2) + 1 by omega]
    rw [iterate_succ, iterate_succ]
    cases body qp fuel s with
    | none => rfl
    | some x =>
      obtain ⟨r, x⟩ := x
      cases r with
      | some b => rfl
      | none =>
        simp only []
        exact ih _

/-- the counter counts the iterations; a loop left by `return` leaves it below the limit. -/
theorem iterate_iter (n : ℕ) (s : PROX P) {r : Option Bool} (h : iterate qp fuel n s = some (r, a)) :
    a.c = s.c ∧ (r ≠ none → a.iter < s.iter + n) := by
  induction n generalizing s with
  | zero => cases h; exact ⟨rfl, fun h => absurd rfl h⟩
  | succ n ih =>
    rw [iterate_succ] at h
    cases e : body qp fuel s with
    | none => rw [e] at h; cases h
    | some x =>
      obtain ⟨r', x⟩ := x
      have hc := body_iter e
      rw [e] at h
      cases r' with
      | some b =>
        cases h
        exact ⟨hc.2, fun _ => by omega⟩
      | none =>
        obtain ⟨k1, k2⟩ := ih _ h
        refine ⟨k1.trans hc.2, fun hr => ?_⟩
        have := k2 hr
        simp only [] at this
        omega

/-- a call that used all its iterations. -/
theorem limit (h : solve qp fuel xs us m ri s = some (r, a)) (hi : a.iter = m) :
    iterate qp fuel m (s.start xs us ri) = some (none, a) ∧ r = false := by
  unfold solve at h
  cases e : iterate qp fuel m (s.start xs us ri) with
  | none => rw [e] at h; cases h
  | some x =>
    obtain ⟨o, b⟩ := x
    rw [e] at h
    have key := (iterate_iter m _ e).2
    cases o with
    | none => cases h; exact ⟨rfl, rfl⟩
    | some q =>
      cases h
      have := key nofun
      change a.iter < 0 + m at this
      omega

end PROX.Split

open PROX.Split in
/-- **C105.**  Suppose a call of `solve` with `maxiter = m1` used all its iterations.  Calling `solve` again with `maxiter = m2`, the trajectory
and regularization held by the solver, gives what a single call with `maxiter = m1 + m2` would have given: the same return value (or both run
forever), trajectory, regularization and multipliers, and if it converges the same report: residual, cost, gaps, violation, merit, step, QP,
derivatives.  ProxSuite is deterministic; merit-style test, or filter of size at most 1 (the default). -/
theorem C105_prox_split (hq : Deterministic qp) (hT : 0 < P.T) (hs : Reachable s)
    (hint : ∀ a ∈ s.c.par.alphas, P.integrate P.x0 (sv a (zeroV F P.ndx)) = P.x0) (ha : s.c.par.alphas ≠ [])
    (hf : s.c.useFilter = false ∨ s.c.filterSize ≤ 1)
    (h1 : solve qp fuel xs us m1 ri s = some (r, a)) (hi : a.iter = m1) (hn : isnan a.preg = false) :
    (solve qp fuel xs us (m1 + m2) ri s = none ∧ solve qp fuel (some a.xs) (some a.us) m2 a.preg a = none) ∨
    ∃ q b c, solve qp fuel xs us (m1 + m2) ri s = some (q, b) ∧ solve qp fuel (some a.xs) (some a.us) m2 a.preg a = some (q, c) ∧
      SameTrajPROX b c ∧ (q = true → SameReport b c) := by
  have hx : a.xs 0 = P.x0 := C07_prox_initial_state hs hint h1
  have hd : a.dreg = a.preg := C10_prox_preg_eq_dreg h1
  obtain ⟨h2, -⟩ := limit h1 hi
  have hc : a.c = s.c := (iterate_iter m1 _ h2).1
  have hreg : initReg a.c.par a.preg = a.preg := by simp only [initReg, hn, Bool.false_eq_true, if_false]
  have hh : Alike a (a.start (some a.xs) (some a.us) a.preg) := by
    refine ⟨rfl, hreg.symm, hd.trans hreg.symm, rfl, rfl, rfl, fun t _ => ?_, fun t _ => rfl, rfl, rfl, fun _ _ => rfl, fun _ _ _ => rfl,
      fun _ _ => rfl, by rw [hc]; exact hf⟩
    change a.xs t = Function.update a.xs 0 P.x0 t
    rw [← hx, Function.update_eq_self]
  have hall : solve qp fuel xs us (m1 + m2) ri s = match iterate qp fuel m2 a with
      | none => none
      | some (some b, s) => some (b, s)
      | some (none, s) => some (false, s) := by
    unfold solve
    rw [iterate_add, h2]
    rfl
  rw [hall]
  unfold solve
  rcases iterate_alike hq hT fuel m2 (by rw [hc]; exact ha) hh with ⟨e1, e2⟩ | ⟨q, b, c, e1, e2, k, kd⟩
  · rw [e1, e2]; exact .inl ⟨rfl, rfl⟩
  · have ht : SameTrajPROX b c := ⟨k.xs, k.us, k.preg, k.dreg, k.lam, k.y⟩
    rw [e1, e2]
    cases q with
    | none => exact .inr ⟨false, b, c, rfl, rfl, ht, nofun⟩
    | some q =>
      refine .inr ⟨q, b, c, rfl, rfl, ht, fun e => ?_⟩
      have k := kd (by rw [e])
      exact ⟨k.KKT, k.cost, k.gap, k.con, k.merit, k.fs, k.dx, k.du, k.it, k.pri, k.dua, k.meq, k.data.run, k.data.rd, k.data.ter, k.data.td⟩

end

namespace Ex
open PROX Spec

/-- C105 on the scalar problem with one constraint: one iteration, then at most nine more; the second call converges. -/
theorem C105_prox_example : ∃ a, PROX.solve qp2 5 none none 1 0 pNew = some (false, a) ∧
    ∃ b c, PROX.solve qp2 5 none none (1 + 9) 0 pNew = some (true, b) ∧
      PROX.solve qp2 5 (some a.xs) (some a.us) 9 a.preg a = some (true, c) ∧ SameReport b c := by
  have hrun : (PROX.solve qp2 5 none none 1 0 pNew).any (fun r : Bool × PROX (clq 1 1 1 1 1) => !r.1 && decide (r.2.iter = 1)) = true := by
    decide +kernel
  have hall : (PROX.solve qp2 5 none none (1 + 9) 0 pNew).map (·.1) = some true := by decide +kernel
  match h1 : PROX.solve qp2 5 none none 1 0 pNew, hrun with
  | some (r, a), hrun =>
    simp only [Option.any_some, Bool.and_eq_true, decide_eq_true_eq, Bool.not_eq_true'] at hrun
    obtain ⟨rfl, hi⟩ := hrun
    refine ⟨a, rfl, ?_⟩
    rcases C105_prox_split (s := pNew) (m2 := 9) (qp := qp2) (fun _ _ _ => rfl) Nat.zero_lt_one (.new _)
      (by intro a _; change ((1 : ℚ) + a * 0 : ℚ) = 1; simp) (by decide +kernel) (.inr le_rfl) h1 hi rfl with ⟨e1, _⟩ | ⟨q, b, c, e1, e2, _, h⟩
    · rw [e1] at hall; cases hall
    · rw [e1] at hall
      have hq : q = true := Option.some.inj hall
      subst hq
      exact ⟨b, c, e1, e2, h rfl⟩

end Ex
end Mim
