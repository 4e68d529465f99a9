import Verif.Lemmas.CSQPSplit
import Verif.Props.CSQPHistory
import Verif.Props.CSQPReg
import Verif.Props.CSQPReturn

/-!
# C104: a solve of `SolverCSQP` may be split into several calls
-/
set_option autoImplicit false
set_option linter.unusedSectionVars false
set_option linter.unusedSimpArgs false

namespace Mim
namespace Spec
section
variable {F : Type} [Add F] [Sub F] [Mul F] [Div F] [Neg F] [Zero F] [One F] [FloatOps F] {P : Problem F}

/-- two solvers hold the same trajectory, regularizations and step length. -/
structure SameTrajCSQP (s s' : CSQP P) : Prop where
  xs : ∀ t, t ≤ P.T → s.xs t = s'.xs t
  us : ∀ t, t < P.T → s.us t = s'.us t
  preg : s.preg = s'.preg
  dreg : s.dreg = s'.dreg
  steplength : s.steplength = s'.steplength

/-- Either the penalties are reset for every QP (`reset_rho`), or `reset_rho_vec()`, which `solve` calls in its first iteration, would
leave the penalties the solver holds as they are. -/
def PenaltiesSettled (s : CSQP P) : Prop :=
  s.c.resetRho = true ∨ (s.q.rhoSparse = s.c.rhoBase ∧ ∀ t, t ≤ P.T →
    (s.q.resetRho s.c).v.rho t = s.q.v.rho t ∧ (s.q.resetRho s.c).v.inv t = s.q.v.inv t)
end
end Spec

section
variable {F : Type} [Add F] [Sub F] [Mul F] [Div F] [Neg F] [Zero F] [One F] [FloatOps F] [SqrtOps F] {P : Problem F}
open CSQP Spec
variable {W : World F} {fuel : ℕ} {xs : Option (Traj P)} {us : Option (Ctrls P)} {m m1 m2 : ℕ} {ri : F} {s a : CSQP P} {o : Out}

namespace CSQP.Split

theorem iterate_succ (n : ℕ) (s : CSQP P) : iterate W fuel (n + 1) s =
    match body W fuel s with
    | none => none
    | some (.fin o, s) => some (some o, s)
    | some (.brk, s) => some (none, s)
    | some (.next, s) => iterate W fuel n { s with iter := s.iter + 1 } := rfl

/-- the loop counter after a loop that was not left by `return`. -/
theorem iterate_add (m1 m2 : ℕ) (s : CSQP P) (h : iterate W fuel m1 s = some (none, a)) (hi : a.iter = s.iter + m1) :
    iterate W fuel (m1 + m2) s = iterate W fuel m2 a := by
  induction m1 generalizing s with
  | zero =>
    rw [Nat.zero_add]
    cases h
    rfl
  | succ n ih =>
    rw [iterate_succ] at h
    rw [show n + 1 + m2 = (n + m2) + 1 by omega, iterate_succ]
    cases e : body W fuel s with
    | none => rw [e] at h; cases h
    | some x =>
      obtain ⟨r, x⟩ := x
      rw [e] at h
      have hc := (body_conf e).2.2
      match r, h with
      | .fin o, h => cases h
      | .brk, h =>
        cases h
        omega
      | .next, h =>
        simp only [] at h
        simp only []
        exact ih _ h (by simp only []; omega)

/-- a call that used all its iterations. -/
theorem limit (he : s.c.extra = false) (h : solve W fuel xs us m ri s = some (o, a)) (hi : a.iter = m) :
    iterate W fuel m (s.start W xs us m ri) = some (none, a) ∧ o = .ret false := by
  unfold solve at h
  cases e : iterate W fuel m (s.start W xs us m ri) with
  | none => rw [e] at h; cases h
  | some x =>
    obtain ⟨r, b⟩ := x
    rw [e] at h
    have key := iterate_inv W fuel (fun j s1 => s1.iter + j = m ∧ s1.c = s.c) (fun s1 => s1.c = s.c) (fun _ s1 => s1.iter < m)
      (fun s1 h => h.2)
      (fun j s2 s3 hI hb => by
        have := body_conf hb
        refine ⟨?_, this.1.trans hI.2⟩
        change s3.iter + 1 + j = m
        have := this.2.2
        omega)
      (fun j s2 s3 hI hb => (body_conf hb).1.trans hI.2)
      (fun j s2 b s3 hI hb => by
        have := (body_conf hb).2.2
        omega) m _ ⟨by rw [(start_conf W xs us m ri s).2.2.2]; omega, (start_conf W xs us m ri s).1⟩ _ _ e
    match r, h with
    | some o', h =>
      simp only [Option.some.injEq, Prod.mk.injEq] at h
      obtain ⟨rfl, rfl⟩ := h
      rcases key with ⟨h, _⟩ | ⟨_, _, h⟩
      · cases h
      · omega
    | none, h =>
      simp only [] at h
      rcases key with ⟨_, h'⟩ | ⟨_, h', _⟩
      · unfold extraIter at h
        rw [h', he] at h
        simp only [Bool.false_and, Bool.false_eq_true, if_false, Option.some.injEq, Prod.mk.injEq] at h
        obtain ⟨rfl, rfl⟩ := h
        exact ⟨rfl, rfl⟩
      · cases h'

/-- `start` for a positive number of iterations. -/
theorem start_pos (hm : m ≠ 0) : s.start W xs us m ri =
    { s with
      q := { s.q with t0 := W.clock s.q.tick, tick := s.q.tick + 1, reached := false }
      xs := Function.update (xs.getD fun _ => P.zeroX) 0 P.x0
      us := us.getD fun t => zeroV F (P.nu t), feas := false
      w := { s.w with xs := Function.update s.w.xs 0 P.x0 }
      preg := if s.c.removeReg then 0 else initReg s.c.par ri
      dreg := if s.c.removeReg then 0 else initReg s.c.par ri
      iter := 0, hist := [], acc := [] } := by
  unfold start
  simp only []
  rw [if_neg hm]

theorem Head.refl (ht : NotLate W s) (hf : s.c.useFilter = false ∨ s.c.filterSize ≤ 1) : Head W W s s :=
  ⟨⟨rfl, rfl, rfl, rfl, rfl, rfl, rfl, rfl, fun _ _ => rfl, fun _ _ => rfl, rfl, hf⟩, rfl, rfl, .inr fun _ _ => rfl,
    .inr ⟨fun _ _ => rfl, fun _ _ => rfl⟩, fun _ _ _ _ => ⟨rfl, rfl⟩, ht, ht⟩

theorem Checked.report {W' : World F} {s s' : CSQP P} (k : Checked W W' s s') : SameReport s s' :=
  ⟨k.KKT, k.ev.cost, k.ev.gap, k.ev.con, k.ev.fs, k.lag, k.q.v.y, k.q.v.z, k.q.v.dx, k.q.v.du, k.q.v.dxt, k.q.v.dut,
    k.q.v.rho, k.q.rs, k.q.it, k.q.n, fun t ht => k.q.b.bp.K t (by omega) ht, fun t ht => k.q.b.bp.k t (by omega) ht,
    k.ev.data.run, k.ev.data.rd, k.ev.data.ter, k.ev.data.td⟩

end CSQP.Split

open CSQP.Split in
/-- **C104.**  Suppose a call of `solve` with `maxiter = m1 > 0` used all its iterations and left penalties that `reset_rho_vec` would not
change.  Calling `solve` again with `maxiter = m2 > 0`, the trajectory and regularization held by the solver, gives what a single call with
`maxiter = m1 + m2` would have given: the same return value (or both run forever), trajectory and regularization, and if it converges the same
report: cost, gaps, violation, residual, multipliers, step, penalties, policy, derivatives.  Single threaded, no time limit reached, no extra
iteration, merit-style test or filter of size 1 (the default); whatever `eq_qp_initial_guess` and `reset_y` are: the multipliers and the step
warm start the second call just as they do the next iteration. -/
theorem C104_csqp_split (hs : Reachable s)
    (hint : ∀ a ∈ s.c.par.alphas, P.integrate P.x0 (sv a (zeroV F P.ndx)) = P.x0)
    (hW : W.sched = none) (ht : NoTimeout s.c.maxTime W) (hq : s.c.maxQP ≠ 0) (he : s.c.extra = false)
    (hf : s.c.useFilter = false ∨ s.c.filterSize ≤ 1) (hm1 : 0 < m1) (hm2 : 0 < m2)
    (h1 : solve W fuel xs us m1 ri s = some (o, a)) (hi : a.iter = m1) (hn : isnan a.preg = false) (hp : PenaltiesSettled a) :
    (solve W fuel xs us (m1 + m2) ri s = none ∧ solve W fuel (some a.xs) (some a.us) m2 a.preg a = none) ∨
    ∃ q b c, solve W fuel xs us (m1 + m2) ri s = some (q, b) ∧ solve W fuel (some a.xs) (some a.us) m2 a.preg a = some (q, c) ∧
      SameTrajCSQP b c ∧ (q = .ret true → SameReport b c) := by
  have hx : a.xs 0 = P.x0 := C07_csqp_initial_state hs hint h1
  have hd : a.dreg = a.preg := C10_csqp_preg_eq_dreg h1
  have hr : s.c.removeReg = true → a.preg = 0 := fun e => (C10_csqp_removed e h1).1
  obtain ⟨h2, -⟩ := limit he h1 hi
  have hst : s.start W xs us (m1 + m2) ri = s.start W xs us m1 ri := by rw [start_pos (by omega), start_pos (by omega)]
  have ht0 : NotLate W (s.start W xs us m1 ri) := by
    rw [start_pos (by omega)]
    exact ⟨rfl, fun i => ht i s.q.tick⟩
  have hc0 := (start_conf W xs us m1 ri s).1
  obtain ⟨hc, hta⟩ : a.c = s.c ∧ NotLate W a := by
    rcases iterate_alike (W := W) (W' := W) ⟨rfl, hW, hW⟩ fuel m1 (s := s.start W xs us m1 ri) (s' := s.start W xs us m1 ri)
      (by rw [hc0]; exact hq) (Head.refl ht0 (by rw [hc0]; exact hf)) (.inr ⟨rfl, fun _ _ => ⟨rfl, rfl⟩⟩) with ⟨e, _⟩ | ⟨r, r', e, e', k, kc⟩
    · rw [h2] at e; cases e
    · rw [h2] at e
      cases e
      exact ⟨kc.trans hc0, k.2.2.1⟩
  have hh : Head W W a (a.start W (some a.xs) (some a.us) m2 a.preg) := by
    have hreg : (if a.c.removeReg then 0 else initReg a.c.par a.preg) = a.preg := by
      split
      · rename_i e
        rw [hc] at e
        exact (hr e).symm
      · simp only [initReg, hn, Bool.false_eq_true, if_false]
    rw [start_pos (by omega), hreg]
    refine ⟨⟨rfl, rfl, hd, rfl, rfl, rfl, rfl, rfl, fun t _ => ?_, fun t _ => rfl, rfl, by rw [hc]; exact hf⟩, rfl, rfl, .inr fun _ _ => rfl,
      .inr ⟨fun _ _ => rfl, fun _ _ => rfl⟩, fun _ _ _ _ => ⟨rfl, rfl⟩, hta, ⟨rfl, fun i => by rw [hc]; exact ht i a.q.tick⟩⟩
    change a.xs t = Function.update a.xs 0 P.x0 t
    rw [← hx, Function.update_eq_self]
  have hh' : RhoHead a (a.start W (some a.xs) (some a.us) m2 a.preg) := by
    rcases hp with e | ⟨p1, p2⟩
    · exact .inl e
    · by_cases e : a.c.resetRho = true
      · exact .inl e
      · refine .inr ?_
        have e0 : a.c.resetRho = false := by simpa using e
        have e1 : rhoOf a = a.q := by unfold rhoOf; rw [if_neg (by omega)]
        rw [start_pos (by omega)]
        unfold rhoOf
        rw [if_neg (by omega), if_pos ⟨rfl, e0⟩]
        exact ⟨p1, fun t ht => ⟨(p2 t ht).1.symm, (p2 t ht).2.symm⟩⟩
  have hall : solve W fuel xs us (m1 + m2) ri s = match iterate W fuel m2 a with
      | none => none
      | some (some o, s) => some (o, s)
      | some (none, s) => extraIter W fuel s := by
    unfold solve
    rw [hst, iterate_add m1 m2 _ h2 (by rw [(start_conf W xs us m1 ri s).2.2.2]; omega)]
    rfl
  rw [hall]
  unfold solve
  rcases iterate_alike (W := W) (W' := W) ⟨rfl, hW, hW⟩ fuel m2 (by rw [hc]; exact hq) hh hh' with
    ⟨e1, e2⟩ | ⟨⟨r, b⟩, ⟨r', c⟩, e1, e2, ⟨k0, k⟩, kc⟩
  · rw [e1, e2]; exact .inl ⟨rfl, rfl⟩
  · rw [e1, e2]
    simp only at k0
    subst k0
    match r, k with
    | some (.ret true), k =>
      exact .inr ⟨_, b, c, rfl, rfl, ⟨k.xs, k.us, k.preg, k.dreg, k.step⟩, fun _ => Checked.report k⟩
    | some (.ret false), k => exact .inr ⟨_, b, c, rfl, rfl, ⟨k.xs, k.us, k.preg, k.dreg, k.step⟩, nofun⟩
    | some .thrown, k => exact .inr ⟨_, b, c, rfl, rfl, ⟨k.xs, k.us, k.preg, k.dreg, k.step⟩, nofun⟩
    | none, ⟨k, _⟩ =>
      have hb : b.c.extra = false := by rw [kc, hc]; exact he
      have hcx : c.c.extra = false := by rw [← k.c]; exact hb
      refine .inr ⟨.ret false, b, c, ?_, ?_, ⟨k.xs, k.us, k.preg, k.dreg, k.step⟩, nofun⟩
      · simp only [extraIter]; rw [hb]; rfl
      · simp only [extraIter]; rw [hcx]; rfl

end

namespace Ex
open CSQP Spec

/-- C104 on the scalar problem with the bound `u ≤ 1`: one iteration (residual 9), then one more call, which converges for tolerance 5
(residual 4).  The penalties are not reset between QPs (the default), and the second call is warm started with multipliers and step. -/
theorem C104_csqp_example : ∃ a, solve world 20 none (some fun _ _ => 1) 1 0 (hz false false 1 0 5) = some (.ret false, a) ∧ a.m.KKT = (9 : ℚ) ∧
    ∃ b c, solve world 20 none (some fun _ _ => 1) (1 + 1) 0 (hz false false 1 0 5) = some (.ret true, b) ∧
      solve world 20 (some a.xs) (some a.us) 1 a.preg a = some (.ret true, c) ∧ SameReport b c ∧ b.e.cost = (79 : ℚ) ∧ b.m.KKT = (4 : ℚ) := by
  have hrun : (solve world 20 none (some fun _ _ => 1) 1 0 (hz false false 1 0 5)).any (fun r : Out × CSQP pz =>
      decide (r.1 = .ret false) && decide (r.2.iter = 1) && decide (r.2.m.KKT = 9) && decide (r.2.q.rhoSparse = r.2.c.rhoBase) &&
      decide (sc ((r.2.q.resetRho r.2.c).v.rho 0) = sc (r.2.q.v.rho 0)) && decide (sc ((r.2.q.resetRho r.2.c).v.inv 0) = sc (r.2.q.v.inv 0)) &&
      decide (sc ((r.2.q.resetRho r.2.c).v.rho 1) = sc (r.2.q.v.rho 1)) && decide (sc ((r.2.q.resetRho r.2.c).v.inv 1) = sc (r.2.q.v.inv 1))) = true := by
    decide +kernel
  have hall : (solve world 20 none (some fun _ _ => 1) (1 + 1) 0 (hz false false 1 0 5)).any (fun r : Out × CSQP pz =>
      decide (r.1 = .ret true) && decide (r.2.e.cost = 79) && decide (r.2.m.KKT = 4)) = true := by
    decide +kernel
  match h1 : solve world 20 none (some fun _ _ => 1) 1 0 (hz false false 1 0 5), hrun with
  | some (o, a), hrun =>
    simp only [Option.any_some, Bool.and_eq_true, decide_eq_true_eq] at hrun
    obtain ⟨⟨⟨⟨⟨⟨⟨rfl, hi⟩, hk⟩, p0⟩, p1⟩, p2⟩, p3⟩, p4⟩ := hrun
    have hp : PenaltiesSettled a := by
      refine .inr ⟨p0, fun t ht => ?_⟩
      have ht : t ≤ 1 := ht
      have key : ∀ v w : Vec ℚ 1, sc v = sc w → v = w := fun v w h => funext fun i => by rw [Subsingleton.elim i 0]; exact h
      rcases (by omega : t = 0 ∨ t = 1) with rfl | rfl
      · exact ⟨key _ _ p1, key _ _ p2⟩
      · exact ⟨key _ _ p3, key _ _ p4⟩
    refine ⟨a, rfl, hk, ?_⟩
    rcases C104_csqp_split (m2 := 1) (hz_reachable _ _ _ _ _) (by intro a _; change ((-10 : ℚ) + a * 0 : ℚ) = -10; simp) rfl hz_time (by decide) rfl (.inr le_rfl) Nat.one_pos Nat.one_pos
      h1 hi rfl hp with ⟨e1, _⟩ | ⟨q, b, c, e1, e2, _, h⟩
    · rw [e1] at hall; cases hall
    · rw [e1] at hall
      simp only [Option.any_some, Bool.and_eq_true, decide_eq_true_eq] at hall
      obtain ⟨⟨rfl, hx⟩, hy⟩ := hall
      exact ⟨b, c, e1, e2, h rfl, hx, hy⟩

/-- a solver that adapts the penalties after every QP iteration. -/
def hzAdapt : CSQP pz :=
  let s := hz false false 2 0 (1 / 10)
  { s with c := { s.c with interval := 1 } }

/-- **Adapted penalties are lost when a solve is split.**  If the first call changed the penalties and `reset_rho` is not set (the default),
the second call starts from `rho_sparse_base` again although a longer single call would have gone on with the adapted ones: two iterations
in one call and two calls of one iteration end at different controls (`16000006000003/8000010000003` and `1`). -/
theorem C104_csqp_adapted_penalties :
    ((solve world 20 none (some fun _ _ => 1) (1 + 1) 0 hzAdapt).map fun r => sc (r.2.us 0)) = some (16000006000003 / 8000010000003) ∧
    ((solve world 20 none (some fun _ _ => 1) 1 0 hzAdapt).bind fun r =>
      (solve world 20 (some r.2.xs) (some r.2.us) 1 r.2.preg r.2).map fun r' => (r.2.iter, r.2.q.rhoSparse, sc (r'.2.us 0))) = some (1, (1 / 1000000 : ℚ), 1) := by
  constructor <;> decide +kernel

end Ex
end Mim
