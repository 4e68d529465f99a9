import Verif.Props.QPLoop
import Verif.Lemmas.Reg
import Mathlib.Algebra.Order.Archimedean.Basic

/-!
# Regularization of SolverCSQP: range, termination and non-termination (C09, C10)
-/
set_option linter.unusedSectionVars false
set_option linter.unusedSimpArgs false

namespace Mim
open Spec CSQP Matrix

section
variable {F : Type} [Add F] [Sub F] [Mul F] [Div F] [Neg F] [Zero F] [One F] [FloatOps F] [SqrtOps F] {P : Problem F}
variable {W : World F} {fuel : ℕ} {xs : Option (Traj P)} {us : Option (Ctrls P)} {m : ℕ} {ri : F} {s s' : CSQP P} {o : Out}

namespace CSQP

/-- the regularization state satisfies `I` and primal = dual. -/
def RegInv (c : CConf F) (I : F → Prop) (s : CSQP P) : Prop := s.c = c ∧ s.dreg = s.preg ∧ I s.preg

/-- `I` is kept by increasing and decreasing, if that ever happens. -/
structure RegKept (c : CConf F) (I : F → Prop) : Prop where
  inc : c.removeReg = false → ∀ r, I r → I (incReg c.par r)
  dec : c.removeReg = false → ∀ r, I r → I (decReg c.par r)

variable {c : CConf F} {I : F → Prop}

theorem RegInv.of_eq {s1 : CSQP P} (h : RegInv c I s) (h1 : s1.c = s.c) (h2 : s1.preg = s.preg) (h3 : s1.dreg = s.dreg) :
    RegInv c I s1 := ⟨h1.trans h.1, by rw [h2, h3]; exact h.2.1, by rw [h2]; exact h.2.2⟩

theorem RegInv.dir (h : RegInv c I s) : RegInv c I (s.dir W).st := by rw [dir_st]; exact h

theorem RegInv.increaseReg (hk : RegKept c I) (hr : c.removeReg = false) (h : RegInv c I s) : RegInv c I s.increaseReg :=
  ⟨h.1, rfl, by change I (incReg s.c.par s.preg); rw [h.1]; exact hk.inc hr _ h.2.2⟩

theorem RegInv.direction (hk : RegKept c I) {chk : Bool} {oo : Option Out} (h0 : RegInv c I s)
    (h : direction W fuel chk s = some (oo, s')) : RegInv c I s' := by
  cases direction_cases h with
  | escaped _ h1 ho => have := h0.dir (W := W); rw [h1] at this; exact this
  | plain _ h1 ho => have := h0.dir (W := W); rw [h1] at this; exact this
  | found hr h1 ho =>
    exact retry_inv (RegInv c I) (fun s hs => hs.dir) (fun s hs => hs.increaseReg hk (by rw [← h0.1]; exact hr)) h0 h1
  | gaveUp hr h1 ho =>
    exact retry_inv (RegInv c I) (fun s hs => hs.dir) (fun s hs => hs.increaseReg hk (by rw [← h0.1]; exact hr)) h0 h1

theorem RegInv.updateReg (hk : RegKept c I) (h : RegInv c I s) : RegInv c I s.updateReg.2 := by
  unfold CSQP.updateReg
  cases hr : s.c.removeReg with
  | true => simpa using h
  | false =>
    have hr' : c.removeReg = false := by rw [← h.1]; exact hr
    simp only [Bool.false_eq_true, if_false]
    split
    · exact ⟨h.1, rfl, by change I (decReg s.c.par s.preg); rw [h.1]; exact hk.dec hr' _ h.2.2⟩
    · exact h.increaseReg hk hr'

theorem RegInv.prepare (h : RegInv c I s) : RegInv c I s.prepare := by
  unfold CSQP.prepare
  simp only []
  split <;> exact h

theorem RegInv.body (hk : RegKept c I) {r : Step} (h0 : RegInv c I s) (h : body W fuel s = some (r, s')) :
    RegInv c I s' := by
  have he : RegInv c I (entry s) := RegInv.prepare (s := { s with q := { s.q with tick := s.q.tick + 1 } }) h0
  have hch : ∀ {s1 : CSQP P}, RegInv c I s1 → RegInv c I (CSQP.checked s1) := fun h => h
  cases body_cases h with
  | timeUp hu hs hr => subst hs; exact h0
  | ended hu o hd hr => exact he.direction hk hd
  | noQP hu hd hq hr => exact he.direction hk hd
  | converged hu s1 hd hq hc hs hr => subst hs; exact hch (he.direction hk hd)
  | searched hu s1 hd hq hc ha =>
    have h1 := hch (he.direction hk hd)
    have hls : ∀ s2 : CSQP P, RegInv c I s2 → ∀ as, RegInv c I (lineSearch as s2.pushFilter.setMerit).2 := by
      intro s2 h2 as
      obtain ⟨d, w, iw, n, x, u, fe, ac, _, e⟩ := lineSearch_set as s2.pushFilter.setMerit
      rw [e]; exact h2
    cases ha with
    | rejected s2 hl hs hr =>
      have := hls _ h1 (CSQP.checked s1).c.par.alphas
      rw [hl] at this; subst hs; exact this
    | accepted s2 hl hs hr =>
      have := hls _ h1 (CSQP.checked s1).c.par.alphas
      rw [hl] at this; subst hs; exact RegInv.updateReg hk this

theorem RegInv.start (h0 : I (if s.c.removeReg then 0 else initReg s.c.par ri)) :
    RegInv s.c I (s.start W xs us m ri) := by
  unfold CSQP.start
  by_cases hm : m = 0
  · subst hm; exact ⟨rfl, rfl, h0⟩
  · simp only [if_neg hm]; exact ⟨rfl, rfl, h0⟩

/-- the invariant holds whenever `solve` ends. -/
theorem RegInv.solve (hk : RegKept s.c I) (h0 : I (if s.c.removeReg then 0 else initReg s.c.par ri))
    (h : CSQP.solve W fuel xs us m ri s = some (o, s')) : RegInv s.c I s' := by
  refine solve_inv (fun _ => RegInv s.c I) (RegInv s.c I) (fun _ => RegInv s.c I) (RegInv.start h0) (fun _ h => h)
    (fun n s1 s2 h1 h2 => ?_) (fun n s1 s2 h1 h2 => h1.body hk h2) (fun n s1 o s2 h1 h2 => h1.body hk h2)
    (fun s1 o s2 h1 h2 => ?_) h
  · exact (h1.body hk h2 :)
  · cases extra_cases h2 with
    | off he ho hs => subst hs; exact h1
    | ended he hr hd => exact RegInv.direction hk (s := s1.calcEval) h1 hd
    | checked he hr s3 hd hs ho => subst hs; exact (RegInv.direction hk (s := s1.calcEval) h1 hd :)

end CSQP

/-- **C10 (CSQP), equality.**  However `solve` ends, primal and dual regularization are equal (any arithmetic). -/
theorem C10_csqp_preg_eq_dreg (h : CSQP.solve W fuel xs us m ri s = some (o, s')) : s'.dreg = s'.preg :=
  (CSQP.RegInv.solve (I := fun _ => True) ⟨fun _ _ _ => trivial, fun _ _ _ => trivial⟩ trivial h).2.1

/-- **C10 (CSQP), `remove_reg`.**  With `remove_reg` both regularizations are zero throughout and `reginit` is ignored. -/
theorem C10_csqp_removed (hr : s.c.removeReg = true) (h : CSQP.solve W fuel xs us m ri s = some (o, s')) :
    s'.preg = 0 ∧ s'.dreg = 0 := by
  have := CSQP.RegInv.solve (I := fun r => r = 0) ⟨fun h1 => absurd h1 (by simp [hr]), fun h1 => absurd h1 (by simp [hr])⟩
    (by rw [hr]; rfl) h
  exact ⟨this.2.2, this.2.1.trans this.2.2⟩

/-! ### a failing backward pass keeps failing -/
namespace QP

theorem sweep_isOk {llt : LLT F} {fs : ℕ → Vec F P.ndx} {preg : F} {sym : Mat F P.ndx P.ndx → Mat F P.ndx P.ndx}
    {q : (t : ℕ) → QTerms F P.ndx (P.nu t)} (n : ℕ) (b1 b2 : BP P) (h : b1.Vxx n = b2.Vxx n) :
    (forDownR n (genStage llt fs preg sym q) b1).isOk = (forDownR n (genStage llt fs preg sym q) b2).isOk := by
  induction n generalizing b1 b2 with
  | zero => rfl
  | succ n ih =>
    rw [forDownR_succ, forDownR_succ]
    rcases Nat.eq_zero_or_pos (P.nu n) with h0 | h0
    · rw [genStage_zero h0, genStage_zero h0, Res.bind_ok, Res.bind_ok]
      apply ih
      simp only [Function.update_self, h]
    · obtain ⟨e1, e2⟩ := genStage_pos (llt := llt) (fs := fs) (preg := preg) (sym := sym) (q := q) h0 b1
      obtain ⟨f1, f2⟩ := genStage_pos (llt := llt) (fs := fs) (preg := preg) (sym := sym) (q := q) h0 b2
      cases hs : llt (P.nu n) ((q n).Quu (b1.Vxx (n + 1))) with
      | none =>
        obtain ⟨c1, e⟩ := e2 hs
        obtain ⟨c2, f⟩ := f2 (by rw [← h]; exact hs)
        rw [e, f]; rfl
      | some v =>
        rw [e1 v hs, f1 v (by rw [← h]; exact hs), Res.bind_ok, Res.bind_ok]
        apply ih
        simp only [posStage, Function.update_self, h]

theorem plain_sweep_isOk {llt : LLT F} {E : QEnv P} (n : ℕ) (B : CBP P) :
    (forDownR n (plainStage llt E) B).isOk = (forDownR n (genStage llt E.fs E.preg symm (plainTerms E)) B.bp).isOk := by
  induction n generalizing B with
  | zero => rfl
  | succ n ih =>
    rw [forDownR_succ, forDownR_succ, plainStage_eq]
    cases genStage llt E.fs E.preg symm (plainTerms E) n B.bp with
    | ok b => exact ih _
    | exn b => rfl

/-- whether `backwardPass_without_constraints` throws does not depend on what the arrays contained before. -/
theorem plainPass_isOk {llt : LLT F} {E : QEnv P} (B1 B2 : CBP P) :
    (plainPass llt E B1).isOk = (plainPass llt E B2).isOk := by
  unfold plainPass
  rw [plain_sweep_isOk, plain_sweep_isOk]
  apply sweep_isOk
  simp only [Function.update_self]

end QP

/-- **C09 (CSQP), non-termination.**  If the initial regularization is a value `z` that `increaseRegularization` maps to itself and
that is below `reg_max` (in doubles: `z = 0` with a finite factor and a positive `reg_max`), `remove_reg` is off, the
equality-constrained initial guess is on, and the unconstrained backward pass throws at the initial trajectory (whatever the old
contents `B0` of the work arrays), then `solve` does not return, whatever the number of attempts granted — and whatever the
clock says after the first check, so `max_solve_time` does not bound the run time. -/
theorem C09_csqp_diverges (hr : s.c.removeReg = false) (hg : s.c.eqGuess = true)
    (hz : incReg s.c.par (initReg s.c.par ri) = initReg s.c.par ri)
    (hmax : leb s.c.par.regMax (initReg s.c.par ri) = false) (hm : 0 < m)
    (htime : (s.start W xs us m ri).q.timeUp ((s.start W xs us m ri).env W) = false)
    {B0 : CBP P} (hfail : (plainPass W.llt ((entry (s.start W xs us m ri)).env W) B0).isOk = false) (fuel : ℕ) :
    CSQP.solve W fuel xs us m ri s = none := by
  set s0 := s.start W xs us m ri with hs0
  have hreg : RegInv s.c (fun r => r = initReg s.c.par ri) (entry s0) := by
    have : RegInv s.c (fun r => r = initReg s.c.par ri) s0 := RegInv.start (by rw [hr]; rfl)
    exact RegInv.prepare (s := { s0 with q := { s0.q with tick := s0.q.tick + 1 } }) this
  have hreach : (entry s0).q.reached = false := by
    have : (entry s0).q.reached = s0.q.reached := by
      unfold entry CSQP.prepare
      simp only []
      split <;> rfl
    rw [this]; exact (start_conf W xs us m ri s).2.2.1
  have hdir : ∀ q : CQP P, ∃ q', ({ entry s0 with q := q } : CSQP P).dir W = .exn { entry s0 with q := q' } ∧
      q'.reached = q.reached := by
    intro q
    have henv : ({ entry s0 with q := q } : CSQP P).env W = (entry s0).env W := rfl
    have hc : (entry s0).c.eqGuess = true := by rw [hreg.1]; exact hg
    have hw : (q.computeDirection W.llt ((entry s0).env W)).isOk = false := by
      unfold CQP.computeDirection CQP.warm
      have hE : ((entry s0).env W).c.eqGuess = true := hc
      rw [if_pos hE]
      have hp : (plainPass W.llt ((entry s0).env W) (q.resetParams ((entry s0).env W).c).b).isOk = false := by
        rw [← hfail]; exact QP.plainPass_isOk _ _
      cases hpp : plainPass W.llt ((entry s0).env W) (q.resetParams ((entry s0).env W).c).b with
      | ok b => rw [hpp] at hp; cases hp
      | exn b => rfl
    cases hcd : q.computeDirection W.llt ((entry s0).env W) with
    | ok q' => rw [hcd] at hw; cases hw
    | exn q' =>
      refine ⟨q', ?_, CQP.computeDirection_exn_reached _ _ _ _ hcd⟩
      unfold CSQP.dir
      rw [henv, hcd]; rfl
  have hloop : ∀ n (q : CQP P), q.reached = false → CSQP.retry W true n { entry s0 with q := q } = none := by
    intro n
    induction n with
    | zero => intros; rfl
    | succ n ih =>
      intro q hq
      obtain ⟨q', h1, h2⟩ := hdir q
      unfold CSQP.retry
      rw [h1]
      have hpr : incReg (entry s0).c.par (entry s0).preg = (entry s0).preg := by rw [hreg.1, hreg.2.2]; exact hz
      have hinc : ({ entry s0 with q := q' } : CSQP P).increaseReg = { entry s0 with q := q' } := by
        unfold CSQP.increaseReg
        simp only [hpr]
        rw [← hreg.2.1]
      have hlt : leb (entry s0).c.par.regMax (entry s0).preg = false := by rw [hreg.1, hreg.2.2]; exact hmax
      simp only [hq, Bool.and_false, Bool.false_eq_true, if_false, hinc, hlt]
      exact ih q' (h2.trans hq)
  obtain ⟨k, rfl⟩ : ∃ k, m = k + 1 := ⟨m - 1, by omega⟩
  have hd : CSQP.direction W fuel true (entry s0) = none := by
    unfold CSQP.direction
    have : (entry s0).c.removeReg = false := by rw [hreg.1]; exact hr
    rw [this]
    simp only [Bool.false_eq_true, if_false]
    rw [show entry s0 = { entry s0 with q := (entry s0).q } from rfl, hloop fuel (entry s0).q hreach]
  have hb : CSQP.body W fuel s0 = none := by
    unfold CSQP.body
    simp only [htime, Bool.false_eq_true, if_false]
    have : CSQP.prepare { s0 with q := { s0.q with tick := s0.q.tick + 1 } } = entry s0 := rfl
    rw [this, hd]
  unfold CSQP.solve CSQP.iterate
  rw [← hs0, hb]

end

section Exact
variable {K : Type} [Field K] [LinearOrder K] [IsStrictOrderedRing K] [SqrtOps K] {P : Problem K}
variable {W : World K} {fuel : ℕ} {xs : Option (Traj P)} {us : Option (Ctrls P)} {m : ℕ} {ri : K} {s s' : CSQP P} {o : Out}

/-- **C10 (CSQP), range.**  With `0 < reg_min <= reg_max`, factors greater than 1, `remove_reg` off and an initial regularization
in the range, the regularization is in `[reg_min, reg_max]` and `preg = dreg` after `solve`, however it ends. -/
theorem C10_csqp_range (hp : RegOK s.c.par) (hr : s.c.removeReg = false) (h0 : InRange s.c.par ri)
    (h : CSQP.solve W fuel xs us m ri s = some (o, s')) :
    s.c.par.regMin ≤ s'.preg ∧ s'.preg ≤ s.c.par.regMax ∧ s'.dreg = s'.preg := by
  have := CSQP.RegInv.solve (I := InRange s.c.par) ⟨fun _ r hr => hr.incReg hp, fun _ r hr => hr.decReg hp⟩
    (by rw [hr, initReg_exact]; exact h0) h
  exact ⟨this.2.2.1, this.2.2.2, this.2.1⟩

namespace CSQP

/-- the retry loop ends after at most `n` attempts when `n` increases reach `reg_max`. -/
theorem retry_terminates (hinc : 1 < s.c.par.regInc) (n : ℕ) (hn : 0 < n) (hp : 0 < s.preg)
    (hreach : s.c.par.regMax ≤ s.preg * s.c.par.regInc ^ n) (chk : Bool) : ∃ x, retry W chk n s = some x := by
  induction n generalizing s with
  | zero => omega
  | succ n ih =>
    unfold retry
    split
    · exact ⟨_, rfl⟩
    · have e := dir_st W s
      cases hc : s.dir W with
      | ok s1 => exact ⟨_, rfl⟩
      | exn s1 =>
        rw [hc] at e
        have e1 : s1.preg = s.preg := by rw [show s1 = _ from e]
        have e3 : s1.c = s.c := by rw [show s1 = _ from e]
        simp only []
        split
        · exact ⟨_, rfl⟩
        · rename_i hne
          have hpr : s1.increaseReg.preg = min s.c.par.regMax (s.preg * s.c.par.regInc) := by
            change incReg s1.c.par s1.preg = _
            rw [incReg_exact, e1, e3]
          have hpar : s1.increaseReg.c = s.c := e3
          rw [hpar, hpr, leb_exact, decide_eq_true_eq] at hne
          have hlt : s.preg * s.c.par.regInc < s.c.par.regMax := by
            by_contra hge
            exact hne (le_min le_rfl (not_lt.mp hge))
          rw [min_eq_right hlt.le] at hpr
          have hn0 : 0 < n := by
            rcases Nat.eq_zero_or_pos n with rfl | h
            · rw [zero_add, pow_one] at hreach
              exact absurd hlt (not_lt.mpr hreach)
            · exact h
          apply ih
          · rw [hpar]; exact hinc
          · exact hn0
          · rw [hpr]; exact mul_pos hp (by linarith)
          · rw [hpar, hpr, mul_assoc, ← pow_succ']; exact hreach

theorem solve_returns (N : ℕ) (I : CSQP P → Prop) (h0 : I (s.start W xs us m ri))
    (hd : ∀ s1 chk, I s1 → ∃ y, direction W N chk s1 = some y)
    (hi : ∀ s1, I s1 → I (entry s1)) (hc : ∀ s1, I s1 → I s1.calcEval)
    (hq : ∀ s1 q, I s1 → I { s1 with q := q })
    (hb : ∀ s1 r s2, I s1 → body W N s1 = some (r, s2) → I s2 ∧ I { s2 with iter := s2.iter + 1 }) :
    ∃ o s', solve W N xs us m ri s = some (o, s') := by
  have hbody : ∀ s1, I s1 → ∃ y, body W N s1 = some y := by
    intro s1 h1
    obtain ⟨⟨oo, s2⟩, hy⟩ := hd _ true (hi s1 h1)
    unfold body
    simp only []
    split
    · exact ⟨_, rfl⟩
    · have : prepare { s1 with q := { s1.q with tick := s1.q.tick + 1 } } = entry s1 := rfl
      rw [this, hy]
      cases oo <;> exact ⟨_, rfl⟩
  have hit : ∀ n (s1 : CSQP P), I s1 → ∃ r s2, iterate W N n s1 = some (r, s2) ∧ (r = none → I s2) := by
    intro n
    induction n with
    | zero => intro s1 h1; exact ⟨none, s1, rfl, fun _ => h1⟩
    | succ n ih =>
      intro s1 h1
      obtain ⟨⟨r, s2⟩, hy⟩ := hbody s1 h1
      unfold iterate
      rw [hy]
      cases r with
      | fin oo => exact ⟨_, s2, rfl, fun h => by cases h⟩
      | brk => exact ⟨none, s2, rfl, fun _ => (hb _ _ _ h1 hy).1⟩
      | next => exact ih _ (hb _ _ _ h1 hy).2
  obtain ⟨r, s2, h2, h3⟩ := hit m _ h0
  unfold solve
  rw [h2]
  cases r with
  | some oo => exact ⟨oo, s2, rfl⟩
  | none =>
    simp only []
    unfold extraIter
    split
    · obtain ⟨⟨oo, s3⟩, hx⟩ := hd _ false (hc s2 (h3 rfl))
      rw [hx]
      cases oo <;> exact ⟨_, _, rfl⟩
    · exact ⟨_, _, rfl⟩

end CSQP

/-- **C09 (CSQP), termination with an explicit bound.**  If `0 < reg_min`, `0 < reg_max`, the increase factor exceeds 1 and the
initial regularization is positive, `solve` returns, and no retry loop makes more than `N` attempts, where `N >= 1` is any number
with `reg_max <= r * factor^N` for `r` the smallest of `reg_min`, `reg_max` and the initial value.  This holds for every problem,
every clock, every schedule and every linear solver, even one that always fails. -/
theorem C09_csqp_terminates_bound (hr : s.c.removeReg = false) (hmin : 0 < s.c.par.regMin) (hmax : 0 < s.c.par.regMax)
    (hinc : 1 < s.c.par.regInc) (hri : 0 < ri) (N : ℕ) (hN : 0 < N)
    (hreach : s.c.par.regMax ≤ min (min s.c.par.regMin s.c.par.regMax) ri * s.c.par.regInc ^ N) :
    ∃ o s', CSQP.solve W N xs us m ri s = some (o, s') := by
  set r0 := min (min s.c.par.regMin s.c.par.regMax) ri with hr0
  have hr0pos : 0 < r0 := lt_min (lt_min hmin hmax) hri
  have hk : RegKept s.c (fun r => r0 ≤ r) := by
    constructor
    · intro _ r hr
      rw [incReg_exact]
      refine le_min ((min_le_left _ _).trans (min_le_right _ _)) ?_
      have : 0 < r := lt_of_lt_of_le hr0pos hr
      have h1 : r0 ≤ r := hr
      nlinarith
    · intro _ r _
      rw [decReg_exact]
      exact ((min_le_left _ _).trans (min_le_left _ _)).trans (le_max_left _ _)
  refine CSQP.solve_returns N (RegInv s.c (fun r => r0 ≤ r)) (RegInv.start ?_) ?_ ?_ (fun _ h => h) (fun _ _ h => h) ?_
  · rw [hr, initReg_exact]; exact min_le_right _ _
  · intro s1 chk h1
    have h2 : r0 ≤ s1.preg := h1.2.2
    obtain ⟨⟨b, s2⟩, hx⟩ := CSQP.retry_terminates (W := W) (s := s1) (by rw [h1.1]; exact hinc) N hN
      (lt_of_lt_of_le hr0pos h2)
      (by rw [h1.1]; exact hreach.trans (mul_le_mul_of_nonneg_right h2 (pow_nonneg (by linarith) _))) chk
    unfold CSQP.direction
    rw [h1.1, hr, hx]
    cases b <;> exact ⟨_, rfl⟩
  · intro s1 h1
    exact RegInv.prepare (s := { s1 with q := { s1.q with tick := s1.q.tick + 1 } }) h1
  · intro s1 r s2 h1 h2
    exact ⟨h1.body hk h2, (h1.body hk h2 :)⟩

/-- **C09 (CSQP), termination.**  In an Archimedean field such a bound always exists. -/
theorem C09_csqp_terminates [Archimedean K] (hr : s.c.removeReg = false) (hmin : 0 < s.c.par.regMin)
    (hmax : 0 < s.c.par.regMax) (hinc : 1 < s.c.par.regInc) (hri : 0 < ri) (W : World K) (xs : Option (Traj P))
    (us : Option (Ctrls P)) (m : ℕ) : ∃ N o s', CSQP.solve W N xs us m ri s = some (o, s') := by
  set r0 := min (min s.c.par.regMin s.c.par.regMax) ri with hr0
  have hr0pos : 0 < r0 := lt_min (lt_min hmin hmax) hri
  obtain ⟨N, hN⟩ := pow_unbounded_of_one_lt (s.c.par.regMax / r0) hinc
  have hle : s.c.par.regMax ≤ r0 * s.c.par.regInc ^ (N + 1) := by
    have h1 : s.c.par.regMax ≤ r0 * s.c.par.regInc ^ N := by
      rw [mul_comm]; exact ((div_lt_iff₀ hr0pos).mp hN).le
    refine h1.trans (mul_le_mul_of_nonneg_left ?_ hr0pos.le)
    exact pow_le_pow_right₀ hinc.le (Nat.le_succ N)
  obtain ⟨b, s', h⟩ := C09_csqp_terminates_bound (W := W) (xs := xs) (us := us) (m := m) hr hmin hmax hinc hri
    (N + 1) (Nat.succ_pos N) hle
  exact ⟨N + 1, b, s', h⟩

/-- **C09 (CSQP), `remove_reg`.**  With `remove_reg` there is no retry loop: `solve` always ends (any scalar parameters). -/
theorem C09_csqp_removed_terminates (hr : s.c.removeReg = true) (W : World K) (xs : Option (Traj P)) (us : Option (Ctrls P))
    (m : ℕ) (ri : K) (fuel : ℕ) : ∃ o s', CSQP.solve W fuel xs us m ri s = some (o, s') := by
  have hk : RegKept s.c (fun _ => True) := ⟨fun _ _ _ => trivial, fun _ _ _ => trivial⟩
  refine CSQP.solve_returns fuel (RegInv s.c (fun _ => True)) (RegInv.start trivial) ?_ ?_ (fun _ h => h) (fun _ _ h => h) ?_
  · intro s1 chk h1
    unfold CSQP.direction
    rw [h1.1, hr]
    simp only [if_true]
    cases s1.dir W <;> exact ⟨_, rfl⟩
  · intro s1 h1
    exact RegInv.prepare (s := { s1 with q := { s1.q with tick := s1.q.tick + 1 } }) h1
  · intro s1 r s2 h1 h2
    exact ⟨h1.body hk h2, (h1.body hk h2 :)⟩

/-- **C09 (CSQP), giving up.**  If every direction computation with these parameters throws, the first clock check passes and `remove_reg` is off,
`solve` (with at least one iteration), if it ends, returns false with the regularization at `reg_max` and without any KKT check
or trial. -/
theorem C09_csqp_gives_up (hr : s.c.removeReg = false) (hall : ∀ s1 : CSQP P, s1.c = s.c → (s1.dir W).isOk = false) (hm : 0 < m)
    (htime : (s.start W xs us m ri).q.timeUp ((s.start W xs us m ri).env W) = false)
    (h : CSQP.solve W fuel xs us m ri s = some (o, s')) :
    o = .ret false ∧ s'.preg = s.c.par.regMax ∧ s'.nKKT = s.nKKT ∧ s'.nTry = s.nTry ∧ s'.log = s.log := by
  have hrt : ∀ fuel (b : Bool) (s2 s1 : CSQP P), s2.c = s.c → s2.q.reached = false →
      CSQP.retry W true fuel s2 = some (b, s1) → b = false ∧ s1.preg = s1.c.par.regMax := by
    intro fuel
    induction fuel with
    | zero => intro b s s1 _ _ h; cases h
    | succ n ih =>
      intro b s s1 hcc hq h
      unfold CSQP.retry at h
      rw [hq] at h
      simp only [Bool.and_false, Bool.false_eq_true, if_false] at h
      cases hs2 : s.dir W with
      | ok s2 => have := hall s hcc; rw [hs2] at this; cases this
      | exn s2 =>
        rw [hs2] at h
        simp only [] at h
        obtain ⟨q, hq1, hq2⟩ := dir_exn hs2
        have hre := CQP.computeDirection_exn_reached _ _ _ _ hq1
        split at h
        · rename_i he
          simp only [Option.some.injEq, Prod.mk.injEq] at h
          rw [← h.1, ← h.2]
          refine ⟨rfl, ?_⟩
          rw [leb_exact, decide_eq_true_eq] at he
          refine le_antisymm ?_ he
          change incReg s2.c.par s2.preg ≤ _
          rw [incReg_exact]; exact min_le_left _ _
        · exact ih _ s2.increaseReg _ (by subst hq2; exact hcc) (by subst hq2; exact hre.trans hq) h
  obtain ⟨k, rfl⟩ : ∃ k, m = k + 1 := ⟨m - 1, by omega⟩
  have hreach : (entry (s.start W xs us (k + 1) ri)).q.reached = false := by
    have : (entry (s.start W xs us (k + 1) ri)).q.reached = (s.start W xs us (k + 1) ri).q.reached := by
      unfold entry CSQP.prepare
      simp only []
      split <;> rfl
    rw [this]; exact (start_conf W xs us (k + 1) ri s).2.2.1
  have hconf : (entry (s.start W xs us (k + 1) ri)).c = s.c ∧ (entry (s.start W xs us (k + 1) ri)).nKKT = s.nKKT ∧
      (entry (s.start W xs us (k + 1) ri)).nTry = s.nTry ∧ (entry (s.start W xs us (k + 1) ri)).log = s.log := by
    have h1 : ∀ s1 : CSQP P, (entry s1).c = s1.c ∧ (entry s1).nKKT = s1.nKKT ∧ (entry s1).nTry = s1.nTry ∧
        (entry s1).log = s1.log := by
      intro s1
      unfold entry CSQP.prepare
      simp only []
      split <;> exact ⟨rfl, rfl, rfl, rfl⟩
    obtain ⟨a1, a2, a3, a4⟩ := h1 (s.start W xs us (k + 1) ri)
    rw [a1, a2, a3, a4]
    exact ⟨rfl, rfl, rfl, rfl⟩
  unfold CSQP.solve CSQP.iterate at h
  cases hb : CSQP.body W fuel (s.start W xs us (k + 1) ri) with
  | none => rw [hb] at h; cases h
  | some y =>
    obtain ⟨r, s1⟩ := y
    have key : r = .fin (.ret false) ∧ s1.preg = s.c.par.regMax ∧ s1.nKKT = s.nKKT ∧ s1.nTry = s.nTry ∧ s1.log = s.log := by
      have hd : ∀ oo s2, CSQP.direction W fuel true (entry (s.start W xs us (k + 1) ri)) = some (oo, s2) →
          oo = some (.ret false) ∧ s2.preg = s.c.par.regMax ∧ s2.nKKT = s.nKKT ∧ s2.nTry = s.nTry ∧ s2.log = s.log := by
        intro oo s2 hd
        obtain ⟨c1, c2, c3, c4⟩ := hconf
        have hset := direction_set hd
        cases direction_cases hd with
        | escaped h1 _ _ => rw [c1, hr] at h1; cases h1
        | plain h1 _ _ => rw [c1, hr] at h1; cases h1
        | found h1 h2 ho => have := (hrt _ _ _ _ c1 hreach h2).1; cases this
        | gaveUp h1 h2 ho =>
          have := (hrt _ _ _ _ c1 hreach h2).2
          obtain ⟨q, p, d, e⟩ := hset
          subst e
          exact ⟨ho, by rw [this]; exact congrArg (fun c => c.par.regMax) c1, c2, c3, c4⟩
      cases body_cases hb with
      | timeUp hu hs hr' => rw [htime] at hu; cases hu
      | ended hu o hd' hr' => obtain ⟨e1, e2⟩ := hd _ _ hd'; cases e1; exact ⟨hr', e2⟩
      | noQP hu hd' hq hr' => have := (hd _ _ hd').1; cases this
      | converged hu s2 hd' => have := (hd _ _ hd').1; cases this
      | searched hu s2 hd' => have := (hd _ _ hd').1; cases this
    obtain ⟨k1, k2⟩ := key
    rw [hb, k1] at h
    simp only [Option.some.injEq, Prod.mk.injEq] at h
    obtain ⟨rfl, rfl⟩ := h
    exact ⟨rfl, k2⟩

/-- **C09 (CSQP), regularization zero.**  `solve(..., reginit = 0)` never returns if the unconstrained backward pass at the
initial trajectory throws (exact arithmetic, default flags, `reg_max > 0`, at least one iteration, first clock check passed). -/
theorem C09_csqp_zero_diverges (hr : s.c.removeReg = false) (hg : s.c.eqGuess = true) (hmax : 0 < s.c.par.regMax) (hm : 0 < m)
    (htime : (s.start W xs us m 0).q.timeUp ((s.start W xs us m 0).env W) = false)
    {B0 : CBP P} (hfail : (plainPass W.llt ((entry (s.start W xs us m 0)).env W) B0).isOk = false) (fuel : ℕ) :
    CSQP.solve W fuel xs us m 0 s = none := by
  refine C09_csqp_diverges hr hg ?_ ?_ hm htime hfail fuel
  · rw [initReg_exact, incReg_exact, zero_mul, min_eq_right hmax.le]
  · rw [initReg_exact, leb_exact]; simpa using hmax

end Exact

/-! ## Witnesses -/
namespace Ex
open CSQP

/-- a concave constrained problem: `clq` with negative control weight. -/
def cconcave : Problem ℚ := clq 1 1 (-1) 0 1
def cconcaveSolver : CSQP cconcave :=
  let s := CSQP.new (Data.zero _) (fun _ _ => 0) (fun _ _ => 0) 0
  { s with c := { s.c with maxQP := 1, maxTime := 1 } }

/-- **C09 witness**: a default-constructed CSQP solver with `reginit = 0` on `cconcave` never returns. -/
theorem C09_csqp_concave_hangs (fuel : ℕ) : CSQP.solve world fuel none none 1 0 cconcaveSolver = none :=
  C09_csqp_zero_diverges (B0 := (entry (cconcaveSolver.start world none none 1 0)).q.b)
    (by decide +kernel) (by decide +kernel) (by decide +kernel) (by decide +kernel) (by decide +kernel)
    (by decide +kernel) fuel

/-- with a positive start value a linear solver that always fails is given up on. -/
noncomputable def worldF : World ℚ := ⟨fun _ _ => none, fun _ => 0, none⟩

/-- the hypothesis of `C09_csqp_gives_up` is met. -/
theorem clq_all_fail (s1 : CSQP (clq 1 1 1 1 1)) (h : s1.c = clqSolver.c) : (s1.dir worldF).isOk = false := by
  have hE : (s1.env worldF).c.eqGuess = true := by
    change s1.c.eqGuess = true
    rw [h]; rfl
  have hp : ∀ B, (plainPass worldF.llt (s1.env worldF) B).isOk = false := by
    intro B
    unfold plainPass
    rw [QP.plain_sweep_isOk]
    change (forDownR (0 + 1) _ _).isOk = false
    rw [forDownR_succ]
    obtain ⟨c, e⟩ := (QP.genStage_pos (P := clq 1 1 1 1 1) (llt := worldF.llt) (fs := (s1.env worldF).fs)
      (preg := (s1.env worldF).preg) (sym := symm) (q := plainTerms (s1.env worldF)) (t := 0) (by decide) _).2 rfl
    rw [e]; rfl
  have hd : (s1.q.computeDirection worldF.llt (s1.env worldF)).isOk = false := by
    unfold CQP.computeDirection CQP.warm
    rw [if_pos hE]
    have := hp (s1.q.resetParams (s1.env worldF).c).b
    cases hpp : plainPass worldF.llt (s1.env worldF) (s1.q.resetParams (s1.env worldF).c).b with
    | ok b => rw [hpp] at this; cases this
    | exn b => rfl
  unfold CSQP.dir
  cases hc : s1.q.computeDirection worldF.llt (s1.env worldF) with
  | ok q => rw [hc] at hd; cases hd
  | exn q => rfl

/-- the theorem applied to it, for every number of iterations and attempts. -/
example {fuel m : ℕ} (hm : 0 < m) {o : Out} {s' : CSQP (clq 1 1 1 1 1)}
    (h : CSQP.solve worldF fuel none none m (1 / 10 ^ 9) clqSolver = some (o, s')) : o = .ret false ∧ s'.preg = 10 ^ 9 := by
  obtain ⟨k, rfl⟩ : ∃ k, m = k + 1 := ⟨m - 1, by omega⟩
  have := C09_csqp_gives_up (by decide +kernel) clq_all_fail hm
    (by
      change leb (1 : ℚ) (0 - 0) = false
      decide +kernel) h
  exact ⟨this.1, this.2.1⟩

example : (CSQP.solve worldF 18 none none 3 (1 / 10 ^ 9) clqSolver).map
    (fun r => (r.1, r.2.preg, r.2.dreg, r.2.nKKT)) = some (.ret false, 10 ^ 9, 10 ^ 9, 0) := by decide +kernel

/-- C10: after one iteration of a regularized solve the regularization is `reg_min`. -/
example : (CSQP.solve world 20 none none 1 (1 / 10 ^ 8) clqSolver).map
    (fun r => (r.2.preg, r.2.dreg)) = some (1 / 10 ^ 9, 1 / 10 ^ 9) := by decide +kernel

end Ex
end Mim
