import Verif.Props.ProxReturn
import Verif.Props.SQPReg

/-!
# Regularization of SolverPROXQP: range, termination and non-termination (C09, C10, C37)

The regularization does not enter the QP: it only counts failures.
-/
set_option linter.unusedSectionVars false
set_option linter.unusedSimpArgs false

namespace Mim
open Spec Matrix
namespace PROX

section
variable {F : Type} [Add F] [Sub F] [Mul F] [Div F] [Neg F] [Zero F] [One F] [FloatOps F] {P : Problem F}
variable {qp : PSolve F} {fuel : ℕ} {xs : Option (Traj P)} {us : Option (Ctrls P)} {m : ℕ} {ri : F} {s s' s0 : PROX P} {b : Bool}

/-- the regularization satisfies `I` and primal = dual. -/
def RegInv (I : F → Prop) (s : PROX P) : Prop := s.dreg = s.preg ∧ I s.preg

theorem incN_pred {p : Params F} {I : F → Prop} (hinc : ∀ r, I r → I (incReg p r)) (j : ℕ) : ∀ r, I r → I (incN p j r) := by
  induction j with
  | zero => exact fun r h => h
  | succ j ih => exact fun r h => ih _ (hinc r h)

theorem retry_reg {I : F → Prop} (hinc : ∀ r, I r → I (incReg s.c.par r)) (hI : RegInv I s) {s1 : PROX P}
    (h : retry qp fuel true s = some (b, s1)) : RegInv I s1 := by
  have hf : ∀ j, RegInv I (failed s.calcEval j) := by
    intro j
    refine ⟨?_, incN_pred hinc j _ hI.2⟩
    change (if j = 0 then s.dreg else incN s.c.par j s.preg) = incN s.c.par j s.preg
    split
    · rename_i h0; subst h0; exact hI.1
    · rfl
  cases retry_post h with
  | found j a _ _ _ _ hs => subst hs; exact hf j
  | gaveUp j _ _ _ _ hs => subst hs; exact hf (j + 1)

theorem updateReg_reg {p : Params F} {I : F → Prop} (hinc : ∀ r, I r → I (incReg p r)) (hdec : ∀ r, I r → I (decReg p r))
    {s : PROX P} (hp : s.c.par = p) (hI : RegInv I s) : RegInv I (updateReg s).2 := by
  subst hp
  have h1 : ∀ s0 : PROX P, s0.c = s.c → RegInv I s0 → RegInv I
      (if leb s0.steplength s0.c.par.thStepInc then (eqb s0.increaseReg.preg s0.increaseReg.c.par.regMax, s0.increaseReg)
       else (false, s0)).2 := by
    intro s0 hc h
    split
    · refine ⟨rfl, ?_⟩
      change I (incReg s0.c.par s0.preg)
      rw [hc]
      exact hinc _ h.2
    · exact h
  refine h1 (if ltb s.c.par.thStepDec s.steplength then s.decreaseReg else s) ?_ ?_ <;> split
  · rfl
  · rfl
  · exact ⟨rfl, hdec _ hI.2⟩
  · exact hI

theorem body_reg {I : F → Prop} {r : Option Bool} (hinc : ∀ r, I r → I (incReg s.c.par r)) (hdec : ∀ r, I r → I (decReg s.c.par r))
    (hI : RegInv I s) (h : body qp fuel s = some (r, s')) : RegInv I s' := by
  have hd : ∀ b s1, retry qp fuel true { s with wasFeas := false } = some (b, s1) → RegInv I s1 ∧ s1.c = s.c := by
    intro b s1 h1
    refine ⟨retry_reg (s := { s with wasFeas := false }) hinc hI h1, ?_⟩
    cases retry_post h1 with
    | found j a _ _ _ _ hs => subst hs; rfl
    | gaveUp j _ _ _ _ hs => subst hs; rfl
  cases body_cases h with
  | gaveUp hr hb => exact (hd _ _ hr).1
  | converged s2 hr hk hs hb => rw [hs]; exact (hd _ _ hr).1
  | searched s2 hr hk hs hb =>
    obtain ⟨h1, h2⟩ := hd _ _ hr
    have h3 : RegInv I s2.pushFilter.search.updateReg.2 := by
      obtain ⟨d, w, iw, n, r, xs, us, fe, ac, sl, _, _, e⟩ := search_set s2.pushFilter
      refine updateReg_reg hinc hdec ?_ ?_
      · rw [e]; change s2.c.par = _; rw [h2]
      · rw [e]; exact h1
    rw [hs]
    split
    · exact h3
    · exact h3

theorem solve_reg {I : F → Prop} (hinc : ∀ r, I r → I (incReg s.c.par r)) (hdec : ∀ r, I r → I (decReg s.c.par r))
    (h0 : I (initReg s.c.par ri)) (h : solve qp fuel xs us m ri s = some (b, s')) : RegInv I s' := by
  refine solve_pred (RegInv I) (fun _ _ h => h) ⟨rfl, h0⟩ ?_ h
  intro s1 s2 r h1 hc hb
  rw [← hc] at hinc hdec
  exact body_reg hinc hdec h1 hb

/-- **C10 (PROXQP), equality.**  However `solve` returns, primal and dual regularization are equal (any arithmetic). -/
theorem C10_prox_preg_eq_dreg (h : solve qp fuel xs us m ri s = some (b, s')) : s'.dreg = s'.preg :=
  (solve_reg (I := fun _ => True) (fun _ _ => trivial) (fun _ _ => trivial) trivial h).1

/-- **C37 (PROXQP).**  What happens to the regularization after a line search that accepted no step, as a function of the last step
length `a` tried: it is decreased if `a > th_stepdec`, then increased if `a <= th_stepinc`. -/
theorem C37_prox_failed_search (s : PROX P) (hfail : ∀ a ∈ s.c.par.alphas, ¬ Acceptable s a)
    {a : F} (hlast : s.c.par.alphas.getLast? = some a) :
    (updateReg (search s)).2.preg =
      (let r := if ltb s.c.par.thStepDec a then decReg s.c.par s.preg else s.preg
       if leb a s.c.par.thStepInc then incReg s.c.par r else r) := by
  have hsl : (search s).steplength = a := by
    rcases C16_prox_first_acceptable s with ⟨pre, a', post, h1, _, h3, _⟩ | ⟨_, _, _, _, _, h5⟩
    · exact absurd h3 (hfail a' (by rw [h1]; simp))
    · rw [h5, hlast]; rfl
  obtain ⟨d, w, iw, n, r, xs, us, fe, ac, sl, _, _, e⟩ := search_set s
  have hpar : (search s).c = s.c := by rw [e]
  have hpreg : (search s).preg = s.preg := by rw [e]
  unfold updateReg
  by_cases h1 : ltb s.c.par.thStepDec a = true
  · by_cases h2 : leb a s.c.par.thStepInc = true
    · simp [h1, h2, increaseReg, decreaseReg, hsl, hpar, hpreg]
    · simp [h1, h2, increaseReg, decreaseReg, hsl, hpar, hpreg]
  · by_cases h2 : leb a s.c.par.thStepInc = true
    · simp [h1, h2, increaseReg, decreaseReg, hsl, hpar, hpreg]
    · simp [h1, h2, increaseReg, decreaseReg, hsl, hpar, hpreg]

theorem incN_fix {p : Params F} {z : F} (hz : incReg p z = z) (j : ℕ) : incN p j z = z := by
  induction j with
  | zero => rfl
  | succ j ih => change incN p j (incReg p z) = z; rw [hz, ih]

/-- **C09 (PROXQP), non-termination.**  If the initial regularization is a value that `increaseRegularization` maps to itself and that
is not `reg_max`, and the QP solver throws whenever it is given the QP of the initial trajectory, then `solve` never returns,
whatever the number of attempts granted. -/
theorem C09_prox_diverges (hz : incReg s.c.par (initReg s.c.par ri) = initReg s.c.par ri)
    (hmax : eqb (initReg s.c.par ri) s.c.par.regMax = false) (hm : 0 < m)
    (hfail : ∀ n, qp n (calcEval (s.start xs us ri)).m = none) (fuel : ℕ) : solve qp fuel xs us m ri s = none := by
  have hret : retry qp fuel true { s.start xs us ri with wasFeas := false } = none := by
    cases h : retry qp fuel true { s.start xs us ri with wasFeas := false } with
    | none => rfl
    | some r =>
      obtain ⟨b, s1⟩ := r
      cases retry_post h with
      | found j a _ ha _ _ _ => have h0 := (hfail _).symm.trans ha; cases h0
      | gaveUp j _ _ hm' _ _ =>
        have e : incN s.c.par (j + 1) (initReg s.c.par ri) = initReg s.c.par ri := incN_fix hz _
        have hm'' : eqb (incN s.c.par (j + 1) (initReg s.c.par ri)) s.c.par.regMax = true := hm'
        rw [e, hmax] at hm''
        cases hm''
  obtain ⟨k, rfl⟩ : ∃ k, m = k + 1 := ⟨m - 1, by omega⟩
  unfold solve iterate body
  rw [hret]

end

section Exact
variable {K : Type} [Field K] [LinearOrder K] [IsStrictOrderedRing K] {P : Problem K}
variable {qp : PSolve K} {fuel : ℕ} {xs : Option (Traj P)} {us : Option (Ctrls P)} {m : ℕ} {ri : K} {s s' : PROX P} {b : Bool}

/-- **C10 (PROXQP), range.** -/
theorem C10_prox_range (hp : RegOK s.c.par) (h0 : InRange s.c.par ri) (h : solve qp fuel xs us m ri s = some (b, s')) :
    s.c.par.regMin ≤ s'.preg ∧ s'.preg ≤ s.c.par.regMax ∧ s'.dreg = s'.preg := by
  have := solve_reg (I := InRange s.c.par) (fun r hr => hr.incReg hp) (fun r hr => hr.decReg hp)
    (by rw [initReg_exact]; exact h0) h
  exact ⟨this.2.1, this.2.2, this.1⟩

/-- **C09 (PROXQP), non-termination with zero regularization.** -/
theorem C09_prox_zero_diverges (hmax : 0 < s.c.par.regMax) (hm : 0 < m)
    (hfail : ∀ n, qp n (calcEval (s.start xs us 0)).m = none) (fuel : ℕ) : solve qp fuel xs us m 0 s = none := by
  apply C09_prox_diverges
  · rw [initReg_exact, incReg_exact, zero_mul, min_eq_right hmax.le]
  · rw [initReg_exact, eqb_exact]; simp [hmax.ne]
  · exact hm
  · exact hfail

theorem retry_false_terminates (hinc : 1 < s.c.par.regInc) (n : ℕ) (hn : 0 < n) (hp : 0 < s.preg)
    (hreach : s.c.par.regMax ≤ s.preg * s.c.par.regInc ^ n) : ∃ x, retry qp n false s = some x := by
  induction n generalizing s with
  | zero => omega
  | succ n ih =>
    rw [retry_false_step]
    cases hc : qp s.nQP s.m with
    | some a => exact ⟨_, rfl⟩
    | none =>
      simp only []
      split
      · exact ⟨_, rfl⟩
      · rename_i hne
        have hpr : (failed s 1).preg = min s.c.par.regMax (s.preg * s.c.par.regInc) := by
          change incReg s.c.par s.preg = _
          rw [incReg_exact]
        have hlt : s.preg * s.c.par.regInc < s.c.par.regMax := by
          by_contra hge
          refine hne ?_
          rw [eqb_exact, decide_eq_true_eq]
          exact hpr.trans (min_eq_left (not_lt.mp hge))
        have hn0 : 0 < n := by
          rcases Nat.eq_zero_or_pos n with rfl | h
          · rw [zero_add, pow_one] at hreach
            exact absurd hlt (not_lt.mpr hreach)
          · exact h
        rw [min_eq_right hlt.le] at hpr
        apply ih
        · exact hinc
        · exact hn0
        · rw [hpr]; exact mul_pos hp (by linarith)
        · rw [hpr, mul_assoc, ← pow_succ']; exact hreach

/-- **C09 (PROXQP), termination with an explicit bound.**  As for the other solvers: for every problem and every QP solver, even one
that always throws. -/
theorem C09_prox_terminates_bound (hmin : 0 < s.c.par.regMin) (hmax : 0 < s.c.par.regMax) (hinc : 1 < s.c.par.regInc)
    (hri : 0 < ri) (N : ℕ) (hN : 0 < N)
    (hreach : s.c.par.regMax ≤ min (min s.c.par.regMin s.c.par.regMax) ri * s.c.par.regInc ^ N) :
    ∃ b s', solve qp N xs us m ri s = some (b, s') := by
  set r0 := min (min s.c.par.regMin s.c.par.regMax) ri with hr0
  have hr0pos : 0 < r0 := lt_min (lt_min hmin hmax) hri
  let I : K → Prop := fun r => r0 ≤ r
  have hIinc : ∀ r, I r → I (incReg s.c.par r) := by
    intro r hr
    change r0 ≤ incReg s.c.par r
    rw [incReg_exact]
    refine le_min ((min_le_left _ _).trans (min_le_right _ _)) ?_
    have : 0 < r := lt_of_lt_of_le hr0pos hr
    have h1 : r0 ≤ r := hr
    nlinarith
  have hIdec : ∀ r, I r → I (decReg s.c.par r) := by
    intro r _
    change r0 ≤ decReg s.c.par r
    rw [decReg_exact]
    exact ((min_le_left _ _).trans (min_le_left _ _)).trans (le_max_left _ _)
  have hret : ∀ s1 : PROX P, s1.c = s.c → RegInv I s1 → ∃ x, retry qp N true { s1 with wasFeas := false } = some x := by
    intro s1 hc hs1
    rw [retry_true_eq]
    have h1 : r0 ≤ s1.preg := hs1.2
    apply retry_false_terminates
    · change 1 < s1.c.par.regInc; rw [hc]; exact hinc
    · exact hN
    · exact lt_of_lt_of_le hr0pos h1
    · change s1.c.par.regMax ≤ s1.preg * s1.c.par.regInc ^ N
      rw [hc]
      refine hreach.trans (mul_le_mul_of_nonneg_right h1 (pow_nonneg (by linarith) _))
  have hit : ∀ n (s1 : PROX P), s1.c = s.c → RegInv I s1 → ∃ r, iterate qp N n s1 = some r := by
    intro n
    induction n with
    | zero => intro s1 hc h1; exact ⟨_, rfl⟩
    | succ n ih =>
      intro s1 hc h1
      obtain ⟨x, hx⟩ := hret s1 hc h1
      have hbody : ∃ y, body qp N s1 = some y := by
        unfold body
        rw [hx]
        obtain ⟨bb, s2⟩ := x
        cases bb
        · exact ⟨_, rfl⟩
        · simp only []
          split
          · exact ⟨_, rfl⟩
          · split <;> exact ⟨_, rfl⟩
      obtain ⟨⟨r, s2⟩, hy⟩ := hbody
      unfold iterate
      rw [hy]
      cases r with
      | some bb => exact ⟨_, rfl⟩
      | none =>
        refine ih _ ((body_iter hy).2.trans hc) ?_
        have : RegInv I s2 := body_reg (by rw [hc]; exact hIinc) (by rw [hc]; exact hIdec) h1 hy
        exact this
  obtain ⟨r, hr⟩ := hit m (s.start xs us ri) rfl ⟨rfl, by
    change r0 ≤ initReg s.c.par ri
    rw [initReg_exact]; exact min_le_right _ _⟩
  unfold solve
  rw [hr]
  obtain ⟨r, s2⟩ := r
  cases r with
  | some bb => exact ⟨bb, s2, rfl⟩
  | none => exact ⟨false, s2, rfl⟩

/-- **C09 (PROXQP), termination.**  In an Archimedean field (rationals, reals) such a bound always exists. -/
theorem C09_prox_terminates [Archimedean K] (hmin : 0 < s.c.par.regMin) (hmax : 0 < s.c.par.regMax) (hinc : 1 < s.c.par.regInc)
    (hri : 0 < ri) (qp : PSolve K) (xs : Option (Traj P)) (us : Option (Ctrls P)) (m : ℕ) :
    ∃ N b s', solve qp N xs us m ri s = some (b, s') := by
  set r0 := min (min s.c.par.regMin s.c.par.regMax) ri with hr0
  have hr0pos : 0 < r0 := lt_min (lt_min hmin hmax) hri
  obtain ⟨N, hN⟩ := pow_unbounded_of_one_lt (s.c.par.regMax / r0) hinc
  have hle : s.c.par.regMax ≤ r0 * s.c.par.regInc ^ (N + 1) := by
    have h1 : s.c.par.regMax ≤ r0 * s.c.par.regInc ^ N := by
      rw [div_lt_iff₀ hr0pos] at hN
      linarith [mul_comm (s.c.par.regInc ^ N) r0]
    refine h1.trans (mul_le_mul_of_nonneg_left ?_ hr0pos.le)
    exact pow_le_pow_right₀ hinc.le (Nat.le_succ N)
  obtain ⟨b, s', h⟩ := C09_prox_terminates_bound (qp := qp) (xs := xs) (us := us) (m := m) hmin hmax hinc hri
    (N + 1) (Nat.succ_pos N) hle
  exact ⟨N + 1, b, s', h⟩

/-- **C09 (PROXQP), giving up.**  If the QP solver throws on the QP of the initial trajectory, `solve` (with at least one iteration), if
it returns, returns false with the regularization at `reg_max` and the initial trajectory unchanged. -/
theorem C09_prox_gives_up (hall : ∀ n, qp n (calcEval (s.start xs us ri)).m = none) (hm : 0 < m)
    (h : solve qp fuel xs us m ri s = some (b, s')) :
    b = false ∧ s'.preg = s.c.par.regMax ∧ s'.xs = (s.start xs us ri).xs ∧ s'.us = (s.start xs us ri).us := by
  obtain ⟨k, rfl⟩ : ∃ k, m = k + 1 := ⟨m - 1, by omega⟩
  unfold solve iterate body at h
  cases hx : retry qp fuel true { s.start xs us ri with wasFeas := false } with
  | none => rw [hx] at h; cases h
  | some x =>
    obtain ⟨bb, s1⟩ := x
    cases retry_post hx with
    | found j a _ ha _ _ _ => have h0 := (hall _).symm.trans ha; cases h0
    | gaveUp j _ _ hm' hb hs =>
      subst hb
      rw [hx] at h
      cases h
      subst hs
      refine ⟨rfl, ?_, rfl, rfl⟩
      rw [eqb_exact, decide_eq_true_eq] at hm'
      exact hm'

/-- **C37 (PROXQP), default step lengths.**  With a last step length not above the thresholds, a failed search increases the
regularization, up to `reg_max`. -/
theorem C37_prox_failed_search_increases (s : PROX P) (hp : RegOK s.c.par)
    (hfail : ∀ a ∈ s.c.par.alphas, ¬ Acceptable s a) {a : K} (hlast : s.c.par.alphas.getLast? = some a)
    (h1 : a ≤ s.c.par.thStepInc) (h2 : a ≤ s.c.par.thStepDec) (hr : s.c.par.regMin ≤ s.preg) (hr2 : s.preg < s.c.par.regMax) :
    s.preg < (updateReg (search s)).2.preg := by
  rw [C37_prox_failed_search s hfail hlast]
  simp only [ltb_exact, leb_exact, h1, not_lt.mpr h2, decide_true, decide_false, if_true, if_false, Bool.false_eq_true]
  exact incReg_lt hp hr hr2

end Exact
end PROX

namespace Ex

/-- a QP solver that always throws. -/
def qpThrows : PSolve ℚ := fun _ _ => none

/-- C09: with regularization 0 and a throwing QP solver `solve` hangs … -/
theorem C09_prox_hangs (fuel : ℕ) : PROX.solve qpThrows fuel none none 1 0 (PROX.new (Data.zero (clq 1 1 1 1 1))) = none :=
  PROX.C09_prox_zero_diverges (by change (0 : ℚ) < 10 ^ 9; norm_num) (by norm_num) (fun _ => rfl) fuel

/-- … with the initial regularization `1e-9` it gives up after 18 attempts. -/
example : (PROX.solve qpThrows 18 none none 1 (1 / 10 ^ 9) (PROX.new (Data.zero (clq 1 1 1 1 1)))).map
    (fun r => (r.1, r.2.preg, r.2.nQP)) = some (false, 10 ^ 9, 18) := by decide +kernel

/-- a QP solver whose direction goes the wrong way: `du = 1`, `dx = 2` on `clq 1 1 1 1 1`. -/
def qpUp : PSolve ℚ := fun _ _ => some ⟨fun i => if i = 0 then 2 else 1, fun _ => 0, fun _ => 0, 1, 0, 0⟩

/-- C37: from `x_1 = 1`, `u = 0` (no gap) all ten step lengths fail and the regularization goes from 1 to 10; with
`set_alphas({1})` it goes down instead. -/
example : (PROX.body qpUp 20 (PROX.start (some fun _ => (1 : ℚ)) none 1 (PROX.new (Data.zero (clq 1 1 1 1 1))))).map
    (fun r => (r.1, r.2.nRej, r.2.nTry, r.2.preg)) = some (none, 1, 10, 10) := by decide +kernel

theorem C37_prox_custom_alphas_refuted : (PROX.body qpUp 20 (PROX.start (some fun _ => (1 : ℚ)) none 1
    (let s := PROX.new (Data.zero (clq 1 1 1 1 1)); { s with c := { s.c with par := { s.c.par with alphas := [1] } } }))).map
    (fun r => (r.1, r.2.nRej, r.2.nTry, r.2.preg)) = some (none, 1, 1, 1 / 10) := by decide +kernel

end Ex
end Mim
