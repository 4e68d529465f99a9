import Verif.Props.SQPLine
import Verif.Lemmas.Reg
import Verif.Lemmas.Backward
import Mathlib.Algebra.Order.Archimedean.Basic

/-!
# Regularization of SolverSQP: range, termination and non-termination (C09, C10, C37)
-/
set_option linter.unusedSectionVars false
set_option linter.unusedSimpArgs false

namespace Mim
open Spec SQP Matrix

section
variable {F : Type} [Add F] [Sub F] [Mul F] [Div F] [Neg F] [Zero F] [One F] [FloatOps F] {P : Problem F}
variable {llt : LLT F} {fuel : ℕ} {xs : Option (Traj P)} {us : Option (Ctrls P)} {m : ℕ} {ri : F} {s s' : SQP P} {b : Bool}

theorem computeDirection_reg (r : Bool) (s : SQP P) :
    (computeDirection llt r s).st.preg = s.preg ∧ (computeDirection llt r s).st.dreg = s.dreg ∧
    (computeDirection llt r s).st.par = s.par :=
  ⟨computeDirection_frame preg (fun _ _ _ _ _ _ _ _ _ _ _ _ => rfl) llt r s,
   computeDirection_frame dreg (fun _ _ _ _ _ _ _ _ _ _ _ _ => rfl) llt r s,
   computeDirection_frame par (fun _ _ _ _ _ _ _ _ _ _ _ _ => rfl) llt r s⟩

/-- the regularization state satisfies `I` and primal = dual. -/
def RegInv (p : Params F) (I : F → Prop) (s : SQP P) : Prop := s.par = p ∧ s.dreg = s.preg ∧ I s.preg

theorem retry_reg {p : Params F} {I : F → Prop} (hinc : ∀ r, I r → I (incReg p r)) {r : Bool} {s s1 : SQP P}
    (hI : RegInv p I s) (h : retry llt fuel r s = some (b, s1)) : RegInv p I s1 := by
  induction fuel generalizing r s with
  | zero => cases h
  | succ n ih =>
    unfold retry at h
    obtain ⟨e1, e2, e3⟩ := computeDirection_reg (llt := llt) r s
    split at h
    · rename_i s2 hs2
      rw [hs2] at e1 e2 e3
      simp only [Option.some.injEq, Prod.mk.injEq] at h
      rw [← h.2]
      exact ⟨e3.trans hI.1, e2.trans (hI.2.1.trans e1.symm), by rw [show s2.preg = s.preg from e1]; exact hI.2.2⟩
    · rename_i s2 hs2
      rw [hs2] at e1 e2 e3
      change s2.preg = s.preg at e1
      change s2.par = s.par at e3
      have h2 : RegInv p I s2.increaseReg :=
        ⟨e3.trans hI.1, rfl, by
          change I (incReg s2.par s2.preg)
          rw [e1, e3, hI.1]; exact hinc _ hI.2.2⟩
      simp only [] at h
      split at h
      · simp only [Option.some.injEq, Prod.mk.injEq] at h
        rw [← h.2]; exact h2
      · exact ih h2 h

theorem updateReg_reg {p : Params F} {I : F → Prop} (hinc : ∀ r, I r → I (incReg p r)) (hdec : ∀ r, I r → I (decReg p r))
    {s : SQP P} (hI : RegInv p I s) : RegInv p I (updateReg s).2 := by
  have hi : ∀ s : SQP P, RegInv p I s → RegInv p I s.increaseReg := fun s h =>
    ⟨h.1, rfl, by change I (incReg s.par s.preg); rw [h.1]; exact hinc _ h.2.2⟩
  have hd : ∀ s : SQP P, RegInv p I s → RegInv p I s.decreaseReg := fun s h =>
    ⟨h.1, rfl, by change I (decReg s.par s.preg); rw [h.1]; exact hdec _ h.2.2⟩
  unfold updateReg
  simp only []
  split <;> split
  · exact hi _ (hd _ hI)
  · exact hd _ hI
  · exact hi _ hI
  · exact hI

theorem search_reg {p : Params F} {I : F → Prop} {s : SQP P} (hI : RegInv p I s) : RegInv p I (search s) := by
  have e := search_frame (P := P) (fun s => (s.par, s.dreg, s.preg)) (fun _ _ _ _ _ _ _ _ _ => rfl)
    (fun _ _ _ _ _ _ => rfl) (fun _ _ => rfl) s
  simp only [Prod.mk.injEq] at e
  exact ⟨e.1.trans hI.1, by rw [e.2.1, e.2.2]; exact hI.2.1, by rw [e.2.2]; exact hI.2.2⟩

theorem body_reg {p : Params F} {I : F → Prop} (hinc : ∀ r, I r → I (incReg p r)) (hdec : ∀ r, I r → I (decReg p r))
    {s s1 : SQP P} {r : Option Bool} (hI : RegInv p I s) (h : body llt fuel s = some (r, s1)) : RegInv p I s1 := by
  cases body_cases h with
  | gaveUp hr hb => exact retry_reg hinc hI hr
  | converged s2 hr hk hs hb => rw [hs]; exact (retry_reg hinc hI hr :)
  | searched s2 hr hk hs hb =>
    rw [hs]
    apply updateReg_reg hinc hdec
    apply search_reg
    exact (retry_reg hinc hI hr :)

theorem solve_reg {I : F → Prop} (hinc : ∀ r, I r → I (incReg s.par r)) (hdec : ∀ r, I r → I (decReg s.par r))
    (h0 : I (initReg s.par ri)) (h : solve llt fuel xs us m ri s = some (b, s')) : RegInv s.par I s' := by
  have key := fun r s1 => iterate_inv llt fuel (fun _ s1 => RegInv s.par I s1) (fun _ s1 => RegInv s.par I s1)
    (fun n s1 s2 hI h => (body_reg hinc hdec hI h :)) (fun n s1 b s2 hI h => body_reg hinc hdec hI h)
    m (s.start xs us ri) ⟨rfl, rfl, h0⟩ r s1
  rcases solve_cases h with h | ⟨s1, h1, h2⟩
  · rcases key _ _ h with ⟨h', _⟩ | ⟨b', _, h'⟩
    · cases h'
    · exact h'
  · have e1 : RegInv s.par I s1 := by
      rcases key _ _ h1 with ⟨_, h'⟩ | ⟨b', h', _⟩
      · exact h'
      · cases h'
    cases extra_cases h2 with
    | off he hb' hs => rw [hs]; exact e1
    | gaveUp he hr hb' => exact retry_reg hinc e1 hr
    | checked he s2 hr hs hb' => rw [hs]; exact (retry_reg hinc e1 hr :)

/-- **C10 (SQP), equality.**  However `solve` returns, primal and dual regularization are equal (any arithmetic). -/
theorem C10_sqp_preg_eq_dreg (h : solve llt fuel xs us m ri s = some (b, s')) : s'.dreg = s'.preg :=
  (solve_reg (I := fun _ => True) (fun _ _ => trivial) (fun _ _ => trivial) trivial h).2.1

/-- **C37 (SQP).**  What happens to the regularization after a line search that accepted no step, as a function of the last
step length `a` tried: it is decreased if `a > th_stepdec`, then increased if `a <= th_stepinc`. -/
theorem C37_sqp_failed_search (hT : 0 < P.T) (s : SQP P) (hfail : ∀ a ∈ s.par.alphas, ¬ Acceptable s a)
    {a : F} (hlast : s.par.alphas.getLast? = some a) :
    (updateReg (search s)).2.preg =
      (let r := if ltb s.par.thStepDec a then decReg s.par s.preg else s.preg
       if leb a s.par.thStepInc then incReg s.par r else r) := by
  have hne : s.par.alphas ≠ [] := by intro h; rw [h] at hlast; cases hlast
  have hsl : (search s).steplength = a := by
    rcases C16_sqp_first_acceptable hT s with ⟨pre, a', post, h1, _, h3, _⟩ | ⟨_, _, _, _, h5⟩
    · exact absurd h3 (hfail a' (by rw [h1]; simp))
    · have := h5 hne
      rw [hlast] at this
      exact (Option.some.inj this).symm
  have hpar : (search s).par = s.par := search_frame par (fun _ _ _ _ _ _ _ _ _ => rfl)
    (fun _ _ _ _ _ _ => rfl) (fun _ _ => rfl) s
  have hpreg : (search s).preg = s.preg := search_frame preg (fun _ _ _ _ _ _ _ _ _ => rfl)
    (fun _ _ _ _ _ _ => rfl) (fun _ _ => rfl) s
  unfold updateReg
  simp only [hsl, hpar]
  by_cases h1 : ltb s.par.thStepDec a = true
  · simp only [h1, if_true]
    by_cases h2 : leb a s.par.thStepInc = true
    · simp [h2, increaseReg, decreaseReg, hsl, hpar, hpreg]
    · simp [h2, increaseReg, decreaseReg, hsl, hpar, hpreg]
  · simp only [h1, if_false]
    by_cases h2 : leb a s.par.thStepInc = true
    · simp [h2, increaseReg, decreaseReg, hsl, hpar, hpreg]
    · simp [h2, increaseReg, decreaseReg, hsl, hpar, hpreg]

/-- what a direction attempt throws on depends only on data, gaps, feasibility flag and regularization. -/
theorem computeDirection_throws_congr {s1 s2 : SQP P} (hd : s1.data = s2.data) (hf : s1.fs = s2.fs)
    (hfe : s1.feas = s2.feas) (hp : s1.preg = s2.preg) (hdr : s1.dreg = s2.dreg)
    (h : ∃ s', computeDirection llt false s1 = .exn s') : ∃ s', computeDirection llt false s2 = .exn s' := by
  have hind := Bwd.backwardPass_indep llt s1.data s1.fs s1.feas s1.preg s1.dreg s1.bp s2.bp
  unfold computeDirection at h ⊢
  simp only [Bool.false_eq_true, if_false] at h ⊢
  rw [← hd, ← hf, ← hfe, ← hp, ← hdr]
  rcases hind with ⟨b1, b2, e1, e2, _⟩ | ⟨b1, b2, e1, e2⟩
  · rw [e1] at h
    obtain ⟨s', h⟩ := h
    cases h
  · rw [e2]; exact ⟨_, rfl⟩

/-- **C09 (SQP), non-termination.**  If the initial regularization is a value `z` that `increaseRegularization` maps to
itself and that is not `reg_max` (in doubles: `z = 0` with a finite factor and a non-zero `reg_max`), and the first
direction computation throws, then the retry loop never ends: `solve` does not return, whatever the number of attempts
granted. -/
theorem C09_sqp_diverges (hz : incReg s.par (initReg s.par ri) = initReg s.par ri)
    (hmax : eqb (initReg s.par ri) s.par.regMax = false) (hm : 0 < m)
    (hfail : (computeDirection llt true (s.start xs us ri)).isOk = false) (fuel : ℕ) :
    solve llt fuel xs us m ri s = none := by
  -- all later attempts fail too
  have hloop : ∀ n (s1 : SQP P), s1.par = s.par → s1.preg = initReg s.par ri → s1.dreg = initReg s.par ri →
      (∃ s2, computeDirection llt false s1 = .exn s2) → retry llt n false s1 = none := by
    intro n
    induction n with
    | zero => intros; rfl
    | succ n ih =>
      intro s1 h1 h2 h3 ⟨s2, h4⟩
      unfold retry
      rw [h4]
      obtain ⟨e1, e2, e3⟩ := computeDirection_reg (llt := llt) false s1
      have ev := computeDirection_eval llt false s1
      have efe := computeDirection_frame (P := P) feas (fun _ _ _ _ _ _ _ _ _ _ _ _ => rfl) llt false s1
      rw [h4] at e1 e2 e3 ev efe
      simp only [Res.st, Bool.false_eq_true, if_false] at e1 e2 e3 ev efe
      have p1 : s2.increaseReg.par = s.par := e3.trans h1
      have p2 : s2.increaseReg.preg = initReg s.par ri := by
        change incReg s2.par s2.preg = _
        rw [e3, e1, h1, h2, hz]
      have p3 : s2.increaseReg.dreg = initReg s.par ri := p2
      simp only []
      rw [p1, p2, hmax]
      simp only [Bool.false_eq_true, if_false]
      refine ih _ p1 p2 p3 (computeDirection_throws_congr ?_ ?_ ?_ ?_ ?_ ⟨s2, h4⟩)
      · exact ev.1.symm
      · exact ev.2.2.1.symm
      · exact efe.symm
      · rw [p2, h2]
      · rw [p3, h3]
  obtain ⟨k, rfl⟩ : ∃ k, m = k + 1 := ⟨m - 1, by omega⟩
  have hret : retry llt fuel true (s.start xs us ri) = none := by
    cases fuel with
    | zero => rfl
    | succ n =>
      unfold retry
      cases hc : computeDirection llt true (s.start xs us ri) with
      | ok s2 => rw [hc] at hfail; cases hfail
      | exn s2 =>
        obtain ⟨e1, e2, e3⟩ := computeDirection_reg (llt := llt) true (s.start xs us ri)
        have ev := computeDirection_eval llt true (s.start xs us ri)
        have efe := computeDirection_frame (P := P) feas (fun _ _ _ _ _ _ _ _ _ _ _ _ => rfl) llt true (s.start xs us ri)
        rw [hc] at e1 e2 e3 ev efe
        simp only [Res.st, if_true] at e1 e2 e3 ev efe
        change s2.preg = initReg s.par ri at e1
        change s2.par = s.par at e3
        have p2 : s2.increaseReg.preg = initReg s.par ri := by
          change incReg s2.par s2.preg = _
          rw [e3, e1, hz]
        have p1 : s2.increaseReg.par = s.par := e3
        have p3 : s2.increaseReg.dreg = initReg s.par ri := p2
        simp only []
        rw [p1, p2, hmax]
        simp only [Bool.false_eq_true, if_false]
        refine hloop n _ p1 p2 p3 ?_
        -- relate to the state after calcDiff
        have h0 : ∃ s2', computeDirection llt false (s.start xs us ri).calcDiff = .exn s2' := by
          have : computeDirection llt false (s.start xs us ri).calcDiff = computeDirection llt true (s.start xs us ri) := rfl
          rw [this, hc]; exact ⟨_, rfl⟩
        refine computeDirection_throws_congr ?_ ?_ ?_ ?_ ?_ h0
        · exact ev.1.symm
        · exact ev.2.2.1.symm
        · exact efe.symm
        · rw [p2]; rfl
        · rw [p3]; rfl
  unfold solve iterate body
  rw [hret]

end

section Exact
variable {K : Type} [Field K] [LinearOrder K] [IsStrictOrderedRing K] {P : Problem K}
variable {llt : LLT K} {fuel : ℕ} {xs : Option (Traj P)} {us : Option (Ctrls P)} {m : ℕ} {ri : K} {s s' : SQP P} {b : Bool}

/-- **C10 (SQP), range.**  With `0 < reg_min <= reg_max`, factors greater than 1 and an initial regularization in the range,
the regularization is in `[reg_min, reg_max]` and `preg = dreg` after `solve`, however it returns. -/
theorem C10_sqp_range (hp : RegOK s.par) (h0 : InRange s.par ri) (h : solve llt fuel xs us m ri s = some (b, s')) :
    s.par.regMin ≤ s'.preg ∧ s'.preg ≤ s.par.regMax ∧ s'.dreg = s'.preg := by
  have := solve_reg (I := InRange s.par) (fun r hr => hr.incReg hp) (fun r hr => hr.decReg hp)
    (by rw [initReg_exact]; exact h0) h
  exact ⟨this.2.2.1, this.2.2.2, this.2.1⟩

/-- the retry loop ends after at most `n` attempts when `n` increases reach `reg_max`. -/
theorem retry_terminates (hinc : 1 < s.par.regInc) (n : ℕ) (hn : 0 < n) (hp : 0 < s.preg)
    (hreach : s.par.regMax ≤ s.preg * s.par.regInc ^ n) (r : Bool) : ∃ x, retry llt n r s = some x := by
  induction n generalizing s r with
  | zero => omega
  | succ n ih =>
    unfold retry
    obtain ⟨e1, e2, e3⟩ := computeDirection_reg (llt := llt) r s
    cases hc : computeDirection llt r s with
    | ok s1 => exact ⟨_, rfl⟩
    | exn s1 =>
      rw [hc] at e1 e3
      change s1.preg = s.preg at e1
      change s1.par = s.par at e3
      simp only []
      split
      · exact ⟨_, rfl⟩
      · rename_i hne
        have hpr : s1.increaseReg.preg = min s.par.regMax (s.preg * s.par.regInc) := by
          change incReg s1.par s1.preg = _
          rw [incReg_exact, e1, e3]
        have hpar : s1.increaseReg.par = s.par := e3
        rw [hpar, hpr, eqb_exact, decide_eq_true_eq] at hne
        have hlt : s.preg * s.par.regInc < s.par.regMax := by
          by_contra hge
          exact hne (min_eq_left (not_lt.mp hge))
        rw [min_eq_right hlt.le] at hpr
        have hn0 : 0 < n := by
          rcases Nat.eq_zero_or_pos n with rfl | h
          · rw [zero_add, pow_one] at hreach
            exact absurd hlt (not_lt.mpr hreach)
          · exact h
        apply ih
        · rw [hpar]; exact hinc
        · exact hn0
        · rw [hpr]; exact mul_pos hp (by linarith)
        · rw [hpar, hpr, mul_assoc, ← pow_succ']; exact hreach

/-- **C09 (SQP), termination with an explicit bound.**  If `0 < reg_min`, `0 < reg_max`, the increase factor exceeds 1 and
the initial regularization is positive, `solve` returns, and no retry loop makes more than `N` attempts, where `N >= 1` is
any number with `reg_max <= r * factor^N` for `r` the smallest of `reg_min`, `reg_max` and the initial value.  This holds
for every problem and every linear solver, even one that always fails. -/
theorem C09_sqp_terminates_bound (hmin : 0 < s.par.regMin) (hmax : 0 < s.par.regMax) (hinc : 1 < s.par.regInc)
    (hri : 0 < ri) (N : ℕ) (hN : 0 < N)
    (hreach : s.par.regMax ≤ min (min s.par.regMin s.par.regMax) ri * s.par.regInc ^ N) :
    ∃ b s', solve llt N xs us m ri s = some (b, s') := by
  set r0 := min (min s.par.regMin s.par.regMax) ri with hr0
  have hr0pos : 0 < r0 := lt_min (lt_min hmin hmax) hri
  let I : K → Prop := fun r => r0 ≤ r
  have hIinc : ∀ r, I r → I (incReg s.par r) := by
    intro r hr
    change r0 ≤ incReg s.par r
    rw [incReg_exact]
    refine le_min ((min_le_left _ _).trans (min_le_right _ _)) ?_
    have : 0 < r := lt_of_lt_of_le hr0pos hr
    have h1 : r0 ≤ r := hr
    nlinarith
  have hIdec : ∀ r, I r → I (decReg s.par r) := by
    intro r _
    change r0 ≤ decReg s.par r
    rw [decReg_exact]
    exact ((min_le_left _ _).trans (min_le_left _ _)).trans (le_max_left _ _)
  have hret : ∀ s1 : SQP P, RegInv s.par I s1 → ∃ x, retry llt N true s1 = some x := by
    intro s1 hs1
    have h1 : r0 ≤ s1.preg := hs1.2.2
    apply retry_terminates
    · rw [hs1.1]; exact hinc
    · exact hN
    · exact lt_of_lt_of_le hr0pos h1
    · rw [hs1.1]
      refine hreach.trans (mul_le_mul_of_nonneg_right h1 (pow_nonneg (by linarith) _))
  have hit : ∀ n (s1 : SQP P), RegInv s.par I s1 → ∃ r s2, iterate llt N n s1 = some (r, s2) ∧ (r = none → RegInv s.par I s2) := by
    intro n
    induction n with
    | zero => intro s1 h1; exact ⟨none, s1, rfl, fun _ => h1⟩
    | succ n ih =>
      intro s1 h1
      obtain ⟨x, hx⟩ := hret s1 h1
      have hbody : ∃ y, body llt N s1 = some y := by
        unfold body
        rw [hx]
        obtain ⟨bb, s2⟩ := x
        cases bb
        · exact ⟨_, rfl⟩
        · simp only []
          split
          · exact ⟨_, rfl⟩
          · split <;> exact ⟨_, rfl⟩
      obtain ⟨⟨r, s2⟩, hy⟩ := hbody
      unfold iterate
      rw [hy]
      cases r with
      | some bb => exact ⟨some bb, s2, rfl, fun h => by cases h⟩
      | none => exact ih _ (body_reg hIinc hIdec h1 hy :)
  obtain ⟨r, s2, h2, h3⟩ := hit m (s.start xs us ri) ⟨rfl, rfl, by
    change r0 ≤ initReg s.par ri
    rw [initReg_exact]; exact min_le_right _ _⟩
  unfold solve
  rw [h2]
  cases r with
  | some bb => exact ⟨bb, s2, rfl⟩
  | none =>
    simp only []
    obtain ⟨⟨bb, s3⟩, hx⟩ := hret s2 (h3 rfl)
    unfold extraIter
    split
    · rw [hx]
      cases bb
      · exact ⟨_, _, rfl⟩
      · exact ⟨_, _, rfl⟩
    · exact ⟨_, _, rfl⟩

/-- **C09 (SQP), termination.**  In an Archimedean field (rationals, reals) such a bound always exists. -/
theorem C09_sqp_terminates [Archimedean K] (hmin : 0 < s.par.regMin) (hmax : 0 < s.par.regMax) (hinc : 1 < s.par.regInc)
    (hri : 0 < ri) (llt : LLT K) (xs : Option (Traj P)) (us : Option (Ctrls P)) (m : ℕ) :
    ∃ N b s', solve llt N xs us m ri s = some (b, s') := by
  set r0 := min (min s.par.regMin s.par.regMax) ri with hr0
  have hr0pos : 0 < r0 := lt_min (lt_min hmin hmax) hri
  obtain ⟨N, hN⟩ := pow_unbounded_of_one_lt (s.par.regMax / r0) hinc
  have hle : s.par.regMax ≤ r0 * s.par.regInc ^ (N + 1) := by
    have h1 : s.par.regMax ≤ r0 * s.par.regInc ^ N := by
      rw [mul_comm]; exact ((div_lt_iff₀ hr0pos).mp hN).le
    refine h1.trans (mul_le_mul_of_nonneg_left ?_ hr0pos.le)
    exact pow_le_pow_right₀ hinc.le (Nat.le_succ N)
  obtain ⟨b, s', h⟩ := C09_sqp_terminates_bound (llt := llt) (xs := xs) (us := us) (m := m) hmin hmax hinc hri
    (N + 1) (Nat.succ_pos N) hle
  exact ⟨N + 1, b, s', h⟩

/-- **C09 (SQP), giving up.**  If every direction computation throws, `solve` (with at least one iteration) returns false
with the regularization at `reg_max` and without any KKT check. -/
theorem C09_sqp_gives_up (hall : ∀ (r : Bool) (s : SQP P), (computeDirection llt r s).isOk = false) (hm : 0 < m)
    (h : solve llt fuel xs us m ri s = some (b, s')) : b = false ∧ s'.preg = s.par.regMax ∧ s'.nKKT = s.nKKT := by
  have hr : ∀ fuel (r bb : Bool) (s s1 : SQP P), retry llt fuel r s = some (bb, s1) → bb = false ∧ s1.preg = s1.par.regMax := by
    intro fuel
    induction fuel with
    | zero => intro r bb s s1 h; cases h
    | succ n ih =>
      intro r bb s s1 h
      unfold retry at h
      split at h
      · rename_i s2 hs2
        have := hall r s
        rw [hs2] at this; cases this
      · rename_i s2 hs2
        simp only [] at h
        split at h
        · rename_i he
          simp only [Option.some.injEq, Prod.mk.injEq] at h
          rw [← h.1, ← h.2]
          exact ⟨rfl, by simpa using he⟩
        · exact ih _ _ _ _ h
  obtain ⟨k, rfl⟩ : ∃ k, m = k + 1 := ⟨m - 1, by omega⟩
  unfold solve iterate body at h
  cases hx : retry llt fuel true (s.start xs us ri) with
  | none => rw [hx] at h; cases h
  | some x =>
    obtain ⟨bb, s1⟩ := x
    obtain ⟨rfl, h2⟩ := hr _ _ _ _ _ hx
    rw [hx] at h
    simp only [Option.some.injEq, Prod.mk.injEq] at h
    obtain ⟨rfl, rfl⟩ := h
    have hpar := (retry_xs hx).2.2
    refine ⟨rfl, ?_, (retry_nKKT hx :)⟩
    rw [h2, hpar]; rfl

/-- **C09 (SQP), regularization zero.**  `solve(..., reginit = 0)` never returns if the first direction computation throws
(exact arithmetic, `reg_max > 0`, at least one iteration). -/
theorem C09_sqp_zero_diverges (hmax : 0 < s.par.regMax) (hm : 0 < m)
    (hfail : (computeDirection llt true (s.start xs us 0)).isOk = false) (fuel : ℕ) :
    solve llt fuel xs us m 0 s = none := by
  apply C09_sqp_diverges
  · rw [initReg_exact, incReg_exact, zero_mul, min_eq_right hmax.le]
  · rw [initReg_exact, eqb_exact]; simp [hmax.ne]
  · exact hm
  · exact hfail

/-- **C37 (SQP), default step lengths.**  If the last step length is `<= th_stepinc` and `<= th_stepdec` (as after
construction), a failed line search raises the regularization, strictly while it is below `reg_max`. -/
theorem C37_sqp_failed_search_increases (hT : 0 < P.T) (s : SQP P) (hp : RegOK s.par)
    (hfail : ∀ a ∈ s.par.alphas, ¬ Acceptable s a) {a : K} (hlast : s.par.alphas.getLast? = some a)
    (h1 : a ≤ s.par.thStepInc) (h2 : a ≤ s.par.thStepDec) (hr : s.par.regMin ≤ s.preg) (hr2 : s.preg < s.par.regMax) :
    s.preg < (updateReg (search s)).2.preg := by
  rw [C37_sqp_failed_search hT s hfail hlast]
  simp only [ltb_exact, leb_exact, h1, not_lt.mpr h2, decide_true, decide_false, if_true, if_false, Bool.false_eq_true]
  exact incReg_lt hp hr hr2

end Exact

/-! ## Witnesses -/
namespace Ex

/-- C09, bound for a default-constructed solver: 18 attempts. -/
example : lqSolver.par.regMax ≤ min (min lqSolver.par.regMin lqSolver.par.regMax) lqSolver.par.regMin *
    lqSolver.par.regInc ^ 18 := by decide +kernel

/-- a non-convex scalar problem on which every direction computation with zero regularization throws. -/
def concave : Problem ℚ := scalar 2 1 (-1) 0 1

/-- **C09 witness**: a default-constructed solver with `reginit = 0` on `concave` never returns. -/
theorem C09_sqp_concave_hangs (fuel : ℕ) : SQP.solve llt1 fuel none none 1 0 (SQP.new (Data.zero concave)) = none :=
  C09_sqp_zero_diverges (by change (0 : ℚ) < 10 ^ 9; norm_num) (by norm_num) (by decide +kernel) fuel

/-- The same problem with a positive start value returns (here after regularizing the problem to convexity). -/
example : (SQP.solve llt1 18 none none 3 (1 / 10 ^ 9) (SQP.new (Data.zero concave))).isSome = true := by decide +kernel

/-- C09: with a linear solver that always fails, `solve` gives up. -/
example : (SQP.solve (fun _ _ => none) 18 none none 3 (1 / 10 ^ 9) lqSolver).map
    (fun r => (r.1, r.2.preg, r.2.nKKT)) = some (false, 10 ^ 9, 0) := by decide +kernel

/-- **C37, refutation for custom step lengths**: with `set_alphas([1])` a failed line search *decreases* the
regularization: on `stale` the only trial is rejected and `preg` goes from `1` to `1/10`. -/
theorem C37_sqp_custom_alphas_refuted :
    (SQP.iterate llt1 20 1 (SQP.start (some staleGuess) none 1
      { SQP.new (Data.zero stale) with par := { (Params.default : Params ℚ) with alphas := [1] } })).map
      (fun r => (r.1, r.2.nRej, r.2.preg)) = some (none, 1, 1 / 10) := by decide +kernel

/-- C37 with the default step lengths on the same problem: `preg` goes from `1` to `10`. -/
example : (SQP.iterate llt1 20 1 (SQP.start (some staleGuess) none 1 (SQP.new (Data.zero stale)))).map
      (fun r => (r.1, r.2.nRej, r.2.preg)) = some (none, 1, 10) := by decide +kernel

end Ex
end Mim
