import Verif.Lemmas.QPLive
import Verif.Lemmas.CSQPCalls
import Verif.Props.DirectionExists
import Verif.Props.ProxReturn

/-!
# SolverCSQP: when a direction exists (C66)

`computeDirection` of SolverCSQP throws when a Cholesky factorization in one of its backward passes fails.  In exact arithmetic the
pass without constraints (warm start) succeeds exactly if the quadratic model has positive curvature along its directions; the pass of
an ADMM iteration exactly if the function that iteration minimises has.  Consequences: with the default warm start the direction exists
exactly if the quadratic model has positive curvature – the constraints, the penalties and `σ` cannot rescue it and cannot spoil it; on
convex problems `solve` never throws and never retries, with or without regularization.
-/
set_option linter.unusedSectionVars false
set_option linter.unusedSimpArgs false

namespace Mim
open Matrix Spec QP
variable {K : Type} [Field K] [LinearOrder K] [IsStrictOrderedRing K] {P : Problem K}

/-- **C66 (one pass).**  The full backward pass succeeds exactly if the function of the ADMM step has positive curvature along every
direction with a nonzero control, under every schedule. -/
theorem C66_csqp_pass_iff {llt : LLT K} (hllt : LLTExact llt) {E : QEnv P} {v : CVars P} (hsym : SymHess E.d) (B : CBP P) :
    ((∃ B', fullPass llt E v B = .ok B') ↔ AugPos E.d E.preg E.dreg E.c.sigma v.rho) ∧
    ∀ l : List ℕ, l.Perm (List.range P.T) →
      ((∃ B', fullPassMt l llt E v B = .ok B') ↔ AugPos E.d E.preg E.dreg E.c.sigma v.rho) := by
  have h := full_iff hllt (v := v) hsym B
  rw [isOk_iff, full_posCurv_iff] at h
  refine ⟨h, fun l hl => ?_⟩
  rw [← h]
  rcases fullPassMt_eq (llt := llt) (E := E) (v := v) hl B with ⟨C, e1, e2⟩ | ⟨C, C', e1, e2⟩
  · rw [e1, e2]
  · rw [e1, e2]; exact ⟨fun ⟨_, h⟩ => (by cases h), fun ⟨_, h⟩ => (by cases h)⟩

namespace CSQP
variable [SqrtOps K] {W : World K} {fuel : ℕ} {xs : Option (Traj P)} {us : Option (Ctrls P)} {m : ℕ} {ri : K} {s0 : CSQP P}

/-- **C66 (direction).**  A `computeDirection` that `solve` makes does not throw if the quadratic model has positive curvature along its
directions (or merely each of the functions its iterations minimise, without the warm start). -/
theorem C66_csqp_direction (hllt : LLTExact W.llt) (hp : SymProblem P) (hs : ∀ l, W.sched = some l → SchedOK P l)
    (hc : PenaltyConf s0.c) (hσ : 0 ≤ s0.c.sigma) (hx : ∀ t, t ≤ P.T → ∀ i, ¬ RowCrossed P t i) {s : CSQP P}
    (h : Calls W fuel xs us m ri s0 s) (hpc : (lqOf s.data s.e.fs s.preg s.dreg).PosCurv) : ∃ s1, s.dir W = .ok s1 := by
  have := computeDirection_live (E := s.env W) (q0 := s.q) hllt (hp.data h.evald) hs (fun _ => hpc)
    (fun q hq => augPos_of_posCurv (by change 0 ≤ s.c.sigma; rw [h.conf]; exact hσ)
      (fun t ht i => (calls_penalty_pos hc hx h hq t ht i).1.le) hpc)
  obtain ⟨q1, e⟩ := isOk_iff.mp this
  exact ⟨{ s with q := q1 }, by unfold dir; rw [e]; rfl⟩

/-- **C66 (direction, warm start).**  With the default warm start (`equality_qp_initial_guess`) it throws exactly if the quadratic model
lacks positive curvature: the constraints, their penalties and `σ` make no difference. -/
theorem C66_csqp_direction_iff (hllt : LLTExact W.llt) (hp : SymProblem P) (hs : ∀ l, W.sched = some l → SchedOK P l)
    (hc : PenaltyConf s0.c) (hσ : 0 ≤ s0.c.sigma) (hg : s0.c.eqGuess = true) (hx : ∀ t, t ≤ P.T → ∀ i, ¬ RowCrossed P t i) {s : CSQP P}
    (h : Calls W fuel xs us m ri s0 s) : (∃ s1, s.dir W = .ok s1) ↔ (lqOf s.data s.e.fs s.preg s.dreg).PosCurv := by
  refine ⟨fun ⟨s1, e⟩ => ?_, C66_csqp_direction hllt hp hs hc hσ hx h⟩
  refine computeDirection_warm (E := s.env W) (q0 := s.q) hllt (hp.data h.evald) (by change s.c.eqGuess = true; rw [h.conf]; exact hg) ?_
  have : (s.dir W).isOk = true := by rw [e]; rfl
  unfold dir at this
  rwa [map_isOk] at this

/-! ### convex problems -/

theorem AtHead.reg {I : K → Prop} (hk : RegKept s0.c I) (h0 : I (if s0.c.removeReg then 0 else initReg s0.c.par ri)) {s : CSQP P}
    (h : AtHead W fuel xs us m ri s0 s) : RegInv s0.c I s := by
  induction h with
  | start => exact RegInv.start h0
  | next h hi hb ih => exact (RegInv.body hk ih hb :)

theorem Calls.reg {I : K → Prop} (hk : RegKept s0.c I) (h0 : I (if s0.c.removeReg then 0 else initReg s0.c.par ri)) {s : CSQP P}
    (h : Calls W fuel xs us m ri s0 s) : RegInv s0.c I s := by
  induction h with
  | @head s h hi hu hr => 
    have h1 : RegInv s0.c I s := AtHead.reg hk h0 h
    exact RegInv.prepare (s := { s with q := { s.q with tick := s.q.tick + 1 } }) h1
  | extra h he hr =>
    cases h with
    | done h hi => exact (AtHead.reg hk h0 h :)
    | brk h hi hb => exact (RegInv.body hk (AtHead.reg hk h0 h) hb :)
  | again h hm hd hl ih =>
    have := ih.dir (W := W)
    rw [hd] at this
    exact RegInv.increaseReg hk (by rw [← ih.1]; exact hm) this

theorem nonneg_kept {c : CConf K} (hp : RegOK c.par) : RegKept c (fun r => 0 ≤ r) where
  inc _ r hr := by
    rw [incReg_exact]
    exact le_min (hp.min_pos.le.trans hp.min_le) (mul_nonneg hr (zero_le_one.trans hp.inc.le))
  dec _ r _ := by rw [decReg_exact]; exact hp.min_pos.le.trans (le_max_left _ _)

theorem pos_kept {c : CConf K} (hp : RegOK c.par) : RegKept c (fun r => 0 < r) where
  inc _ r hr := by
    rw [incReg_exact]
    exact lt_min (hp.min_pos.trans_le hp.min_le) (mul_pos hr (zero_lt_one.trans hp.inc))
  dec _ r _ := by rw [decReg_exact]; exact hp.min_pos.trans_le (le_max_left _ _)

/-- **C66 (convex), one call.**  On a convex problem every `computeDirection` a solve makes succeeds, if the warm start is off, the
costs are strictly convex in the controls, or regularization is in use. -/
theorem C66_csqp_convex_direction (hllt : LLTExact W.llt) (hp : SymProblem P) (hC : ConvexProblem P)
    (hs : ∀ l, W.sched = some l → SchedOK P l) (hc : PenaltyConf s0.c) (hσ : 0 < s0.c.sigma) (hreg : RegOK s0.c.par) (hri : 0 ≤ ri)
    (hw : s0.c.eqGuess = false ∨ StrictControls P ∨ (s0.c.removeReg = false ∧ 0 < ri))
    (hx : ∀ t, t ≤ P.T → ∀ i, ¬ RowCrossed P t i) {s : CSQP P} (h : Calls W fuel xs us m ri s0 s) : ∃ s1, s.dir W = .ok s1 := by
  have hr := Calls.reg (nonneg_kept hreg) (by split <;> [exact le_rfl; (rw [initReg_exact]; exact hri)]) h
  have hr1 : 0 ≤ s.preg := hr.2.2
  have hr2 : 0 ≤ s.dreg := by rw [hr.2.1]; exact hr1
  have hd := h.evald.diff
  have := computeDirection_live (E := s.env W) (q0 := s.q) hllt (hp.data h.evald) hs
    (fun hg => by
      have hg : s.c.eqGuess = true := hg
      rw [h.conf] at hg
      rcases hw with hw | hw | hw
      · rw [hw] at hg; cases hg
      · exact posCurv_of_convex hC hd hr1 hr2 (.inl hw)
      · have hr' := Calls.reg (pos_kept hreg) (by rw [hw.1, initReg_exact]; exact hw.2) h
        exact posCurv_of_convex hC hd hr1 hr2 (.inr (by change 0 < s.dreg; rw [hr'.2.1]; exact hr'.2.2)))
    (fun q hq => augPos_of_convex (by change 0 < s.c.sigma; rw [h.conf]; exact hσ)
      (fun t ht i => (calls_penalty_pos hc hx h hq t ht i).1.le) hr1 hr2
      (fun t ht x u => by change 0 ≤ x ⬝ᵥ ((s.data.rd t).Lxx *ᵥ x) + 2 * (x ⬝ᵥ ((s.data.rd t).Lxu *ᵥ u)) + u ⬝ᵥ ((s.data.rd t).Luu *ᵥ u)
                          rw [hd.1 t ht]; exact hC.stage t ht _ _ _ _)
      (fun x => by change 0 ≤ x ⬝ᵥ (s.data.td.Lxx *ᵥ x); rw [hd.2]; exact hC.term _ _))
  obtain ⟨q1, e⟩ := isOk_iff.mp this
  exact ⟨{ s with q := q1 }, by unfold dir; rw [e]; rfl⟩

/-- if every call of `computeDirection` succeeds, `solve` returns a value with a single attempt per iteration. -/
theorem solve_single (hf : 0 < fuel) (hall : ∀ s, Calls W fuel xs us m ri s0 s → ∃ s1, s.dir W = .ok s1) :
    ∃ b s', solve W fuel xs us m ri s0 = some (.ret b, s') := by
  have hdir : ∀ (chk : Bool) (s : CSQP P), (s.c.removeReg = true ∨ s.q.reached = false → ∃ s1, s.dir W = .ok s1) →
      (chk = false → s.q.reached = false) → ∃ s2, direction W fuel chk s = some (none, s2) := by
    intro chk s h1 h2
    unfold direction
    cases hrm : s.c.removeReg with
    | true =>
      obtain ⟨s1, e⟩ := h1 (.inl hrm)
      rw [if_pos rfl, e]
      exact ⟨_, rfl⟩
    | false =>
      rw [if_neg (by simp)]
      obtain ⟨n, rfl⟩ : ∃ n, fuel = n + 1 := ⟨fuel - 1, by omega⟩
      unfold retry
      cases hre : s.q.reached with
      | true =>
        cases chk with
        | true => exact ⟨s, rfl⟩
        | false => rw [h2 rfl] at hre; cases hre
      | false =>
        obtain ⟨s1, e⟩ := h1 (.inr hre)
        rw [e]
        cases chk <;> exact ⟨_, rfl⟩
  have hfin : ∀ s : CSQP P, ∀ r s2, s.finish = (r, s2) → r ≠ .fin .thrown := by
    intro s r s2 e
    unfold finish at e
    split at e
    · cases e; intro h; cases h
    · simp only [] at e
      split at e
      · cases e; intro h; cases h
      · unfold advance at e
        split at e
        · cases e; intro h; cases h
        · simp only [] at e
          split at e <;> (cases e; intro h; cases h)
  have hit : ∀ n (s : CSQP P), AtHead W fuel xs us m ri s0 s → s.iter + n = m →
      ∃ r s2, iterate W fuel n s = some (r, s2) ∧ r ≠ some .thrown ∧ (r = none → LeftLoop W fuel xs us m ri s0 s2) := by
    intro n
    induction n with
    | zero => intro s h hn; exact ⟨none, s, rfl, fun h => (by cases h), fun _ => .done h (by omega)⟩
    | succ n ih =>
      intro s h hn
      have hb : ∃ r s2, body W fuel s = some (r, s2) ∧ r ≠ .fin .thrown := by
        unfold body
        simp only []
        cases hu : s.q.timeUp (s.env W) with
        | true => exact ⟨_, _, rfl, fun h => (by cases h)⟩
        | false =>
          simp only [Bool.false_eq_true, if_false]
          have hc : (entry s).c.removeReg = true ∨ (entry s).q.reached = false → ∃ s1, (entry s).dir W = .ok s1 := by
            intro hh
            refine hall _ (.head h (by omega) hu ?_)
            rw [(entry_conf s).1] at hh
            refine hh.imp id fun e => ?_
            have e2 : (entry s).q.reached = s.q.reached := by unfold entry prepare; simp only []; split <;> rfl
            rw [← e2]; exact e
          obtain ⟨s2, e⟩ := hdir true (entry s) hc (fun e => by cases e)
          have : prepare { s with q := { s.q with tick := s.q.tick + 1 } } = entry s := rfl
          rw [this, e]
          exact ⟨_, _, rfl, hfin s2 _ _ rfl⟩
      obtain ⟨r, s2, hb, hr⟩ := hb
      unfold iterate
      rw [hb]
      cases r with
      | fin oo => exact ⟨some oo, s2, rfl, fun h => hr (by cases h; rfl), fun h => (by cases h)⟩
      | brk => exact ⟨none, s2, rfl, fun h => (by cases h), fun _ => .brk h (by omega) hb⟩
      | next =>
        refine ih _ (.next h (by omega) hb) ?_
        change s2.iter + 1 + n = m
        rw [(body_conf hb).2.2]; omega
  obtain ⟨r, s2, h2, h3, h4⟩ := hit m _ .start (by rw [(start_conf W xs us m ri s0).2.2.2]; omega)
  unfold solve
  rw [h2]
  cases r with
  | some o =>
    cases o with
    | ret b => exact ⟨b, s2, rfl⟩
    | thrown => exact absurd rfl h3
  | none =>
    simp only []
    unfold extraIter
    split
    · rename_i he
      rw [Bool.and_eq_true, Bool.not_eq_true'] at he
      obtain ⟨s3, e⟩ := hdir false s2.calcEval (fun _ => hall _ (.extra (h4 rfl) he.1 he.2)) (fun _ => he.2)
      rw [e]
      exact ⟨_, _, rfl⟩
    · exact ⟨_, _, rfl⟩

/-- **C66 (convex).**  On a convex problem – symmetric positive semidefinite stage Hessians, any dynamics, any constraints without
crossed bounds – `solve` never throws and never needs a second attempt for a direction (`fuel` attempts are granted, one suffices), with
or without regularization, for every clock, schedule, guess and iteration limit. -/
theorem C66_csqp_convex (hllt : LLTExact W.llt) (hp : SymProblem P) (hC : ConvexProblem P)
    (hs : ∀ l, W.sched = some l → SchedOK P l) (hc : PenaltyConf s0.c) (hσ : 0 < s0.c.sigma) (hreg : RegOK s0.c.par) (hri : 0 ≤ ri)
    (hw : s0.c.eqGuess = false ∨ StrictControls P ∨ (s0.c.removeReg = false ∧ 0 < ri))
    (hx : ∀ t, t ≤ P.T → ∀ i, ¬ RowCrossed P t i) (hf : 0 < fuel) :
    (∃ b s', solve W fuel xs us m ri s0 = some (.ret b, s')) ∧
    ∀ s, Calls W fuel xs us m ri s0 s → ∃ s1, s.dir W = .ok s1 :=
  have hall := fun s (h : Calls W fuel xs us m ri s0 s) => C66_csqp_convex_direction hllt hp hC hs hc hσ hreg hri hw hx h
  ⟨solve_single hf hall, hall⟩

/-! ### non-convex problems -/

/-- **C66 (cure).**  Whatever the problem, raising the regularization cures a failed direction: from any call of `computeDirection` of a
solve with positive regularization, the retry loop ends with a direction after at most `n + 1` attempts if the entries of the Hessians at
the current point sum up to less than `preg · factor^n` and to less than `reg_max / factor`; the regularization used is at most `factor`
times that sum (or the value it had). -/
theorem C66_csqp_retry_cures (hllt : LLTExact W.llt) (hp : SymProblem P) (hs : ∀ l, W.sched = some l → SchedOK P l)
    (hc : PenaltyConf s0.c) (hσ : 0 ≤ s0.c.sigma) (hx : ∀ t, t ≤ P.T → ∀ i, ¬ RowCrossed P t i) (hrm : s0.c.removeReg = false)
    (hinc : 1 < s0.c.par.regInc) (chk : Bool) :
    ∀ (n : ℕ) {s : CSQP P}, Calls W fuel xs us m ri s0 s → s.q.reached = false → s.dreg = s.preg → 0 < s.preg →
      s.preg < s0.c.par.regMax → hessSum s.data * s0.c.par.regInc < s0.c.par.regMax → hessSum s.data < s.preg * s0.c.par.regInc ^ n →
      ∃ s1, retry W chk (n + 1) s = some (true, s1) ∧ s1.preg ≤ max s.preg (hessSum s.data * s0.c.par.regInc) ∧ s1.dreg = s1.preg := by
  have hdone : ∀ {n : ℕ} {s : CSQP P}, Calls W fuel xs us m ri s0 s → s.q.reached = false → s.dreg = s.preg →
      (∃ s1, s.dir W = .ok s1) →
      ∃ s1, retry W chk (n + 1) s = some (true, s1) ∧ s1.preg ≤ max s.preg (hessSum s.data * s0.c.par.regInc) ∧ s1.dreg = s1.preg := by
    intro n s h hr hd ⟨s1, e⟩
    obtain ⟨q1, _, e2⟩ := dir_ok e
    refine ⟨s1, ?_, ?_, ?_⟩
    · unfold retry
      rw [hr, Bool.and_false, if_neg (by simp), e]
    · rw [e2]; exact le_max_left _ _
    · rw [e2]; exact hd
  have hlarge : ∀ {s : CSQP P}, Calls W fuel xs us m ri s0 s → s.dreg = s.preg → hessSum s.data < s.preg → ∃ s1, s.dir W = .ok s1 :=
    fun h hd hl => C66_csqp_direction hllt hp hs hc hσ hx h (posCurv_of_large hl.le (by rw [hd]; exact hl))
  intro n
  induction n with
  | zero =>
    intro s h hr hd hpos hlt hmax hn
    rw [pow_zero, mul_one] at hn
    exact hdone h hr hd (hlarge h hd hn)
  | succ n ih =>
    intro s h hr hd hpos hlt hmax hn
    cases e : s.dir W with
    | ok s1 => exact hdone h hr hd ⟨s1, e⟩
    | exn s1 =>
      have hle : s.preg ≤ hessSum s.data := by
        by_contra hn'
        obtain ⟨s2, e2⟩ := hlarge h hd (not_le.mp hn')
        rw [e2] at e; cases e
      obtain ⟨q1, eq1, e1⟩ := dir_exn e
      have hreach : s1.q.reached = false := by
        rw [e1]; exact (CQP.computeDirection_exn_reached _ _ _ _ eq1).trans hr
      have hB : s.preg * s0.c.par.regInc ≤ hessSum s.data * s0.c.par.regInc := mul_le_mul_of_nonneg_right hle (by linarith)
      have hconf : s1.c = s0.c := by rw [e1]; exact h.conf
      have hpr : s1.preg = s.preg := by rw [e1]
      have hda : s1.data = s.data := by rw [e1]
      have hn1 : incReg s1.c.par s1.preg = s.preg * s0.c.par.regInc := by
        rw [incReg_exact, hpr, hconf, min_eq_right (hB.trans hmax.le)]
      have hne : leb s1.increaseReg.c.par.regMax s1.increaseReg.preg = false := by
        have : s1.increaseReg.preg < s1.increaseReg.c.par.regMax := by
          change incReg s1.c.par s1.preg < s1.c.par.regMax
          rw [hn1, hconf]; exact lt_of_le_of_lt hB hmax
        simpa using this
      obtain ⟨s2, g1, g2, g3⟩ := ih (.again h (by rw [h.conf]; exact hrm) e hne) hreach rfl
        (by change 0 < incReg s1.c.par s1.preg; rw [hn1]; exact mul_pos hpos (by linarith))
        (by change incReg s1.c.par s1.preg < _; rw [hn1]; exact lt_of_le_of_lt hB hmax)
        (by change hessSum s1.data * _ < _; rw [hda]; exact hmax)
        (by change hessSum s1.data < incReg s1.c.par s1.preg * _; rw [hda, hn1, mul_assoc, ← pow_succ']; exact hn)
      refine ⟨s2, ?_, g2.trans ?_, g3⟩
      · unfold retry
        rw [hr, Bool.and_false, if_neg (by simp), e]
        simp only [hne]
        exact g1
      · change max (incReg s1.c.par s1.preg) (hessSum s1.data * _) ≤ _
        rw [hda, hn1]
        exact max_le (hB.trans (le_max_right _ _)) (le_max_right _ _)

end CSQP

/-! ## non-vacuity and limits -/
namespace Ex
open CSQP

theorem lin_convex : ConvexProblem lin where
  stage := by
    intro t ht x u (ξ : Vec ℚ 1) (υ : Vec ℚ 1)
    change (0 : ℚ) ≤ ξ ⬝ᵥ (m1 0 *ᵥ ξ) + 2 * (ξ ⬝ᵥ (m1 0 *ᵥ υ)) + υ ⬝ᵥ (m1 0 *ᵥ υ)
    have e : (m1 0 : Mat ℚ 1 1) = 0 := by ext i j; rfl
    rw [e]; simp
  term := by
    intro x (ξ : Vec ℚ 1)
    change (0 : ℚ) ≤ ξ ⬝ᵥ (m1 0 *ᵥ ξ)
    have e : (m1 0 : Mat ℚ 1 1) = 0 := by ext i j; rfl
    rw [e]; simp

/-- **the theorem applied**: the linear cost of `lin` has no curvature at all and `linSolver` uses no regularization; `σ` alone makes
every direction exist, for every guess, iteration limit and number of attempts. -/
theorem C66_lin_example (xs : Option (Traj lin)) (us : Option (Ctrls lin)) (m fuel : ℕ) (hf : 0 < fuel) :
    ∃ b s', CSQP.solve world fuel xs us m 0 linSolver = some (.ret b, s') :=
  (C66_csqp_convex llt1_exact lin_sym lin_convex (fun l h => by cases h) lin_penalty (by decide +kernel) ⟨by decide +kernel,
    by decide +kernel, by decide +kernel, by decide +kernel⟩ le_rfl (.inl rfl) lin_not_crossed hf).1

/-- the same solver with the default warm start. -/
def linWarm : CSQP lin := { linSolver with c := { linSolver.c with eqGuess := true } }

/-- **limit**: with the warm start on (the default) and no regularization, the same convex problem makes `solve` throw – `σ` does not
enter the warm start. -/
theorem C66_warm_start_throws : (CSQP.solve world 1 none none 1 0 linWarm).map (fun r => decide (r.1 = .thrown)) = some true := by
  decide +kernel

/-- the same with regularization. -/
def linReg : CSQP lin := { linSolver with c := { linSolver.c with eqGuess := true, removeReg := false } }

/-- with any positive initial regularization it does not throw. -/
theorem C66_warm_start_regularized {r : ℚ} (hr : 0 < r) (xs : Option (Traj lin)) (us : Option (Ctrls lin)) (m fuel : ℕ) (hf : 0 < fuel) :
    ∃ b s', CSQP.solve world fuel xs us m r linReg = some (.ret b, s') :=
  (C66_csqp_convex (W := world) (s0 := linReg) llt1_exact lin_sym lin_convex (fun l h => by cases h) ⟨lin_penalty.pos, lin_penalty.le, lin_penalty.le'⟩
    (by decide +kernel) ⟨by decide +kernel, by decide +kernel, by decide +kernel, by decide +kernel⟩ hr.le (.inr (.inr ⟨rfl, hr⟩))
    lin_not_crossed hf).1

end Ex
end Mim
