import Verif.Props.PyCSQPLock
import Verif.Props.PyCSQPLine
import Verif.Props.PySQPEx
import Verif.Props.ProxRecognise
import Verif.Props.QPStep

/-!
# C73-C76: concrete cases for the Python prototype `CSQP`, and how it can fail
-/
set_option linter.unusedSectionVars false
set_option linter.unusedSimpArgs false

namespace Mim
open Spec Matrix

namespace PyCSQP
section
variable {F : Type} [Add F] [Sub F] [Mul F] [Div F] [Neg F] [Zero F] [One F] [FloatOps F] [SqrtOps F] {P : Problem F} {L : PyLLT F}

theorem dirAt_exn_iff (L : PyLLT F) (i : ℕ) (p : PyCSQP P) : (∃ q, dirAt L i p = .exn q) ↔ p.c.interval = 0 ∧ p.c.maxQP ≠ 0 := by
  have henv : (p.evaluate.resetFirst i).env = p.evaluate.env := by unfold resetFirst; split <;> rfl
  unfold dirAt computeDirection PyQP.computeDirection
  rw [henv]
  simp only []
  change (∃ q, Res.map _ (if p.c.interval = 0 ∧ p.c.maxQP ≠ 0 then _ else _) = .exn q) ↔ _
  by_cases hc : p.c.interval = 0 ∧ p.c.maxQP ≠ 0
  · rw [if_pos hc]
    exact ⟨fun _ => hc, fun _ => ⟨_, rfl⟩⟩
  · rw [if_neg hc]
    exact ⟨fun ⟨q, e⟩ => (by cases e), fun h => absurd h hc⟩

theorem dirAt_total {i : ℕ} {p : PyCSQP P} (h : p.c.interval ≠ 0 ∨ p.c.maxQP = 0) : ∃ q, dirAt L i p = .ok q := by
  rcases dirAt_frame L i p with ⟨q, e⟩ | ⟨q, e⟩
  · exact ⟨_, e⟩
  · exact absurd ((dirAt_exn_iff L i p).1 ⟨_, e⟩) (fun ⟨a, b⟩ => h.elim (fun h => h a) b)

/-- **C76, exceptions.**  A call of `solve` raises exactly if `rho_update_interval` is 0 while QP iterations are allowed and a direction is
computed at all: a division by zero.  In particular an indefinite stage Hessian is never reported, for any factorisation routine,
even one that always fails. -/
theorem C76_pycsqp_raises_iff (L : PyLLT F) (xs : Option (Traj P)) (us : Option (Ctrls P)) (m : ℕ) (p : PyCSQP P) :
    (∃ e q, solve L xs us m p = (.raised e, q)) ↔ (p.c.interval = 0 ∧ p.c.maxQP ≠ 0 ∧ (m ≠ 0 ∨ p.extra = true)) := by
  constructor
  · rintro ⟨e, q, h⟩
    rcases solve_cases h with ⟨j, q1, hj, hq, he⟩ | ⟨q1, hq, ⟨-, ho, -⟩ | ⟨hx, q2, hd, -⟩ | ⟨-, q2, -, ho, -⟩⟩
    · generalize ho : PyOut.raised e = o at he
      cases he with
      | zeroDiv h =>
        have := (dirAt_exn_iff L j q1).1 ⟨_, h⟩
        rw [(keep_all hq.keep).1] at this
        exact ⟨this.1, this.2, .inl (by omega)⟩
      | conv h hk => cases ho
      | gaveUp h hk hs => cases ho
    · cases ho
    · have := (dirAt_exn_iff L 1 q1).1 ⟨_, hd⟩
      rw [(keep_all hq.keep).1] at this
      exact ⟨this.1, this.2, .inr hx⟩
    · cases ho
  · rintro ⟨h1, h2, h3⟩
    have hex : ∀ i (q : PyCSQP P), q.c = p.c → ∃ q', dirAt L i q = .exn q' := fun i q hc =>
      (dirAt_exn_iff L i q).2 (by rw [hc]; exact ⟨h1, h2⟩)
    cases m with
    | zero =>
      have hx : p.extra = true := h3.resolve_left (fun e => e rfl)
      obtain ⟨q', hq'⟩ := hex 1 (p.start xs us) rfl
      refine ⟨.zeroDiv, q', ?_⟩
      unfold solve iterate
      simp only []
      rw [if_pos (show (p.start xs us).extra = true from hx), extra_eq, hq']
    | succ m =>
      obtain ⟨q', hq'⟩ := hex 0 (p.start xs us) rfl
      refine ⟨.zeroDiv, q', ?_⟩
      unfold solve iterate head
      rw [show ((p.start xs us).evaluate.resetFirst 0).computeDirection L = dirAt L 0 (p.start xs us) from rfl, hq']

/-- **C76, `maxiter = 0`.**  No direction is computed: `solve` returns false at the guess. -/
theorem C76_maxiter_zero (L : PyLLT F) (xs : Option (Traj P)) (us : Option (Ctrls P)) (p : PyCSQP P) (hx : p.extra = false) :
    solve L xs us 0 p = (.ret false, p.start xs us) := by
  unfold solve iterate
  simp only []
  rw [if_neg (by rw [show (p.start xs us).extra = p.extra from rfl, hx]; exact Bool.false_ne_true)]

end
end PyCSQP

namespace Ex
open PyCSQP

/-- exact factorisation; a failed one answers zero. -/
noncomputable def pl : PyLLT ℚ := ⟨llt1, fun _ _ _ => 0⟩

/-! ### C73: what is not certified -/

/-- the Python class on `lin`, with the options of `linSolver`. -/
def pyLin : PyCSQP lin :=
  let p := PyCSQP.new true (Data.zero lin)
  { p with c := { p.c with sigma := 1 / 30, rhoBase := 1 / 2, maxQP := 1, eqGuess := false } }

theorem pyLin_run : (decide ((PyCSQP.solve pl none none 5 pyLin).1 = .ret true), (PyCSQP.solve pl none none 5 pyLin).2.KKT,
    sc ((PyCSQP.solve pl none none 5 pyLin).2.us 0), sc ((PyCSQP.solve pl none none 5 pyLin).2.q.y 0)) = (true, (0 : ℚ), (0 : ℚ), (1 : ℚ)) := by
  decide +kernel

/-- **C73, no complementarity.**  The Python class too can return true with residual 0 at a point whose multiplier belongs to an
inactive constraint, although a feasible point with smaller cost exists. -/
theorem C73_pycsqp_no_complementarity : ∃ p', PyCSQP.solve pl none none 5 pyLin = (.ret true, p') ∧ p'.KKT = 0 ∧
    ¬ Complementary lin p'.xs p'.us p'.q.y ∧
    ∃ us' : Ctrls lin, violation lin p'.xs us' = 0 ∧ trajCost lin p'.xs us' < trajCost lin p'.xs p'.us := by
  have h := pyLin_run
  generalize PyCSQP.solve pl none none 5 pyLin = r at h
  obtain ⟨o, p'⟩ := r
  simp only [Prod.mk.injEq, decide_eq_true_eq] at h
  obtain ⟨rfl, hK, hu, hy⟩ := h
  have hcost : ∀ us : Ctrls lin, trajCost lin p'.xs us = -(sc (us 0)) := by
    intro us
    change (0 + -(sc (us 0))) + 0 = _
    ring
  have hviol : ∀ us : Ctrls lin, violation lin p'.xs us = max (sc (us 0) - 1) 0 := by
    intro us
    have e1 : violation lin p'.xs us = (∑ t ∈ Finset.range 1, ∑ i : Fin 1, rowViol (K := ℚ) none (if t = 0 then some 1 else none)
      (sc (us t))) + ∑ i : Fin 1, rowViol (K := ℚ) none none 0 := rfl
    rw [e1]
    simp [rowViol, sc]
  refine ⟨p', rfl, hK, ?_, fun _ _ => 1, ?_, ?_⟩
  · rintro ⟨h1, _⟩
    have := (h1 0 Nat.zero_lt_one (0 : Fin 1)).1 (by rw [show p'.q.y 0 (0 : Fin 1) = 1 from hy]; norm_num)
    have e : (some (1 : ℚ)) = some (sc (p'.us 0)) := this
    rw [hu] at e
    exact absurd e (by decide)
  · rw [hviol]; simp [sc]
  · rw [hcost, hcost, hu]; norm_num [sc]

/-- C73 applies to that run. -/
example : PyCSQP.Reachable pyLin := .options _ _ _ _ _ _ _ _ _ (.new true (Data.zero lin))
example : ∀ x, lin.integrate x 0 = x := fun (x : ℚ) => add_zero x

/-! ### C74: twins that move -/

/-- a C++ solver and a Python object for `clq`: merit line search, two QP iterations, no regularization. -/
def twinC : CSQP (clq 1 1 1 1 1) :=
  let s := CSQP.new (Data.zero (clq 1 1 1 1 1)) (fun _ _ => 0) (fun _ _ => 0) 0
  { s with c := { s.c with maxQP := 2, useFilter := false, removeReg := true, maxTime := 1 } }
def twinP : PyCSQP (clq 1 1 1 1 1) :=
  let p := PyCSQP.new false (Data.zero (clq 1 1 1 1 1))
  { p with c := { p.c with maxQP := 2 } }
/-- the guess. -/
def twinX : Traj (clq 1 1 1 1 1) := fun _ => (1 : ℚ)
def twinU : Ctrls (clq 1 1 1 1 1) := fun _ _ => (1 / 2 : ℚ)

theorem twin_conf : SameQPConf twinP.c twinC.c := by
  have h := C74_default_conf (P := clq 1 1 1 1 1) false (Data.zero _) (Data.zero _) (fun _ _ => 0) (fun _ _ => 0) 0
  exact ⟨h.sigma, h.alpha, h.interval, h.two, rfl, h.rhoMin, h.rhoMax, h.rhoBase, h.adaptTol, h.epsAbs, h.epsRel, h.rel, h.eqGuess, h.resetY,
    h.resetRho, h.heuristic, h.osqp⟩

theorem twin_start : Twin 0 (twinP.start (some twinX) (some twinU)) (twinC.start world (some twinX) (some twinU) 5 0) :=
  C74_pycsqp_fresh false (Data.zero _) (Data.zero _) (Data.Tail.refl _) (fun _ _ => 0) (fun _ _ => 0) 0 world twinX twinU 5 0 (by decide) twinC.c rfl
    twinP.c rfl twin_conf _ _ _

theorem twin_merit : SameMerit (twinP.start (some twinX) (some twinU)) (twinC.start world (some twinX) (some twinU) 5 0) := by
  have hc : (twinC.start world (some twinX) (some twinU) 5 0).c = twinC.c := rfl
  refine ⟨rfl, by rw [hc]; rfl, by rw [hc]; rfl, by rw [hc]; rfl, ?_, ?_, by rw [hc]; rfl, by rw [hc]; rfl, rfl⟩
  · change (0 : ℚ) ≤ lit 10; rw [lit_exact]; norm_num
  · change (0 : ℚ) ≤ lit 10; rw [lit_exact]; norm_num

theorem clq_plain : PlainRows (clq 1 1 1 1 1) := by
  intro t ht i l u hl hu
  cases hl

/-- no trial cost exceeds `1e30` (one node). -/
def noBlow (q : CVars (clq 1 1 1 1 1)) : Bool := (List.range 10).all fun k =>
  !bad (sumUp 1 (nodeCost (clq 1 1 1 1 1) (stepX _ (Function.update twinX 0 (1 : ℚ)) q.dx (PySQP.halve k)) (stepU _ twinU q.du (PySQP.halve k)))) &&
  !bad (trajCost (clq 1 1 1 1 1) (stepX _ (Function.update twinX 0 (1 : ℚ)) q.dx (PySQP.halve k)) (stepU _ twinU q.du (PySQP.halve k)))

/-- the C++ solver completes its first iteration with a full step that moves the control. -/
theorem twinC_moves : (CSQP.body world 20 (twinC.start world (some twinX) (some twinU) 5 0)).map
    (fun r => (decide (r.1 = .next), r.2.acc, decide (r.2.q.reached = false), decide (sc (r.2.us 0) = 1 / 2), noBlow r.2.q.v)) =
    some (true, [1], true, false, true) := by decide +kernel

/-- **C74 is not vacuous**: the C++ solver takes a step that moves it, within the hypotheses, and the Python object has either returned true
or is its twin after that step. -/
theorem C74_example : ∃ s', CSQP.body world 20 (twinC.start world (some twinX) (some twinU) 5 0) = some (.next, s') ∧ s'.us 0 ≠ twinU 0 ∧
    ((∃ p, Heads pl (twinP.start (some twinX) (some twinU)) 1 p ∧ Twin 1 p { s' with iter := s'.iter + 1 }) ∨
     ∃ p1, dirAt pl 0 (twinP.start (some twinX) (some twinU)) = .ok p1 ∧ passes p1 = true) := by
  have h := twinC_moves
  cases hb : CSQP.body world 20 (twinC.start world (some twinX) (some twinU) 5 0) with
  | none => rw [hb] at h; cases h
  | some r =>
    obtain ⟨r, s'⟩ := r
    rw [hb] at h
    simp only [Option.map_some, Option.some.injEq, Prod.mk.injEq, decide_eq_true_eq, decide_eq_false_iff_not] at h
    obtain ⟨rfl, h2, h3, h4, h5⟩ := h
    refine ⟨s', rfl, fun e => h4 ?_, ?_⟩
    · rw [e]; rfl
    · have hrun : CppRun world 20 (twinC.start world (some twinX) (some twinU) 5 0) 1 { s' with iter := s'.iter + 1 } := by
        refine .next .zero hb h3 (fun k hk hblow => ?_) (fun e => ?_)
        · unfold noBlow at h5
          rw [List.all_eq_true] at h5
          have := h5 k (List.mem_range.mpr hk)
          rw [Bool.and_eq_true, Bool.not_eq_true', Bool.not_eq_true'] at this
          rcases hblow with ⟨t, ht, e⟩ | e
          · have ht0 : t = 0 := Nat.lt_one_iff.mp ht
            subst ht0
            exact absurd e (by rw [show ∀ b, b = true ↔ b = true from fun _ => Iff.rfl]; intro e; exact absurd (e.symm.trans this.1) (by decide))
          · exact absurd (e.symm.trans this.2) (by decide)
        · rw [h2] at e
          have : (1 : ℚ) = PySQP.halve 9 := by
            rw [show (twinC.start world (some twinX) (some twinU) 5 0).acc = [] from rfl, List.nil_append] at e
            exact (List.cons.inj e).1
          rw [halve_exact] at this
          norm_num at this
      rcases C74_pycsqp_lockstep (L := pl) llt1_exact rfl (.inl rfl) clq1_sym clq_plain Nat.one_pos twin_start twin_merit (by decide) hrun with
        ⟨p, a1, a2, -⟩ | ⟨m, p, sm, p1, a1, a2, -, -, a5, a6⟩
      · exact .inl ⟨p, a1, a2⟩
      · have hm0 : m = 0 := by omega
        subst hm0
        cases a2
        exact .inr ⟨p1, a5, a6⟩

/-! ### C75: the filter stalls at an infeasible point -/

/-- One control with cost `u²/2`, the constraint `u ≥ 1` and the dynamics `x⁺ = u²`. -/
def sqr : Problem ℚ where
  T := 1
  ndx := 1
  nu _ := 1
  ng _ := 1
  X := ℚ
  integrate x d := x + d 0
  diff a b := fun _ => b - a
  zeroX := 0
  x0 := 0
  calcR _ _ u := ⟨u 0 * u 0 / 2, u 0 * u 0, fun _ => u 0⟩
  calcDiffR _ _ u := ⟨fun _ => 0, fun _ => u 0, m1 0, m1 0, m1 1, m1 0, m1 (2 * u 0), m1 0, m1 1⟩
  calcT _ := ⟨0, fun _ => 0⟩
  calcDiffT _ := ⟨fun _ => 0, m1 1, m1 0⟩
  badX _ := false
  lb t _ := if t = 0 then some 1 else none
  ub _ _ := none

/-- the candidate is the guess. -/
def AtZero (p : PyCSQP sqr) : Prop := p.xs 0 = (0 : ℚ) ∧ p.xs 1 = (0 : ℚ) ∧ sc (p.us 0) = 0

theorem sqr_eval (xs : Traj sqr) (us : Ctrls sqr) : trajCost sqr xs us = sc (us 0) * sc (us 0) / 2 ∧
    shootGapNorm sqr xs us = |sc (us 0) * sc (us 0) - (let x : ℚ := xs 1; x)| := by
  constructor
  · change (0 + sc (us 0) * sc (us 0) / 2) + 0 = _
    ring
  · unfold shootGapNorm
    rw [sumUp_exact]
    change ∑ t ∈ Finset.range 1, _ = _
    rw [Finset.sum_range_one, norm1_exact]
    exact Fin.sum_univ_one _

/-- **C75, a stall.**  On `sqr`, from the default guess `u = 0`, the Python class with a filter line search, any filter memory and any
options of the QP solver that allow an iteration returns False at the guess, where the constraint is violated by 1, for every number of
iterations and every factorisation routine: every step towards the constraint increases both the cost and the gap. -/
theorem C75_filter_stall (L : PyLLT ℚ) (c : PyConf ℚ) (hc : c.interval ≠ 0) (hx : c.maxQP ≠ 0 ∨ c.eqGuess = true) (n : ℕ) (hn : 0 < n) (m : ℕ) :
    ∃ p', PyCSQP.solve L none none m { PyCSQP.new true (Data.zero sqr) with c := c, filterSize := n } = (.ret false, p') ∧ AtZero p' ∧
      conViol sqr p'.xs p'.us = 1 := by
  have hcon : ∀ p : PyCSQP sqr, AtZero p → conViol sqr p.xs p.us = 1 := by
    rintro p ⟨-, -, hu⟩
    have e1 : violation sqr p.xs p.us = (∑ t ∈ Finset.range 1, ∑ i : Fin 1, rowViol (K := ℚ) (if t = 0 then some 1 else none) none
      (sc (p.us t))) + ∑ i : Fin 1, rowViol (K := ℚ) none none 0 := rfl
    rw [conViol_exact, e1]
    simp [rowViol, hu]
  let p : PyCSQP sqr := { PyCSQP.new true (Data.zero sqr) with c := c, filterSize := n }
  let s : PyCSQP sqr := p.start none none
  have hgapT : p.gap sqr.T = zeroV ℚ sqr.ndx := rfl
  have hgapTry : p.gapTry sqr.T = zeroV ℚ sqr.ndx := rfl
  have hs0 : s.q.Zero0 := ⟨rfl, rfl⟩
  -- no iteration passes the test
  have hnp : ∀ (i : ℕ) (q q1 : PyCSQP sqr), Heads L s i q → AtZero q → dirAt L i q = .ok q1 → passes q1 = false := by
    intro i q q1 hq hz hd
    obtain ⟨hat, ex, eu⟩ := dirAt_atPoint hd
    have h1 := ((kktCheck_le q1 q1.kktCheck.KKT (kktCheck_nonneg q1)).1 le_rfl).2.2.2.2
    rw [hat.con, hcon q1 ⟨by rw [ex]; exact hz.1, by rw [ex]; exact hz.2.1, by rw [eu]; exact hz.2.2⟩] at h1
    have htol : q1.tol = s.tol := (keep_all (keep_dirAt hd)).2.2.2.2.1.trans (keep_all hq.keep).2.2.2.2.1
    refine decide_eq_false ?_
    rw [htol, show s.tol = lit (1 / 10 ^ 6) from rfl, lit_exact, not_lt]
    refine le_trans ?_ h1
    norm_num
  -- the candidate stays
  have hstay : ∀ (i : ℕ) (q q1 q' : PyCSQP sqr) (r : PySQP.Search), Heads L s i q → AtZero q → dirAt L i q = .ok q1 →
      search i 10 (PySQP.halve 0) q1.kktCheck.pushFilter = (r, q') → AtZero q' := by
    intro i q q1 q' r hq hz hd hse
    obtain ⟨hat, ex, eu⟩ := dirAt_atPoint hd
    have hc1 : q.c = c := (keep_all hq.keep).1
    have hf : Follows q.evaluate.env q1.q := by
      have henv : (q.evaluate.resetFirst i).env = q.evaluate.env := by unfold resetFirst; split <;> rfl
      unfold dirAt computeDirection at hd
      rw [henv] at hd
      obtain ⟨q2, hq2, e⟩ := Res.map_eq_ok hd
      subst e
      exact direction_follows hq2 (by change q.c.maxQP ≠ 0 ∨ q.c.eqGuess = true; rw [hc1]; exact hx)
    have hdx0 : q1.q.dx 0 = 0 := (zero_dirAt (hq.zero0 hs0) (.inl hd)).1
    have hu1 : sc (q1.us 0) = 0 := by rw [eu]; exact hz.2.2
    have hdx1 : q1.q.dx 1 = 0 := by
      have h := hf 0 Nat.one_pos
      rw [hdx0, mulVec_zero, show q.evaluate.env.d = q.evaluate.data from rfl, (evaluate_fresh q).2.run 0 Nat.one_pos] at h
      have hgz : q.evaluate.env.gap 0 = 0 := by
        rw [show q.evaluate.env.gap = q.evaluate.gap from rfl, (evaluate_gap q).1 0 Nat.one_pos]
        have hx1 : q.xs 1 = (0 : ℚ) := hz.2.1
        have hu0 : q.us 0 (0 : Fin 1) = 0 := hz.2.2
        funext j
        change q.us 0 (0 : Fin 1) * q.us 0 (0 : Fin 1) - (let x : ℚ := q.xs 1; x) = 0
        rw [hu0, hx1]
        norm_num
      rw [hgz, add_zero] at h
      rw [show (q1.q.dx 1 : Vec ℚ sqr.ndx) = q1.q.dx (0 + 1) from rfl, h, zero_add]
      have hu0 : q.us 0 (0 : Fin 1) = 0 := hz.2.2
      have hF : (sqr.calcDiffR 0 (q.xs 0) (q.us 0)).Fu = m1 (2 * q.us 0 (0 : Fin 1)) := rfl
      rw [hF, hu0]
      funext j
      change ∑ k : Fin 1, (2 * 0 : ℚ) * q1.q.du 0 k = 0
      simp
    have hX : ∀ a : ℚ, stepX sqr q1.xs q1.q.dx a 0 = (0 : ℚ) ∧ stepX sqr q1.xs q1.q.dx a 1 = (0 : ℚ) := by
      intro a
      have z0 : q1.xs 0 = (0 : ℚ) := by rw [ex]; exact hz.1
      have z1 : q1.xs 1 = (0 : ℚ) := by rw [ex]; exact hz.2.1
      unfold stepX
      rw [hdx0, hdx1, z0, z1, sv_exact, smul_zero]
      exact ⟨add_zero (0 : ℚ), add_zero (0 : ℚ)⟩
    have hU : ∀ a : ℚ, sc (stepU sqr q1.us q1.q.du a 0) = a * sc (q1.q.du 0) := by
      intro a
      unfold stepU
      rw [sv_exact]
      change sc (q1.us 0) + a * sc (q1.q.du 0) = _
      rw [hu1, zero_add]
    have hold : AtZero q1.kktCheck.pushFilter := ⟨by change q1.xs 0 = _; rw [ex]; exact hz.1, by change q1.xs 1 = _; rw [ex]; exact hz.2.1, hu1⟩
    rcases search_spec i 10 (Trials.refl q1.kktCheck.pushFilter) 0 hse with ⟨-, k, -, -, -, hg, -, ht⟩ | ⟨-, -, -, ht⟩ | ⟨-, -, -, -, ht⟩
    · have hpf : q1.kktCheck.pushFilter.useFilter = true :=
        (keep_all (keep_dirAt hd)).2.2.2.2.2.1.trans (keep_all hq.keep).2.2.2.2.2.1
      have hgT : q1.gapTry sqr.T = 0 := (keep_all (keep_dirAt hd)).2.2.2.2.2.2.2.2.2.trans ((keep_all hq.keep).2.2.2.2.2.2.2.2.2.trans hgapTry)
      have hdu : sc (q1.q.du 0) = 0 := by
        by_contra hne
        unfold Good at hg
        rw [if_pos hpf, C75_pycsqp_filter hn hgapT hq hd] at hg
        have hpos : (0 : ℚ) < PySQP.halve k * sc (q1.q.du 0) * (PySQP.halve k * sc (q1.q.du 0)) := by
          apply mul_self_pos.mpr
          refine mul_ne_zero ?_ hne
          rw [halve_exact]
          positivity
        refine hg ⟨i, q, le_rfl, Nat.lt_add_of_pos_right hn, hq, decide_eq_true ?_, decide_eq_true ?_⟩
        · rw [show trialCost q1.kktCheck.pushFilter (PySQP.halve k) = trajCost sqr (stepX sqr q1.xs q1.q.dx (PySQP.halve k))
            (stepU sqr q1.us q1.q.du (PySQP.halve k)) from rfl, (sqr_eval _ _).1, (sqr_eval _ _).1, hU, hz.2.2]
          linarith
        · rw [show trialGap q1.kktCheck.pushFilter (PySQP.halve k) = shootGapNorm sqr (stepX sqr q1.xs q1.q.dx (PySQP.halve k))
            (stepU sqr q1.us q1.q.du (PySQP.halve k)) + norm1 (q1.gapTry sqr.T) from rfl, hgT, (sqr_eval _ _).2, (sqr_eval _ _).2, hU, hz.2.2, hz.2.1,
            (hX _).2, norm1_exact, norm1_exact]
          simp only [zeroV, Pi.zero_apply, abs_zero, Finset.sum_const_zero, add_zero, mul_zero, sub_zero]
          rw [abs_of_pos hpos]
          exact hpos
      refine ⟨?_, ?_, ?_⟩
      · rw [ht.xs 0 (Nat.zero_le _)]; exact (hX _).1
      · rw [ht.xs 1 le_rfl]; exact (hX _).2
      · rw [ht.us 0 Nat.one_pos]
        change sc (stepU sqr q1.us q1.q.du (PySQP.halve k) 0) = 0
        rw [hU, hdu, mul_zero]
    · obtain ⟨_, _, _, _, _, _, _, _, _, rfl, -⟩ := ht
      exact hold
    · obtain ⟨_, _, _, _, _, _, _, _, _, rfl, -⟩ := ht
      exact hold
  have hall : ∀ (i : ℕ) (q : PyCSQP sqr), Heads L s i q → AtZero q := by
    intro i q hq
    induction hq with
    | zero => exact ⟨rfl, rfl, rfl⟩
    | succ h hs ih =>
      obtain ⟨q1, h1, -, r, h2, -⟩ := hs.run
      exact hstay _ _ _ _ _ h ih h1 h2
  generalize hr : PyCSQP.solve L none none m p = r
  obtain ⟨o, p'⟩ := r
  have key : o = .ret false ∧ AtZero p' := by
    rcases solve_cases hr with ⟨j, q, -, hq, he⟩ | ⟨q, hq, ⟨-, ho, rfl⟩ | ⟨e, -⟩ | ⟨e, -⟩⟩
    · cases he with
      | zeroDiv h =>
        have := (dirAt_exn_iff L j q).1 ⟨_, h⟩
        rw [(keep_all hq.keep).1] at this
        exact absurd this.1 hc
      | conv h hk => rw [hnp j q _ hq (hall j q hq) h] at hk; cases hk
      | gaveUp h hk hs => exact ⟨rfl, hstay j q _ _ _ hq (hall j q hq) h hs⟩
    · exact ⟨ho, hall _ _ hq⟩
    · cases e
    · cases e
  obtain ⟨rfl, hz⟩ := key
  exact ⟨p', rfl, hz, hcon p' hz⟩

/-- the C++ solver (filter of size 1, two QP iterations, no regularization) on the same problem. -/
def sqrC : CSQP sqr :=
  let s := CSQP.new (Data.zero sqr) (fun _ _ => 0) (fun _ _ => 0) 0
  { s with c := { s.c with maxQP := 2, useFilter := true, removeReg := true, maxTime := 1 } }

/-- **C75, the C++ solver moves.**  Its filter has the constraint violation as a third criterion: from the same guess its first iteration
takes the full step, towards the constraint. -/
theorem C75_cpp_moves : (CSQP.body world 20 (sqrC.start world none none 5 0)).map
    (fun r => (decide (r.1 = .next), r.2.acc, decide (0 < sc (r.2.us 0)), decide (conViol sqr r.2.xs r.2.us < 1))) =
    some (true, [1], true, true) := by decide +kernel

end Ex
end Mim
