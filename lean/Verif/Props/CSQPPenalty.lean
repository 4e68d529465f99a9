import Verif.Lemmas.CSQPCalls
import Verif.Base.Dbl
import Verif.Spec.ExamplesC

/-!
# Penalties of SolverCSQP: C29, C30, C31

All statements are about every iteration (`AtIter`) of every QP (`Calls`) of every solve, from any state of the solver.
-/
set_option linter.unusedSectionVars false
set_option linter.unusedSimpArgs false

namespace Mim
open Spec
section
variable {F : Type} [Add F] [Sub F] [Mul F] [Div F] [Neg F] [Zero F] [One F] [FloatOps F] [SqrtOps F] {P : Problem F}
variable {W : World F} {fuel : ℕ} {xs : Option (Traj P)} {us : Option (Ctrls P)} {m : ℕ} {ri : F} {s0 : CSQP P}

/-! ## C30: the penalty of each row -/

/-- both bounds infinite. -/
def RowFree (P : Problem F) (t : ℕ) (i : Fin (P.ng t)) : Prop := P.lb t i = none ∧ P.ub t i = none
/-- bounds equal up to `1e-6`. -/
def RowEq (P : Problem F) (t : ℕ) (i : Fin (P.ng t)) : Prop :=
  ∃ l u, P.lb t i = some l ∧ P.ub t i = some u ∧ leb (absf (l - u)) (lit (1 / 10 ^ 6)) = true
/-- bounds crossed by more than `1e-6`. -/
def RowCrossed (P : Problem F) (t : ℕ) (i : Fin (P.ng t)) : Prop :=
  ∃ l u, P.lb t i = some l ∧ P.ub t i = some u ∧ leb (absf (l - u)) (lit (1 / 10 ^ 6)) = false ∧ ltb l u = false
/-- all other rows: exactly one finite bound, or two with `l < u` apart. -/
def RowIneq (P : Problem F) (t : ℕ) (i : Fin (P.ng t)) : Prop := ¬ RowFree P t i ∧ ¬ RowEq P t i ∧ ¬ RowCrossed P t i

/-- the penalties a base penalty `r` stands for. -/
structure Penalties (c : CConf F) (P : Problem F) (r : F) (rho inv : (t : ℕ) → Vec F (P.ng t)) : Prop where
  free : ∀ t, t ≤ P.T → ∀ i, RowFree P t i → rho t i = c.rhoMin ∧ inv t i = 1 / c.rhoMin
  eq : ∀ t, t ≤ P.T → ∀ i, RowEq P t i → rho t i = lit (10 ^ 3) * r ∧ inv t i = 1 / (lit (10 ^ 3) * r)
  ineq : ∀ t, t ≤ P.T → ∀ i, RowIneq P t i → rho t i = r ∧ inv t i = 1 / r

theorem applyRho_penalties (c : CConf F) (r : F) (v : CVars P) :
    Penalties c P r (applyRho c r v).rho (applyRho c r v).inv := by
  refine ⟨fun t ht i hi => ?_, fun t ht i hi => ?_, fun t ht i hi => ?_⟩
  · simp only [applyRho, if_pos ht]
    rw [hi.1, hi.2]
    exact ⟨rfl, rfl⟩
  · simp only [applyRho, if_pos ht]
    obtain ⟨l, u, h1, h2, h3⟩ := hi
    rw [h1, h2]
    simp only [rhoRow, h3, if_true, and_self]
  · simp only [applyRho, if_pos ht]
    obtain ⟨h1, h2, h3⟩ := hi
    cases hl : P.lb t i with
    | none =>
      cases hu : P.ub t i with
      | none => exact absurd ⟨hl, hu⟩ h1
      | some u => exact ⟨rfl, rfl⟩
    | some l =>
      cases hu : P.ub t i with
      | none => exact ⟨rfl, rfl⟩
      | some u =>
        simp only [rhoRow]
        cases h4 : leb (absf (l - u)) (lit (1 / 10 ^ 6)) with
        | true => exact absurd ⟨l, u, hl, hu, h4⟩ h2
        | false =>
          cases h5 : ltb l u with
          | false => exact absurd ⟨l, u, hl, hu, h4, h5⟩ h3
          | true => simp only [Bool.false_eq_true, if_false, if_true, and_self]

theorem applyRho_crossed (c : CConf F) (r : F) (v : CVars P) {t : ℕ} {i : Fin (P.ng t)} (h : RowCrossed P t i) :
    (applyRho c r v).rho t i = v.rho t i ∧ (applyRho c r v).inv t i = v.inv t i := by
  obtain ⟨l, u, h1, h2, h3, h4⟩ := h
  by_cases ht : t ≤ P.T
  · simp only [applyRho, if_pos ht, h1, h2, rhoRow, h3, h4, Bool.false_eq_true, if_false, and_self]
  · simp only [applyRho, if_neg ht, and_self]

theorem updateLag_inv (E : QEnv P) (q : CQP P) : (q.updateLag E).v.inv = q.v.inv := (updateLag_ok (E := E) q).inv

/-- invariants about the penalties only. -/
theorem penalty_inv (E : QEnv P) (I : F → ((t : ℕ) → Vec F (P.ng t)) → ((t : ℕ) → Vec F (P.ng t)) → Prop)
    (hr : ∀ r r0 (v : CVars P), I r0 v.rho v.inv → r = E.c.rhoBase ∨
        (∃ n s, r = rhoEstimate E.c n s ∧ (ltb (s * E.c.adaptTol) r || ltb r (s / E.c.adaptTol)) = true) →
      I r (applyRho E.c r v).rho (applyRho E.c r v).inv) :
    CQP.Inv E (fun q => I q.rhoSparse q.v.rho q.v.inv) where
  bwd _ _ h := h
  ctl _ _ _ _ _ _ _ _ _ h := h
  reset q h := by
    unfold CQP.resetParams
    cases E.c.resetRho
    · exact h
    · exact hr _ _ _ h (.inl rfl)
  plain q h := h
  fwd q h := h
  lag q h := by
    rw [updateLag_rho, updateLag_inv]
    exact h
  rho q r h1 h := hr _ _ _ h (.inr h1)

/-- **C30.** At every iteration of every QP of a solve, the rows have the penalties that belong to the current base penalty
(`get_rho_sparse()`): `rho_min` for free rows, `1000 r` for equality rows, `r` for all others, with their inverses. -/
theorem C30_csqp_row_penalties {s : CSQP P} (h : CSQP.Calls W fuel xs us m ri s0 s) {q : CQP P}
    (hq : AtIter W.llt (s.env W) s.q q) : Penalties s0.c P q.rhoSparse q.v.rho q.v.inv := by
  rw [← h.conf]
  exact h.iter_inv (I := fun c q => Penalties c P q.rhoSparse q.v.rho q.v.inv)
    (fun E => penalty_inv E (fun r a b => Penalties E.c P r a b) fun r _ v _ _ => applyRho_penalties E.c r v)
    (fun c q => applyRho_penalties c c.rhoBase q.v) hq

/-- **C30, crossed rows.** A row whose bounds are crossed by more than `1e-6` keeps the penalty the solver was constructed
with (uninitialised memory) through any solve. -/
theorem C30_csqp_crossed_rows {s : CSQP P} (h : CSQP.Calls W fuel xs us m ri s0 s) {q : CQP P}
    (hq : AtIter W.llt (s.env W) s.q q) {t : ℕ} {i : Fin (P.ng t)} (hc : RowCrossed P t i) :
    q.v.rho t i = s0.q.v.rho t i ∧ q.v.inv t i = s0.q.v.inv t i := by
  have hI : ∀ E : QEnv P, CQP.Inv E (fun q : CQP P => q.v.rho t i = s0.q.v.rho t i ∧ q.v.inv t i = s0.q.v.inv t i) :=
    fun E => penalty_inv E (fun _ a b => a t i = s0.q.v.rho t i ∧ b t i = s0.q.v.inv t i) fun r _ v hv _ => by
      obtain ⟨e1, e2⟩ := applyRho_crossed E.c r v hc
      rw [e1, e2]; exact hv
  refine hq.inv (hI _) (h.qinv hI (fun c q hv => ?_) (fun _ _ h => h) ⟨rfl, rfl⟩)
  obtain ⟨e1, e2⟩ := applyRho_crossed c c.rhoBase q.v hc
  change (applyRho c c.rhoBase q.v).rho t i = _ ∧ (applyRho c c.rhoBase q.v).inv t i = _
  rw [e1, e2]; exact hv

/-! ## C29: the base penalty -/

section
variable [IEEE F]

/-- the estimate, if it is taken, is in range: special values of the residual ratio or of the square root do not matter. -/
theorem rhoEstimate_range {c : CConf F} (hm : leb c.rhoMin c.rhoMax = true) {n : CNorms F} {s r : F}
    (hr : r = rhoEstimate c n s) (ht : (ltb (s * c.adaptTol) r || ltb r (s / c.adaptTol)) = true) :
    leb c.rhoMin r = true ∧ leb r c.rhoMax = true := by
  have hnan : isnan r = false := by
    cases h : isnan r with
    | false => rfl
    | true => rw [IEEE.ltb_nan_right _ _ h, IEEE.ltb_nan_left _ _ h] at ht; cases ht
  have h1 : isnan c.rhoMin = false := by
    cases h : isnan c.rhoMin with
    | false => rfl
    | true => rw [IEEE.leb_nan_left _ _ h] at hm; cases hm
  have h2 : isnan c.rhoMax = false := by
    cases h : isnan c.rhoMax with
    | false => rfl
    | true => rw [IEEE.leb_nan_right _ _ h] at hm; cases hm
  unfold rhoEstimate at hr
  simp only [] at hr
  generalize hx : SqrtOps.sqrt ((n.p * n.dr) / (n.d * n.pr)) * s = x at hr
  have key : ∀ y : F, isnan y = false → leb c.rhoMin y = true → leb c.rhoMin (cppMin y c.rhoMax) = true ∧
      leb (cppMin y c.rhoMax) c.rhoMax = true := by
    intro y hy hl
    unfold cppMin
    cases h : ltb c.rhoMax y with
    | true =>
      simp only [if_true]
      refine ⟨hm, ?_⟩
      rw [IEEE.leb_not_ltb _ _ h2 h2]
      cases h5 : ltb c.rhoMax c.rhoMax with
      | false => rfl
      | true => exact absurd (IEEE.ltb_irrefl c.rhoMax) (by rw [h5]; simp)
    | false =>
      simp only [Bool.false_eq_true, if_false]
      exact ⟨hl, by rw [IEEE.leb_not_ltb _ _ hy h2, h]; rfl⟩
  rw [hr]
  have hmm : leb c.rhoMin c.rhoMin = true := by
    rw [IEEE.leb_not_ltb _ _ h1 h1, IEEE.ltb_irrefl]; rfl
  unfold cppMax
  cases h : ltb x c.rhoMin with
  | true => simp only [if_true]; exact key _ h1 hmm
  | false =>
    simp only [Bool.false_eq_true, if_false]
    rw [hr] at hnan
    unfold cppMax at hnan
    rw [h] at hnan
    simp only [Bool.false_eq_true, if_false] at hnan
    have hxn : isnan x = false := by
      unfold cppMin at hnan
      cases h6 : ltb c.rhoMax x with
      | true =>
        cases h7 : isnan x with
        | false => rfl
        | true => rw [IEEE.ltb_nan_right _ _ h7] at h6; cases h6
      | false => rw [h6] at hnan; simpa using hnan
    exact key x hxn (by rw [IEEE.leb_not_ltb _ _ h1 hxn, h]; rfl)

/-- **C29.** If `rho_min <= rho_base <= rho_max` (and `rho_min <= rho_max`, in particular no NaN), the base penalty is within
`[rho_min, rho_max]` — hence not NaN — at every iteration of every QP of every solve, for every behaviour of `sqrt` and all
values of the residual norms including NaN and infinities, and whatever the base penalty was before the solve. -/
theorem C29_csqp_rho_range (h1 : leb s0.c.rhoMin s0.c.rhoBase = true) (h2 : leb s0.c.rhoBase s0.c.rhoMax = true)
    (h3 : leb s0.c.rhoMin s0.c.rhoMax = true) {s : CSQP P} (h : CSQP.Calls W fuel xs us m ri s0 s) {q : CQP P}
    (hq : AtIter W.llt (s.env W) s.q q) :
    leb s0.c.rhoMin q.rhoSparse = true ∧ leb q.rhoSparse s0.c.rhoMax = true ∧ isnan q.rhoSparse = false := by
  have hr : leb s0.c.rhoMin q.rhoSparse = true ∧ leb q.rhoSparse s0.c.rhoMax = true := by
    have := h.iter_inv (I := fun c q => leb c.rhoMin c.rhoBase = true → leb c.rhoBase c.rhoMax = true →
        leb c.rhoMin c.rhoMax = true → leb c.rhoMin q.rhoSparse = true ∧ leb q.rhoSparse c.rhoMax = true)
      (fun E => penalty_inv E (fun r _ _ => leb E.c.rhoMin E.c.rhoBase = true → leb E.c.rhoBase E.c.rhoMax = true →
        leb E.c.rhoMin E.c.rhoMax = true → leb E.c.rhoMin r = true ∧ leb r E.c.rhoMax = true) ?_)
      (fun c q a b _ => ⟨a, b⟩) hq
    · rw [h.conf] at this
      exact this h1 h2 h3
    · rintro r r0 v _ (rfl | ⟨n, s, hr, ht⟩) a b e
      · exact ⟨a, b⟩
      · exact rhoEstimate_range e hr ht
  refine ⟨hr.1, hr.2, ?_⟩
  cases hn : isnan q.rhoSparse with
  | false => rfl
  | true => rw [IEEE.leb_nan_left _ _ hn] at hr; cases hr.2

end

/-! ## C31: `set_rho_sparse` -/

namespace CSQP

theorem dir_setRhoSparse (r : F) {s : CSQP P} (h : s.c.resetRho = true) : (s.setRhoSparse r).dir W = s.dir W := by
  have e : (s.setRhoSparse r).q.resetParams s.c = s.q.resetParams s.c := by
    unfold CQP.resetParams
    rw [h]
    rfl
  have e2 : (s.setRhoSparse r).q.computeDirection W.llt ((s.setRhoSparse r).env W) =
      s.q.computeDirection W.llt (s.env W) := by
    unfold CQP.computeDirection
    change (((s.setRhoSparse r).q.resetParams s.c).warm W.llt (s.env W)).bind _ = _
    rw [e]
    rfl
  unfold dir
  rw [e2]
  rfl

theorem direction_setRhoSparse (r : F) {s : CSQP P} (h : s.c.resetRho = true) (hr : s.q.reached = false) :
    direction W fuel true (s.setRhoSparse r) = direction W fuel true s := by
  unfold direction
  rw [dir_setRhoSparse r h]
  have e : retry W true fuel (s.setRhoSparse r) = retry W true fuel s := by
    cases fuel with
    | zero => rfl
    | succ n =>
      unfold retry
      rw [dir_setRhoSparse r h, show (s.setRhoSparse r).q.reached = false from hr, hr]
      rfl
  rw [e]
  rfl

/-- the first iteration forgets the value unless the time is up. -/
theorem body_setRhoSparse (r : F) {s : CSQP P} (h0 : s.iter = 0) (hr : s.q.reached = false)
    (hu : s.q.timeUp (s.env W) = false) : body W fuel (s.setRhoSparse r) = body W fuel s := by
  have e : direction W fuel true (prepare { s.setRhoSparse r with q := { (s.setRhoSparse r).q with tick := (s.setRhoSparse r).q.tick + 1 } }) =
      direction W fuel true (prepare { s with q := { s.q with tick := s.q.tick + 1 } }) := by
    cases hc : s.c.resetRho with
    | false =>
      have e1 : prepare { s.setRhoSparse r with q := { (s.setRhoSparse r).q with tick := (s.setRhoSparse r).q.tick + 1 } } =
          prepare { s with q := { s.q with tick := s.q.tick + 1 } } := by
        unfold prepare
        simp only []
        rw [if_pos ⟨h0, hc⟩, if_pos ⟨h0, hc⟩]
        rfl
      rw [e1]
    | true =>
      have hf : ∀ x : CSQP P, x.c.resetRho = true → prepare x = x.calcEval := by
        intro x hx
        unfold prepare
        simp only []
        rw [if_neg]
        rintro ⟨_, h⟩
        change x.c.resetRho = false at h
        rw [hx] at h; cases h
      rw [hf { s.setRhoSparse r with q := { (s.setRhoSparse r).q with tick := (s.setRhoSparse r).q.tick + 1 } } hc,
        hf { s with q := { s.q with tick := s.q.tick + 1 } } hc]
      exact direction_setRhoSparse (s := calcEval { s with q := { s.q with tick := s.q.tick + 1 } }) r hc hr
  unfold body
  simp only []
  rw [e]
  have e3 : (s.setRhoSparse r).q.timeUp ((s.setRhoSparse r).env W) = s.q.timeUp (s.env W) := rfl
  rw [e3, hu]
  rfl

theorem start_setRhoSparse (r : F) (s : CSQP P) : (s.setRhoSparse r).start W xs us m ri =
    if m = 0 then s.start W xs us m ri else (s.start W xs us m ri).setRhoSparse r := by
  by_cases hm : m = 0
  · subst hm; rfl
  · unfold start
    simp only [if_neg hm]
    rfl

/-- **C31.** Whatever value was passed to `set_rho_sparse`, a subsequent solve gives the same result: the same return value and
the same final state of the solver in every member, except that a solve whose very first clock check finds the time used up
(and which therefore computes nothing) leaves the passed value where it is. -/
theorem C31_csqp_set_rho_sparse (r : F) (s : CSQP P) :
    solve W fuel xs us m ri (s.setRhoSparse r) = solve W fuel xs us m ri s ∨
    (leb s.c.maxTime (W.clock (s.q.tick + 1) - W.clock s.q.tick) = true ∧
      ∃ s', solve W fuel xs us m ri s = some (.ret false, s') ∧ s'.nKKT = s.nKKT ∧ s'.nTry = s.nTry ∧
        solve W fuel xs us m ri (s.setRhoSparse r) = some (.ret false, s'.setRhoSparse r)) := by
  unfold solve
  rw [start_setRhoSparse]
  cases m with
  | zero => left; rfl
  | succ n =>
    rw [if_neg (Nat.succ_ne_zero n)]
    obtain ⟨hc, _, hr, hi⟩ := start_conf W xs us (n + 1) ri s
    have ht : (s.start W xs us (n + 1) ri).q.timeUp ((s.start W xs us (n + 1) ri).env W) =
        leb s.c.maxTime (W.clock (s.q.tick + 1) - W.clock s.q.tick) := by
      unfold start; simp only [if_neg (Nat.succ_ne_zero n)]; rfl
    have hk : (s.start W xs us (n + 1) ri).nKKT = s.nKKT ∧ (s.start W xs us (n + 1) ri).nTry = s.nTry := by
      unfold start; simp only [if_neg (Nat.succ_ne_zero n), and_self]
    generalize s.start W xs us (n + 1) ri = s1 at *
    cases hu : s1.q.timeUp (s1.env W) with
    | false =>
      left
      have := body_setRhoSparse (fuel := fuel) r hi hr hu
      unfold iterate
      rw [this]
    | true =>
      right
      refine ⟨by rw [← ht, hu], { s1 with q := { s1.q with tick := s1.q.tick + 1, reached := true } }, ?_, hk.1, hk.2, ?_⟩
      · have e : body W fuel s1 = some (.brk, { s1 with q := { s1.q with tick := s1.q.tick + 1, reached := true } }) := by
          unfold body; simp only []; rw [hu]; rfl
        unfold iterate
        rw [e]
        unfold extraIter
        simp
      · have e : body W fuel (s1.setRhoSparse r) = some (.brk, { s1.setRhoSparse r with
            q := { (s1.setRhoSparse r).q with tick := s1.q.tick + 1, reached := true } }) := by
          unfold body; simp only []
          have e3 : (s1.setRhoSparse r).q.timeUp ((s1.setRhoSparse r).env W) = s1.q.timeUp (s1.env W) := rfl
          rw [e3, hu]; rfl
        unfold iterate
        rw [e]
        unfold extraIter
        simp
        rfl

end CSQP
end

/-! ## non-vacuity -/
namespace Ex
open CSQP

/-- `linSolver` really calls `computeDirection` and gets into the QP loop: the hypotheses of C29 and C30 are met, with a row
of each of the classes free / one-sided. -/
theorem lin_called : ∃ s q, Calls world 20 none none 5 0 linSolver s ∧ AtIter world.llt (s.env world) s.q q :=
  ⟨_, _, Calls.head AtHead.start (by decide +kernel) (by decide +kernel) (.inl rfl), AtIter.first rfl⟩

example : leb linSolver.c.rhoMin linSolver.c.rhoBase = true ∧ leb linSolver.c.rhoBase linSolver.c.rhoMax = true ∧
    leb linSolver.c.rhoMin linSolver.c.rhoMax = true := by decide +kernel

example : RowFree lin 1 (0 : Fin 1) ∧ RowIneq lin 0 (0 : Fin 1) := by
  refine ⟨⟨rfl, rfl⟩, ?_, ?_, ?_⟩
  · rintro ⟨_, h⟩; cases h
  · rintro ⟨l, u, h, _⟩; cases h
  · rintro ⟨l, u, h, _⟩; cases h

/-- the penalties in that state. -/
example : ∃ q : CQP lin, ∃ s, Calls world 20 none none 5 0 linSolver s ∧ AtIter world.llt (s.env world) s.q q ∧
    q.v.rho 0 = (fun _ => q.rhoSparse) ∧ q.v.rho 1 = (fun _ => 1 / 10 ^ 6) := by
  obtain ⟨s, q, hs, hq⟩ := lin_called
  have h := C30_csqp_row_penalties hs hq
  refine ⟨q, s, hs, hq, funext fun i => ?_, funext fun i => ?_⟩
  · refine (h.ineq 0 (by decide) i ⟨?_, ?_, ?_⟩).1
    · rintro ⟨_, h⟩; cases h
    · rintro ⟨l, u, h, _⟩; cases h
    · rintro ⟨l, u, h, _⟩; cases h
  · refine (h.free 1 (by decide) i ⟨rfl, rfl⟩).1

/-- a problem with an equality row and a crossed row. -/
def mixed : Problem ℚ where
  T := 1
  ndx := 1
  nu _ := 1
  ng _ := 2
  X := ℚ
  integrate x d := x + d 0
  diff a b := fun _ => b - a
  zeroX := 0
  x0 := 0
  calcR _ x u := ⟨-(u 0), x, fun _ => u 0⟩
  calcDiffR _ _ _ := ⟨fun _ => 0, fun _ => -1, m1 0, m1 0, m1 0, m1 1, m1 0, Matrix.of fun _ _ => 0, Matrix.of fun _ _ => 1⟩
  calcT _ := ⟨0, fun _ => 0⟩
  calcDiffT _ := ⟨fun _ => 0, m1 0, Matrix.of fun _ _ => 0⟩
  badX _ := false
  lb _ i := if i.val = 0 then some 1 else some 2
  ub _ _ := some 1

example : RowEq mixed 0 (0 : Fin 2) ∧ RowCrossed mixed 0 (1 : Fin 2) :=
  ⟨⟨1, 1, rfl, rfl, by decide +kernel⟩, ⟨2, 1, rfl, rfl, by decide +kernel, by decide +kernel⟩⟩

/-- numbers for which the residual ratio is `0/0`: the NaN estimate is not taken. -/
example : (ltb ((Dbl.fin 1 : Dbl ℚ) * Dbl.fin 5) Dbl.nan || ltb Dbl.nan ((Dbl.fin 1 : Dbl ℚ) / Dbl.fin 5)) = false := by
  decide +kernel

end Ex
end Mim
