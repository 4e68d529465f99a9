import Verif.Lemmas.CSQPHist
import Verif.Lemmas.CSQPTry

/-!
# Two runs of `SolverCSQP` that differ in the iteration counter

Like `Lemmas/CSQPHist`; the counter matters for the reset of the penalties at iteration 0 and for how far the filter looks back.
-/
set_option autoImplicit false
set_option linter.unusedSectionVars false
set_option linter.unusedSimpArgs false

namespace Mim
open QPH
section
variable {F : Type} [Add F] [Sub F] [Mul F] [Div F] [Neg F] [Zero F] [One F] [FloatOps F] {P : Problem F}

namespace CSQP.Split
open CSQP

/-- `s` and `s'` agree in parameters, control state and candidate, not necessarily in the iteration counter; the filter, if used, has size at most 1. -/
structure Alike (s s' : CSQP P) : Prop where
  c : s.c = s'.c
  preg : s.preg = s'.preg
  dreg : s.dreg = s'.dreg
  iter : s.c = s'.c
  step : s.steplength = s'.steplength
  costs : s.m.costList = s'.m.costList
  gaps : s.m.gapList = s'.m.gapList
  cons : s.m.conList = s'.m.conList
  xs : ∀ t, t ≤ P.T → s.xs t = s'.xs t
  us : ∀ t, t < P.T → s.us t = s'.us t
  fs0 : s.e.fs 0 = s'.e.fs 0
  filt : s.c.useFilter = false ∨ s.c.filterSize ≤ 1

/-- the time limit is never reached. -/
def NotLate (W : World F) (s : CSQP P) : Prop := s.q.reached = false ∧ ∀ i, leb s.c.maxTime (W.clock i - s.q.t0) = false

/-- the penalties are overwritten before they are read, or agree. -/
def RhoOk (s s' : CSQP P) : Prop :=
  s.c.resetRho = true ∨ (s.q.rhoSparse = s'.q.rhoSparse ∧ ∀ t, t ≤ P.T → s.q.v.rho t = s'.q.v.rho t ∧ s.q.v.inv t = s'.q.v.inv t)

/-- at the head of an iteration. -/
structure Head (W W' : World F) (s s' : CSQP P) : Prop extends Alike s s' where
  dx0 : s.q.v.dx 0 = s'.q.v.dx 0
  dxt0 : s.q.v.dxt 0 = s'.q.v.dxt 0
  y : s.c.resetY = true ∨ ∀ t, t ≤ P.T → s.q.v.y t = s'.q.v.y t
  stp : s.c.eqGuess = true ∨ ((∀ t, t ≤ P.T → s.q.v.dx t = s'.q.v.dx t) ∧ ∀ t, t < P.T → s.q.v.du t = s'.q.v.du t)
  cross : HistRho s.q.v s'.q.v
  tm : NotLate W s
  tm' : NotLate W' s'

/-- the evaluations agree. -/
structure EvalSame (s s' : CSQP P) : Prop where
  data : s.data.SameD s'.data
  fs : ∀ t, t ≤ P.T → s.e.fs t = s'.e.fs t
  cost : s.e.cost = s'.e.cost
  gap : s.e.gap = s'.e.gap
  con : s.e.con = s'.e.con

/-- after `calc`. -/
structure Ready (W W' : World F) (s s' : CSQP P) : Prop extends Head W W' s s' where
  ev : EvalSame s s'
  rho : RhoOk s s'

/-- what the QP solver leaves behind. -/
structure QSame (s s' : CSQP P) : Prop where
  v : VOut s.q.v s'.q.v
  b : CBA 0 s.q.b s'.q.b
  n : s.q.n = s'.q.n
  it : s.q.qpIters = s'.q.qpIters
  rs : s.q.rhoSparse = s'.q.rhoSparse

/-- after a direction was computed. -/
structure Dir (W W' : World F) (s s' : CSQP P) : Prop extends Alike s s' where
  ev : EvalSame s s'
  q : QSame s s'
  tm : NotLate W s
  tm' : NotLate W' s'

variable {W W' : World F} {s s' : CSQP P}

theorem calcEval_alike (h : Head W W' s s') : Head W W' s.calcEval s'.calcEval ∧ EvalSame s.calcEval s'.calcEval := by
  have hd := calcAll_same s.data s'.data h.xs h.us
  have hD := calcDiffAll_same hd h.xs h.us
  have hf : ∀ t, t ≤ P.T → s.calcEval.e.fs t = s'.calcEval.e.fs t := fun t ht => calcFs_same hD.toSame h.xs h.fs0 t ht
  refine ⟨⟨⟨h.c, h.preg, h.dreg, h.c, h.step, h.costs, h.gaps, h.cons, h.xs, h.us, hf 0 (by omega), h.filt⟩, h.dx0, h.dxt0, h.y, h.stp,
    h.cross, h.tm, h.tm'⟩, hD, hf, hD.toSame.cost, ?_, conNorm_same hD.toSame⟩
  change sumUp P.T (fun t => norm1 (s.calcEval.e.fs (t + 1))) = sumUp P.T (fun t => norm1 (s'.calcEval.e.fs (t + 1)))
  exact sumUp_congr P.T _ _ fun t ht => by rw [hf _ (by omega)]

theorem resetRho_rho (h : Head W W' s s') (t : ℕ) (ht : t ≤ P.T) :
    (s.q.resetRho s.c).v.rho t = (s'.q.resetRho s'.c).v.rho t ∧ (s.q.resetRho s.c).v.inv t = (s'.q.resetRho s'.c).v.inv t := by
  rw [← h.c]
  exact applyRho_same s.c s.c.rhoBase h.cross t ht

theorem Head.resetRho (h : Head W W' s s') :
    Head W W' { s with q := s.q.resetRho s.c } { s' with q := s'.q.resetRho s'.c } ∧
    RhoOk { s with q := s.q.resetRho s.c } { s' with q := s'.q.resetRho s'.c } := by
  refine ⟨⟨⟨h.c, h.preg, h.dreg, h.c, h.step, h.costs, h.gaps, h.cons, h.xs, h.us, h.fs0, h.filt⟩, h.dx0, h.dxt0, h.y, h.stp,
    fun t ht i _ => ?_, h.tm, h.tm'⟩, .inr ⟨congrArg CConf.rhoBase h.c, resetRho_rho h⟩⟩
  obtain ⟨a, b⟩ := resetRho_rho h t ht
  exact ⟨congrFun a i, congrFun b i⟩

/-- the QP state at the direction: the penalties are reset at iteration 0 unless they are reset for every QP. -/
def rhoOf (s : CSQP P) : CQP P := if s.iter = 0 ∧ s.c.resetRho = false then s.q.resetRho s.c else s.q

theorem rhoOf_frame (s : CSQP P) : (rhoOf s).v.dx = s.q.v.dx ∧ (rhoOf s).v.dxt = s.q.v.dxt ∧ (rhoOf s).v.y = s.q.v.y ∧ (rhoOf s).v.du = s.q.v.du ∧
    (rhoOf s).reached = s.q.reached ∧ (rhoOf s).t0 = s.q.t0 := by
  unfold rhoOf
  split <;> exact ⟨rfl, rfl, rfl, rfl, rfl, rfl⟩

/-- the two solvers work with the same penalties in this iteration. -/
def RhoHead (s s' : CSQP P) : Prop :=
  s.c.resetRho = true ∨ ((rhoOf s).rhoSparse = (rhoOf s').rhoSparse ∧
    ∀ t, t ≤ P.T → (rhoOf s).v.rho t = (rhoOf s').v.rho t ∧ (rhoOf s).v.inv t = (rhoOf s').v.inv t)

theorem prepare_eq (s : CSQP P) : s.prepare = { s.calcEval with q := rhoOf s } := by
  unfold prepare rhoOf
  simp only []
  change (if s.iter = 0 ∧ s.c.resetRho = false then { s.calcEval with q := s.q.resetRho s.c } else s.calcEval) = _
  split <;> rfl

theorem prepare_alike (h : Head W W' s s') (hr : RhoHead s s') : Ready W W' s.prepare s'.prepare := by
  obtain ⟨h1, h2⟩ := calcEval_alike h
  obtain ⟨a1, a2, a3, a4, a5, a6⟩ := rhoOf_frame s
  obtain ⟨b1, b2, b3, b4, b5, b6⟩ := rhoOf_frame s'
  rw [prepare_eq, prepare_eq]
  refine ⟨⟨⟨h1.c, h1.preg, h1.dreg, h1.c, h1.step, h1.costs, h1.gaps, h1.cons, h1.xs, h1.us, h1.fs0, h1.filt⟩, ?_, ?_, ?_, ?_, ?_, ?_, ?_⟩,
    ⟨h2.data, h2.fs, h2.cost, h2.gap, h2.con⟩, hr⟩
  · change (rhoOf s).v.dx 0 = (rhoOf s').v.dx 0
    rw [a1, b1]; exact h.dx0
  · change (rhoOf s).v.dxt 0 = (rhoOf s').v.dxt 0
    rw [a2, b2]; exact h.dxt0
  · change s.c.resetY = true ∨ ∀ t, t ≤ P.T → (rhoOf s).v.y t = (rhoOf s').v.y t
    rw [a3, b3]; exact h.y
  · change s.c.eqGuess = true ∨ ((∀ t, t ≤ P.T → (rhoOf s).v.dx t = (rhoOf s').v.dx t) ∧ ∀ t, t < P.T → (rhoOf s).v.du t = (rhoOf s').v.du t)
    rw [a1, b1, a4, b4]; exact h.stp
  · change HistRho (rhoOf s).v (rhoOf s').v
    rcases hr with e | ⟨_, e⟩
    · have e1 : rhoOf s = s.q := by unfold rhoOf; rw [if_neg (by rw [e]; nofun)]
      have e2 : rhoOf s' = s'.q := by unfold rhoOf; rw [if_neg (by rw [← h.c, e]; nofun)]
      rw [e1, e2]; exact h.cross
    · intro t ht i _
      exact ⟨congrFun (e t ht).1 i, congrFun (e t ht).2 i⟩
  · change (rhoOf s).reached = false ∧ ∀ i, leb s.c.maxTime (W.clock i - (rhoOf s).t0) = false
    rw [a5, a6]; exact h.tm
  · change (rhoOf s').reached = false ∧ ∀ i, leb s'.c.maxTime (W'.clock i - (rhoOf s').t0) = false
    rw [b5, b6]; exact h.tm'

variable [SqrtOps F]

/-- the two solves may run at different times, but none of them multithreaded. -/
structure Worlds (W W' : World F) : Prop where
  llt : W.llt = W'.llt
  sched : W.sched = none
  sched' : W'.sched = none

theorem dir_alike (hW : Worlds W W') (hm : s.c.maxQP ≠ 0) (h : Ready W W' s s') :
    Res.Rel (Dir W W') (Ready W W') (s.dir W) (s'.dir W') := by
  have hE : EnvSame (s.env W) (s'.env W') := ⟨h.c, h.ev.data, h.ev.fs, h.preg, h.dreg, hW.sched, hW.sched'⟩
  have key := QPH.computeDirection_alike (llt := W.llt) hE hm (q := s.q) (q' := s'.q)
    ⟨⟨h.dx0, h.dxt0, h.y, h.stp, h.cross, h.rho⟩, h.tm, h.tm'⟩
  unfold dir
  rw [← hW.llt]
  generalize s.q.computeDirection W.llt (s.env W) = r at key
  generalize s'.q.computeDirection W.llt (s'.env W') = r' at key
  cases key with
  | ok k =>
    exact .ok ⟨⟨h.c, h.preg, h.dreg, h.c, h.step, h.costs, h.gaps, h.cons, h.xs, h.us, h.fs0, h.filt⟩,
      ⟨h.ev.data, h.ev.fs, h.ev.cost, h.ev.gap, h.ev.con⟩, ⟨k.out, k.b, k.n, k.it, k.rs⟩, k.tm, k.tm'⟩
  | exn k =>
    exact .exn ⟨⟨⟨h.c, h.preg, h.dreg, h.c, h.step, h.costs, h.gaps, h.cons, h.xs, h.us, h.fs0, h.filt⟩,
      k.pre.dx0, k.pre.dxt0, k.pre.y, k.pre.step, k.pre.cross, k.tm, k.tm'⟩,
      ⟨h.ev.data, h.ev.fs, h.ev.cost, h.ev.gap, h.ev.con⟩, k.pre.rho⟩

theorem Ready.reg (h : Ready W W' s s') : Ready W W' s.increaseReg s'.increaseReg := by
  have e : incReg s.c.par s.preg = incReg s'.c.par s'.preg := by rw [h.c, h.preg]
  exact ⟨⟨⟨h.c, e, e, h.c, h.step, h.costs, h.gaps, h.cons, h.xs, h.us, h.fs0, h.filt⟩, h.dx0, h.dxt0, h.y, h.stp,
    h.cross, h.tm, h.tm'⟩, ⟨h.ev.data, h.ev.fs, h.ev.cost, h.ev.gap, h.ev.con⟩, h.rho⟩

theorem dir_conf {r : CSQP P} (h : s.dir W = .exn r) : r.c = s.c := by
  unfold dir at h
  cases hq : s.q.computeDirection W.llt (s.env W) with
  | ok q => rw [hq] at h; simp at h
  | exn q => rw [hq] at h; simp only [Res.map_exn, Res.exn.injEq] at h; rw [← h]

theorem retry_alike (hW : Worlds W W') (chk : Bool) (fuel : ℕ) (hm : s.c.maxQP ≠ 0) (h : Ready W W' s s') :
    (retry W chk fuel s = none ∧ retry W' chk fuel s' = none) ∨
    (∃ a b, retry W chk fuel s = some (true, a) ∧ retry W' chk fuel s' = some (true, b) ∧ Dir W W' a b) ∨
    ∃ a b, retry W chk fuel s = some (false, a) ∧ retry W' chk fuel s' = some (false, b) ∧ Ready W W' a b := by
  induction fuel generalizing s s' with
  | zero => exact .inl ⟨rfl, rfl⟩
  | succ n ih =>
    have hc := dir_alike hW hm h
    have hcc : ∀ r, s.dir W = .exn r → r.c = s.c := fun r => dir_conf
    unfold retry
    simp only [h.tm.1, h.tm'.1, Bool.and_false, Bool.false_eq_true, if_false]
    generalize s.dir W = x at *
    generalize s'.dir W' = y at *
    cases hc with
    | @ok a b h => exact .inr (.inl ⟨a, b, rfl, rfl, h⟩)
    | @exn a b h =>
      have h' := h.reg
      have hp : leb a.increaseReg.c.par.regMax a.increaseReg.preg = leb b.increaseReg.c.par.regMax b.increaseReg.preg := by
        rw [h'.c, h'.preg]
      simp only [hp]
      split
      · exact .inr (.inr ⟨_, _, rfl, rfl, h'⟩)
      · exact ih (by change a.c.maxQP ≠ 0; rw [hcc _ rfl]; exact hm) h'

theorem direction_alike (hW : Worlds W W') (chk : Bool) (fuel : ℕ) (hm : s.c.maxQP ≠ 0) (h : Ready W W' s s') :
    (direction W fuel chk s = none ∧ direction W' fuel chk s' = none) ∨
    (∃ a b, direction W fuel chk s = some (none, a) ∧ direction W' fuel chk s' = some (none, b) ∧ Dir W W' a b) ∨
    ∃ o a b, direction W fuel chk s = some (some o, a) ∧ direction W' fuel chk s' = some (some o, b) ∧ o ≠ .ret true ∧ Alike a b := by
  unfold direction
  rw [← h.c]
  split
  · have hc := dir_alike hW hm h
    generalize s.dir W = x at *
    generalize s'.dir W' = y at *
    cases hc with
    | @ok a b h => exact .inr (.inl ⟨a, b, rfl, rfl, h⟩)
    | @exn a b h => exact .inr (.inr ⟨.thrown, a, b, rfl, rfl, by decide, h.toAlike⟩)
  · rcases retry_alike hW chk fuel hm h with ⟨e, e'⟩ | ⟨a, b, e, e', k⟩ | ⟨a, b, e, e', k⟩
    · rw [e, e']; exact .inl ⟨rfl, rfl⟩
    · rw [e, e']; exact .inr (.inl ⟨a, b, rfl, rfl, k⟩)
    · rw [e, e']; exact .inr (.inr ⟨.ret false, a, b, rfl, rfl, by decide, k.toAlike⟩)

/-- after `checkKKTConditions` and the callbacks. -/
structure Checked (W W' : World F) (s s' : CSQP P) : Prop extends Dir W W' s s' where
  KKT : s.m.KKT = s'.m.KKT
  lag : ∀ t, t ≤ P.T → s.lagMul t = s'.lagMul t

theorem checked_alike (h : Dir W W' s s') : Checked W W' s.checkKKT.callbacks s'.checkKKT.callbacks := by
  have hlag : ∀ t, t ≤ P.T → s.checkKKT.lagMul t = s'.checkKKT.lagMul t := by
    intro t ht
    change s.multipliers t = s'.multipliers t
    unfold multipliers
    rw [if_pos ht, if_pos ht, h.q.b.bp.Vx t (by omega) ht, h.q.b.bp.Vxx t (by omega) ht, h.q.v.dxt t ht]
  have hK : s.checkKKT.m.KKT = s'.checkKKT.m.KKT :=
    ckktResidual_same h.ev.data h.ev.fs hlag h.q.v.y h.ev.con
  exact ⟨⟨⟨h.c, h.preg, h.dreg, h.c, h.step, h.costs, h.gaps, h.cons, h.xs, h.us, h.fs0, h.filt⟩,
    ⟨h.ev.data, h.ev.fs, h.ev.cost, h.ev.gap, h.ev.con⟩, ⟨h.q.v, h.q.b, h.q.n, h.q.it, h.q.rs⟩, h.tm, h.tm'⟩, hK, hlag⟩

/-! ## trials -/

/-- the merit function ignores the multipliers, or they agree. -/
def LagOk (c : CConf F) (a b : F) : Prop := (ltb c.muDyn 0 || ltb c.muCon 0) = false ∨ a = b

theorem meritOf_same {c : CConf F} {a b : F} (h : LagOk c a b) (x y z : F) : meritOf c a x y z = meritOf c b x y z := by
  unfold meritOf
  rcases h with e | e
  · rw [e]; simp
  · rw [e]

/-- what two states have in common during a line search. -/
structure Trial (W W' : World F) (s s' : CSQP P) : Prop extends Alike s s' where
  data : s.data.Same s'.data
  merit : s.m.merit = s'.m.merit
  lagOk : LagOk s.c s.m.lagInf s'.m.lagInf
  v : VIn s.q.v s'.q.v
  rs : s.q.rhoSparse = s'.q.rhoSparse
  tm : NotLate W s
  tm' : NotLate W' s'

theorem push_alike (h : Checked W W' s s') : Trial W W' s.pushFilter.setMerit s'.pushFilter.setMerit := by
  have hl : LagOk s.c s.pushFilter.setMerit.m.lagInf s'.pushFilter.setMerit.m.lagInf := by
    by_cases hc : (ltb s.c.muDyn 0 || ltb s.c.muCon 0) = true
    · right
      have hc' : (ltb s'.c.muDyn 0 || ltb s'.c.muCon 0) = true := by rw [← h.c]; exact hc
      change (if (ltb s.c.muDyn 0 || ltb s.c.muCon 0) = true then s.pushFilter.lagInfNorm else s.m.lagInf) =
        if (ltb s'.c.muDyn 0 || ltb s'.c.muCon 0) = true then s'.pushFilter.lagInfNorm else s'.m.lagInf
      rw [if_pos hc, if_pos hc']
      unfold lagInfNorm
      simp only []
      rw [forUp_congr' (P.T + 1) (fun t m => cppMax m (normInf (s.pushFilter.lagMul t))) (fun t m => cppMax m (normInf (s'.pushFilter.lagMul t)))
        fun t ht => by funext m; rw [show s.pushFilter.lagMul t = s'.pushFilter.lagMul t from h.lag t (by omega)]]
      rw [forUp_congr' (P.T + 1) (fun t m => cppMax m (normInf (s.pushFilter.q.v.y t))) (fun t m => cppMax m (normInf (s'.pushFilter.q.v.y t)))
        fun t ht => by funext m; rw [show s.pushFilter.q.v.y t = s'.pushFilter.q.v.y t from h.q.v.y t (by omega)]]
    · left; simpa using hc
  refine ⟨⟨h.c, h.preg, h.dreg, h.c, h.step, ?_, ?_, ?_, h.xs, h.us, h.fs0, h.filt⟩, h.ev.data.toSame, ?_, hl, h.q.v.toVIn, h.q.rs, h.tm, h.tm'⟩
  · change s.m.costList.push s.e.cost = s'.m.costList.push s'.e.cost
    rw [h.costs, h.ev.cost]
  · change s.m.gapList.push s.e.gap = s'.m.gapList.push s'.e.gap
    rw [h.gaps, h.ev.gap]
  · change s.m.conList.push s.e.con = s'.m.conList.push s'.e.con
    rw [h.cons, h.ev.con]
  · change meritOf s.c s.pushFilter.setMerit.m.lagInf s.e.cost s.e.gap s.e.con = meritOf s'.c s'.pushFilter.setMerit.m.lagInf s'.e.cost s'.e.gap s'.e.con
    rw [← h.c, ← h.ev.cost, ← h.ev.gap, ← h.ev.con]
    exact meritOf_same hl _ _ _

/-- during and after the evaluation of a trial. -/
structure Tried (W W' : World F) (s s' : CSQP P) : Prop extends Trial W W' s s' where
  wxs : ∀ t, t ≤ P.T → s.w.xs t = s'.w.xs t
  wus : ∀ t, t < P.T → s.w.us t = s'.w.us t
  wcost : s.w.cost = s'.w.cost
  wgap : s.w.gap = s'.w.gap
  wcon : s.w.con = s'.w.con

/-- and the merit of the trial. -/
structure Done (W W' : World F) (s s' : CSQP P) : Prop extends Tried W W' s s' where
  wmerit : s.w.merit = s'.w.merit

theorem move_alike (a : F) (h : Trial W W' s s') :
    Tried W W' ({ s with nTry := s.nTry + 1, w := { s.w with cost := 0, merit := 0, gap := 0, con := 0 } }.tryMove a)
      ({ s' with nTry := s'.nTry + 1, w := { s'.w with cost := 0, merit := 0, gap := 0, con := 0 } }.tryMove a) := by
  refine ⟨⟨⟨h.c, h.preg, h.dreg, h.c, h.step, h.costs, h.gaps, h.cons, h.xs, h.us, h.fs0, h.filt⟩, h.data, h.merit, h.lagOk, h.v, h.rs, h.tm, h.tm'⟩,
    fun t ht => ?_, fun t ht => ?_, rfl, rfl, rfl⟩
  · simp only [tryMove, if_pos ht]
    rw [h.xs t ht, h.v.dx t ht]
  · simp only [tryMove]
    by_cases h0 : P.nu t = 0
    · exact vec_eq_of_zero h0 _ _
    · rw [if_pos ⟨ht, h0⟩, if_pos ⟨ht, h0⟩, h.us t ht, h.v.du t ht]

theorem tryStage_alike {n : ℕ} (hn : n < P.T) (h : Tried W W' s s') :
    Res.Rel (Tried W W') (Trial W W') (tryStage n s) (tryStage n s') := by
  have hd := SQP.Same.node h.data n (h.wxs n hn.le) (h.wus n hn)
  have er := hd.run n hn
  have ec : s.w.cost + ((s.data.calcNode n (s.w.xs n) (s.w.us n)).run n).cost =
      s'.w.cost + ((s'.data.calcNode n (s'.w.xs n) (s'.w.us n)).run n).cost := by rw [h.wcost, er]
  unfold tryStage Res.throwIf
  simp only []
  rw [ec]
  split
  · exact .exn ⟨⟨h.c, h.preg, h.dreg, h.c, h.step, h.costs, h.gaps, h.cons, h.xs, h.us, h.fs0, h.filt⟩, hd, h.merit, h.lagOk, h.v, h.rs, h.tm, h.tm'⟩
  · refine .ok ⟨⟨⟨h.c, h.preg, h.dreg, h.c, h.step, h.costs, h.gaps, h.cons, h.xs, h.us, h.fs0, h.filt⟩, hd, h.merit, h.lagOk, h.v, h.rs, h.tm, h.tm'⟩,
      h.wxs, h.wus, rfl, ?_, ?_⟩
    · simp only []; rw [h.wgap, h.wxs (n + 1) hn, er]
    · simp only []; rw [h.wcon, er]

theorem tryTerminal_alike (h : Tried W W' s s') :
    Res.Rel (Done W W') (Trial W W') (tryTerminal s) (tryTerminal s') := by
  have hd : (s.data.calcTer (s.w.xs P.T)).Same (s'.data.calcTer (s'.w.xs P.T)) := by
    refine ⟨h.data.run, ?_⟩
    simp only [Data.calcTer]; rw [h.wxs _ le_rfl]
  have et := hd.ter
  have ec : s.w.cost + (s.data.calcTer (s.w.xs P.T)).ter.cost = s'.w.cost + (s'.data.calcTer (s'.w.xs P.T)).ter.cost := by rw [h.wcost, et]
  have en : addViol (P.lb P.T) (P.ub P.T) (s.data.calcTer (s.w.xs P.T)).ter.g s.w.con =
      addViol (P.lb P.T) (P.ub P.T) (s'.data.calcTer (s'.w.xs P.T)).ter.g s'.w.con := by rw [h.wcon, et]
  unfold tryTerminal Res.throwIf
  simp only []
  rw [ec, en]
  split
  · exact .exn ⟨⟨h.c, h.preg, h.dreg, h.c, h.step, h.costs, h.gaps, h.cons, h.xs, h.us, h.fs0, h.filt⟩, hd, h.merit, h.lagOk, h.v, h.rs, h.tm, h.tm'⟩
  · refine .ok ⟨⟨⟨⟨h.c, h.preg, h.dreg, h.c, h.step, h.costs, h.gaps, h.cons, h.xs, h.us, h.fs0, h.filt⟩, hd, h.merit, h.lagOk, h.v, h.rs, h.tm, h.tm'⟩,
      h.wxs, h.wus, rfl, h.wgap, rfl⟩, ?_⟩
    simp only []
    rw [← h.c, ← h.wgap]
    exact meritOf_same h.lagOk _ _ _

theorem tryStep_alike (a : F) (h : Trial W W' s s') : Res.Rel (Done W W') (Trial W W') (s.tryStep a) (s'.tryStep a) := by
  unfold tryStep
  simp only []
  split
  · exact .exn ⟨⟨h.c, h.preg, h.dreg, h.c, h.step, h.costs, h.gaps, h.cons, h.xs, h.us, h.fs0, h.filt⟩, h.data, h.merit, h.lagOk, h.v, h.rs, h.tm, h.tm'⟩
  · exact (forUpR_rel (fun _ => Tried W W') (Trial W W') P.T tryStage tryStage
      (fun t ht a b k => tryStage_alike ht k) (move_alike a h)).bind fun a b k => tryTerminal_alike k

theorem worse_alike (h : Done W W' s s') (hu : s.c.useFilter = true) : s.worse = s'.worse := by
  have hf : s.c.filterSize ≤ 1 := h.filt.resolve_left (by rw [hu]; nofun)
  unfold worse
  rw [h.c] at hf
  rw [h.costs, h.gaps, h.cons, h.c, h.wcost, h.wgap, h.wcon, Bool.eq_iff_iff, filterLoop_iff, filterLoop_iff]
  refine exists_congr fun j => ⟨?_, ?_⟩
  · rintro ⟨q1, q2, q3, q4⟩; exact ⟨q1, q2, by omega, q4⟩
  · rintro ⟨q1, q2, q3, q4⟩; exact ⟨q1, q2, by omega, q4⟩

theorem accept_alike (a : F) (h : Done W W' s s') : Trial W W' (s.accept a) (s'.accept a) :=
  ⟨⟨h.c, h.preg, h.dreg, h.c, h.step, h.costs, h.gaps, h.cons, h.wxs, h.wus, h.fs0, h.filt⟩, h.data, h.merit, h.lagOk, h.v, h.rs, h.tm, h.tm'⟩

theorem lineSearch_alike (as : List F) (h : Trial W W' s s') :
    (lineSearch as s).1 = (lineSearch as s').1 ∧ Trial W W' (lineSearch as s).2 (lineSearch as s').2 := by
  induction as generalizing s s' with
  | nil => exact ⟨rfl, h⟩
  | cons a as ih =>
    have key := tryStep_alike a h
    unfold lineSearch
    generalize s.tryStep a = r at *
    generalize s'.tryStep a = r' at *
    cases key with
    | exn k => exact ih k
    | @ok b b' k =>
      simp only []
      rw [show b'.c.useFilter = b.c.useFilter by rw [k.c]]
      split
      · rename_i hu
        rw [← worse_alike k hu]
        have k2 : Done W W' { b with m := { b.m with isWorse := b.worse } } { b' with m := { b'.m with isWorse := b.worse } } :=
          ⟨⟨⟨⟨k.c, k.preg, k.dreg, k.c, k.step, k.costs, k.gaps, k.cons, k.xs, k.us, k.fs0, k.filt⟩, k.data, k.merit, k.lagOk, k.v, k.rs, k.tm, k.tm'⟩,
            k.wxs, k.wus, k.wcost, k.wgap, k.wcon⟩, k.wmerit⟩
        split
        · exact ih k2.toTrial
        · exact ⟨rfl, accept_alike a k2⟩
      · rw [← k.wmerit, ← k.merit]
        split
        · exact ⟨rfl, accept_alike a k⟩
        · exact ih k.toTrial

theorem Trial.reg (h : Trial W W' s s') {p p' q q' : F} (hp : p = p') (hq : q = q') :
    Trial W W' { s with preg := p, dreg := q } { s' with preg := p', dreg := q' } :=
  ⟨⟨h.c, hp, hq, h.c, h.step, h.costs, h.gaps, h.cons, h.xs, h.us, h.fs0, h.filt⟩, h.data, h.merit, h.lagOk, h.v, h.rs, h.tm, h.tm'⟩

theorem updateReg_alike (h : Trial W W' s s') : s.updateReg.1 = s'.updateReg.1 ∧ Trial W W' s.updateReg.2 s'.updateReg.2 := by
  have e1 : incReg s.c.par s.preg = incReg s'.c.par s'.preg := by rw [h.c, h.preg]
  have e2 : decReg s.c.par s.preg = decReg s'.c.par s'.preg := by rw [h.c, h.preg]
  unfold updateReg
  rw [← h.c, ← h.step]
  split
  · exact ⟨rfl, h⟩
  · split
    · exact ⟨rfl, h.reg e2 e2⟩
    · refine ⟨?_, h.reg e1 e1⟩
      change leb s.c.par.regMax (incReg s.c.par s.preg) = leb s'.c.par.regMax (incReg s'.c.par s'.preg)
      rw [e1, h.c]

/-- between two iterations. -/
structure Between (W W' : World F) (s s' : CSQP P) : Prop extends Head W W' s s' where
  rho : RhoOk s s'

theorem Trial.between (h : Trial W W' s s') : Between W W' s s' :=
  ⟨⟨h.toAlike, h.v.dx 0 (by omega), h.v.dxt0, .inr h.v.y, .inr ⟨h.v.dx, h.v.du⟩, h.v.hist, h.tm, h.tm'⟩,
    .inr ⟨h.rs, fun t ht => ⟨h.v.rho t ht, h.v.inv t ht⟩⟩⟩

/-- how two iterations end alike. -/
def StepRel (W W' : World F) (r r' : Step × CSQP P) : Prop :=
  r.1 = r'.1 ∧
    match r.1 with
    | .fin (.ret true) => Checked W W' r.2 r'.2
    | .fin _ => Alike r.2 r'.2
    | _ => Between W W' r.2 r'.2

theorem advance_alike (h : Checked W W' s s') : StepRel W W' s.advance s'.advance := by
  obtain ⟨k1, k2⟩ := lineSearch_alike s.c.par.alphas (push_alike h)
  unfold advance
  rw [← h.c]
  generalize lineSearch s.c.par.alphas s.pushFilter.setMerit = r at *
  generalize lineSearch s.c.par.alphas s'.pushFilter.setMerit = r' at *
  obtain ⟨b, a⟩ := r
  obtain ⟨b', a'⟩ := r'
  simp only at k1 k2
  subst k1
  cases b with
  | false =>
    exact ⟨rfl, (Trial.between (s := { a with nRej := a.nRej + 1 }) (s' := { a' with nRej := a'.nRej + 1 })
      ⟨⟨k2.c, k2.preg, k2.dreg, k2.c, k2.step, k2.costs, k2.gaps, k2.cons, k2.xs, k2.us, k2.fs0, k2.filt⟩, k2.data, k2.merit, k2.lagOk, k2.v, k2.rs,
        k2.tm, k2.tm'⟩)⟩
  | true =>
    obtain ⟨j1, j2⟩ := updateReg_alike k2
    unfold StepRel
    simp only []
    rw [← j1]
    refine ⟨rfl, ?_⟩
    cases a.updateReg.1 with
    | true => exact j2.toAlike
    | false => exact j2.between

theorem finish_alike (h : Dir W W' s s') : StepRel W W' s.finish s'.finish := by
  unfold finish
  rw [← h.q.it]
  split
  · exact ⟨rfl, h.toAlike⟩
  · have hc := checked_alike h
    simp only []
    rw [← hc.KKT, ← hc.c]
    split
    · exact ⟨rfl, hc⟩
    · exact advance_alike hc

theorem RhoHead.tick (hr : RhoHead s s') (i j : ℕ) :
    RhoHead ({ s with q := { s.q with tick := i } } : CSQP P) ({ s' with q := { s'.q with tick := j } } : CSQP P) := by
  have key : ∀ (s : CSQP P) (i : ℕ), (rhoOf ({ s with q := { s.q with tick := i } } : CSQP P)).rhoSparse = (rhoOf s).rhoSparse ∧
      (rhoOf ({ s with q := { s.q with tick := i } } : CSQP P)).v = (rhoOf s).v := by
    intro s i
    unfold rhoOf
    simp only []
    split <;> exact ⟨rfl, rfl⟩
  unfold RhoHead
  rw [(key s i).1, (key s i).2, (key s' j).1, (key s' j).2]
  exact hr

theorem body_alike (hW : Worlds W W') (fuel : ℕ) (hm : s.c.maxQP ≠ 0) (h : Head W W' s s') (hr : RhoHead s s') :
    (body W fuel s = none ∧ body W' fuel s' = none) ∨
    ∃ r r', body W fuel s = some r ∧ body W' fuel s' = some r' ∧ StepRel W W' r r' := by
  have u : s.q.timeUp (s.env W) = false := h.tm.2 _
  have u' : s'.q.timeUp (s'.env W') = false := h.tm'.2 _
  unfold body
  simp only [u, u', Bool.false_eq_true, if_false]
  have hp : Ready W W' ({ s with q := { s.q with tick := s.q.tick + 1 } } : CSQP P).prepare
      ({ s' with q := { s'.q with tick := s'.q.tick + 1 } } : CSQP P).prepare :=
    prepare_alike ⟨⟨h.c, h.preg, h.dreg, h.c, h.step, h.costs, h.gaps, h.cons, h.xs, h.us, h.fs0, h.filt⟩, h.dx0, h.dxt0, h.y, h.stp, h.cross, h.tm, h.tm'⟩ (hr.tick _ _)
  have hpc : ({ s with q := { s.q with tick := s.q.tick + 1 } } : CSQP P).prepare.c = s.c := by
    obtain ⟨q, e, _⟩ := prepare_set ({ s with q := { s.q with tick := s.q.tick + 1 } } : CSQP P)
    rw [e]; rfl
  rcases direction_alike hW true fuel (by rw [hpc]; exact hm) hp with ⟨e, e'⟩ | ⟨a, b, e, e', k⟩ | ⟨o, a, b, e, e', ho, k⟩
  · rw [e, e']; exact .inl ⟨rfl, rfl⟩
  · rw [e, e']; exact .inr ⟨_, _, rfl, rfl, finish_alike k⟩
  · rw [e, e']
    refine .inr ⟨_, _, rfl, rfl, rfl, ?_⟩
    simp only []
    match o, ho with
    | .thrown, _ => exact k
    | .ret false, _ => exact k
    | .ret true, ho => exact absurd rfl ho

/-- how two main loops end alike. -/
def OutRel (W W' : World F) (r r' : Option Out × CSQP P) : Prop :=
  r.1 = r'.1 ∧
    match r.1 with
    | some (.ret true) => Checked W W' r.2 r'.2
    | some _ => Alike r.2 r'.2
    | none => Alike r.2 r'.2 ∧ NotLate W r.2 ∧ NotLate W' r'.2

theorem iterate_alike (hW : Worlds W W') (fuel : ℕ) (n : ℕ) (hm : s.c.maxQP ≠ 0) (h : Head W W' s s')
    (hr : RhoHead s s') :
    (iterate W fuel n s = none ∧ iterate W' fuel n s' = none) ∨
    ∃ r r', iterate W fuel n s = some r ∧ iterate W' fuel n s' = some r' ∧ OutRel W W' r r' ∧ r.2.c = s.c := by
  induction n generalizing s s' with
  | zero => exact .inr ⟨_, _, rfl, rfl, ⟨rfl, h.toAlike, h.tm, h.tm'⟩, rfl⟩
  | succ n ih =>
    unfold iterate
    rcases body_alike hW fuel hm h hr with ⟨e, e'⟩ | ⟨⟨st, a⟩, ⟨st', a'⟩, e, e', k1, k2⟩
    · rw [e, e']; exact .inl ⟨rfl, rfl⟩
    · have hc := (body_conf e).1
      simp only at k1 hc
      subst k1
      rw [e, e']
      match st, k2 with
      | .fin (.ret true), k2 => exact .inr ⟨_, _, rfl, rfl, ⟨rfl, k2⟩, hc⟩
      | .fin (.ret false), k2 => exact .inr ⟨_, _, rfl, rfl, ⟨rfl, k2⟩, hc⟩
      | .fin .thrown, k2 => exact .inr ⟨_, _, rfl, rfl, ⟨rfl, k2⟩, hc⟩
      | .brk, k2 => exact .inr ⟨_, _, rfl, rfl, ⟨rfl, (show Between W W' a a' from k2).toAlike, (show Between W W' a a' from k2).tm, (show Between W W' a a' from k2).tm'⟩, hc⟩
      | .next, k2 =>
        have k2 : Between W W' a a' := k2
        simp only []
        have := ih (s := { a with iter := a.iter + 1 }) (s' := { a' with iter := a'.iter + 1 }) (by simp only []; rw [hc]; exact hm)
          ⟨⟨k2.c, k2.preg, k2.dreg, k2.c, k2.step, k2.costs, k2.gaps, k2.cons, k2.xs, k2.us, k2.fs0, k2.filt⟩, k2.dx0, k2.dxt0, k2.y, k2.stp,
            k2.cross, k2.tm, k2.tm'⟩ (by
              have e1 : rhoOf ({ a with iter := a.iter + 1 } : CSQP P) = a.q := by unfold rhoOf; rw [if_neg (by simp)]
              have e2 : rhoOf ({ a' with iter := a'.iter + 1 } : CSQP P) = a'.q := by unfold rhoOf; rw [if_neg (by simp)]
              unfold RhoHead
              rw [e1, e2]
              exact k2.rho)
        rcases this with e | ⟨r, r', e, e', k, kc⟩
        · exact .inl e
        · exact .inr ⟨r, r', e, e', k, by rw [kc]; exact hc⟩

end CSQP.Split
end
end Mim
