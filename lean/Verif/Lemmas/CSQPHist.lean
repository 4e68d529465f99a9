import Verif.Lemmas.QPHist
import Verif.Lemmas.CSQPReach

/-!
# Two CSQP solver states that differ only in leftovers of earlier calls behave alike
-/
set_option linter.unusedSectionVars false
set_option linter.unusedSimpArgs false

namespace Mim
open QPH
section
variable {F : Type} [Add F] [Sub F] [Mul F] [Div F] [Neg F] [Zero F] [One F] [FloatOps F] {P : Problem F}

theorem ckktResidual_same {d d' : Data P} (h : d.SameD d') {fs fs' lam lam' : ℕ → Vec F P.ndx} (hf : ∀ t, t ≤ P.T → fs t = fs' t)
    (hl : ∀ t, t ≤ P.T → lam t = lam' t) {y y' : (t : ℕ) → Vec F (P.ng t)} (hy : ∀ t, t ≤ P.T → y t = y' t) {con con' : F}
    (hc : con = con') : ckktResidual d fs lam y con = ckktResidual d' fs' lam' y' con' := by
  unfold ckktResidual
  simp only []
  rw [forUp_congr' P.T _ _ fun t ht => by
    funext K
    rw [h.rd t ht, hl (t + 1) (by omega), hl t ht.le, hy t ht.le]]
  rw [forUp_congr' (P.T + 1) (fun t m => cppMax m (normInf (fs t))) (fun t m => cppMax m (normInf (fs' t))) fun t ht => by
    funext m; rw [hf t (by omega)]]
  rw [h.td, hl _ le_rfl, hy _ le_rfl, hc]

namespace CSQP

theorem conNorm_same {d d' : Data P} (h : d.Same d') : conNorm d = conNorm d' := by
  unfold conNorm
  rw [forUp_congr' P.T _ _ fun t ht => by funext a; rw [h.run t ht], h.ter]

theorem calcFs_same {d d' : Data P} (h : d.Same d') {xs xs' : Traj P} (hx : ∀ t, t ≤ P.T → xs t = xs' t) {fs fs' : ℕ → Vec F P.ndx}
    (h0 : fs 0 = fs' 0) (t : ℕ) (ht : t ≤ P.T) : calcFs d xs fs t = calcFs d' xs' fs' t := by
  cases t with
  | zero => exact h0
  | succ t =>
    have : t < P.T := ht
    simp only [calcFs, if_pos this]
    rw [hx _ ht, h.run t this]

/-- what one solve may not see of the previous ones: `s` and `s'` agree in parameters, control state and candidate; their
callback logs continue `l`, `l'` in the same way. -/
structure Alike (l l' : List (CbEvent F)) (s s' : CSQP P) : Prop where
  c : s.c = s'.c
  preg : s.preg = s'.preg
  dreg : s.dreg = s'.dreg
  iter : s.iter = s'.iter
  step : s.steplength = s'.steplength
  costs : s.m.costList = s'.m.costList
  gaps : s.m.gapList = s'.m.gapList
  cons : s.m.conList = s'.m.conList
  xs : ∀ t, t ≤ P.T → s.xs t = s'.xs t
  us : ∀ t, t < P.T → s.us t = s'.us t
  fs0 : s.e.fs 0 = s'.e.fs 0
  log : ∃ e, s.log = l ++ e ∧ s'.log = l' ++ e

/-- the time limit is never reached. -/
def Time (W : World F) (s : CSQP P) : Prop := s.q.reached = false ∧ ∀ i, leb s.c.maxTime (W.clock i - s.q.t0) = false

/-- the penalties are overwritten before they are read, or agree. -/
def RhoOk (s s' : CSQP P) : Prop :=
  s.c.resetRho = true ∨ (s.q.rhoSparse = s'.q.rhoSparse ∧ ∀ t, t ≤ P.T → s.q.v.rho t = s'.q.v.rho t ∧ s.q.v.inv t = s'.q.v.inv t)

/-- at the head of an iteration. -/
structure Head (W W' : World F) (l l' : List (CbEvent F)) (s s' : CSQP P) : Prop extends Alike l l' s s' where
  dx0 : s.q.v.dx 0 = s'.q.v.dx 0
  dxt0 : s.q.v.dxt 0 = s'.q.v.dxt 0
  y : s.c.resetY = true ∨ ∀ t, t ≤ P.T → s.q.v.y t = s'.q.v.y t
  stp : s.c.eqGuess = true ∨ ((∀ t, t ≤ P.T → s.q.v.dx t = s'.q.v.dx t) ∧ ∀ t, t < P.T → s.q.v.du t = s'.q.v.du t)
  cross : HistRho s.q.v s'.q.v
  tm : Time W s
  tm' : Time W' s'

/-- the evaluations agree. -/
structure EvalSame (s s' : CSQP P) : Prop where
  data : s.data.SameD s'.data
  fs : ∀ t, t ≤ P.T → s.e.fs t = s'.e.fs t
  cost : s.e.cost = s'.e.cost
  gap : s.e.gap = s'.e.gap
  con : s.e.con = s'.e.con

/-- after `calc`. -/
structure Ready (W W' : World F) (l l' : List (CbEvent F)) (s s' : CSQP P) : Prop extends Head W W' l l' s s' where
  ev : EvalSame s s'
  rho : RhoOk s s'

/-- what the QP solver leaves behind. -/
structure QSame (s s' : CSQP P) : Prop where
  v : VOut s.q.v s'.q.v
  b : CBA 0 s.q.b s'.q.b
  n : s.q.n = s'.q.n
  it : s.q.qpIters = s'.q.qpIters
  rs : s.q.rhoSparse = s'.q.rhoSparse

/-- after a direction was computed. -/
structure Dir (W W' : World F) (l l' : List (CbEvent F)) (s s' : CSQP P) : Prop extends Alike l l' s s' where
  ev : EvalSame s s'
  q : QSame s s'
  tm : Time W s
  tm' : Time W' s'

variable {W W' : World F} {l l' : List (CbEvent F)} {s s' : CSQP P}

theorem calcEval_alike (h : Head W W' l l' s s') : Head W W' l l' s.calcEval s'.calcEval ∧ EvalSame s.calcEval s'.calcEval := by
  have hd := calcAll_same s.data s'.data h.xs h.us
  have hD := calcDiffAll_same hd h.xs h.us
  have hf : ∀ t, t ≤ P.T → s.calcEval.e.fs t = s'.calcEval.e.fs t := fun t ht => calcFs_same hD.toSame h.xs h.fs0 t ht
  refine ⟨⟨⟨h.c, h.preg, h.dreg, h.iter, h.step, h.costs, h.gaps, h.cons, h.xs, h.us, hf 0 (by omega), h.log⟩, h.dx0, h.dxt0, h.y, h.stp,
    h.cross, h.tm, h.tm'⟩, hD, hf, hD.toSame.cost, ?_, conNorm_same hD.toSame⟩
  change sumUp P.T (fun t => norm1 (s.calcEval.e.fs (t + 1))) = sumUp P.T (fun t => norm1 (s'.calcEval.e.fs (t + 1)))
  exact sumUp_congr P.T _ _ fun t ht => by rw [hf _ (by omega)]

theorem resetRho_rho (h : Head W W' l l' s s') (t : ℕ) (ht : t ≤ P.T) :
    (s.q.resetRho s.c).v.rho t = (s'.q.resetRho s'.c).v.rho t ∧ (s.q.resetRho s.c).v.inv t = (s'.q.resetRho s'.c).v.inv t := by
  rw [← h.c]
  exact applyRho_same s.c s.c.rhoBase h.cross t ht

theorem Head.resetRho (h : Head W W' l l' s s') :
    Head W W' l l' { s with q := s.q.resetRho s.c } { s' with q := s'.q.resetRho s'.c } ∧
    RhoOk { s with q := s.q.resetRho s.c } { s' with q := s'.q.resetRho s'.c } := by
  refine ⟨⟨⟨h.c, h.preg, h.dreg, h.iter, h.step, h.costs, h.gaps, h.cons, h.xs, h.us, h.fs0, h.log⟩, h.dx0, h.dxt0, h.y, h.stp,
    fun t ht i _ => ?_, h.tm, h.tm'⟩, .inr ⟨congrArg CConf.rhoBase h.c, resetRho_rho h⟩⟩
  obtain ⟨a, b⟩ := resetRho_rho h t ht
  exact ⟨congrFun a i, congrFun b i⟩

theorem prepare_alike (h : Head W W' l l' s s') (hr : s.iter = 0 ∨ RhoOk s s') : Ready W W' l l' s.prepare s'.prepare := by
  obtain ⟨h1, h2⟩ := calcEval_alike h
  unfold prepare
  simp only []
  by_cases hc : s.calcEval.iter = 0 ∧ s.calcEval.c.resetRho = false
  · have hc' : s'.calcEval.iter = 0 ∧ s'.calcEval.c.resetRho = false := by rw [← h1.iter, ← h1.c]; exact hc
    rw [if_pos hc, if_pos hc']
    obtain ⟨h3, h4⟩ := h1.resetRho
    exact ⟨h3, ⟨h2.data, h2.fs, h2.cost, h2.gap, h2.con⟩, h4⟩
  · have hc' : ¬ (s'.calcEval.iter = 0 ∧ s'.calcEval.c.resetRho = false) := by rw [← h1.iter, ← h1.c]; exact hc
    rw [if_neg hc, if_neg hc']
    refine ⟨h1, h2, ?_⟩
    rcases hr with e | e
    · refine .inl ?_
      have : ¬ s.calcEval.c.resetRho = false := fun k => hc ⟨e, k⟩
      simpa using this
    · exact e

variable [SqrtOps F]

/-- the two solves may run at different times, but none of them multithreaded. -/
structure Worlds (W W' : World F) : Prop where
  llt : W.llt = W'.llt
  sched : W.sched = none
  sched' : W'.sched = none

theorem dir_alike (hW : Worlds W W') (hm : s.c.maxQP ≠ 0) (h : Ready W W' l l' s s') :
    Res.Rel (Dir W W' l l') (Ready W W' l l') (s.dir W) (s'.dir W') := by
  have hE : EnvSame (s.env W) (s'.env W') := ⟨h.c, h.ev.data, h.ev.fs, h.preg, h.dreg, hW.sched, hW.sched'⟩
  have key := QPH.computeDirection_alike (llt := W.llt) hE hm (q := s.q) (q' := s'.q)
    ⟨⟨h.dx0, h.dxt0, h.y, h.stp, h.cross, h.rho⟩, h.tm, h.tm'⟩
  unfold dir
  rw [← hW.llt]
  generalize s.q.computeDirection W.llt (s.env W) = r at key
  generalize s'.q.computeDirection W.llt (s'.env W') = r' at key
  cases key with
  | ok k =>
    exact .ok ⟨⟨h.c, h.preg, h.dreg, h.iter, h.step, h.costs, h.gaps, h.cons, h.xs, h.us, h.fs0, h.log⟩,
      ⟨h.ev.data, h.ev.fs, h.ev.cost, h.ev.gap, h.ev.con⟩, ⟨k.out, k.b, k.n, k.it, k.rs⟩, k.tm, k.tm'⟩
  | exn k =>
    exact .exn ⟨⟨⟨h.c, h.preg, h.dreg, h.iter, h.step, h.costs, h.gaps, h.cons, h.xs, h.us, h.fs0, h.log⟩,
      k.pre.dx0, k.pre.dxt0, k.pre.y, k.pre.step, k.pre.cross, k.tm, k.tm'⟩,
      ⟨h.ev.data, h.ev.fs, h.ev.cost, h.ev.gap, h.ev.con⟩, k.pre.rho⟩

theorem Ready.reg (h : Ready W W' l l' s s') : Ready W W' l l' s.increaseReg s'.increaseReg := by
  have e : incReg s.c.par s.preg = incReg s'.c.par s'.preg := by rw [h.c, h.preg]
  exact ⟨⟨⟨h.c, e, e, h.iter, h.step, h.costs, h.gaps, h.cons, h.xs, h.us, h.fs0, h.log⟩, h.dx0, h.dxt0, h.y, h.stp,
    h.cross, h.tm, h.tm'⟩, ⟨h.ev.data, h.ev.fs, h.ev.cost, h.ev.gap, h.ev.con⟩, h.rho⟩

theorem dir_conf {r : CSQP P} (h : s.dir W = .exn r) : r.c = s.c := by
  unfold dir at h
  cases hq : s.q.computeDirection W.llt (s.env W) with
  | ok q => rw [hq] at h; simp at h
  | exn q => rw [hq] at h; simp only [Res.map_exn, Res.exn.injEq] at h; rw [← h]

theorem retry_alike (hW : Worlds W W') (chk : Bool) (fuel : ℕ) (hm : s.c.maxQP ≠ 0) (h : Ready W W' l l' s s') :
    (retry W chk fuel s = none ∧ retry W' chk fuel s' = none) ∨
    (∃ a b, retry W chk fuel s = some (true, a) ∧ retry W' chk fuel s' = some (true, b) ∧ Dir W W' l l' a b) ∨
    ∃ a b, retry W chk fuel s = some (false, a) ∧ retry W' chk fuel s' = some (false, b) ∧ Ready W W' l l' a b := by
  induction fuel generalizing s s' with
  | zero => exact .inl ⟨rfl, rfl⟩
  | succ n ih =>
    have hc := dir_alike hW hm h
    have hcc : ∀ r, s.dir W = .exn r → r.c = s.c := fun r => dir_conf
    unfold retry
    simp only [h.tm.1, h.tm'.1, Bool.and_false, Bool.false_eq_true, if_false]
    generalize s.dir W = x at *
    generalize s'.dir W' = y at *
    cases hc with
    | @ok a b h => exact .inr (.inl ⟨a, b, rfl, rfl, h⟩)
    | @exn a b h =>
      have h' := h.reg
      have hp : leb a.increaseReg.c.par.regMax a.increaseReg.preg = leb b.increaseReg.c.par.regMax b.increaseReg.preg := by
        rw [h'.c, h'.preg]
      simp only [hp]
      split
      · exact .inr (.inr ⟨_, _, rfl, rfl, h'⟩)
      · exact ih (by change a.c.maxQP ≠ 0; rw [hcc _ rfl]; exact hm) h'

theorem direction_alike (hW : Worlds W W') (chk : Bool) (fuel : ℕ) (hm : s.c.maxQP ≠ 0) (h : Ready W W' l l' s s') :
    (direction W fuel chk s = none ∧ direction W' fuel chk s' = none) ∨
    (∃ a b, direction W fuel chk s = some (none, a) ∧ direction W' fuel chk s' = some (none, b) ∧ Dir W W' l l' a b) ∨
    ∃ o a b, direction W fuel chk s = some (some o, a) ∧ direction W' fuel chk s' = some (some o, b) ∧ o ≠ .ret true ∧ Alike l l' a b := by
  unfold direction
  rw [← h.c]
  split
  · have hc := dir_alike hW hm h
    generalize s.dir W = x at *
    generalize s'.dir W' = y at *
    cases hc with
    | @ok a b h => exact .inr (.inl ⟨a, b, rfl, rfl, h⟩)
    | @exn a b h => exact .inr (.inr ⟨.thrown, a, b, rfl, rfl, by decide, h.toAlike⟩)
  · rcases retry_alike hW chk fuel hm h with ⟨e, e'⟩ | ⟨a, b, e, e', k⟩ | ⟨a, b, e, e', k⟩
    · rw [e, e']; exact .inl ⟨rfl, rfl⟩
    · rw [e, e']; exact .inr (.inl ⟨a, b, rfl, rfl, k⟩)
    · rw [e, e']; exact .inr (.inr ⟨.ret false, a, b, rfl, rfl, by decide, k.toAlike⟩)

/-- after `checkKKTConditions` and the callbacks. -/
structure Checked (W W' : World F) (l l' : List (CbEvent F)) (s s' : CSQP P) : Prop extends Dir W W' l l' s s' where
  KKT : s.m.KKT = s'.m.KKT
  lag : ∀ t, t ≤ P.T → s.lagMul t = s'.lagMul t

theorem checked_alike (h : Dir W W' l l' s s') : Checked W W' l l' s.checkKKT.callbacks s'.checkKKT.callbacks := by
  have hlag : ∀ t, t ≤ P.T → s.checkKKT.lagMul t = s'.checkKKT.lagMul t := by
    intro t ht
    change s.multipliers t = s'.multipliers t
    unfold multipliers
    rw [if_pos ht, if_pos ht, h.q.b.bp.Vx t (by omega) ht, h.q.b.bp.Vxx t (by omega) ht, h.q.v.dxt t ht]
  have hK : s.checkKKT.m.KKT = s'.checkKKT.m.KKT :=
    ckktResidual_same h.ev.data h.ev.fs hlag h.q.v.y h.ev.con
  refine ⟨⟨⟨h.c, h.preg, h.dreg, h.iter, h.step, h.costs, h.gaps, h.cons, h.xs, h.us, h.fs0, ?_⟩,
    ⟨h.ev.data, h.ev.fs, h.ev.cost, h.ev.gap, h.ev.con⟩, ⟨h.q.v, h.q.b, h.q.n, h.q.it, h.q.rs⟩, h.tm, h.tm'⟩, hK, hlag⟩
  obtain ⟨e, e1, e2⟩ := h.log
  refine ⟨e ++ (List.range s.c.ncb).map fun c => ⟨c, s.iter, s.checkKKT.m.KKT, s.e.cost, s.e.gap⟩, ?_, ?_⟩
  · change s.log ++ _ = _
    rw [e1, List.append_assoc]; rfl
  · change s'.log ++ (List.range s'.c.ncb).map (fun c => (⟨c, s'.iter, s'.checkKKT.m.KKT, s'.e.cost, s'.e.gap⟩ : CbEvent F)) = _
    rw [e2, List.append_assoc, ← h.c, ← h.iter, ← hK, ← h.ev.cost, ← h.ev.gap]

/-! ## trials -/

/-- the merit function ignores the multipliers, or they agree. -/
def LagOk (c : CConf F) (a b : F) : Prop := (ltb c.muDyn 0 || ltb c.muCon 0) = false ∨ a = b

theorem meritOf_same {c : CConf F} {a b : F} (h : LagOk c a b) (x y z : F) : meritOf c a x y z = meritOf c b x y z := by
  unfold meritOf
  rcases h with e | e
  · rw [e]; simp
  · rw [e]

/-- what two states have in common during a line search. -/
structure Trial (W W' : World F) (l l' : List (CbEvent F)) (s s' : CSQP P) : Prop extends Alike l l' s s' where
  data : s.data.Same s'.data
  merit : s.m.merit = s'.m.merit
  lagOk : LagOk s.c s.m.lagInf s'.m.lagInf
  v : VIn s.q.v s'.q.v
  rs : s.q.rhoSparse = s'.q.rhoSparse
  tm : Time W s
  tm' : Time W' s'

theorem push_alike (h : Checked W W' l l' s s') : Trial W W' l l' s.pushFilter.setMerit s'.pushFilter.setMerit := by
  have hl : LagOk s.c s.pushFilter.setMerit.m.lagInf s'.pushFilter.setMerit.m.lagInf := by
    by_cases hc : (ltb s.c.muDyn 0 || ltb s.c.muCon 0) = true
    · right
      have hc' : (ltb s'.c.muDyn 0 || ltb s'.c.muCon 0) = true := by rw [← h.c]; exact hc
      change (if (ltb s.c.muDyn 0 || ltb s.c.muCon 0) = true then s.pushFilter.lagInfNorm else s.m.lagInf) =
        if (ltb s'.c.muDyn 0 || ltb s'.c.muCon 0) = true then s'.pushFilter.lagInfNorm else s'.m.lagInf
      rw [if_pos hc, if_pos hc']
      unfold lagInfNorm
      simp only []
      rw [forUp_congr' (P.T + 1) (fun t m => cppMax m (normInf (s.pushFilter.lagMul t))) (fun t m => cppMax m (normInf (s'.pushFilter.lagMul t)))
        fun t ht => by funext m; rw [show s.pushFilter.lagMul t = s'.pushFilter.lagMul t from h.lag t (by omega)]]
      rw [forUp_congr' (P.T + 1) (fun t m => cppMax m (normInf (s.pushFilter.q.v.y t))) (fun t m => cppMax m (normInf (s'.pushFilter.q.v.y t)))
        fun t ht => by funext m; rw [show s.pushFilter.q.v.y t = s'.pushFilter.q.v.y t from h.q.v.y t (by omega)]]
    · left; simpa using hc
  refine ⟨⟨h.c, h.preg, h.dreg, h.iter, h.step, ?_, ?_, ?_, h.xs, h.us, h.fs0, h.log⟩, h.ev.data.toSame, ?_, hl, h.q.v.toVIn, h.q.rs, h.tm, h.tm'⟩
  · change s.m.costList.push s.e.cost = s'.m.costList.push s'.e.cost
    rw [h.costs, h.ev.cost]
  · change s.m.gapList.push s.e.gap = s'.m.gapList.push s'.e.gap
    rw [h.gaps, h.ev.gap]
  · change s.m.conList.push s.e.con = s'.m.conList.push s'.e.con
    rw [h.cons, h.ev.con]
  · change meritOf s.c s.pushFilter.setMerit.m.lagInf s.e.cost s.e.gap s.e.con = meritOf s'.c s'.pushFilter.setMerit.m.lagInf s'.e.cost s'.e.gap s'.e.con
    rw [← h.c, ← h.ev.cost, ← h.ev.gap, ← h.ev.con]
    exact meritOf_same hl _ _ _

/-- during and after the evaluation of a trial. -/
structure Tried (W W' : World F) (l l' : List (CbEvent F)) (s s' : CSQP P) : Prop extends Trial W W' l l' s s' where
  wxs : ∀ t, t ≤ P.T → s.w.xs t = s'.w.xs t
  wus : ∀ t, t < P.T → s.w.us t = s'.w.us t
  wcost : s.w.cost = s'.w.cost
  wgap : s.w.gap = s'.w.gap
  wcon : s.w.con = s'.w.con

/-- and the merit of the trial. -/
structure Done (W W' : World F) (l l' : List (CbEvent F)) (s s' : CSQP P) : Prop extends Tried W W' l l' s s' where
  wmerit : s.w.merit = s'.w.merit

theorem move_alike (a : F) (h : Trial W W' l l' s s') :
    Tried W W' l l' ({ s with nTry := s.nTry + 1, w := { s.w with cost := 0, merit := 0, gap := 0, con := 0 } }.tryMove a)
      ({ s' with nTry := s'.nTry + 1, w := { s'.w with cost := 0, merit := 0, gap := 0, con := 0 } }.tryMove a) := by
  refine ⟨⟨⟨h.c, h.preg, h.dreg, h.iter, h.step, h.costs, h.gaps, h.cons, h.xs, h.us, h.fs0, h.log⟩, h.data, h.merit, h.lagOk, h.v, h.rs, h.tm, h.tm'⟩,
    fun t ht => ?_, fun t ht => ?_, rfl, rfl, rfl⟩
  · simp only [tryMove, if_pos ht]
    rw [h.xs t ht, h.v.dx t ht]
  · simp only [tryMove]
    by_cases h0 : P.nu t = 0
    · exact vec_eq_of_zero h0 _ _
    · rw [if_pos ⟨ht, h0⟩, if_pos ⟨ht, h0⟩, h.us t ht, h.v.du t ht]

theorem tryStage_alike {n : ℕ} (hn : n < P.T) (h : Tried W W' l l' s s') :
    Res.Rel (Tried W W' l l') (Trial W W' l l') (tryStage n s) (tryStage n s') := by
  have hd := SQP.Same.node h.data n (h.wxs n hn.le) (h.wus n hn)
  have er := hd.run n hn
  have ec : s.w.cost + ((s.data.calcNode n (s.w.xs n) (s.w.us n)).run n).cost =
      s'.w.cost + ((s'.data.calcNode n (s'.w.xs n) (s'.w.us n)).run n).cost := by rw [h.wcost, er]
  unfold tryStage Res.throwIf
  simp only []
  rw [ec]
  split
  · exact .exn ⟨⟨h.c, h.preg, h.dreg, h.iter, h.step, h.costs, h.gaps, h.cons, h.xs, h.us, h.fs0, h.log⟩, hd, h.merit, h.lagOk, h.v, h.rs, h.tm, h.tm'⟩
  · refine .ok ⟨⟨⟨h.c, h.preg, h.dreg, h.iter, h.step, h.costs, h.gaps, h.cons, h.xs, h.us, h.fs0, h.log⟩, hd, h.merit, h.lagOk, h.v, h.rs, h.tm, h.tm'⟩,
      h.wxs, h.wus, rfl, ?_, ?_⟩
    · simp only []; rw [h.wgap, h.wxs (n + 1) hn, er]
    · simp only []; rw [h.wcon, er]

theorem tryTerminal_alike (h : Tried W W' l l' s s') :
    Res.Rel (Done W W' l l') (Trial W W' l l') (tryTerminal s) (tryTerminal s') := by
  have hd : (s.data.calcTer (s.w.xs P.T)).Same (s'.data.calcTer (s'.w.xs P.T)) := by
    refine ⟨h.data.run, ?_⟩
    simp only [Data.calcTer]; rw [h.wxs _ le_rfl]
  have et := hd.ter
  have ec : s.w.cost + (s.data.calcTer (s.w.xs P.T)).ter.cost = s'.w.cost + (s'.data.calcTer (s'.w.xs P.T)).ter.cost := by rw [h.wcost, et]
  have en : addViol (P.lb P.T) (P.ub P.T) (s.data.calcTer (s.w.xs P.T)).ter.g s.w.con =
      addViol (P.lb P.T) (P.ub P.T) (s'.data.calcTer (s'.w.xs P.T)).ter.g s'.w.con := by rw [h.wcon, et]
  unfold tryTerminal Res.throwIf
  simp only []
  rw [ec, en]
  split
  · exact .exn ⟨⟨h.c, h.preg, h.dreg, h.iter, h.step, h.costs, h.gaps, h.cons, h.xs, h.us, h.fs0, h.log⟩, hd, h.merit, h.lagOk, h.v, h.rs, h.tm, h.tm'⟩
  · refine .ok ⟨⟨⟨⟨h.c, h.preg, h.dreg, h.iter, h.step, h.costs, h.gaps, h.cons, h.xs, h.us, h.fs0, h.log⟩, hd, h.merit, h.lagOk, h.v, h.rs, h.tm, h.tm'⟩,
      h.wxs, h.wus, rfl, h.wgap, rfl⟩, ?_⟩
    simp only []
    rw [← h.c, ← h.wgap]
    exact meritOf_same h.lagOk _ _ _

theorem tryStep_alike (a : F) (h : Trial W W' l l' s s') : Res.Rel (Done W W' l l') (Trial W W' l l') (s.tryStep a) (s'.tryStep a) := by
  unfold tryStep
  simp only []
  split
  · exact .exn ⟨⟨h.c, h.preg, h.dreg, h.iter, h.step, h.costs, h.gaps, h.cons, h.xs, h.us, h.fs0, h.log⟩, h.data, h.merit, h.lagOk, h.v, h.rs, h.tm, h.tm'⟩
  · exact (forUpR_rel (fun _ => Tried W W' l l') (Trial W W' l l') P.T tryStage tryStage
      (fun t ht a b k => tryStage_alike ht k) (move_alike a h)).bind fun a b k => tryTerminal_alike k

theorem worse_alike (h : Done W W' l l' s s') : s.worse = s'.worse := by
  unfold worse
  rw [h.costs, h.gaps, h.cons, h.c, h.iter, h.wcost, h.wgap, h.wcon]

theorem accept_alike (a : F) (h : Done W W' l l' s s') : Trial W W' l l' (s.accept a) (s'.accept a) :=
  ⟨⟨h.c, h.preg, h.dreg, h.iter, h.step, h.costs, h.gaps, h.cons, h.wxs, h.wus, h.fs0, h.log⟩, h.data, h.merit, h.lagOk, h.v, h.rs, h.tm, h.tm'⟩

theorem lineSearch_alike (as : List F) (h : Trial W W' l l' s s') :
    (lineSearch as s).1 = (lineSearch as s').1 ∧ Trial W W' l l' (lineSearch as s).2 (lineSearch as s').2 := by
  induction as generalizing s s' with
  | nil => exact ⟨rfl, h⟩
  | cons a as ih =>
    have key := tryStep_alike a h
    unfold lineSearch
    generalize s.tryStep a = r at *
    generalize s'.tryStep a = r' at *
    cases key with
    | exn k => exact ih k
    | @ok b b' k =>
      simp only []
      rw [show b'.c.useFilter = b.c.useFilter by rw [k.c]]
      split
      · rw [← worse_alike k]
        have k2 : Done W W' l l' { b with m := { b.m with isWorse := b.worse } } { b' with m := { b'.m with isWorse := b.worse } } :=
          ⟨⟨⟨⟨k.c, k.preg, k.dreg, k.iter, k.step, k.costs, k.gaps, k.cons, k.xs, k.us, k.fs0, k.log⟩, k.data, k.merit, k.lagOk, k.v, k.rs, k.tm, k.tm'⟩,
            k.wxs, k.wus, k.wcost, k.wgap, k.wcon⟩, k.wmerit⟩
        split
        · exact ih k2.toTrial
        · exact ⟨rfl, accept_alike a k2⟩
      · rw [← k.wmerit, ← k.merit]
        split
        · exact ⟨rfl, accept_alike a k⟩
        · exact ih k.toTrial

theorem Trial.reg (h : Trial W W' l l' s s') {p p' q q' : F} (hp : p = p') (hq : q = q') :
    Trial W W' l l' { s with preg := p, dreg := q } { s' with preg := p', dreg := q' } :=
  ⟨⟨h.c, hp, hq, h.iter, h.step, h.costs, h.gaps, h.cons, h.xs, h.us, h.fs0, h.log⟩, h.data, h.merit, h.lagOk, h.v, h.rs, h.tm, h.tm'⟩

theorem updateReg_alike (h : Trial W W' l l' s s') : s.updateReg.1 = s'.updateReg.1 ∧ Trial W W' l l' s.updateReg.2 s'.updateReg.2 := by
  have e1 : incReg s.c.par s.preg = incReg s'.c.par s'.preg := by rw [h.c, h.preg]
  have e2 : decReg s.c.par s.preg = decReg s'.c.par s'.preg := by rw [h.c, h.preg]
  unfold updateReg
  rw [← h.c, ← h.step]
  split
  · exact ⟨rfl, h⟩
  · split
    · exact ⟨rfl, h.reg e2 e2⟩
    · refine ⟨?_, h.reg e1 e1⟩
      change leb s.c.par.regMax (incReg s.c.par s.preg) = leb s'.c.par.regMax (incReg s'.c.par s'.preg)
      rw [e1, h.c]

/-- between two iterations. -/
structure Between (W W' : World F) (l l' : List (CbEvent F)) (s s' : CSQP P) : Prop extends Head W W' l l' s s' where
  rho : RhoOk s s'

theorem Trial.between (h : Trial W W' l l' s s') : Between W W' l l' s s' :=
  ⟨⟨h.toAlike, h.v.dx 0 (by omega), h.v.dxt0, .inr h.v.y, .inr ⟨h.v.dx, h.v.du⟩, h.v.hist, h.tm, h.tm'⟩,
    .inr ⟨h.rs, fun t ht => ⟨h.v.rho t ht, h.v.inv t ht⟩⟩⟩

/-- how two iterations end alike. -/
def StepRel (W W' : World F) (l l' : List (CbEvent F)) (r r' : Step × CSQP P) : Prop :=
  r.1 = r'.1 ∧
    match r.1 with
    | .fin (.ret true) => Checked W W' l l' r.2 r'.2
    | .fin _ => Alike l l' r.2 r'.2
    | _ => Between W W' l l' r.2 r'.2

theorem advance_alike (h : Checked W W' l l' s s') : StepRel W W' l l' s.advance s'.advance := by
  obtain ⟨k1, k2⟩ := lineSearch_alike s.c.par.alphas (push_alike h)
  unfold advance
  rw [← h.c]
  generalize lineSearch s.c.par.alphas s.pushFilter.setMerit = r at *
  generalize lineSearch s.c.par.alphas s'.pushFilter.setMerit = r' at *
  obtain ⟨b, a⟩ := r
  obtain ⟨b', a'⟩ := r'
  simp only at k1 k2
  subst k1
  cases b with
  | false =>
    exact ⟨rfl, (Trial.between (s := { a with nRej := a.nRej + 1 }) (s' := { a' with nRej := a'.nRej + 1 })
      ⟨⟨k2.c, k2.preg, k2.dreg, k2.iter, k2.step, k2.costs, k2.gaps, k2.cons, k2.xs, k2.us, k2.fs0, k2.log⟩, k2.data, k2.merit, k2.lagOk, k2.v, k2.rs,
        k2.tm, k2.tm'⟩)⟩
  | true =>
    obtain ⟨j1, j2⟩ := updateReg_alike k2
    unfold StepRel
    simp only []
    rw [← j1]
    refine ⟨rfl, ?_⟩
    cases a.updateReg.1 with
    | true => exact j2.toAlike
    | false => exact j2.between

theorem finish_alike (h : Dir W W' l l' s s') : StepRel W W' l l' s.finish s'.finish := by
  unfold finish
  rw [← h.q.it]
  split
  · exact ⟨rfl, h.toAlike⟩
  · have hc := checked_alike h
    simp only []
    rw [← hc.KKT, ← hc.c]
    split
    · exact ⟨rfl, hc⟩
    · exact advance_alike hc

theorem body_alike (hW : Worlds W W') (fuel : ℕ) (hm : s.c.maxQP ≠ 0) (h : Head W W' l l' s s') (hr : s.iter = 0 ∨ RhoOk s s') :
    (body W fuel s = none ∧ body W' fuel s' = none) ∨
    ∃ r r', body W fuel s = some r ∧ body W' fuel s' = some r' ∧ StepRel W W' l l' r r' := by
  have u : s.q.timeUp (s.env W) = false := h.tm.2 _
  have u' : s'.q.timeUp (s'.env W') = false := h.tm'.2 _
  unfold body
  simp only [u, u', Bool.false_eq_true, if_false]
  have hp : Ready W W' l l' ({ s with q := { s.q with tick := s.q.tick + 1 } } : CSQP P).prepare
      ({ s' with q := { s'.q with tick := s'.q.tick + 1 } } : CSQP P).prepare :=
    prepare_alike ⟨⟨h.c, h.preg, h.dreg, h.iter, h.step, h.costs, h.gaps, h.cons, h.xs, h.us, h.fs0, h.log⟩, h.dx0, h.dxt0, h.y, h.stp, h.cross, h.tm, h.tm'⟩ hr
  have hpc : ({ s with q := { s.q with tick := s.q.tick + 1 } } : CSQP P).prepare.c = s.c := by
    obtain ⟨q, e, _⟩ := prepare_set ({ s with q := { s.q with tick := s.q.tick + 1 } } : CSQP P)
    rw [e]; rfl
  rcases direction_alike hW true fuel (by rw [hpc]; exact hm) hp with ⟨e, e'⟩ | ⟨a, b, e, e', k⟩ | ⟨o, a, b, e, e', ho, k⟩
  · rw [e, e']; exact .inl ⟨rfl, rfl⟩
  · rw [e, e']; exact .inr ⟨_, _, rfl, rfl, finish_alike k⟩
  · rw [e, e']
    refine .inr ⟨_, _, rfl, rfl, rfl, ?_⟩
    simp only []
    match o, ho with
    | .thrown, _ => exact k
    | .ret false, _ => exact k
    | .ret true, ho => exact absurd rfl ho

/-- how two main loops end alike. -/
def OutRel (W W' : World F) (l l' : List (CbEvent F)) (r r' : Option Out × CSQP P) : Prop :=
  r.1 = r'.1 ∧
    match r.1 with
    | some (.ret true) => Checked W W' l l' r.2 r'.2
    | some _ => Alike l l' r.2 r'.2
    | none => Between W W' l l' r.2 r'.2

theorem iterate_alike (hW : Worlds W W') (fuel : ℕ) (n : ℕ) (hm : s.c.maxQP ≠ 0) (h : Head W W' l l' s s')
    (hr : (n ≠ 0 ∧ s.iter = 0) ∨ RhoOk s s') :
    (iterate W fuel n s = none ∧ iterate W' fuel n s' = none) ∨
    ∃ r r', iterate W fuel n s = some r ∧ iterate W' fuel n s' = some r' ∧ OutRel W W' l l' r r' ∧ r.2.c = s.c := by
  induction n generalizing s s' with
  | zero => exact .inr ⟨_, _, rfl, rfl, ⟨rfl, ⟨h, hr.resolve_left (by simp)⟩⟩, rfl⟩
  | succ n ih =>
    unfold iterate
    rcases body_alike hW fuel hm h (hr.imp (·.2) id) with ⟨e, e'⟩ | ⟨⟨st, a⟩, ⟨st', a'⟩, e, e', k1, k2⟩
    · rw [e, e']; exact .inl ⟨rfl, rfl⟩
    · have hc := (body_conf e).1
      simp only at k1 hc
      subst k1
      rw [e, e']
      match st, k2 with
      | .fin (.ret true), k2 => exact .inr ⟨_, _, rfl, rfl, ⟨rfl, k2⟩, hc⟩
      | .fin (.ret false), k2 => exact .inr ⟨_, _, rfl, rfl, ⟨rfl, k2⟩, hc⟩
      | .fin .thrown, k2 => exact .inr ⟨_, _, rfl, rfl, ⟨rfl, k2⟩, hc⟩
      | .brk, k2 => exact .inr ⟨_, _, rfl, rfl, ⟨rfl, k2⟩, hc⟩
      | .next, k2 =>
        have k2 : Between W W' l l' a a' := k2
        simp only []
        have := ih (s := { a with iter := a.iter + 1 }) (s' := { a' with iter := a'.iter + 1 }) (by simp only []; rw [hc]; exact hm)
          ⟨⟨k2.c, k2.preg, k2.dreg, by simp only [k2.iter], k2.step, k2.costs, k2.gaps, k2.cons, k2.xs, k2.us, k2.fs0, k2.log⟩, k2.dx0, k2.dxt0, k2.y, k2.stp,
            k2.cross, k2.tm, k2.tm'⟩ (.inr k2.rho)
        rcases this with e | ⟨r, r', e, e', k, kc⟩
        · exact .inl e
        · exact .inr ⟨r, r', e, e', k, by rw [kc]; exact hc⟩

theorem extraIter_alike (hW : Worlds W W') (fuel : ℕ) (hm : s.c.maxQP ≠ 0) (h : Between W W' l l' s s') :
    (extraIter W fuel s = none ∧ extraIter W' fuel s' = none) ∨
    ∃ o a a', extraIter W fuel s = some (o, a) ∧ extraIter W' fuel s' = some (o, a') ∧ Alike l l' a a' ∧
      (o = .ret true → Checked W W' l l' a a') := by
  unfold extraIter
  rw [← h.c, h.tm.1, h.tm'.1]
  by_cases hx : s.c.extra = true
  · simp only [hx, Bool.not_false, Bool.and_true, if_true]
    obtain ⟨h1, h2⟩ := calcEval_alike h.toHead
    rcases direction_alike hW false fuel (s := s.calcEval) (s' := s'.calcEval) hm ⟨h1, h2, h.rho⟩ with ⟨e, e'⟩ | ⟨a, b, e, e', k⟩ | ⟨o, a, b, e, e', ho, k⟩
    · rw [e, e']; exact .inl ⟨rfl, rfl⟩
    · rw [e, e']
      have hc := checked_alike k
      refine .inr ⟨_, _, _, rfl, ?_, hc.toAlike, fun _ => hc⟩
      simp only []
      rw [← hc.KKT, ← hc.c]
    · rw [e, e']; exact .inr ⟨_, _, _, rfl, rfl, k, fun e => absurd e ho⟩
  · simp only [hx, Bool.false_and, Bool.false_eq_true, if_false]
    exact .inr ⟨_, _, _, rfl, rfl, h.toAlike, fun e => by cases e⟩

/-- what two solvers must have in common before a solve, beyond parameters: everything the solver documents as being
kept (the multipliers without `reset_y`, the last step without `equality_qp_initial_guess`) and the penalties of rows
with crossed bounds, which no code ever sets. -/
structure Before (s s' : CSQP P) : Prop where
  c : s.c = s'.c
  step : s.steplength = s'.steplength
  costs : s.m.costList = s'.m.costList
  gaps : s.m.gapList = s'.m.gapList
  cons : s.m.conList = s'.m.conList
  fs0 : s.e.fs 0 = s'.e.fs 0
  dx0 : s.q.v.dx 0 = s'.q.v.dx 0
  dxt0 : s.q.v.dxt 0 = s'.q.v.dxt 0
  y : s.c.resetY = true ∨ ∀ t, t ≤ P.T → s.q.v.y t = s'.q.v.y t
  stp : s.c.eqGuess = true ∨ ((∀ t, t ≤ P.T → s.q.v.dx t = s'.q.v.dx t) ∧ ∀ t, t < P.T → s.q.v.du t = s'.q.v.du t)
  cross : HistRho s.q.v s'.q.v

theorem start_alike (xs : Option (Traj P)) (us : Option (Ctrls P)) (m : ℕ) (ri : F) (h : Before s s')
    (ht : ∀ i j, leb s.c.maxTime (W.clock i - W.clock j) = false) (ht' : ∀ i j, leb s.c.maxTime (W'.clock i - W'.clock j) = false) :
    Head W W' s.log s'.log (s.start W xs us m ri) (s'.start W' xs us m ri) ∧ (s.start W xs us m ri).iter = 0 ∧
    (m = 0 → RhoOk (s.start W xs us m ri) (s'.start W' xs us m ri)) := by
  have e : (if s.c.removeReg then 0 else initReg s.c.par ri) = (if s'.c.removeReg then 0 else initReg s'.c.par ri) := by rw [h.c]
  have hl : ∃ e, s.log = s.log ++ e ∧ s'.log = s'.log ++ e := ⟨[], by simp, by simp⟩
  have ht' : ∀ i j, leb s'.c.maxTime (W'.clock i - W'.clock j) = false := by rw [← h.c]; exact ht'
  by_cases hm : m = 0
  · subst hm
    have key : ∀ (x : Traj P) (u : Ctrls P) (p : F), Head W W' s.log s'.log
      ({ s with q := { s.q with t0 := W.clock s.q.tick, tick := s.q.tick + 1, reached := false }, xs := x, us := u, feas := false, w := { s.w with xs := Function.update s.w.xs 0 P.x0 }, preg := p, dreg := p, iter := 0 } : CSQP P)
      ({ s' with q := { s'.q with t0 := W'.clock s'.q.tick, tick := s'.q.tick + 1, reached := false }, xs := x, us := u, feas := false, w := { s'.w with xs := Function.update s'.w.xs 0 P.x0 }, preg := p, dreg := p, iter := 0 } : CSQP P) :=
      fun x u p => ⟨⟨h.c, rfl, rfl, rfl, h.step, h.costs, h.gaps, h.cons, fun _ _ => rfl, fun _ _ => rfl, h.fs0, hl⟩, h.dx0, h.dxt0, h.y, h.stp, h.cross,
        ⟨rfl, fun i => ht i _⟩, ⟨rfl, fun i => ht' i _⟩⟩
    obtain ⟨k1, _⟩ := calcEval_alike (key (Function.update (xs.getD fun _ => P.zeroX) 0 P.x0) (us.getD fun t => zeroV F (P.nu t))
      (if s.c.removeReg then 0 else initReg s.c.par ri))
    obtain ⟨k2, k3⟩ := k1.resetRho
    unfold start
    simp only [if_true, ← e]
    exact ⟨⟨⟨k2.c, k2.preg, k2.dreg, rfl, k2.step, k2.costs, k2.gaps, k2.cons, k2.xs, k2.us, k2.fs0, k2.log⟩, k2.dx0, k2.dxt0, k2.y, k2.stp, k2.cross,
      k2.tm, k2.tm'⟩, by first | rfl | trivial, fun _ => k3⟩
  · unfold start
    simp only [if_neg hm, ← e]
    exact ⟨⟨⟨h.c, rfl, rfl, rfl, h.step, h.costs, h.gaps, h.cons, fun _ _ => rfl, fun _ _ => rfl, h.fs0, hl⟩, h.dx0, h.dxt0, h.y, h.stp, h.cross,
        ⟨rfl, fun i => ht i _⟩, ⟨rfl, fun i => ht' i _⟩⟩, by first | rfl | trivial, fun e => absurd e hm⟩

theorem solve_alike (hW : Worlds W W') (fuel : ℕ) (xs : Option (Traj P)) (us : Option (Ctrls P)) (m : ℕ) (ri : F) (h : Before s s')
    (hm : s.c.maxQP ≠ 0) (ht : ∀ i j, leb s.c.maxTime (W.clock i - W.clock j) = false)
    (ht' : ∀ i j, leb s.c.maxTime (W'.clock i - W'.clock j) = false) :
    (solve W fuel xs us m ri s = none ∧ solve W' fuel xs us m ri s' = none) ∨
    ∃ o a a', solve W fuel xs us m ri s = some (o, a) ∧ solve W' fuel xs us m ri s' = some (o, a') ∧ Alike s.log s'.log a a' ∧
      (o = .ret true → Checked W W' s.log s'.log a a') := by
  obtain ⟨k1, k2, k3⟩ := start_alike xs us m ri h ht ht'
  have hc : (s.start W xs us m ri).c = s.c := (start_conf W xs us m ri s).1
  unfold solve
  have hr : (m ≠ 0 ∧ (s.start W xs us m ri).iter = 0) ∨ RhoOk (s.start W xs us m ri) (s'.start W' xs us m ri) := by
    by_cases e : m = 0
    · exact .inr (k3 e)
    · exact .inl ⟨e, k2⟩
  rcases iterate_alike hW fuel m (by rw [hc]; exact hm) k1 hr with ⟨e, e'⟩ | ⟨⟨o, a⟩, ⟨o', a'⟩, e, e', ⟨j1, j2⟩, j3⟩
  · rw [e, e']; exact .inl ⟨rfl, rfl⟩
  · simp only at j1 j3
    subst j1
    rw [e, e']
    match o, j2 with
    | some (.ret true), j2 =>
      have j2 : Checked W W' s.log s'.log a a' := j2
      exact .inr ⟨_, _, _, rfl, rfl, j2.toAlike, fun _ => j2⟩
    | some (.ret false), j2 => exact .inr ⟨_, _, _, rfl, rfl, j2, fun e => by cases e⟩
    | some .thrown, j2 => exact .inr ⟨_, _, _, rfl, rfl, j2, fun e => by cases e⟩
    | none, j2 => exact extraIter_alike hW fuel (by rw [j3, hc]; exact hm) j2

end CSQP
end
end Mim
