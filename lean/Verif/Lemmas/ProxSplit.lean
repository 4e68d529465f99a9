import Verif.Lemmas.ProxHist
import Verif.Lemmas.CSQPTry

/-!
# Two runs of `SolverPROXQP` that differ in the iteration counter

Like `Lemmas/ProxHist`; the counter matters only for how far the filter looks back.
-/
set_option autoImplicit false
set_option linter.unusedSectionVars false
set_option linter.unusedSimpArgs false

namespace Mim
section
variable {F : Type} [Add F] [Sub F] [Mul F] [Div F] [Neg F] [Zero F] [One F] [FloatOps F] {P : Problem F}

namespace PROX.Split
open PROX

/-- parameters, control state (but for the iteration counter), candidate, previous multipliers; the filter, if used, has size at most 1. -/
structure Alike (s s' : PROX P) : Prop where
  c : s.c = s'.c
  preg : s.preg = s'.preg
  dreg : s.dreg = s'.dreg
  costs : s.costList = s'.costList
  gaps : s.gapList = s'.gapList
  cons : s.conList = s'.conList
  xs : ∀ t, t ≤ P.T → s.xs t = s'.xs t
  us : ∀ t, t < P.T → s.us t = s'.us t
  fs0 : s.e.fs 0 = s'.e.fs 0
  dx0 : s.dx 0 = s'.dx 0
  m : MSame P s.m s'.m
  lam : ∀ t, 0 < t → t ≤ P.T → s.lam t = s'.lam t
  y : ∀ t, t ≤ P.T → s.y t = s'.y t
  filt : s.c.useFilter = false ∨ s.c.filterSize ≤ 1

/-- after `calc`. -/
structure Eval (s s' : PROX P) : Prop extends Alike s s' where
  data : s.data.SameD s'.data
  fs : ∀ t, t ≤ P.T → s.e.fs t = s'.e.fs t
  cost : s.e.cost = s'.e.cost
  gap : s.e.gap = s'.e.gap
  con : s.e.con = s'.e.con
  merit : s.merit = s'.merit
  meq : s.m = s'.m

/-- after a direction. -/
structure Dir (s s' : PROX P) : Prop extends Eval s s' where
  KKT : s.KKT = s'.KKT
  dx : ∀ t, t ≤ P.T → s.dx t = s'.dx t
  du : ∀ t, t < P.T → s.du t = s'.du t
  it : s.qpIters = s'.qpIters
  pri : s.pri = s'.pri
  dua : s.dua = s'.dua

variable {s s' : PROX P}

theorem calcEval_alike (h : Alike s s') : Eval s.calcEval s'.calcEval := by
  have hd := calcAll_same s.data s'.data h.xs h.us
  have hD := calcDiffAll_same hd h.xs h.us
  have hf : ∀ t, t ≤ P.T → s.calcEval.e.fs t = s'.calcEval.e.fs t := fun t ht => CSQP.calcFs_same hD.toSame h.xs h.fs0 t ht
  have hg : s.calcEval.e.gap = s'.calcEval.e.gap := by
    change sumUp P.T (fun t => norm1 (s.calcEval.e.fs (t + 1))) = sumUp P.T (fun t => norm1 (s'.calcEval.e.fs (t + 1)))
    exact sumUp_congr P.T _ _ fun t ht => by rw [hf _ (by omega)]
  have hn : s.calcEval.e.con = s'.calcEval.e.con := CSQP.conNorm_same hD.toSame
  have hc : s.calcEval.e.cost = s'.calcEval.e.cost := hD.toSame.cost
  have hm : s.calcEval.m = s'.calcEval.m := by
    change assemble s.calcEval.data s.calcEval.e.fs s.m = assemble s'.calcEval.data s'.calcEval.e.fs s'.m
    exact (assemble_same hD hf s.m).trans (h.m _ _)
  refine ⟨⟨h.c, h.preg, h.dreg, h.costs, h.gaps, h.cons, h.xs, h.us, hf 0 (by omega), h.dx0, fun d fs => by rw [hm], h.lam, h.y, h.filt⟩,
    hD, hf, hc, hg, hn, ?_, hm⟩
  change s.calcEval.e.cost + s.c.muDyn * s.calcEval.e.gap + s.c.muCon * s.calcEval.e.con =
    s'.calcEval.e.cost + s'.c.muDyn * s'.calcEval.e.gap + s'.c.muCon * s'.calcEval.e.con
  rw [hc, hg, hn, h.c]

variable {qp : PSolve F}

theorem computeDirection_alike (hq : Det qp) (hT : 0 < P.T) (r : Bool) (h : if r then Alike s s' else Eval s s') :
    Res.Rel (Dir) (Eval) (s.computeDirection qp r) (s'.computeDirection qp r) := by
  have he : Eval (if r then s.calcEval else s) (if r then s'.calcEval else s') := by
    cases r with
    | true => exact calcEval_alike h
    | false => exact h
  unfold computeDirection
  generalize (if r then s.calcEval else s) = a at *
  generalize (if r then s'.calcEval else s') = b at *
  have hK : a.checkKKT.KKT = b.checkKKT.KKT := residual_same he.data he.fs he.lam he.y hT he.con
  have e : qp a.checkKKT.nQP a.checkKKT.m = qp b.checkKKT.nQP b.checkKKT.m := by
    rw [hq _ b.checkKKT.nQP]
    change qp _ a.m = qp _ b.m
    rw [he.meq]
  simp only []
  rw [e]
  split
  · exact .exn ⟨⟨he.c, he.preg, he.dreg, he.costs, he.gaps, he.cons, he.xs, he.us, he.fs0, he.dx0, he.m, he.lam, he.y, he.filt⟩,
      he.data, he.fs, he.cost, he.gap, he.con, he.merit, he.meq⟩
  · refine .ok ⟨⟨⟨he.c, he.preg, he.dreg, he.costs, he.gaps, he.cons, he.xs, he.us, he.fs0, he.dx0, he.m, ?_, ?_, he.filt⟩,
      he.data, he.fs, he.cost, he.gap, he.con, he.merit, he.meq⟩, hK, ?_, ?_, rfl, rfl, rfl⟩
    · intro t h0 ht
      obtain ⟨t, rfl⟩ : ∃ k, t = k + 1 := ⟨t - 1, by omega⟩
      simp only [readAnswer, if_pos (show t < P.T from ht)]
    · intro t ht
      simp only [readAnswer, if_pos ht]
    · intro t ht
      cases t with
      | zero => exact he.dx0
      | succ t => simp only [readAnswer, if_pos (show t < P.T from ht)]
    · intro t ht
      simp only [readAnswer, if_pos ht]

theorem Eval.reg (h : Eval s s') : Eval s.increaseReg s'.increaseReg := by
  have e : incReg s.c.par s.preg = incReg s'.c.par s'.preg := by rw [h.c, h.preg]
  exact ⟨⟨h.c, e, e, h.costs, h.gaps, h.cons, h.xs, h.us, h.fs0, h.dx0, h.m, h.lam, h.y, h.filt⟩,
      h.data, h.fs, h.cost, h.gap, h.con, h.merit, h.meq⟩

theorem retry_alike (hq : Det qp) (hT : 0 < P.T) (fuel : ℕ) (r : Bool) (h : if r then Alike s s' else Eval s s') :
    (retry qp fuel r s = none ∧ retry qp fuel r s' = none) ∨
    (∃ a b, retry qp fuel r s = some (true, a) ∧ retry qp fuel r s' = some (true, b) ∧ Dir a b) ∨
    ∃ a b, retry qp fuel r s = some (false, a) ∧ retry qp fuel r s' = some (false, b) ∧ Eval a b := by
  induction fuel generalizing r s s' with
  | zero => exact .inl ⟨rfl, rfl⟩
  | succ n ih =>
    have hc := computeDirection_alike hq hT r h
    unfold retry
    generalize s.computeDirection qp r = x at *
    generalize s'.computeDirection qp r = y at *
    cases hc with
    | @ok a b h => exact .inr (.inl ⟨a, b, rfl, rfl, h⟩)
    | @exn a b h =>
      have h' := h.reg
      have hp : eqb a.increaseReg.preg a.increaseReg.c.par.regMax = eqb b.increaseReg.preg b.increaseReg.c.par.regMax := by
        rw [h'.c, h'.preg]
      simp only [hp]
      split
      · exact .inr (.inr ⟨_, _, rfl, rfl, h'⟩)
      · exact ih false h'

/-- during a line search. -/
structure Trial (s s' : PROX P) : Prop extends Alike s s' where
  data : s.data.Same s'.data
  cost : s.e.cost = s'.e.cost
  gap : s.e.gap = s'.e.gap
  merit : s.merit = s'.merit
  KKT : s.KKT = s'.KKT
  dx : ∀ t, t ≤ P.T → s.dx t = s'.dx t
  du : ∀ t, t < P.T → s.du t = s'.du t

theorem push_alike (h : Dir s s') : Trial s.pushFilter s'.pushFilter := by
  refine ⟨⟨h.c, h.preg, h.dreg, ?_, ?_, ?_, h.xs, h.us, h.fs0, h.dx0, h.m, h.lam, h.y, h.filt⟩,
    h.data.toSame, h.cost, h.gap, h.merit, h.KKT, h.dx, h.du⟩
  · change s.costList.push s.e.cost = s'.costList.push s'.e.cost
    rw [h.costs, h.cost]
  · change s.gapList.push s.e.gap = s'.gapList.push s'.e.gap
    rw [h.gaps, h.gap]
  · change s.conList.push s.e.con = s'.conList.push s'.e.con
    rw [h.cons, h.con]

structure Tried (s s' : PROX P) : Prop extends Trial s s' where
  step : s.steplength = s'.steplength
  wxs : ∀ t, t ≤ P.T → s.w.xs t = s'.w.xs t
  wus : ∀ t, t < P.T → s.w.us t = s'.w.us t
  wcost : s.w.cost = s'.w.cost
  wgap : s.w.gap = s'.w.gap
  wcon : s.w.con = s'.w.con

structure Done (s s' : PROX P) : Prop extends Tried s s' where
  wmerit : s.w.merit = s'.w.merit

/-- a trial that failed. -/
def Failed (s s' : PROX P) : Prop := Trial s s' ∧ s.steplength = s'.steplength

theorem move_alike (a : F) (h : Trial s s') (hs : s.steplength = s'.steplength) :
    Tried ({ s with nTry := s.nTry + 1, w := { s.w with cost := 0, merit := 0, gap := 0, con := 0 } }.tryMove a)
      ({ s' with nTry := s'.nTry + 1, w := { s'.w with cost := 0, merit := 0, gap := 0, con := 0 } }.tryMove a) := by
  refine ⟨⟨⟨h.c, h.preg, h.dreg, h.costs, h.gaps, h.cons, h.xs, h.us, h.fs0, h.dx0, h.m, h.lam, h.y, h.filt⟩, h.data, h.cost, h.gap, h.merit, h.KKT,
    h.dx, h.du⟩, hs, fun t ht => ?_, fun t ht => ?_, rfl, rfl, rfl⟩
  · simp only [tryMove, if_pos ht]
    rw [h.xs t ht, h.dx t ht]
  · simp only [tryMove]
    by_cases h0 : P.nu t = 0
    · exact vec_eq_of_zero h0 _ _
    · rw [if_pos ⟨ht, h0⟩, if_pos ⟨ht, h0⟩, h.us t ht, h.du t ht]

theorem tryStage_alike {n : ℕ} (hn : n < P.T) (h : Tried s s') : Res.Rel (Tried) (Failed) (tryStage n s) (tryStage n s') := by
  have hd := SQP.Same.node h.data n (h.wxs n hn.le) (h.wus n hn)
  have er := hd.run n hn
  have ec : s.w.cost + ((s.data.calcNode n (s.w.xs n) (s.w.us n)).run n).cost =
      s'.w.cost + ((s'.data.calcNode n (s'.w.xs n) (s'.w.us n)).run n).cost := by rw [h.wcost, er]
  have tr : ∀ w w' : CTry P, Trial { s with data := s.data.calcNode n (s.w.xs n) (s.w.us n), w := w }
      { s' with data := s'.data.calcNode n (s'.w.xs n) (s'.w.us n), w := w' } := fun w w' =>
    ⟨⟨h.c, h.preg, h.dreg, h.costs, h.gaps, h.cons, h.xs, h.us, h.fs0, h.dx0, h.m, h.lam, h.y, h.filt⟩, hd, h.cost, h.gap, h.merit, h.KKT,
    h.dx, h.du⟩
  unfold tryStage Res.throwIf
  simp only []
  rw [ec]
  split
  · exact .exn ⟨tr _ _, h.step⟩
  · refine .ok ⟨tr _ _, h.step, h.wxs, h.wus, rfl, ?_, ?_⟩
    · simp only []; rw [h.wgap, h.wxs (n + 1) hn, er]
    · simp only []; rw [h.wcon, er]

theorem tryTerminal_alike (h : Tried s s') : Res.Rel (Done) (Failed) (tryTerminal s) (tryTerminal s') := by
  have hd : (s.data.calcTer (s.w.xs P.T)).Same (s'.data.calcTer (s'.w.xs P.T)) := by
    refine ⟨h.data.run, ?_⟩
    simp only [Data.calcTer]; rw [h.wxs _ le_rfl]
  have et := hd.ter
  have ec : s.w.cost + (s.data.calcTer (s.w.xs P.T)).ter.cost = s'.w.cost + (s'.data.calcTer (s'.w.xs P.T)).ter.cost := by rw [h.wcost, et]
  have en : addViol (P.lb P.T) (P.ub P.T) (s.data.calcTer (s.w.xs P.T)).ter.g s.w.con =
      addViol (P.lb P.T) (P.ub P.T) (s'.data.calcTer (s'.w.xs P.T)).ter.g s'.w.con := by rw [h.wcon, et]
  have tr : ∀ w w' : CTry P, Trial { s with data := s.data.calcTer (s.w.xs P.T), w := w }
      { s' with data := s'.data.calcTer (s'.w.xs P.T), w := w' } := fun w w' =>
    ⟨⟨h.c, h.preg, h.dreg, h.costs, h.gaps, h.cons, h.xs, h.us, h.fs0, h.dx0, h.m, h.lam, h.y, h.filt⟩, hd, h.cost, h.gap, h.merit, h.KKT,
    h.dx, h.du⟩
  unfold tryTerminal Res.throwIf
  simp only []
  rw [ec, en]
  split
  · exact .exn ⟨tr _ _, h.step⟩
  · refine .ok ⟨⟨tr _ _, h.step, h.wxs, h.wus, rfl, h.wgap, rfl⟩, ?_⟩
    simp only []
    rw [← h.c, ← h.wgap]

theorem tryStep_alike (a : F) (h : Trial s s') (hs : s.steplength = s'.steplength) : Res.Rel (Done) (Failed) (s.tryStep a) (s'.tryStep a) := by
  unfold tryStep
  simp only []
  split
  · exact .exn ⟨⟨⟨h.c, h.preg, h.dreg, h.costs, h.gaps, h.cons, h.xs, h.us, h.fs0, h.dx0, h.m, h.lam, h.y, h.filt⟩, h.data, h.cost, h.gap, h.merit, h.KKT,
      h.dx, h.du⟩, hs⟩
  · exact (forUpR_rel (fun _ => Tried) (Failed) P.T tryStage tryStage
      (fun t ht a b k => tryStage_alike ht k) (move_alike a h hs)).bind fun a b k => tryTerminal_alike k

theorem worse_alike (h : Done s s') (hu : s.c.useFilter = true) : s.worse = s'.worse := by
  have hf : s.c.filterSize ≤ 1 := h.filt.resolve_left (by rw [hu]; nofun)
  unfold worse
  rw [h.c] at hf
  rw [h.costs, h.gaps, h.cons, h.c, h.wcost, h.wgap, h.wcon, Bool.eq_iff_iff, CSQP.filterLoop_iff, CSQP.filterLoop_iff]
  refine exists_congr fun j => ⟨?_, ?_⟩
  · rintro ⟨q1, q2, q3, q4⟩; exact ⟨q1, q2, by omega, q4⟩
  · rintro ⟨q1, q2, q3, q4⟩; exact ⟨q1, q2, by omega, q4⟩

theorem accept_alike (a : F) (h : Done s s') : Failed (s.accept a) (s'.accept a) :=
  ⟨⟨⟨h.c, h.preg, h.dreg, h.costs, h.gaps, h.cons, h.wxs, h.wus, h.fs0, h.dx0, h.m, h.lam, h.y, h.filt⟩, h.data, h.cost, h.gap, h.merit, h.KKT,
      h.dx, h.du⟩, h.step⟩

theorem lineSearch_alike (as : List F) (h : Trial s s') (hs : as ≠ [] ∨ s.steplength = s'.steplength) :
    (lineSearch as s).1 = (lineSearch as s').1 ∧ Failed (lineSearch as s).2 (lineSearch as s').2 := by
  induction as generalizing s s' with
  | nil => exact ⟨rfl, h, hs.resolve_left (by simp)⟩
  | cons a as ih =>
    have key := tryStep_alike (s := { s with steplength := a }) (s' := { s' with steplength := a }) a
      ⟨⟨h.c, h.preg, h.dreg, h.costs, h.gaps, h.cons, h.xs, h.us, h.fs0, h.dx0, h.m, h.lam, h.y, h.filt⟩, h.data, h.cost, h.gap, h.merit, h.KKT,
      h.dx, h.du⟩ rfl
    unfold lineSearch
    generalize tryStep a { s with steplength := a } = r at *
    generalize tryStep a { s' with steplength := a } = r' at *
    cases key with
    | exn k => exact ih k.1 (.inr k.2)
    | @ok b b' k =>
      simp only []
      rw [show b'.c.useFilter = b.c.useFilter by rw [k.c]]
      split
      · rename_i hu
        rw [← worse_alike k hu]
        have k2 : Done { b with isWorse := b.worse } { b' with isWorse := b.worse } :=
          ⟨⟨⟨⟨k.c, k.preg, k.dreg, k.costs, k.gaps, k.cons, k.xs, k.us, k.fs0, k.dx0, k.m, k.lam, k.y, k.filt⟩, k.data, k.cost, k.gap, k.merit, k.KKT,
            k.dx, k.du⟩, k.step, k.wxs, k.wus, k.wcost, k.wgap, k.wcon⟩, k.wmerit⟩
        split
        · exact ih k2.toTrial (.inr k2.step)
        · exact ⟨rfl, accept_alike a k2⟩
      · rw [← k.wmerit, ← k.merit]
        split
        · exact ⟨rfl, accept_alike a k⟩
        · exact ih k.toTrial (.inr k.step)

theorem search_alike (h : Trial s s') (ha : s.c.par.alphas ≠ []) : Failed s.search s'.search := by
  obtain ⟨k1, k2⟩ := lineSearch_alike s.c.par.alphas h (.inl ha)
  unfold search
  rw [← h.c]
  generalize lineSearch s.c.par.alphas s = r at *
  generalize lineSearch s.c.par.alphas s' = r' at *
  obtain ⟨b, a⟩ := r
  obtain ⟨b', a'⟩ := r'
  simp only at k1 k2
  subst k1
  simp only []
  split
  · exact k2
  · obtain ⟨k, ks⟩ := k2
    exact ⟨⟨⟨k.c, k.preg, k.dreg, k.costs, k.gaps, k.cons, k.xs, k.us, k.fs0, k.dx0, k.m, k.lam, k.y, k.filt⟩, k.data, k.cost, k.gap, k.merit, k.KKT,
            k.dx, k.du⟩, ks⟩

theorem Failed.reg (h : Failed s s') {p p' q q' : F} (hp : p = p') (hq : q = q') :
    Failed { s with preg := p, dreg := q } { s' with preg := p', dreg := q' } := by
  obtain ⟨k, ks⟩ := h
  exact ⟨⟨⟨k.c, hp, hq, k.costs, k.gaps, k.cons, k.xs, k.us, k.fs0, k.dx0, k.m, k.lam, k.y, k.filt⟩, k.data, k.cost, k.gap, k.merit, k.KKT,
            k.dx, k.du⟩, ks⟩

theorem updateReg_alike (h : Failed s s') : s.updateReg.1 = s'.updateReg.1 ∧ Failed s.updateReg.2 s'.updateReg.2 := by
  have e2 : decReg s.c.par s.preg = decReg s'.c.par s'.preg := by rw [h.1.c, h.1.preg]
  have h1 : Failed (if ltb s.c.par.thStepDec s.steplength then s.decreaseReg else s)
      (if ltb s'.c.par.thStepDec s'.steplength then s'.decreaseReg else s') := by
    rw [show ltb s'.c.par.thStepDec s'.steplength = ltb s.c.par.thStepDec s.steplength by rw [h.1.c, h.2]]
    split
    · exact h.reg e2 e2
    · exact h
  unfold updateReg
  generalize (if ltb s.c.par.thStepDec s.steplength then s.decreaseReg else s) = a at *
  generalize (if ltb s'.c.par.thStepDec s'.steplength then s'.decreaseReg else s') = b at *
  have e1 : incReg a.c.par a.preg = incReg b.c.par b.preg := by rw [h1.1.c, h1.1.preg]
  simp only []
  rw [show leb b.steplength b.c.par.thStepInc = leb a.steplength a.c.par.thStepInc by rw [h1.1.c, h1.2]]
  split
  · refine ⟨?_, h1.reg e1 e1⟩
    change eqb (incReg a.c.par a.preg) a.c.par.regMax = eqb (incReg b.c.par b.preg) b.c.par.regMax
    rw [e1, h1.1.c]
  · exact ⟨rfl, h1⟩

theorem body_alike (hq : Det qp) (hT : 0 < P.T) (fuel : ℕ) (ha : s.c.par.alphas ≠ []) (h : Alike s s') :
    (body qp fuel s = none ∧ body qp fuel s' = none) ∨
    ∃ r a a', body qp fuel s = some (r, a) ∧ body qp fuel s' = some (r, a') ∧ Alike a a' ∧ (r = some true → Dir a a') := by
  unfold body
  have h0 : Alike { s with wasFeas := false } { s' with wasFeas := false } :=
    ⟨h.c, h.preg, h.dreg, h.costs, h.gaps, h.cons, h.xs, h.us, h.fs0, h.dx0, h.m, h.lam, h.y, h.filt⟩
  rcases retry_alike hq hT fuel true h0 with ⟨e, e'⟩ | ⟨a, b, e, e', k⟩ | ⟨a, b, e, e', k⟩
  · rw [e, e']; exact .inl ⟨rfl, rfl⟩
  · have hac : a.c = s.c := by
      cases retry_post e with
      | found j a _ _ _ _ hs => subst hs; rfl
      | gaveUp j _ _ _ _ hs => subst hs; rfl
    rw [e, e']
    simp only []
    rw [show leb b.KKT b.c.tol = leb a.KKT a.c.tol by rw [k.KKT, k.c]]
    split
    · refine .inr ⟨_, _, _, rfl, rfl, ?_⟩
      have : Dir a.callbacks b.callbacks :=
        ⟨⟨⟨k.c, k.preg, k.dreg, k.costs, k.gaps, k.cons, k.xs, k.us, k.fs0, k.dx0, k.m, k.lam, k.y, k.filt⟩,
          k.data, k.fs, k.cost, k.gap, k.con, k.merit, k.meq⟩, k.KKT, k.dx, k.du, k.it, k.pri, k.dua⟩
      exact ⟨this.toAlike, fun _ => this⟩
    · obtain ⟨j1, j2⟩ := updateReg_alike (search_alike (push_alike k) (by change a.c.par.alphas ≠ []; rw [hac]; exact ha))
      rw [← j1]
      split
      · exact .inr ⟨_, _, _, rfl, rfl, j2.1.toAlike, fun e => by cases e⟩
      · refine .inr ⟨_, _, _, rfl, rfl, ?_, fun e => by cases e⟩
        have k := j2.1
        exact ⟨k.c, k.preg, k.dreg, k.costs, k.gaps, k.cons, k.xs, k.us, k.fs0, k.dx0, k.m, k.lam, k.y, k.filt⟩
  · rw [e, e']; exact .inr ⟨_, _, _, rfl, rfl, k.toAlike, fun e => by cases e⟩

theorem iterate_alike (hq : Det qp) (hT : 0 < P.T) (fuel n : ℕ) (ha : s.c.par.alphas ≠ []) (h : Alike s s') :
    (iterate qp fuel n s = none ∧ iterate qp fuel n s' = none) ∨
    ∃ r a a', iterate qp fuel n s = some (r, a) ∧ iterate qp fuel n s' = some (r, a') ∧ Alike a a' ∧ (r = some true → Dir a a') := by
  induction n generalizing s s' with
  | zero => exact .inr ⟨_, _, _, rfl, rfl, h, fun e => by cases e⟩
  | succ n ih =>
    unfold iterate
    rcases body_alike hq hT fuel ha h with ⟨e, e'⟩ | ⟨r, a, a', e, e', k, kd⟩
    · rw [e, e']; exact .inl ⟨rfl, rfl⟩
    · have hc := (body_iter e).2
      rw [e, e']
      match r, kd with
      | some b, kd => exact .inr ⟨_, _, _, rfl, rfl, k, kd⟩
      | none, kd =>
        simp only []
        exact ih (s := { a with iter := a.iter + 1 }) (s' := { a' with iter := a'.iter + 1 }) (by simp only []; rw [hc]; exact ha)
          ⟨k.c, k.preg, k.dreg, k.costs, k.gaps, k.cons, k.xs, k.us, k.fs0, k.dx0, k.m, k.lam, k.y, k.filt⟩


end PROX.Split
end
end Mim
