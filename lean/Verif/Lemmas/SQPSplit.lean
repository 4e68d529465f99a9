import Verif.Lemmas.SQPHist
import Verif.Lemmas.SQPSearch
import Verif.Spec.OCP

/-!
# Two runs of `SolverSQP` that differ in the iteration counter

Like `Lemmas/SQPHist`, but the iteration counter is not compared (nor the callback log, which records it).  The counter matters in two places:
`calcDiff` calls `calc` only at iteration 0, and the filter looks back at most `iter + 1` entries.
-/
set_option autoImplicit false
set_option linter.unusedSectionVars false
set_option linter.unusedSimpArgs false

namespace Mim
section
variable {F : Type} [Add F] [Sub F] [Mul F] [Div F] [Neg F] [Zero F] [One F] [FloatOps F] {P : Problem F}

namespace SQP
namespace Split
open SQP Spec

/-- parameters and control state. -/
def ctl (s : SQP P) := (s.par, s.tol, s.mu, s.useFilter, s.filterSize, s.extra, s.ncb, s.preg, s.dreg, s.ncb, s.feas, s.gapList, s.costList)

/-- `s` and `s'` agree in parameters, control state and candidate; not necessarily in the iteration counter; the filter, if used, has size at most 1. -/
structure Alike (s s' : SQP P) : Prop where
  ctl : ctl s = ctl s'
  xs : ∀ t, t ≤ P.T → s.xs t = s'.xs t
  us : ∀ t, t < P.T → s.us t = s'.us t
  dx0 : s.dx 0 = s'.dx 0
  filt : s.useFilter = false ∨ s.filterSize ≤ 1

/-- at the head of an iteration: either both solvers will work with, or have, the costs and next states of the candidate, or both
have the same (possibly outdated) ones. -/
structure Head (s s' : SQP P) : Prop extends Alike s s' where
  data : ((s.iter = 0 ∨ FreshCalc P s.data s.xs s.us) ∧ (s'.iter = 0 ∨ FreshCalc P s'.data s'.xs s'.us)) ∨
    (s.iter ≠ 0 ∧ s'.iter ≠ 0 ∧ s.data.Same s'.data)

/-- after `calcDiff`. -/
structure Eval (s s' : SQP P) : Prop extends Alike s s' where
  data : s.data.SameD s'.data
  cost : s.cost = s'.cost
  fs : ∀ t, t ≤ P.T → s.fs t = s'.fs t

/-- after a direction was computed. -/
structure Dir (s s' : SQP P) : Prop extends Eval s s' where
  gap : s.gap = s'.gap
  merit : s.merit = s'.merit
  bp : Bwd.Agree 0 s.bp s'.bp
  dx : ∀ t, t ≤ P.T → s.dx t = s'.dx t
  du : ∀ t, t < P.T → s.du t = s'.du t
  lag : ∀ t, t ≤ P.T → s.lagMul t = s'.lagMul t

variable {s s' : SQP P}

theorem ctl_all (h : ctl s = ctl s') : s.par = s'.par ∧ s.tol = s'.tol ∧ s.mu = s'.mu ∧ s.useFilter = s'.useFilter ∧
    s.filterSize = s'.filterSize ∧ s.extra = s'.extra ∧ s.ncb = s'.ncb ∧ s.preg = s'.preg ∧ s.dreg = s'.dreg ∧ s.ncb = s'.ncb ∧
    s.feas = s'.feas ∧ s.gapList = s'.gapList ∧ s.costList = s'.costList := by
  simpa only [Split.ctl, Prod.mk.injEq] using h

theorem same_of_fresh {d : Data P} {xs : Traj P} {us : Ctrls P} {i : ℕ} (h : i = 0 ∨ FreshCalc P d xs us) :
    (if i = 0 then d.calcAll xs us else d).Same (d.calcAll xs us) := by
  by_cases h0 : i = 0
  · rw [if_pos h0]; exact ⟨fun _ _ => rfl, rfl⟩
  · rw [if_neg h0]
    have h := h.resolve_left h0
    exact ⟨fun t ht => by rw [h.run t ht]; simp [Data.calcAll, ht], by rw [h.ter]; rfl⟩

theorem calcDiff_alike (h : Head s s') : Eval s.calcDiff s'.calcDiff := by
  have hd : (if s.iter = 0 then s.data.calcAll s.xs s.us else s.data).Same (if s'.iter = 0 then s'.data.calcAll s'.xs s'.us else s'.data) := by
    rcases h.data with ⟨h1, h2⟩ | ⟨h1, h2, h3⟩
    · have a1 := same_of_fresh h1
      have a2 := same_of_fresh h2
      have a3 := calcAll_same s.data s'.data h.xs h.us
      exact ⟨fun t ht => by rw [a1.run t ht, a2.run t ht, a3.run t ht], by rw [a1.ter, a2.ter, a3.ter]⟩
    · rw [if_neg h1, if_neg h2]; exact h3
  have hD := calcDiffAll_same hd h.xs h.us
  exact ⟨⟨h.ctl, h.xs, h.us, h.dx0, h.filt⟩, hD, hD.toSame.cost, fun t ht => hD.toSame.gaps h.xs t ht⟩

/-- part of the step known after `n` nodes of the forward pass. -/
structure Fwd (n : ℕ) (s s' : SQP P) : Prop extends Eval s s' where
  gap : s.gap = s'.gap
  merit : s.merit = s'.merit
  bp : Bwd.Agree 0 s.bp s'.bp
  dx : ∀ t, t ≤ n → s.dx t = s'.dx t
  du : ∀ t, t < n → s.du t = s'.du t
  lag : ∀ t, t < n → s.lagMul t = s'.lagMul t

theorem forwardStage_alike {n : ℕ} (hn : n < P.T) (h : Fwd n s s') : Fwd (n + 1) (forwardStage n s) (forwardStage n s') := by
  have e1 := h.bp.Vxx n (by omega) hn.le
  have e2 := h.bp.Vx n (by omega) hn.le
  have e3 := h.bp.K n (by omega) hn
  have e4 := h.bp.k n (by omega) hn
  have e5 := h.data.rd n hn
  have e6 := h.fs n hn.le
  have e7 := h.fs (n + 1) hn
  have e8 := h.dx n le_rfl
  refine ⟨⟨⟨h.ctl, h.xs, h.us, ?_, h.filt⟩, h.data, h.cost, h.fs⟩, h.gap, h.merit, h.bp, ?_, ?_, ?_⟩
  · simp only [forwardStage]
    rw [Function.update_of_ne (by omega), Function.update_of_ne (by omega)]; exact h.dx0
  · intro t ht
    simp only [forwardStage]
    refine update_upTo (β := fun _ => Vec F P.ndx) (n := n + 1) (fun t ht => h.dx t (by omega)) ?_ t (by omega)
    rw [e3, e4, e5, e7, e8]
  · simp only [forwardStage]
    exact update_upTo h.du (by rw [e3, e4, e8])
  · simp only [forwardStage]
    exact update_upTo (β := fun _ => Vec F P.ndx) h.lag (by rw [e1, e2, e6, e8])

theorem forwardPass_alike (h : Eval s s') (hg : s.gap = s'.gap) (hm : s.merit = s'.merit) (hb : Bwd.Agree 0 s.bp s'.bp) :
    Dir s.forwardPass s'.forwardPass := by
  have h0 : Fwd 0 { s with xGrad := 0, uGrad := 0 } { s' with xGrad := 0, uGrad := 0 } :=
    ⟨⟨⟨h.ctl, h.xs, h.us, h.dx0, h.filt⟩, h.data, h.cost, h.fs⟩, hg, hm, hb,
      fun t ht => by obtain rfl : t = 0 := by omega
                     exact h.dx0, fun t ht => by omega, fun t ht => by omega⟩
  have h1 := forUp_rel (Fwd) P.T forwardStage forwardStage (fun t ht a b => forwardStage_alike ht) h0
  unfold forwardPass
  generalize forUp P.T forwardStage { s with xGrad := 0, uGrad := 0 } = a at *
  generalize forUp P.T forwardStage { s' with xGrad := 0, uGrad := 0 } = b at *
  refine ⟨⟨⟨h1.ctl, h1.xs, h1.us, h1.dx0, h1.filt⟩, h1.data, h1.cost, h1.fs⟩, h1.gap, h1.merit, h1.bp, h1.dx, h1.du, ?_⟩
  intro t ht
  refine update_upTo (β := fun _ => Vec F P.ndx) h1.lag ?_ t (by omega)
  rw [h1.bp.Vx _ (by omega) le_rfl, h1.bp.Vxx _ (by omega) le_rfl, h1.dx _ le_rfl, h1.fs _ le_rfl]

theorem computeDirection_alike (llt : LLT F) (r : Bool) (h : if r then Head s s' else Eval s s') :
    Res.Rel (Dir) (Eval) (s.computeDirection llt r) (s'.computeDirection llt r) := by
  have he : Eval (if r then s.calcDiff else s) (if r then s'.calcDiff else s') := by
    cases r with
    | true => exact calcDiff_alike h
    | false => exact h
  unfold computeDirection
  generalize (if r then s.calcDiff else s) = a at *
  generalize (if r then s'.calcDiff else s') = b at *
  simp only []
  obtain ⟨c1, c2, c3, c4, c5, c6, c7, c8, c9, c10, c11, c12, c13⟩ := ctl_all he.ctl
  have eg := gapNorm_same he.fs
  rcases backwardPass_same llt he.data he.fs a.feas a.preg a.dreg a.bp b.bp with ⟨b1, b2, e1, e2, hb⟩ | ⟨b1, b2, e1, e2⟩
  · rw [c11, c8, c9] at e2
    rw [e1, e2]
    refine .ok (forwardPass_alike ⟨⟨he.ctl, he.xs, he.us, he.dx0, he.filt⟩, he.data, he.cost, he.fs⟩ eg ?_ hb)
    simp only []; rw [he.cost, c3, eg]
  · rw [c11, c8, c9] at e2
    rw [e1, e2]
    exact .exn ⟨⟨he.ctl, he.xs, he.us, he.dx0, he.filt⟩, he.data, he.cost, he.fs⟩

theorem Eval.reg (h : Eval s s') {p q : F} {p' q' : F} (hp : p = p') (hq : q = q') :
    Eval { s with preg := p, dreg := q } { s' with preg := p', dreg := q' } := by
  subst hp hq
  obtain ⟨c1, c2, c3, c4, c5, c6, c7, c8, c9, c10, c11, c12, c13⟩ := ctl_all h.ctl
  exact ⟨⟨by simp only [Split.ctl, c1, c2, c3, c4, c5, c6, c7, c10, c11, c12, c13], h.xs, h.us, h.dx0, h.filt⟩, h.data, h.cost, h.fs⟩

/-- the retry loop. -/
theorem retry_alike (llt : LLT F) (fuel : ℕ) (r : Bool) (h : if r then Head s s' else Eval s s') :
    (retry llt fuel r s = none ∧ retry llt fuel r s' = none) ∨
    (∃ a b, retry llt fuel r s = some (true, a) ∧ retry llt fuel r s' = some (true, b) ∧ Dir a b) ∨
    ∃ a b, retry llt fuel r s = some (false, a) ∧ retry llt fuel r s' = some (false, b) ∧ Eval a b := by
  induction fuel generalizing r s s' with
  | zero => exact .inl ⟨rfl, rfl⟩
  | succ n ih =>
    have hc := computeDirection_alike llt r h
    unfold retry
    generalize s.computeDirection llt r = x at *
    generalize s'.computeDirection llt r = y at *
    cases hc with
    | @ok a b h => exact .inr (.inl ⟨a, b, rfl, rfl, h⟩)
    | @exn a b h =>
      obtain ⟨c1, c2, c3, c4, c5, c6, c7, c8, c9, c10, c11, c12, c13⟩ := ctl_all h.ctl
      have h' : Eval a.increaseReg b.increaseReg := h.reg (by rw [c1, c8]) (by rw [c1, c8])
      have hp : eqb a.increaseReg.preg a.increaseReg.par.regMax = eqb b.increaseReg.preg b.increaseReg.par.regMax := by
        change eqb (incReg a.par a.preg) a.par.regMax = eqb (incReg b.par b.preg) b.par.regMax
        rw [c1, c8]
      simp only [hp]
      split
      · exact .inr (.inr ⟨_, _, rfl, rfl, h'⟩)
      · exact ih false h'

/-! ## trials -/

/-- what two states have in common during a line search. -/
structure Trial (s s' : SQP P) : Prop extends Alike s s' where
  data : s.data.Same s'.data
  merit : s.merit = s'.merit
  dx : ∀ t, t ≤ P.T → s.dx t = s'.dx t
  du : ∀ t, t < P.T → s.du t = s'.du t

/-- after `n` nodes of a trial. -/
structure TrialAt (n : ℕ) (s s' : SQP P) : Prop extends Trial s s' where
  xsTry : ∀ t, t < n → s.xsTry t = s'.xsTry t
  usTry : ∀ t, t < n → s.usTry t = s'.usTry t
  costTry : s.costTry = s'.costTry
  gapTry : s.gapTry = s'.gapTry
  step : s.steplength = s'.steplength

theorem tryStage_alike (a : F) {n : ℕ} (hn : n < P.T) (h : TrialAt n s s') :
    Res.Rel (TrialAt (n + 1)) (fun s s' => Trial s s' ∧ s.steplength = s'.steplength) (tryStage a n s) (tryStage a n s') := by
  have ex : P.integrate (s.xs n) (sv a (s.dx n)) = P.integrate (s'.xs n) (sv a (s'.dx n)) := by rw [h.xs n hn.le, h.dx n hn.le]
  have eu : ∀ t, t < n + 1 → (if P.nu n ≠ 0 then Function.update s.usTry n (s.us n + sv a (s.du n)) else s.usTry) t =
      (if P.nu n ≠ 0 then Function.update s'.usTry n (s'.us n + sv a (s'.du n)) else s'.usTry) t := by
    intro t ht
    by_cases h0 : P.nu n ≠ 0
    · rw [if_pos h0, if_pos h0]
      exact update_upTo h.usTry (by rw [h.us n hn, h.du n hn]) t ht
    · rw [if_neg h0, if_neg h0]
      by_cases e : t = n
      · subst e; exact vec_eq_of_zero (not_not.mp h0) _ _
      · exact h.usTry t (by omega)
  unfold tryStage
  simp only []
  generalize hU : (if P.nu n ≠ 0 then Function.update s.usTry n (s.us n + sv a (s.du n)) else s.usTry) = U at *
  generalize hU' : (if P.nu n ≠ 0 then Function.update s'.usTry n (s'.us n + sv a (s'.du n)) else s'.usTry) = U' at *
  generalize P.integrate (s.xs n) (sv a (s.dx n)) = X at *
  generalize P.integrate (s'.xs n) (sv a (s'.dx n)) = X' at *
  have hd := Same.node h.data n ex (eu n (by omega))
  have hc : s.costTry + ((s.data.calcNode n X (U n)).run n).cost = s'.costTry + ((s'.data.calcNode n X' (U' n)).run n).cost := by
    rw [h.costTry, hd.run n hn]
  have hxs : ∀ t, t < n + 1 → Function.update s.xsTry n X t = Function.update s'.xsTry n X' t :=
    update_upTo (β := fun _ => P.X) h.xsTry ex
  by_cases h0 : 0 < n
  · have hg : s.gapTry + norm1 (P.diff X ((s.data.calcNode n X (U n)).run (n - 1)).xnext) =
        s'.gapTry + norm1 (P.diff X' ((s'.data.calcNode n X' (U' n)).run (n - 1)).xnext) := by
      rw [h.gapTry, ex, ← ex, hd.run (n - 1) (by omega), ex]
    simp only [if_pos h0, hc]
    split
    · exact .exn ⟨⟨⟨h.ctl, h.xs, h.us, h.dx0, h.filt⟩, hd, h.merit, h.dx, h.du⟩, h.step⟩
    · exact .ok ⟨⟨⟨h.ctl, h.xs, h.us, h.dx0, h.filt⟩, hd, h.merit, h.dx, h.du⟩, hxs, eu, rfl, hg, h.step⟩
  · simp only [if_neg h0, hc]
    split
    · exact .exn ⟨⟨⟨h.ctl, h.xs, h.us, h.dx0, h.filt⟩, hd, h.merit, h.dx, h.du⟩, h.step⟩
    · exact .ok ⟨⟨⟨h.ctl, h.xs, h.us, h.dx0, h.filt⟩, hd, h.merit, h.dx, h.du⟩, hxs, eu, rfl, h.gapTry, h.step⟩

/-- after a successful trial. -/
structure Tried (s s' : SQP P) : Prop extends Trial s s' where
  xsTry : ∀ t, t ≤ P.T → s.xsTry t = s'.xsTry t
  usTry : ∀ t, t < P.T → s.usTry t = s'.usTry t
  costTry : s.costTry = s'.costTry
  gapTry : s.gapTry = s'.gapTry
  meritTry : s.meritTry = s'.meritTry
  step : s.steplength = s'.steplength

theorem tryTerminal_alike (a : F) (hT : 0 < P.T) (h : TrialAt P.T s s') :
    Res.Rel (Tried) (fun s s' => Trial s s' ∧ s.steplength = s'.steplength) (tryTerminal a s) (tryTerminal a s') := by
  have ex : P.integrate (s.xs P.T) (sv a (s.dx P.T)) = P.integrate (s'.xs P.T) (sv a (s'.dx P.T)) := by
    rw [h.xs _ le_rfl, h.dx _ le_rfl]
  obtain ⟨c1, c2, c3, c4, c5, c6, c7, c8, c9, c10, c11, c12, c13⟩ := ctl_all h.ctl
  unfold tryTerminal
  simp only []
  generalize P.integrate (s.xs P.T) (sv a (s.dx P.T)) = X at *
  generalize P.integrate (s'.xs P.T) (sv a (s'.dx P.T)) = X' at *
  subst ex
  have hd : (s.data.calcTer X).Same (s'.data.calcTer X) := ⟨h.data.run, rfl⟩
  have hc : s.costTry + (s.data.calcTer X).ter.cost = s'.costTry + (s'.data.calcTer X).ter.cost := by rw [h.costTry, hd.ter]
  have hg : s.gapTry + norm1 (P.diff X ((s.data.calcTer X).run (P.T - 1)).xnext) =
      s'.gapTry + norm1 (P.diff X ((s'.data.calcTer X).run (P.T - 1)).xnext) := by rw [h.gapTry, hd.run _ (by omega)]
  have hxs : ∀ t, t < P.T + 1 → Function.update s.xsTry P.T X t = Function.update s'.xsTry P.T X t :=
    update_upTo (β := fun _ => P.X) h.xsTry rfl
  simp only [hc]
  split
  · exact .exn ⟨⟨⟨h.ctl, h.xs, h.us, h.dx0, h.filt⟩, hd, h.merit, h.dx, h.du⟩, h.step⟩
  · exact .ok ⟨⟨⟨h.ctl, h.xs, h.us, h.dx0, h.filt⟩, hd, h.merit, h.dx, h.du⟩, fun t ht => hxs t (by omega), h.usTry, rfl, hg,
      by simp only []; rw [hg, c3], h.step⟩

theorem tryStep_alike (a : F) (hT : 0 < P.T) (h : Trial s s') (hst : s.steplength = s'.steplength) :
    Res.Rel (Tried) (fun s s' => Trial s s' ∧ s.steplength = s'.steplength) (tryStep a s) (tryStep a s') := by
  unfold tryStep
  simp only []
  split
  · exact .exn ⟨⟨⟨h.ctl, h.xs, h.us, h.dx0, h.filt⟩, h.data, h.merit, h.dx, h.du⟩, hst⟩
  · refine Res.Rel.bind (forUpR_rel (TrialAt) _ P.T _ _ (fun t ht x y => tryStage_alike a ht) ?_) fun x y => tryTerminal_alike a hT
    exact ⟨⟨⟨h.ctl, h.xs, h.us, h.dx0, h.filt⟩, h.data, h.merit, h.dx, h.du⟩, fun t ht => by omega, fun t ht => by omega, rfl, rfl, hst⟩

theorem worse_alike (h : Tried s s') (hu : s.useFilter = true) : s.worse = s'.worse := by
  obtain ⟨c1, c2, c3, c4, c5, c6, c7, c8, c9, c10, c11, c12, c13⟩ := ctl_all h.ctl
  have hf : s.filterSize ≤ 1 := h.filt.resolve_left (by rw [hu]; nofun)
  unfold worse
  rw [c5] at hf
  rw [c5, c12, c13, h.costTry, h.gapTry, Bool.eq_iff_iff, filterLoop_iff, filterLoop_iff]
  refine exists_congr fun j => ⟨?_, ?_⟩
  · rintro ⟨q1, q2, q3, q4, q5⟩; exact ⟨q1, q2, q3, by omega, q5⟩
  · rintro ⟨q1, q2, q3, q4, q5⟩; exact ⟨q1, q2, q3, by omega, q5⟩

theorem accept_alike (h : Tried s s') : Trial (s.setCandidate s.xsTry s.usTry false) (s'.setCandidate s'.xsTry s'.usTry false) := by
  obtain ⟨c1, c2, c3, c4, c5, c6, c7, c8, c9, c10, c11, c12, c13⟩ := ctl_all h.ctl
  exact ⟨⟨by simp only [Split.ctl, setCandidate, c1, c2, c3, c4, c5, c6, c7, c8, c9, c10, c12, c13], h.xsTry, h.usTry, h.dx0, h.filt⟩,
    h.data, h.merit, h.dx, h.du⟩

theorem lineSearch_alike (hT : 0 < P.T) (as : List F) (h : Trial s s') (hst : as ≠ [] ∨ s.steplength = s'.steplength) :
    (lineSearch as s).1 = (lineSearch as s').1 ∧ Trial (lineSearch as s).2 (lineSearch as s').2 ∧
      (lineSearch as s).2.steplength = (lineSearch as s').2.steplength := by
  induction as generalizing s s' with
  | nil => exact ⟨rfl, h, hst.resolve_left fun h => h rfl⟩
  | cons a as ih =>
    have hc := tryStep_alike a hT (s := { s with steplength := a }) (s' := { s' with steplength := a })
      ⟨⟨h.ctl, h.xs, h.us, h.dx0, h.filt⟩, h.data, h.merit, h.dx, h.du⟩ rfl
    unfold lineSearch
    generalize tryStep a { s with steplength := a } = x at *
    generalize tryStep a { s' with steplength := a } = y at *
    cases hc with
    | @exn a b h => exact ih h.1 (.inr h.2)
    | @ok a b h =>
      obtain ⟨c1, c2, c3, c4, c5, c6, c7, c8, c9, c10, c11, c12, c13⟩ := ctl_all h.ctl
      have hA := accept_alike h
      have e3 : ∀ {α} (p q : α), (if ltb a.meritTry a.merit = true then p else q) = if ltb b.meritTry b.merit = true then p else q := by
        rw [h.meritTry, h.merit]; intros; rfl
      have e1 : ∀ {α} (p q : α), (if a.useFilter = true then p else q) = if b.useFilter = true then p else q := by rw [c4]; intros; rfl
      simp only []
      rw [e1]
      by_cases hu : b.useFilter = true
      · rw [if_pos hu, if_pos hu]
        have hw := worse_alike h (c4.trans hu)
        have e2 : ∀ {α} (p q : α), (if a.worse = true then p else q) = if b.worse = true then p else q := by rw [hw]; intros; rfl
        rw [e2]
        split
        · exact ih ⟨⟨h.ctl, h.xs, h.us, h.dx0, h.filt⟩, h.data, h.merit, h.dx, h.du⟩ (.inr h.step)
        · exact ⟨rfl, ⟨⟨hA.ctl, hA.xs, hA.us, hA.dx0, hA.filt⟩, hA.data, hA.merit, hA.dx, hA.du⟩, h.step⟩
      · rw [if_neg hu, if_neg hu, e3]
        split
        · exact ⟨rfl, hA, h.step⟩
        · exact ih h.toTrial (.inr h.step)

/-! ## iterations -/

theorem checked_alike (h : Dir s s') : Dir s.checkKKT.callbacks s'.checkKKT.callbacks ∧
    s.checkKKT.callbacks.KKT = s'.checkKKT.callbacks.KKT := by
  obtain ⟨c1, c2, c3, c4, c5, c6, c7, c8, c9, c10, c11, c12, c13⟩ := ctl_all h.ctl
  have hk : s.checkKKT.KKT = s'.checkKKT.KKT := kktResidual_same h.data h.fs h.lag
  exact ⟨⟨⟨⟨h.ctl, h.xs, h.us, h.dx0, h.filt⟩, h.data, h.cost, h.fs⟩, h.gap, h.merit, h.bp, h.dx, h.du, h.lag⟩, hk⟩

theorem push_alike (h : Dir s s') : Trial s.pushFilter s'.pushFilter := by
  obtain ⟨c1, c2, c3, c4, c5, c6, c7, c8, c9, c10, c11, c12, c13⟩ := ctl_all h.ctl
  exact ⟨⟨by simp only [Split.ctl, pushFilter, c1, c2, c3, c4, c5, c6, c7, c8, c9, c10, c11, c12, c13, h.gap, h.cost], h.xs, h.us, h.dx0, h.filt⟩,
    h.data.toSame, h.merit, h.dx, h.du⟩

theorem search_alike (hT : 0 < P.T) (h : Trial s s') (ha : s.par.alphas ≠ []) :
    Trial s.search s'.search ∧ s.search.steplength = s'.search.steplength := by
  obtain ⟨c1, c2, c3, c4, c5, c6, c7, c8, c9, c10, c11, c12, c13⟩ := ctl_all h.ctl
  have := lineSearch_alike hT s.par.alphas h (.inl ha)
  unfold search
  rw [← c1]
  generalize lineSearch s.par.alphas s = x at *
  generalize lineSearch s.par.alphas s' = y at *
  obtain ⟨f, a⟩ := x
  obtain ⟨g, b⟩ := y
  obtain ⟨h1, h2, h3⟩ := this
  simp only [] at h1 h2 h3 ⊢
  subst h1
  cases f with
  | true => exact ⟨h2, h3⟩
  | false => exact ⟨⟨⟨h2.ctl, h2.xs, h2.us, h2.dx0, h2.filt⟩, h2.data, h2.merit, h2.dx, h2.du⟩, h3⟩

theorem Trial.reg (h : Trial s s') {p q p' q' : F} (hp : p = p') (hq : q = q') :
    Trial { s with preg := p, dreg := q } { s' with preg := p', dreg := q' } := by
  subst hp hq
  obtain ⟨c1, c2, c3, c4, c5, c6, c7, c8, c9, c10, c11, c12, c13⟩ := ctl_all h.ctl
  exact ⟨⟨by simp only [Split.ctl, c1, c2, c3, c4, c5, c6, c7, c10, c11, c12, c13], h.xs, h.us, h.dx0, h.filt⟩, h.data, h.merit, h.dx, h.du⟩

theorem updateReg_alike (h : Trial s s') (hs : s.steplength = s'.steplength) :
    s.updateReg.1 = s'.updateReg.1 ∧ Trial s.updateReg.2 s'.updateReg.2 := by
  obtain ⟨c1, c2, c3, c4, c5, c6, c7, c8, c9, c10, c11, c12, c13⟩ := ctl_all h.ctl
  have h1 : Trial (if ltb s.par.thStepDec s.steplength then s.decreaseReg else s)
      (if ltb s'.par.thStepDec s'.steplength then s'.decreaseReg else s') ∧
      (if ltb s.par.thStepDec s.steplength then s.decreaseReg else s).steplength =
      (if ltb s'.par.thStepDec s'.steplength then s'.decreaseReg else s').steplength := by
    rw [← c1, ← hs]
    split
    · exact ⟨h.reg (by rw [c1, c8]) (by rw [c1, c8]), hs⟩
    · exact ⟨h, hs⟩
  unfold updateReg
  simp only []
  generalize (if ltb s.par.thStepDec s.steplength then s.decreaseReg else s) = a at *
  generalize (if ltb s'.par.thStepDec s'.steplength then s'.decreaseReg else s') = b at *
  obtain ⟨h1, h2⟩ := h1
  obtain ⟨d1, d2, d3, d4, d5, d6, d7, d8, d9, d10, d11, d12, d13⟩ := ctl_all h1.ctl
  rw [← d1, ← h2]
  split
  · refine ⟨?_, h1.reg (by rw [d1, d8]) (by rw [d1, d8])⟩
    change eqb (incReg a.par a.preg) a.par.regMax = eqb (incReg b.par b.preg) b.par.regMax
    rw [d1, d8]
  · exact ⟨rfl, h1⟩

/-- one iteration. -/
theorem body_alike (llt : LLT F) (fuel : ℕ) (hT : 0 < P.T) (ha : s.par.alphas ≠ []) (h : Head s s') :
    (body llt fuel s = none ∧ body llt fuel s' = none) ∨
    (∃ a b, body llt fuel s = some (some true, a) ∧ body llt fuel s' = some (some true, b) ∧ Dir a b ∧ a.KKT = b.KKT) ∨
    (∃ a b, body llt fuel s = some (some false, a) ∧ body llt fuel s' = some (some false, b) ∧ Alike a b) ∨
    ∃ a b, body llt fuel s = some (none, a) ∧ body llt fuel s' = some (none, b) ∧ Trial a b := by
  have hpar : ∀ a, retry llt fuel true s = some (true, a) → a.par = s.par := fun a ha =>
    retry_frame par (fun _ _ _ _ _ _ _ _ _ _ _ _ => rfl) (fun _ _ _ => rfl) _ _ _ _ _ _ ha
  unfold body
  rcases retry_alike llt fuel true h with ⟨e1, e2⟩ | ⟨a, b, e1, e2, hd⟩ | ⟨a, b, e1, e2, hd⟩
  · rw [e1, e2]; exact .inl ⟨rfl, rfl⟩
  · have hp := hpar a e1
    rw [e1, e2]
    obtain ⟨hc, hk⟩ := checked_alike hd
    simp only []
    have hxp : a.checkKKT.callbacks.par = s.par := hp
    generalize a.checkKKT.callbacks = x at *
    generalize b.checkKKT.callbacks = y at *
    obtain ⟨c1, c2, c3, c4, c5, c6, c7, c8, c9, c10, c11, c12, c13⟩ := ctl_all hc.ctl
    rw [← hk, ← c2]
    split
    · exact .inr (.inl ⟨x, y, rfl, rfl, hc, hk⟩)
    · obtain ⟨h1, h2⟩ := search_alike hT (push_alike hc) (by change x.par.alphas ≠ []; rw [hxp]; exact ha)
      obtain ⟨h3, h4⟩ := updateReg_alike h1 h2
      rw [← h3]
      split
      · exact .inr (.inr (.inl ⟨_, _, rfl, rfl, h4.toAlike⟩))
      · exact .inr (.inr (.inr ⟨_, _, rfl, rfl, h4⟩))
  · rw [e1, e2]; exact .inr (.inr (.inl ⟨a, b, rfl, rfl, hd.toAlike⟩))

/-- the iterations of a solve. -/
theorem iterate_alike (llt : LLT F) (fuel : ℕ) (hT : 0 < P.T) (n : ℕ) (ha : s.par.alphas ≠ []) (h : Head s s') :
    (iterate llt fuel n s = none ∧ iterate llt fuel n s' = none) ∨
    (∃ a b, iterate llt fuel n s = some (some true, a) ∧ iterate llt fuel n s' = some (some true, b) ∧ Dir a b ∧ a.KKT = b.KKT) ∨
    (∃ a b, iterate llt fuel n s = some (some false, a) ∧ iterate llt fuel n s' = some (some false, b) ∧ Alike a b) ∨
    ∃ a b, iterate llt fuel n s = some (none, a) ∧ iterate llt fuel n s' = some (none, b) ∧ Head a b := by
  induction n generalizing s s' with
  | zero => exact .inr (.inr (.inr ⟨s, s', rfl, rfl, h⟩))
  | succ n ih =>
    unfold iterate
    have hpar : ∀ r a, body llt fuel s = some (r, a) → a.par = s.par := fun r a ha => body_par ha
    rcases body_alike llt fuel hT ha h with ⟨e1, e2⟩ | ⟨a, b, e1, e2, hd⟩ | ⟨a, b, e1, e2, hd⟩ | ⟨a, b, e1, e2, hd⟩
    · rw [e1, e2]; exact .inl ⟨rfl, rfl⟩
    · rw [e1, e2]; exact .inr (.inl ⟨a, b, rfl, rfl, hd⟩)
    · rw [e1, e2]; exact .inr (.inr (.inl ⟨a, b, rfl, rfl, hd⟩))
    · have hp := hpar _ _ e1
      rw [e1, e2]
      obtain ⟨c1, c2, c3, c4, c5, c6, c7, c8, c9, c10, c11, c12, c13⟩ := ctl_all hd.ctl
      refine ih (s := { a with iter := a.iter + 1 }) (s' := { b with iter := b.iter + 1 }) (by change a.par.alphas ≠ []; rw [hp]; exact ha) ?_
      exact ⟨⟨by simp only [Split.ctl, c1, c2, c3, c4, c5, c6, c7, c8, c9, c10, c11, c12, c13], hd.xs, hd.us, hd.dx0, hd.filt⟩, .inr ⟨Nat.succ_ne_zero _, Nat.succ_ne_zero _, hd.data⟩⟩

theorem extraIter_alike (llt : LLT F) (fuel : ℕ) (h : Head s s') :
    (extraIter llt fuel s = none ∧ extraIter llt fuel s' = none) ∨
    ∃ r a b, extraIter llt fuel s = some (r, a) ∧ extraIter llt fuel s' = some (r, b) ∧ Alike a b ∧
      (r = true → Dir a b ∧ a.KKT = b.KKT) := by
  obtain ⟨c1, c2, c3, c4, c5, c6, c7, c8, c9, c10, c11, c12, c13⟩ := ctl_all h.ctl
  unfold extraIter
  rw [← c6]
  split
  · rcases retry_alike llt fuel true h with ⟨e1, e2⟩ | ⟨a, b, e1, e2, hd⟩ | ⟨a, b, e1, e2, hd⟩
    · rw [e1, e2]; exact .inl ⟨rfl, rfl⟩
    · rw [e1, e2]
      obtain ⟨hc, hk⟩ := checked_alike hd
      obtain ⟨c1, c2, c3, c4, c5, c6, c7, c8, c9, c10, c11, c12, c13⟩ := ctl_all hc.ctl
      exact .inr ⟨_, _, _, rfl, by simp only [hk, c2], hc.toAlike, fun _ => ⟨hc, hk⟩⟩
    · rw [e1, e2]; exact .inr ⟨false, a, b, rfl, rfl, hd.toAlike, nofun⟩
  · exact .inr ⟨false, s, s', rfl, rfl, h.toAlike, nofun⟩

end Split
end SQP
end
end Mim
