import Verif.Props.SQPFilter
import Verif.Lemmas.Backward

/-!
# Two SQP solver states that differ only in leftovers of earlier calls behave alike
-/
set_option linter.unusedSectionVars false
set_option linter.unusedSimpArgs false

namespace Mim

/-- two results are of the same kind, with related states. -/
inductive Res.Rel {S S' : Type _} (R Q : S → S' → Prop) : Res S → Res S' → Prop
  | ok {a b} (h : R a b) : Res.Rel R Q (.ok a) (.ok b)
  | exn {a b} (h : Q a b) : Res.Rel R Q (.exn a) (.exn b)

theorem Res.Rel.bind {S S' : Type _} {R Q R' : S → S' → Prop} {r : Res S} {r' : Res S'} (h : Res.Rel R Q r r')
    {f : S → Res S} {f' : S' → Res S'} (hf : ∀ a b, R a b → Res.Rel R' Q (f a) (f' b)) : Res.Rel R' Q (r.bind f) (r'.bind f') := by
  cases h with
  | ok h => exact hf _ _ h
  | exn h => exact .exn h

theorem forUpR_rel {S S' : Type _} (R : ℕ → S → S' → Prop) (Q : S → S' → Prop) (n : ℕ) (f : ℕ → S → Res S) (f' : ℕ → S' → Res S')
    (hf : ∀ t, t < n → ∀ a b, R t a b → Res.Rel (R (t + 1)) Q (f t a) (f' t b)) {a : S} {b : S'} (h : R 0 a b) :
    Res.Rel (R n) Q (forUpR n f a) (forUpR n f' b) := by
  induction n with
  | zero => exact .ok h
  | succ n ih => exact (ih fun t ht => hf t (by omega)).bind (hf n (by omega))

theorem forUp_rel {S S' : Type _} (R : ℕ → S → S' → Prop) (n : ℕ) (f : ℕ → S → S) (f' : ℕ → S' → S')
    (hf : ∀ t, t < n → ∀ a b, R t a b → R (t + 1) (f t a) (f' t b)) {a : S} {b : S'} (h : R 0 a b) : R n (forUp n f a) (forUp n f' b) := by
  induction n with
  | zero => exact h
  | succ n ih => exact hf n (by omega) _ _ (ih fun t ht => hf t (by omega))

theorem forDownR_congr {S : Type _} (n : ℕ) (f g : ℕ → S → Res S) (h : ∀ t, t < n → f t = g t) : forDownR n f = forDownR n g := by
  induction n with
  | zero => rfl
  | succ n ih =>
    funext s
    rw [forDownR_succ, forDownR_succ, h n (by omega), ih fun t ht => h t (by omega)]

theorem forUp_congr' {S : Type _} (n : ℕ) (f g : ℕ → S → S) (h : ∀ t, t < n → f t = g t) : forUp n f = forUp n g := by
  induction n with
  | zero => rfl
  | succ n ih =>
    funext s
    rw [forUp_succ, forUp_succ, h n (by omega), ih fun t ht => h t (by omega)]

section
variable {F : Type} [Add F] [Sub F] [Mul F] [Div F] [Neg F] [Zero F] [One F] [FloatOps F] {P : Problem F}

/-- the datas of the nodes agree (costs, next states, constraint values). -/
structure Data.Same (d d' : Data P) : Prop where
  run : ∀ t, t < P.T → d.run t = d'.run t
  ter : d.ter = d'.ter

/-- so do their derivatives. -/
structure Data.SameD (d d' : Data P) : Prop extends Data.Same d d' where
  rd : ∀ t, t < P.T → d.rd t = d'.rd t
  td : d.td = d'.td

theorem Data.Same.cost {d d' : Data P} (h : d.Same d') : d.totalCost = d'.totalCost := by
  unfold Data.totalCost
  rw [sumUp_congr P.T _ _ fun t ht => by rw [h.run t ht], h.ter]

theorem Data.Same.gaps {d d' : Data P} (h : d.Same d') {xs xs' : Traj P} (hx : ∀ t, t ≤ P.T → xs t = xs' t) (t : ℕ) (ht : t ≤ P.T) :
    gapsOf d xs t = gapsOf d' xs' t := by
  cases t with
  | zero => rw [gapsOf, gapsOf, hx 0 (by omega)]
  | succ t => rw [gapsOf, gapsOf, hx _ ht, h.run t (by omega)]

theorem calcAll_same (d d' : Data P) {xs xs' : Traj P} {us us' : Ctrls P} (hx : ∀ t, t ≤ P.T → xs t = xs' t)
    (hu : ∀ t, t < P.T → us t = us' t) : (d.calcAll xs us).Same (d'.calcAll xs' us') := by
  refine ⟨fun t ht => ?_, ?_⟩
  · simp only [Data.calcAll, if_pos ht]; rw [hx t ht.le, hu t ht]
  · simp only [Data.calcAll]; rw [hx _ le_rfl]

theorem calcDiffAll_same {d d' : Data P} (h : d.Same d') {xs xs' : Traj P} {us us' : Ctrls P} (hx : ∀ t, t ≤ P.T → xs t = xs' t)
    (hu : ∀ t, t < P.T → us t = us' t) : (d.calcDiffAll xs us).SameD (d'.calcDiffAll xs' us') := by
  refine ⟨⟨h.run, h.ter⟩, fun t ht => ?_, ?_⟩
  · simp only [Data.calcDiffAll, if_pos ht]; rw [hx t ht.le, hu t ht]
  · simp only [Data.calcDiffAll]; rw [hx _ le_rfl]

theorem gapNorm_same {fs fs' : ℕ → Vec F P.ndx} (h : ∀ t, t ≤ P.T → fs t = fs' t) : gapNorm (P := P) fs = gapNorm (P := P) fs' := by
  unfold gapNorm
  rw [sumUp_congr P.T _ _ fun t ht => by rw [h t ht.le], h _ le_rfl]

theorem kktResidual_same {d d' : Data P} (h : d.SameD d') {fs fs' lam lam' : ℕ → Vec F P.ndx} (hf : ∀ t, t ≤ P.T → fs t = fs' t)
    (hl : ∀ t, t ≤ P.T → lam t = lam' t) : kktResidual d fs lam = kktResidual d' fs' lam' := by
  unfold kktResidual
  simp only []
  rw [forUp_congr' P.T _ _ fun t ht => by
    funext K
    rw [h.rd t ht, hl (t + 1) (by omega), hl t ht.le]]
  rw [forUp_congr' (P.T + 1) (fun t m => cppMax m (normInf (fs t))) (fun t m => cppMax m (normInf (fs' t))) fun t ht => by
    funext m; rw [hf t (by omega)]]
  rw [h.td, hl _ le_rfl]

theorem backwardStage_same (llt : LLT F) {d d' : Data P} {fs fs' : ℕ → Vec F P.ndx} (feas : Bool) (preg dreg : F) {t : ℕ}
    (h : d.rd t = d'.rd t) (hf : fs t = fs' t) : backwardStage llt d fs feas preg dreg t = backwardStage llt d' fs' feas preg dreg t := by
  funext b
  unfold backwardStage qTerms vTerms
  simp only [h, hf]

/-- the backward pass depends on the derivatives and gaps of the nodes only. -/
theorem backwardPass_same (llt : LLT F) {d d' : Data P} (h : d.SameD d') {fs fs' : ℕ → Vec F P.ndx} (hf : ∀ t, t ≤ P.T → fs t = fs' t)
    (feas : Bool) (preg dreg : F) (b b' : BP P) :
    Bwd.ResAgree 0 (backwardPass llt d fs feas preg dreg b) (backwardPass llt d' fs' feas preg dreg b') := by
  have e : backwardPass llt d' fs' feas preg dreg b' = backwardPass llt d fs feas preg dreg b' := by
    unfold backwardPass
    rw [forDownR_congr P.T _ _ fun t ht => backwardStage_same llt feas preg dreg (h.rd t ht) (hf t ht.le)]
    unfold backwardInit
    rw [h.td, hf _ le_rfl]
  rw [e]
  exact Bwd.backwardPass_indep llt d fs feas preg dreg b b'

namespace SQP

/-- parameters and control state. -/
def ctl (s : SQP P) := (s.par, s.tol, s.mu, s.useFilter, s.filterSize, s.extra, s.ncb, s.preg, s.dreg, s.iter, s.feas, s.gapList, s.costList)

/-- `s` and `s'` agree in parameters, control state and candidate; their callback logs continue `l`, `l'` in the same way. -/
structure Alike (l l' : List (CbEvent F)) (s s' : SQP P) : Prop where
  ctl : ctl s = ctl s'
  xs : ∀ t, t ≤ P.T → s.xs t = s'.xs t
  us : ∀ t, t < P.T → s.us t = s'.us t
  dx0 : s.dx 0 = s'.dx 0
  log : ∃ e, s.log = l ++ e ∧ s'.log = l' ++ e

/-- at the head of an iteration: the datas agree unless this is the first iteration. -/
structure Head (l l' : List (CbEvent F)) (s s' : SQP P) : Prop extends Alike l l' s s' where
  data : s.iter = 0 ∨ s.data.Same s'.data

/-- after `calcDiff`. -/
structure Eval (l l' : List (CbEvent F)) (s s' : SQP P) : Prop extends Alike l l' s s' where
  data : s.data.SameD s'.data
  cost : s.cost = s'.cost
  fs : ∀ t, t ≤ P.T → s.fs t = s'.fs t

/-- after a direction was computed. -/
structure Dir (l l' : List (CbEvent F)) (s s' : SQP P) : Prop extends Eval l l' s s' where
  gap : s.gap = s'.gap
  merit : s.merit = s'.merit
  bp : Bwd.Agree 0 s.bp s'.bp
  dx : ∀ t, t ≤ P.T → s.dx t = s'.dx t
  du : ∀ t, t < P.T → s.du t = s'.du t
  lag : ∀ t, t ≤ P.T → s.lagMul t = s'.lagMul t

variable {l l' : List (CbEvent F)} {s s' : SQP P}

theorem ctl_all (h : ctl s = ctl s') : s.par = s'.par ∧ s.tol = s'.tol ∧ s.mu = s'.mu ∧ s.useFilter = s'.useFilter ∧
    s.filterSize = s'.filterSize ∧ s.extra = s'.extra ∧ s.ncb = s'.ncb ∧ s.preg = s'.preg ∧ s.dreg = s'.dreg ∧ s.iter = s'.iter ∧
    s.feas = s'.feas ∧ s.gapList = s'.gapList ∧ s.costList = s'.costList := by
  simpa only [SQP.ctl, Prod.mk.injEq] using h

theorem calcDiff_alike (h : Head l l' s s') : Eval l l' s.calcDiff s'.calcDiff := by
  obtain ⟨_, _, _, _, _, _, _, _, _, hi, _, _, _⟩ := ctl_all h.ctl
  have hd : (if s.iter = 0 then s.data.calcAll s.xs s.us else s.data).Same (if s'.iter = 0 then s'.data.calcAll s'.xs s'.us else s'.data) := by
    rw [← hi]
    by_cases h0 : s.iter = 0
    · rw [if_pos h0, if_pos h0]; exact calcAll_same _ _ h.xs h.us
    · rw [if_neg h0, if_neg h0]; exact h.data.resolve_left h0
  have hD := calcDiffAll_same hd h.xs h.us
  exact ⟨⟨h.ctl, h.xs, h.us, h.dx0, h.log⟩, hD, hD.toSame.cost, fun t ht => hD.toSame.gaps h.xs t ht⟩

/-- part of the step known after `n` nodes of the forward pass. -/
structure Fwd (l l' : List (CbEvent F)) (n : ℕ) (s s' : SQP P) : Prop extends Eval l l' s s' where
  gap : s.gap = s'.gap
  merit : s.merit = s'.merit
  bp : Bwd.Agree 0 s.bp s'.bp
  dx : ∀ t, t ≤ n → s.dx t = s'.dx t
  du : ∀ t, t < n → s.du t = s'.du t
  lag : ∀ t, t < n → s.lagMul t = s'.lagMul t

theorem update_upTo {β : ℕ → Type} {f g : (t : ℕ) → β t} {n : ℕ} (h : ∀ t, t < n → f t = g t) {x y : β n} (hxy : x = y) (t : ℕ) (ht : t < n + 1) :
    Function.update f n x t = Function.update g n y t := by
  subst hxy
  by_cases e : t = n
  · subst e; simp
  · rw [Function.update_of_ne e, Function.update_of_ne e]; exact h t (by omega)

theorem forwardStage_alike {n : ℕ} (hn : n < P.T) (h : Fwd l l' n s s') : Fwd l l' (n + 1) (forwardStage n s) (forwardStage n s') := by
  have e1 := h.bp.Vxx n (by omega) hn.le
  have e2 := h.bp.Vx n (by omega) hn.le
  have e3 := h.bp.K n (by omega) hn
  have e4 := h.bp.k n (by omega) hn
  have e5 := h.data.rd n hn
  have e6 := h.fs n hn.le
  have e7 := h.fs (n + 1) hn
  have e8 := h.dx n le_rfl
  refine ⟨⟨⟨h.ctl, h.xs, h.us, ?_, h.log⟩, h.data, h.cost, h.fs⟩, h.gap, h.merit, h.bp, ?_, ?_, ?_⟩
  · simp only [forwardStage]
    rw [Function.update_of_ne (by omega), Function.update_of_ne (by omega)]; exact h.dx0
  · intro t ht
    simp only [forwardStage]
    refine update_upTo (β := fun _ => Vec F P.ndx) (n := n + 1) (fun t ht => h.dx t (by omega)) ?_ t (by omega)
    rw [e3, e4, e5, e7, e8]
  · simp only [forwardStage]
    exact update_upTo h.du (by rw [e3, e4, e8])
  · simp only [forwardStage]
    exact update_upTo (β := fun _ => Vec F P.ndx) h.lag (by rw [e1, e2, e6, e8])

theorem forwardPass_alike (h : Eval l l' s s') (hg : s.gap = s'.gap) (hm : s.merit = s'.merit) (hb : Bwd.Agree 0 s.bp s'.bp) :
    Dir l l' s.forwardPass s'.forwardPass := by
  have h0 : Fwd l l' 0 { s with xGrad := 0, uGrad := 0 } { s' with xGrad := 0, uGrad := 0 } :=
    ⟨⟨⟨h.ctl, h.xs, h.us, h.dx0, h.log⟩, h.data, h.cost, h.fs⟩, hg, hm, hb,
      fun t ht => by obtain rfl : t = 0 := by omega
                     exact h.dx0, fun t ht => by omega, fun t ht => by omega⟩
  have h1 := forUp_rel (Fwd l l') P.T forwardStage forwardStage (fun t ht a b => forwardStage_alike ht) h0
  unfold forwardPass
  generalize forUp P.T forwardStage { s with xGrad := 0, uGrad := 0 } = a at *
  generalize forUp P.T forwardStage { s' with xGrad := 0, uGrad := 0 } = b at *
  refine ⟨⟨⟨h1.ctl, h1.xs, h1.us, h1.dx0, h1.log⟩, h1.data, h1.cost, h1.fs⟩, h1.gap, h1.merit, h1.bp, h1.dx, h1.du, ?_⟩
  intro t ht
  refine update_upTo (β := fun _ => Vec F P.ndx) h1.lag ?_ t (by omega)
  rw [h1.bp.Vx _ (by omega) le_rfl, h1.bp.Vxx _ (by omega) le_rfl, h1.dx _ le_rfl, h1.fs _ le_rfl]

theorem computeDirection_alike (llt : LLT F) (r : Bool) (h : if r then Head l l' s s' else Eval l l' s s') :
    Res.Rel (Dir l l') (Eval l l') (s.computeDirection llt r) (s'.computeDirection llt r) := by
  have he : Eval l l' (if r then s.calcDiff else s) (if r then s'.calcDiff else s') := by
    cases r with
    | true => exact calcDiff_alike h
    | false => exact h
  unfold computeDirection
  generalize (if r then s.calcDiff else s) = a at *
  generalize (if r then s'.calcDiff else s') = b at *
  simp only []
  obtain ⟨c1, c2, c3, c4, c5, c6, c7, c8, c9, c10, c11, c12, c13⟩ := ctl_all he.ctl
  have eg := gapNorm_same he.fs
  rcases backwardPass_same llt he.data he.fs a.feas a.preg a.dreg a.bp b.bp with ⟨b1, b2, e1, e2, hb⟩ | ⟨b1, b2, e1, e2⟩
  · rw [c11, c8, c9] at e2
    rw [e1, e2]
    refine .ok (forwardPass_alike ⟨⟨he.ctl, he.xs, he.us, he.dx0, he.log⟩, he.data, he.cost, he.fs⟩ eg ?_ hb)
    simp only []; rw [he.cost, c3, eg]
  · rw [c11, c8, c9] at e2
    rw [e1, e2]
    exact .exn ⟨⟨he.ctl, he.xs, he.us, he.dx0, he.log⟩, he.data, he.cost, he.fs⟩

theorem Eval.reg (h : Eval l l' s s') {p q : F} {p' q' : F} (hp : p = p') (hq : q = q') :
    Eval l l' { s with preg := p, dreg := q } { s' with preg := p', dreg := q' } := by
  subst hp hq
  obtain ⟨c1, c2, c3, c4, c5, c6, c7, c8, c9, c10, c11, c12, c13⟩ := ctl_all h.ctl
  exact ⟨⟨by simp only [SQP.ctl, c1, c2, c3, c4, c5, c6, c7, c10, c11, c12, c13], h.xs, h.us, h.dx0, h.log⟩, h.data, h.cost, h.fs⟩

/-- the retry loop. -/
theorem retry_alike (llt : LLT F) (fuel : ℕ) (r : Bool) (h : if r then Head l l' s s' else Eval l l' s s') :
    (retry llt fuel r s = none ∧ retry llt fuel r s' = none) ∨
    (∃ a b, retry llt fuel r s = some (true, a) ∧ retry llt fuel r s' = some (true, b) ∧ Dir l l' a b) ∨
    ∃ a b, retry llt fuel r s = some (false, a) ∧ retry llt fuel r s' = some (false, b) ∧ Eval l l' a b := by
  induction fuel generalizing r s s' with
  | zero => exact .inl ⟨rfl, rfl⟩
  | succ n ih =>
    have hc := computeDirection_alike llt r h
    unfold retry
    generalize s.computeDirection llt r = x at *
    generalize s'.computeDirection llt r = y at *
    cases hc with
    | @ok a b h => exact .inr (.inl ⟨a, b, rfl, rfl, h⟩)
    | @exn a b h =>
      obtain ⟨c1, c2, c3, c4, c5, c6, c7, c8, c9, c10, c11, c12, c13⟩ := ctl_all h.ctl
      have h' : Eval l l' a.increaseReg b.increaseReg := h.reg (by rw [c1, c8]) (by rw [c1, c8])
      have hp : eqb a.increaseReg.preg a.increaseReg.par.regMax = eqb b.increaseReg.preg b.increaseReg.par.regMax := by
        change eqb (incReg a.par a.preg) a.par.regMax = eqb (incReg b.par b.preg) b.par.regMax
        rw [c1, c8]
      simp only [hp]
      split
      · exact .inr (.inr ⟨_, _, rfl, rfl, h'⟩)
      · exact ih false h'

/-! ## trials -/

/-- what two states have in common during a line search. -/
structure Trial (l l' : List (CbEvent F)) (s s' : SQP P) : Prop extends Alike l l' s s' where
  data : s.data.Same s'.data
  merit : s.merit = s'.merit
  dx : ∀ t, t ≤ P.T → s.dx t = s'.dx t
  du : ∀ t, t < P.T → s.du t = s'.du t

/-- after `n` nodes of a trial. -/
structure TrialAt (l l' : List (CbEvent F)) (n : ℕ) (s s' : SQP P) : Prop extends Trial l l' s s' where
  xsTry : ∀ t, t < n → s.xsTry t = s'.xsTry t
  usTry : ∀ t, t < n → s.usTry t = s'.usTry t
  costTry : s.costTry = s'.costTry
  gapTry : s.gapTry = s'.gapTry
  step : s.steplength = s'.steplength

theorem Same.node {d d' : Data P} (h : d.Same d') (t : ℕ) {x x' : P.X} {u u' : Vec F (P.nu t)} (hx : x = x') (hu : u = u') :
    (d.calcNode t x u).Same (d'.calcNode t x' u') := by
  subst hx hu
  refine ⟨fun j hj => ?_, h.ter⟩
  simp only [Data.calcNode]
  by_cases e : j = t
  · subst e; simp
  · rw [Function.update_of_ne e, Function.update_of_ne e]; exact h.run j hj

theorem tryStage_alike (a : F) {n : ℕ} (hn : n < P.T) (h : TrialAt l l' n s s') :
    Res.Rel (TrialAt l l' (n + 1)) (fun s s' => Trial l l' s s' ∧ s.steplength = s'.steplength) (tryStage a n s) (tryStage a n s') := by
  have ex : P.integrate (s.xs n) (sv a (s.dx n)) = P.integrate (s'.xs n) (sv a (s'.dx n)) := by rw [h.xs n hn.le, h.dx n hn.le]
  have eu : ∀ t, t < n + 1 → (if P.nu n ≠ 0 then Function.update s.usTry n (s.us n + sv a (s.du n)) else s.usTry) t =
      (if P.nu n ≠ 0 then Function.update s'.usTry n (s'.us n + sv a (s'.du n)) else s'.usTry) t := by
    intro t ht
    by_cases h0 : P.nu n ≠ 0
    · rw [if_pos h0, if_pos h0]
      exact update_upTo h.usTry (by rw [h.us n hn, h.du n hn]) t ht
    · rw [if_neg h0, if_neg h0]
      by_cases e : t = n
      · subst e; exact vec_eq_of_zero (not_not.mp h0) _ _
      · exact h.usTry t (by omega)
  unfold tryStage
  simp only []
  generalize hU : (if P.nu n ≠ 0 then Function.update s.usTry n (s.us n + sv a (s.du n)) else s.usTry) = U at *
  generalize hU' : (if P.nu n ≠ 0 then Function.update s'.usTry n (s'.us n + sv a (s'.du n)) else s'.usTry) = U' at *
  generalize P.integrate (s.xs n) (sv a (s.dx n)) = X at *
  generalize P.integrate (s'.xs n) (sv a (s'.dx n)) = X' at *
  have hd := Same.node h.data n ex (eu n (by omega))
  have hc : s.costTry + ((s.data.calcNode n X (U n)).run n).cost = s'.costTry + ((s'.data.calcNode n X' (U' n)).run n).cost := by
    rw [h.costTry, hd.run n hn]
  have hxs : ∀ t, t < n + 1 → Function.update s.xsTry n X t = Function.update s'.xsTry n X' t :=
    update_upTo (β := fun _ => P.X) h.xsTry ex
  by_cases h0 : 0 < n
  · have hg : s.gapTry + norm1 (P.diff X ((s.data.calcNode n X (U n)).run (n - 1)).xnext) =
        s'.gapTry + norm1 (P.diff X' ((s'.data.calcNode n X' (U' n)).run (n - 1)).xnext) := by
      rw [h.gapTry, ex, ← ex, hd.run (n - 1) (by omega), ex]
    simp only [if_pos h0, hc]
    split
    · exact .exn ⟨⟨⟨h.ctl, h.xs, h.us, h.dx0, h.log⟩, hd, h.merit, h.dx, h.du⟩, h.step⟩
    · exact .ok ⟨⟨⟨h.ctl, h.xs, h.us, h.dx0, h.log⟩, hd, h.merit, h.dx, h.du⟩, hxs, eu, rfl, hg, h.step⟩
  · simp only [if_neg h0, hc]
    split
    · exact .exn ⟨⟨⟨h.ctl, h.xs, h.us, h.dx0, h.log⟩, hd, h.merit, h.dx, h.du⟩, h.step⟩
    · exact .ok ⟨⟨⟨h.ctl, h.xs, h.us, h.dx0, h.log⟩, hd, h.merit, h.dx, h.du⟩, hxs, eu, rfl, h.gapTry, h.step⟩

/-- after a successful trial. -/
structure Tried (l l' : List (CbEvent F)) (s s' : SQP P) : Prop extends Trial l l' s s' where
  xsTry : ∀ t, t ≤ P.T → s.xsTry t = s'.xsTry t
  usTry : ∀ t, t < P.T → s.usTry t = s'.usTry t
  costTry : s.costTry = s'.costTry
  gapTry : s.gapTry = s'.gapTry
  meritTry : s.meritTry = s'.meritTry
  step : s.steplength = s'.steplength

theorem tryTerminal_alike (a : F) (hT : 0 < P.T) (h : TrialAt l l' P.T s s') :
    Res.Rel (Tried l l') (fun s s' => Trial l l' s s' ∧ s.steplength = s'.steplength) (tryTerminal a s) (tryTerminal a s') := by
  have ex : P.integrate (s.xs P.T) (sv a (s.dx P.T)) = P.integrate (s'.xs P.T) (sv a (s'.dx P.T)) := by
    rw [h.xs _ le_rfl, h.dx _ le_rfl]
  obtain ⟨c1, c2, c3, c4, c5, c6, c7, c8, c9, c10, c11, c12, c13⟩ := ctl_all h.ctl
  unfold tryTerminal
  simp only []
  generalize P.integrate (s.xs P.T) (sv a (s.dx P.T)) = X at *
  generalize P.integrate (s'.xs P.T) (sv a (s'.dx P.T)) = X' at *
  subst ex
  have hd : (s.data.calcTer X).Same (s'.data.calcTer X) := ⟨h.data.run, rfl⟩
  have hc : s.costTry + (s.data.calcTer X).ter.cost = s'.costTry + (s'.data.calcTer X).ter.cost := by rw [h.costTry, hd.ter]
  have hg : s.gapTry + norm1 (P.diff X ((s.data.calcTer X).run (P.T - 1)).xnext) =
      s'.gapTry + norm1 (P.diff X ((s'.data.calcTer X).run (P.T - 1)).xnext) := by rw [h.gapTry, hd.run _ (by omega)]
  have hxs : ∀ t, t < P.T + 1 → Function.update s.xsTry P.T X t = Function.update s'.xsTry P.T X t :=
    update_upTo (β := fun _ => P.X) h.xsTry rfl
  simp only [hc]
  split
  · exact .exn ⟨⟨⟨h.ctl, h.xs, h.us, h.dx0, h.log⟩, hd, h.merit, h.dx, h.du⟩, h.step⟩
  · exact .ok ⟨⟨⟨h.ctl, h.xs, h.us, h.dx0, h.log⟩, hd, h.merit, h.dx, h.du⟩, fun t ht => hxs t (by omega), h.usTry, rfl, hg,
      by simp only []; rw [hg, c3], h.step⟩

theorem tryStep_alike (a : F) (hT : 0 < P.T) (h : Trial l l' s s') (hst : s.steplength = s'.steplength) :
    Res.Rel (Tried l l') (fun s s' => Trial l l' s s' ∧ s.steplength = s'.steplength) (tryStep a s) (tryStep a s') := by
  unfold tryStep
  simp only []
  split
  · exact .exn ⟨⟨⟨h.ctl, h.xs, h.us, h.dx0, h.log⟩, h.data, h.merit, h.dx, h.du⟩, hst⟩
  · refine Res.Rel.bind (forUpR_rel (TrialAt l l') _ P.T _ _ (fun t ht x y => tryStage_alike a ht) ?_) fun x y => tryTerminal_alike a hT
    exact ⟨⟨⟨h.ctl, h.xs, h.us, h.dx0, h.log⟩, h.data, h.merit, h.dx, h.du⟩, fun t ht => by omega, fun t ht => by omega, rfl, rfl, hst⟩

theorem worse_alike (h : Tried l l' s s') : s.worse = s'.worse := by
  obtain ⟨c1, c2, c3, c4, c5, c6, c7, c8, c9, c10, c11, c12, c13⟩ := ctl_all h.ctl
  unfold worse
  rw [c5, c10, c12, c13, h.costTry, h.gapTry]

theorem accept_alike (h : Tried l l' s s') : Trial l l' (s.setCandidate s.xsTry s.usTry false) (s'.setCandidate s'.xsTry s'.usTry false) := by
  obtain ⟨c1, c2, c3, c4, c5, c6, c7, c8, c9, c10, c11, c12, c13⟩ := ctl_all h.ctl
  exact ⟨⟨by simp only [SQP.ctl, setCandidate, c1, c2, c3, c4, c5, c6, c7, c8, c9, c10, c12, c13], h.xsTry, h.usTry, h.dx0, h.log⟩,
    h.data, h.merit, h.dx, h.du⟩

theorem lineSearch_alike (hT : 0 < P.T) (as : List F) (h : Trial l l' s s') (hst : as ≠ [] ∨ s.steplength = s'.steplength) :
    (lineSearch as s).1 = (lineSearch as s').1 ∧ Trial l l' (lineSearch as s).2 (lineSearch as s').2 ∧
      (lineSearch as s).2.steplength = (lineSearch as s').2.steplength := by
  induction as generalizing s s' with
  | nil => exact ⟨rfl, h, hst.resolve_left fun h => h rfl⟩
  | cons a as ih =>
    have hc := tryStep_alike a hT (s := { s with steplength := a }) (s' := { s' with steplength := a })
      ⟨⟨h.ctl, h.xs, h.us, h.dx0, h.log⟩, h.data, h.merit, h.dx, h.du⟩ rfl
    unfold lineSearch
    generalize tryStep a { s with steplength := a } = x at *
    generalize tryStep a { s' with steplength := a } = y at *
    cases hc with
    | @exn a b h => exact ih h.1 (.inr h.2)
    | @ok a b h =>
      obtain ⟨c1, c2, c3, c4, c5, c6, c7, c8, c9, c10, c11, c12, c13⟩ := ctl_all h.ctl
      have hw := worse_alike h
      have hA := accept_alike h
      have e1 : ∀ {α} (p q : α), (if a.useFilter = true then p else q) = if b.useFilter = true then p else q := by rw [c4]; intros; rfl
      have e2 : ∀ {α} (p q : α), (if a.worse = true then p else q) = if b.worse = true then p else q := by rw [hw]; intros; rfl
      have e3 : ∀ {α} (p q : α), (if ltb a.meritTry a.merit = true then p else q) = if ltb b.meritTry b.merit = true then p else q := by
        rw [h.meritTry, h.merit]; intros; rfl
      simp only []
      rw [e1, e2, e3]
      split
      · split
        · exact ih ⟨⟨h.ctl, h.xs, h.us, h.dx0, h.log⟩, h.data, h.merit, h.dx, h.du⟩ (.inr h.step)
        · exact ⟨rfl, ⟨⟨hA.ctl, hA.xs, hA.us, hA.dx0, hA.log⟩, hA.data, hA.merit, hA.dx, hA.du⟩, h.step⟩
      · split
        · exact ⟨rfl, hA, h.step⟩
        · exact ih h.toTrial (.inr h.step)

/-! ## iterations -/

theorem checked_alike (h : Dir l l' s s') : Dir l l' s.checkKKT.callbacks s'.checkKKT.callbacks ∧
    s.checkKKT.callbacks.KKT = s'.checkKKT.callbacks.KKT := by
  obtain ⟨c1, c2, c3, c4, c5, c6, c7, c8, c9, c10, c11, c12, c13⟩ := ctl_all h.ctl
  have hk : s.checkKKT.KKT = s'.checkKKT.KKT := kktResidual_same h.data h.fs h.lag
  refine ⟨⟨⟨⟨h.ctl, h.xs, h.us, h.dx0, ?_⟩, h.data, h.cost, h.fs⟩, h.gap, h.merit, h.bp, h.dx, h.du, h.lag⟩, hk⟩
  obtain ⟨e, e1, e2⟩ := h.log
  refine ⟨e ++ (List.range s.ncb).map fun c => ⟨c, s.iter, s.checkKKT.KKT, s.cost, s.gap⟩, ?_, ?_⟩
  · change s.log ++ _ = _
    rw [e1, List.append_assoc]; rfl
  · change s'.log ++ _ = _
    rw [e2, List.append_assoc, c7, c10, hk, h.cost, h.gap]; rfl

theorem push_alike (h : Dir l l' s s') : Trial l l' s.pushFilter s'.pushFilter := by
  obtain ⟨c1, c2, c3, c4, c5, c6, c7, c8, c9, c10, c11, c12, c13⟩ := ctl_all h.ctl
  exact ⟨⟨by simp only [SQP.ctl, pushFilter, c1, c2, c3, c4, c5, c6, c7, c8, c9, c10, c11, c12, c13, h.gap, h.cost], h.xs, h.us, h.dx0, h.log⟩,
    h.data.toSame, h.merit, h.dx, h.du⟩

theorem search_alike (hT : 0 < P.T) (h : Trial l l' s s') (ha : s.par.alphas ≠ []) :
    Trial l l' s.search s'.search ∧ s.search.steplength = s'.search.steplength := by
  obtain ⟨c1, c2, c3, c4, c5, c6, c7, c8, c9, c10, c11, c12, c13⟩ := ctl_all h.ctl
  have := lineSearch_alike hT s.par.alphas h (.inl ha)
  unfold search
  rw [← c1]
  generalize lineSearch s.par.alphas s = x at *
  generalize lineSearch s.par.alphas s' = y at *
  obtain ⟨f, a⟩ := x
  obtain ⟨g, b⟩ := y
  obtain ⟨h1, h2, h3⟩ := this
  simp only [] at h1 h2 h3 ⊢
  subst h1
  cases f with
  | true => exact ⟨h2, h3⟩
  | false => exact ⟨⟨⟨h2.ctl, h2.xs, h2.us, h2.dx0, h2.log⟩, h2.data, h2.merit, h2.dx, h2.du⟩, h3⟩

theorem Trial.reg (h : Trial l l' s s') {p q p' q' : F} (hp : p = p') (hq : q = q') :
    Trial l l' { s with preg := p, dreg := q } { s' with preg := p', dreg := q' } := by
  subst hp hq
  obtain ⟨c1, c2, c3, c4, c5, c6, c7, c8, c9, c10, c11, c12, c13⟩ := ctl_all h.ctl
  exact ⟨⟨by simp only [SQP.ctl, c1, c2, c3, c4, c5, c6, c7, c10, c11, c12, c13], h.xs, h.us, h.dx0, h.log⟩, h.data, h.merit, h.dx, h.du⟩

theorem updateReg_alike (h : Trial l l' s s') (hs : s.steplength = s'.steplength) :
    s.updateReg.1 = s'.updateReg.1 ∧ Trial l l' s.updateReg.2 s'.updateReg.2 := by
  obtain ⟨c1, c2, c3, c4, c5, c6, c7, c8, c9, c10, c11, c12, c13⟩ := ctl_all h.ctl
  have h1 : Trial l l' (if ltb s.par.thStepDec s.steplength then s.decreaseReg else s)
      (if ltb s'.par.thStepDec s'.steplength then s'.decreaseReg else s') ∧
      (if ltb s.par.thStepDec s.steplength then s.decreaseReg else s).steplength =
      (if ltb s'.par.thStepDec s'.steplength then s'.decreaseReg else s').steplength := by
    rw [← c1, ← hs]
    split
    · exact ⟨h.reg (by rw [c1, c8]) (by rw [c1, c8]), hs⟩
    · exact ⟨h, hs⟩
  unfold updateReg
  simp only []
  generalize (if ltb s.par.thStepDec s.steplength then s.decreaseReg else s) = a at *
  generalize (if ltb s'.par.thStepDec s'.steplength then s'.decreaseReg else s') = b at *
  obtain ⟨h1, h2⟩ := h1
  obtain ⟨d1, d2, d3, d4, d5, d6, d7, d8, d9, d10, d11, d12, d13⟩ := ctl_all h1.ctl
  rw [← d1, ← h2]
  split
  · refine ⟨?_, h1.reg (by rw [d1, d8]) (by rw [d1, d8])⟩
    change eqb (incReg a.par a.preg) a.par.regMax = eqb (incReg b.par b.preg) b.par.regMax
    rw [d1, d8]
  · exact ⟨rfl, h1⟩

theorem body_par {llt : LLT F} {fuel : ℕ} {s a : SQP P} {r : Option Bool} (h : body llt fuel s = some (r, a)) : a.par = s.par :=
  body_frame par (fun _ _ _ _ _ _ _ _ _ _ _ _ => rfl) (fun _ _ _ => rfl) (fun _ _ _ _ _ _ _ _ _ => rfl) (fun _ _ _ _ _ _ => rfl)
    (fun _ _ _ _ => rfl) (fun _ _ _ _ => rfl) (fun _ _ => rfl) h

theorem par_checked (s : SQP P) : s.checkKKT.callbacks.pushFilter.par = s.par := rfl

/-- one iteration. -/
theorem body_alike (llt : LLT F) (fuel : ℕ) (hT : 0 < P.T) (ha : s.par.alphas ≠ []) (h : Head l l' s s') :
    (body llt fuel s = none ∧ body llt fuel s' = none) ∨
    (∃ a b, body llt fuel s = some (some true, a) ∧ body llt fuel s' = some (some true, b) ∧ Dir l l' a b ∧ a.KKT = b.KKT) ∨
    (∃ a b, body llt fuel s = some (some false, a) ∧ body llt fuel s' = some (some false, b) ∧ Alike l l' a b) ∨
    ∃ a b, body llt fuel s = some (none, a) ∧ body llt fuel s' = some (none, b) ∧ Trial l l' a b := by
  have hpar : ∀ a, retry llt fuel true s = some (true, a) → a.par = s.par := fun a ha =>
    retry_frame par (fun _ _ _ _ _ _ _ _ _ _ _ _ => rfl) (fun _ _ _ => rfl) _ _ _ _ _ _ ha
  unfold body
  rcases retry_alike llt fuel true h with ⟨e1, e2⟩ | ⟨a, b, e1, e2, hd⟩ | ⟨a, b, e1, e2, hd⟩
  · rw [e1, e2]; exact .inl ⟨rfl, rfl⟩
  · have hp := hpar a e1
    rw [e1, e2]
    obtain ⟨hc, hk⟩ := checked_alike hd
    simp only []
    have hxp : a.checkKKT.callbacks.par = s.par := hp
    generalize a.checkKKT.callbacks = x at *
    generalize b.checkKKT.callbacks = y at *
    obtain ⟨c1, c2, c3, c4, c5, c6, c7, c8, c9, c10, c11, c12, c13⟩ := ctl_all hc.ctl
    rw [← hk, ← c2]
    split
    · exact .inr (.inl ⟨x, y, rfl, rfl, hc, hk⟩)
    · obtain ⟨h1, h2⟩ := search_alike hT (push_alike hc) (by change x.par.alphas ≠ []; rw [hxp]; exact ha)
      obtain ⟨h3, h4⟩ := updateReg_alike h1 h2
      rw [← h3]
      split
      · exact .inr (.inr (.inl ⟨_, _, rfl, rfl, h4.toAlike⟩))
      · exact .inr (.inr (.inr ⟨_, _, rfl, rfl, h4⟩))
  · rw [e1, e2]; exact .inr (.inr (.inl ⟨a, b, rfl, rfl, hd.toAlike⟩))

/-- the iterations of a solve. -/
theorem iterate_alike (llt : LLT F) (fuel : ℕ) (hT : 0 < P.T) (n : ℕ) (ha : s.par.alphas ≠ []) (h : Head l l' s s') :
    (iterate llt fuel n s = none ∧ iterate llt fuel n s' = none) ∨
    (∃ a b, iterate llt fuel n s = some (some true, a) ∧ iterate llt fuel n s' = some (some true, b) ∧ Dir l l' a b ∧ a.KKT = b.KKT) ∨
    (∃ a b, iterate llt fuel n s = some (some false, a) ∧ iterate llt fuel n s' = some (some false, b) ∧ Alike l l' a b) ∨
    ∃ a b, iterate llt fuel n s = some (none, a) ∧ iterate llt fuel n s' = some (none, b) ∧ Head l l' a b := by
  induction n generalizing s s' with
  | zero => exact .inr (.inr (.inr ⟨s, s', rfl, rfl, h⟩))
  | succ n ih =>
    unfold iterate
    have hpar : ∀ r a, body llt fuel s = some (r, a) → a.par = s.par := fun r a ha => body_par ha
    rcases body_alike llt fuel hT ha h with ⟨e1, e2⟩ | ⟨a, b, e1, e2, hd⟩ | ⟨a, b, e1, e2, hd⟩ | ⟨a, b, e1, e2, hd⟩
    · rw [e1, e2]; exact .inl ⟨rfl, rfl⟩
    · rw [e1, e2]; exact .inr (.inl ⟨a, b, rfl, rfl, hd⟩)
    · rw [e1, e2]; exact .inr (.inr (.inl ⟨a, b, rfl, rfl, hd⟩))
    · have hp := hpar _ _ e1
      rw [e1, e2]
      obtain ⟨c1, c2, c3, c4, c5, c6, c7, c8, c9, c10, c11, c12, c13⟩ := ctl_all hd.ctl
      refine ih (s := { a with iter := a.iter + 1 }) (s' := { b with iter := b.iter + 1 }) (by change a.par.alphas ≠ []; rw [hp]; exact ha) ?_
      exact ⟨⟨by simp only [SQP.ctl, c1, c2, c3, c4, c5, c6, c7, c8, c9, c10, c11, c12, c13], hd.xs, hd.us, hd.dx0, hd.log⟩, .inr hd.data⟩

theorem extraIter_alike (llt : LLT F) (fuel : ℕ) (h : Head l l' s s') :
    (extraIter llt fuel s = none ∧ extraIter llt fuel s' = none) ∨
    ∃ r a b, extraIter llt fuel s = some (r, a) ∧ extraIter llt fuel s' = some (r, b) ∧ Alike l l' a b ∧
      (r = true → Dir l l' a b ∧ a.KKT = b.KKT) := by
  obtain ⟨c1, c2, c3, c4, c5, c6, c7, c8, c9, c10, c11, c12, c13⟩ := ctl_all h.ctl
  unfold extraIter
  rw [← c6]
  split
  · rcases retry_alike llt fuel true h with ⟨e1, e2⟩ | ⟨a, b, e1, e2, hd⟩ | ⟨a, b, e1, e2, hd⟩
    · rw [e1, e2]; exact .inl ⟨rfl, rfl⟩
    · rw [e1, e2]
      obtain ⟨hc, hk⟩ := checked_alike hd
      obtain ⟨c1, c2, c3, c4, c5, c6, c7, c8, c9, c10, c11, c12, c13⟩ := ctl_all hc.ctl
      exact .inr ⟨_, _, _, rfl, by simp only [hk, c2], hc.toAlike, fun _ => ⟨hc, hk⟩⟩
    · rw [e1, e2]; exact .inr ⟨false, a, b, rfl, rfl, hd.toAlike, nofun⟩
  · exact .inr ⟨false, s, s', rfl, rfl, h.toAlike, nofun⟩

/-- `s` and `s'` have the same configuration. -/
structure SameParams (s s' : SQP P) : Prop where
  par : s.par = s'.par
  tol : s.tol = s'.tol
  mu : s.mu = s'.mu
  useFilter : s.useFilter = s'.useFilter
  filterSize : s.filterSize = s'.filterSize
  extra : s.extra = s'.extra
  ncb : s.ncb = s'.ncb

theorem start_alike (xs : Option (Traj P)) (us : Option (Ctrls P)) (ri : F) (h : SameParams s s') (h0 : s.dx 0 = s'.dx 0)
    (hg : s.gapList = s'.gapList) (hc : s.costList = s'.costList) : Head s.log s'.log (s.start xs us ri) (s'.start xs us ri) := by
  refine ⟨⟨?_, fun t _ => rfl, fun t _ => rfl, h0, [], by simp; rfl, by simp; rfl⟩, .inl rfl⟩
  simp only [SQP.ctl, start, setCandidate, h.par, h.tol, h.mu, h.useFilter, h.filterSize, h.extra, h.ncb, hg, hc]

theorem solve_alike (llt : LLT F) (fuel : ℕ) (hT : 0 < P.T) (xs : Option (Traj P)) (us : Option (Ctrls P)) (m : ℕ) (ri : F)
    (ha : s.par.alphas ≠ []) (h : SameParams s s') (h0 : s.dx 0 = s'.dx 0)
    (hg : s.gapList = s'.gapList) (hc : s.costList = s'.costList) :
    (solve llt fuel xs us m ri s = none ∧ solve llt fuel xs us m ri s' = none) ∨
    ∃ r a b, solve llt fuel xs us m ri s = some (r, a) ∧ solve llt fuel xs us m ri s' = some (r, b) ∧ Alike s.log s'.log a b ∧
      (r = true → Dir s.log s'.log a b ∧ a.KKT = b.KKT) := by
  unfold solve
  rcases iterate_alike llt fuel hT m (s := s.start xs us ri) ha (start_alike xs us ri h h0 hg hc) with
    ⟨e1, e2⟩ | ⟨a, b, e1, e2, hd⟩ | ⟨a, b, e1, e2, hd⟩ | ⟨a, b, e1, e2, hd⟩
  · rw [e1, e2]; exact .inl ⟨rfl, rfl⟩
  · rw [e1, e2]; exact .inr ⟨true, a, b, rfl, rfl, hd.1.toAlike, fun _ => hd⟩
  · rw [e1, e2]; exact .inr ⟨false, a, b, rfl, rfl, hd, nofun⟩
  · rw [e1, e2]; exact extraIter_alike llt fuel hd

end SQP
end
end Mim
