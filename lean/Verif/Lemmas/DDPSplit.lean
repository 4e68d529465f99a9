import Verif.Lemmas.DDPHist
import Verif.Lemmas.SQPSearch
import Verif.Props.SQPLine

/-!
# Two runs of a DDP-type solver that differ in the iteration counter

Like `Lemmas/DDPHist`, but neither the iteration counter, nor the costs and next states stored in the datas, nor the flag `recalcDiff` are compared:
both solvers satisfy the loop invariant `HeadInv` (the evaluations they use are, or will be, those of the candidate).  The counter also bounds how far the
filter of `SolverFDDP` looks back, which makes no difference for filters of size at most 1.
-/
set_option autoImplicit false
set_option linter.unusedSectionVars false
set_option linter.unusedSimpArgs false

namespace Mim
section
variable {F : Type} [Add F] [Sub F] [Mul F] [Div F] [Neg F] [Zero F] [One F] [FloatOps F] {P : Problem F}

namespace DDP.Split
open DDP Spec

/-- configuration and control state. -/
def ctl (s : DDP P) := (s.c, s.preg, s.dreg, s.c, s.feas, s.c, s.m.gapList, s.m.costList)

/-- what a forward pass reads from the previous one. -/
structure YR (g : Bool) (y y' : DTry P) : Prop where
  lag : ∀ t, t ≤ P.T → y.lagMul t = y'.lagMul t
  dx : ∀ t, t < P.T → y.dx t = y'.dx t
  xs0 : g = true → y.xs 0 = y'.xs 0

structure Core (g : Bool) (s s' : DDP P) : Prop where
  ctl : ctl s = ctl s'
  xs : ∀ t, t ≤ P.T → s.xs t = s'.xs t
  us : ∀ t, t < P.T → s.us t = s'.us t
  y : YR g s.y s'.y
  filt : g = false → s.c.useFilter = false ∨ s.c.filterSize ≤ 1
  gap : g = true → s.e.gap = s'.e.gap

/-- the derivatives of the nodes agree. -/
structure RD (d d' : Data P) : Prop where
  rd : ∀ t, t < P.T → d.rd t = d'.rd t
  td : d.td = d'.td

/-- evaluation of the candidate. -/
structure Fresh (s s' : DDP P) : Prop where
  data : RD s.y.data s'.y.data
  fs : ∀ t, t ≤ P.T → s.e.fs t = s'.e.fs t

structure Ev (g : Bool) (s s' : DDP P) : Prop extends Core g s s', Fresh s s' where
  cost : s.e.cost = s'.e.cost

/-- at the head of an iteration or of a retry. -/
structure Head (g : Bool) (s s' : DDP P) : Prop extends Core g s s' where
  inv : HeadInv s
  inv' : HeadInv s'

/-- after a direction was computed. -/
structure Dir (g : Bool) (s s' : DDP P) : Prop extends Ev g s s' where
  egap : s.e.gap = s'.e.gap
  bp : Bwd.Agree 0 s.e.bp s'.e.bp

/-- the scalars the acceptance test uses. -/
structure Imp (g : Bool) (s s' : DDP P) : Prop extends Dir g s s' where
  d : g = true → s.m.d0 = s'.m.d0 ∧ s.m.d1 = s'.m.d1
  dg : g = false → s.m.dg = s'.m.dg ∧ s.m.dq = s'.m.dq

/-- after the convergence test. -/
structure Chk (g : Bool) (s s' : DDP P) : Prop extends Imp g s s' where
  KKT : s.m.KKT = s'.m.KKT

variable {g : Bool} {s s' : DDP P}

theorem ctl_all (h : ctl s = ctl s') : s.c = s'.c ∧ s.preg = s'.preg ∧ s.dreg = s'.dreg ∧ s.c = s'.c ∧ s.feas = s'.feas ∧
    s.c = s'.c ∧ s.m.gapList = s'.m.gapList ∧ s.m.costList = s'.m.costList := by
  simpa only [Split.ctl, Prod.mk.injEq] using h

/-! ## directions -/

theorem eval_alike (h : Head g s s') : Ev g (if s.recalc then s.calcDiff else s) (if s'.recalc then s'.calcDiff else s') := by
  have i1 := evald_evalFresh h.inv
  have i2 := evald_evalFresh h.inv'
  obtain ⟨fs, c, d, e⟩ := evald_frame s.recalc s
  obtain ⟨fs', c', d', e'⟩ := evald_frame s'.recalc s'
  change Ev g (evald s.recalc s) (evald s'.recalc s')
  rw [e] at i1 ⊢
  rw [e'] at i2 ⊢
  obtain ⟨⟨a1, a2⟩, a3, a4, a5⟩ := i1
  obtain ⟨⟨b1, b2⟩, b3, b4, b5⟩ := i2
  refine ⟨⟨h.ctl, h.xs, h.us, ⟨h.y.lag, h.y.dx, h.y.xs0⟩, h.filt, h.gap⟩, ⟨⟨fun t ht => ?_, ?_⟩, fun t ht => ?_⟩, ?_⟩
  · rw [a1 t ht, b1 t ht]
    change P.calcDiffR t (s.xs t) (s.us t) = P.calcDiffR t (s'.xs t) (s'.us t)
    rw [h.xs t ht.le, h.us t ht]
  · rw [a2, b2]
    change P.calcDiffT (s.xs P.T) = P.calcDiffT (s'.xs P.T)
    rw [h.xs _ le_rfl]
  · cases t with
    | zero =>
      rw [a3, b3]
      change P.diff (s.xs 0) P.x0 = P.diff (s'.xs 0) P.x0
      rw [h.xs 0 (by omega)]
    | succ t =>
      rw [a4 t ht, b4 t ht]
      change P.diff (s.xs (t + 1)) (P.calcR t (s.xs t) (s.us t)).xnext = P.diff (s'.xs (t + 1)) (P.calcR t (s'.xs t) (s'.us t)).xnext
      rw [h.xs _ ht, h.xs t (by omega), h.us t (by omega)]
  · rw [a5, b5]
    exact trajCost_congr P h.xs h.us

theorem sameD_of (d d' : Data P) (h : RD d d') : d.SameD { d with rd := d'.rd, td := d'.td } := ⟨⟨fun _ _ => rfl, rfl⟩, h.rd, h.td⟩

theorem kktResidual_rd {d d' : Data P} (h : RD d d') {fs fs' lam lam' : ℕ → Vec F P.ndx} (hf : ∀ t, t ≤ P.T → fs t = fs' t)
    (hl : ∀ t, t ≤ P.T → lam t = lam' t) : kktResidual d fs lam = kktResidual d' fs' lam' := by
  rw [kktResidual_same (sameD_of d d' h) hf hl]
  rfl

theorem backwardPass_rd (llt : LLT F) {d d' : Data P} (h : RD d d') {fs fs' : ℕ → Vec F P.ndx} (hf : ∀ t, t ≤ P.T → fs t = fs' t)
    (feas : Bool) (preg dreg : F) (b b' : BP P) :
    Bwd.ResAgree 0 (backwardPass llt d fs feas preg dreg b) (backwardPass llt d' fs' feas preg dreg b') := by
  have e : backwardPass llt { d with rd := d'.rd, td := d'.td } fs' feas preg dreg b' = backwardPass llt d' fs' feas preg dreg b' := rfl
  rw [← e]
  exact backwardPass_same llt (sameD_of d d' h) hf feas preg dreg b b'

theorem bwd_alike (llt : LLT F) (h : Ev g s s') (hg : s.e.gap = s'.e.gap) : Res.Rel (Dir g) (Ev g)
    ((backwardPass llt s.y.data s.e.fs s.feas s.preg s.dreg s.e.bp).map fun b => { s with e := { s.e with bp := b } })
    ((backwardPass llt s'.y.data s'.e.fs s'.feas s'.preg s'.dreg s'.e.bp).map fun b => { s' with e := { s'.e with bp := b } }) := by
  obtain ⟨c1, c2, c3, c4, c5, c6, c7, c8⟩ := ctl_all h.ctl
  rcases backwardPass_rd llt h.data h.fs s.feas s.preg s.dreg s.e.bp s'.e.bp with ⟨b1, b2, e1, e2, hb⟩ | ⟨b1, b2, e1, e2⟩
  · rw [c5, c2, c3] at e2
    rw [e1, e2]
    exact .ok ⟨⟨⟨h.ctl, h.xs, h.us, h.y, h.filt, h.gap⟩, ⟨h.data, h.fs⟩, h.cost⟩, hg, hb⟩
  · rw [c5, c2, c3] at e2
    rw [e1, e2]
    exact .exn ⟨⟨h.ctl, h.xs, h.us, h.y, h.filt, h.gap⟩, ⟨h.data, h.fs⟩, h.cost⟩

theorem dirDDP_alike (llt : LLT F) (h : Head true s s') : Res.Rel (Dir true) (Ev true) (dirDDP llt s.recalc s) (dirDDP llt s'.recalc s') := by
  have he := eval_alike h
  unfold dirDDP
  exact bwd_alike llt he (he.gap rfl)

theorem dirFDDP_alike (llt : LLT F) (h : Head false s s') :
    Res.Rel (Dir false) (Ev false) (dirFDDP llt s.recalc s) (dirFDDP llt s'.recalc s') := by
  have he := eval_alike h
  unfold dirFDDP
  generalize (if s.recalc then s.calcDiff else s) = a at *
  generalize (if s'.recalc then s'.calcDiff else s') = b at *
  exact bwd_alike llt (s := { a with e := { a.e with gap := gapNorm a.e.fs } }) (s' := { b with e := { b.e with gap := gapNorm b.e.fs } })
    ⟨⟨he.ctl, he.xs, he.us, he.y, he.filt, nofun⟩, ⟨he.data, he.fs⟩, he.cost⟩ (gapNorm_same he.fs)

theorem improveDDP_alike (h : Dir true s s') : Imp true (improveDDP s) (improveDDP s') := by
  have e := forUp_congr' P.T
    (fun t (d : F × F) => if P.nu t ≠ 0 then (d.1 + dot (s.e.bp.Qu t) (s.e.bp.k t), d.2 - dot (s.e.bp.k t) (s.e.bp.Quuk t)) else d)
    (fun t (d : F × F) => if P.nu t ≠ 0 then (d.1 + dot (s'.e.bp.Qu t) (s'.e.bp.k t), d.2 - dot (s'.e.bp.k t) (s'.e.bp.Quuk t)) else d)
    fun t ht => by rw [h.bp.Qu t (by omega) ht, h.bp.k t (by omega) ht, h.bp.Quuk t (by omega) ht]
  refine ⟨⟨⟨⟨h.ctl, h.xs, h.us, h.y, h.filt, h.gap⟩, ⟨h.data, h.fs⟩, h.cost⟩, h.egap, h.bp⟩, fun _ => ?_, nofun⟩
  unfold improveDDP
  simp only [] 
  rw [e]
  exact ⟨rfl, rfl⟩

theorem improveFDDP_alike (h : Dir false s s') : Imp false (improveFDDP s) (improveFDDP s') := by
  obtain ⟨c1, c2, c3, c4, c5, c6, c7, c8⟩ := ctl_all h.ctl
  refine ⟨⟨⟨⟨h.ctl, h.xs, h.us, h.y, h.filt, h.gap⟩, ⟨h.data, h.fs⟩, h.cost⟩, h.egap, h.bp⟩, nofun, fun _ => ?_⟩
  unfold improveFDDP
  simp only []
  rw [h.bp.Vx _ (by omega) le_rfl, h.bp.Vxx _ (by omega) le_rfl, h.fs _ le_rfl, c5,
    forUp_congr' P.T _ _ fun t ht => by
      rw [h.bp.Qu t (by omega) ht, h.bp.k t (by omega) ht, h.bp.Quuk t (by omega) ht, h.bp.Vx t (by omega) ht.le, h.bp.Vxx t (by omega) ht.le,
        h.fs t ht.le]]
  exact ⟨rfl, rfl⟩

theorem check_alike (h : Imp g s s') : Chk g s.checkKKT s'.checkKKT :=
  ⟨⟨⟨⟨⟨h.ctl, h.xs, h.us, h.y, h.filt, h.gap⟩, ⟨h.data, h.fs⟩, h.cost⟩, h.egap, h.bp⟩, h.d, h.dg⟩, kktResidual_rd h.data h.fs h.y.lag⟩

theorem pushFDDP_alike (h : Chk g s s') : Chk g s.pushFDDP s'.pushFDDP := by
  obtain ⟨c1, c2, c3, c4, c5, c6, c7, c8⟩ := ctl_all h.ctl
  exact ⟨⟨⟨⟨⟨by simp only [Split.ctl, pushFDDP, c1, c2, c3, c4, c5, c6, c7, c8, h.egap, h.cost], h.xs, h.us, h.y, h.filt, h.gap⟩,
    ⟨h.data, h.fs⟩, h.cost⟩, h.egap, h.bp⟩, h.d, h.dg⟩, h.KKT⟩

/-! ## trials -/

/-- during a line search. -/
structure Srch (g : Bool) (s s' : DDP P) : Prop extends Chk g s s' where
  step : s.steplength = s'.steplength

/-- after `n` nodes of a trial, with `i` trial states written. -/
structure TrAt (g : Bool) (n i : ℕ) (s s' : DDP P) : Prop extends Srch g s s' where
  txs : ∀ t, t < i → s.y.xs t = s'.y.xs t
  tus : ∀ t, t < n → s.y.us t = s'.y.us t
  tcost : s.y.cost = s'.y.cost
  tf : g = false → s.y.gap = s'.y.gap ∧ s.y.xnext = s'.y.xnext

theorem RD.node {d d' : Data P} (h : RD d d') (t : ℕ) {x x' : P.X} {u u' : Vec F (P.nu t)} :
    RD (d.calcNode t x u) (d'.calcNode t x' u') := ⟨h.rd, h.td⟩

theorem run_node {d d' : Data P} (t : ℕ) {x x' : P.X} {u u' : Vec F (P.nu t)} (hx : x = x') (hu : u = u') :
    (d.calcNode t x u).run t = (d'.calcNode t x' u').run t := by
  subst hx hu
  simp [Data.calcNode]

theorem us_alike {n : ℕ} {U U' : Ctrls P} (h : ∀ t, t < n → U t = U' t) {a b : Vec F (P.nu n)} (e : a = b) (t : ℕ) (ht : t < n + 1) :
    (if P.nu n ≠ 0 then Function.update U n a else U) t = (if P.nu n ≠ 0 then Function.update U' n b else U') t := by
  by_cases h0 : P.nu n ≠ 0
  · rw [if_pos h0, if_pos h0]
    exact SQP.update_upTo h e t ht
  · rw [if_neg h0, if_neg h0]
    by_cases e : t = n
    · subst e; exact vec_eq_of_zero (not_not.mp h0) _ _
    · exact h t (by omega)

theorem stageDDP_alike (a : F) {n : ℕ} (hn : n < P.T) (h : TrAt true n (n + 1) s s') :
    Res.Rel (TrAt true (n + 1) (n + 2)) (Srch true) (stageDDP a n s) (stageDDP a n s') := by
  have e1 := h.bp.Vxx n (by omega) hn.le
  have e2 := h.bp.Vx n (by omega) hn.le
  have e3 := h.bp.K n (by omega) hn
  have e4 := h.bp.k n (by omega) hn
  have ex : P.diff (s.xs n) (s.y.xs n) = P.diff (s'.xs n) (s'.y.xs n) := by rw [h.xs n hn.le, h.txs n (by omega)]
  have hu := us_alike h.tus (n := n) (a := s.us n - sv a (s.e.bp.k n) - mv (s.e.bp.K n) (P.diff (s.xs n) (s.y.xs n)))
    (b := s'.us n - sv a (s'.e.bp.k n) - mv (s'.e.bp.K n) (P.diff (s'.xs n) (s'.y.xs n))) (by rw [e3, e4, ex, h.us n hn])
  unfold stageDDP nodeDDP
  simp only []
  generalize (if P.nu n ≠ 0 then Function.update s.y.us n (s.us n - sv a (s.e.bp.k n) - mv (s.e.bp.K n) (P.diff (s.xs n) (s.y.xs n))) else s.y.us) = U at *
  generalize (if P.nu n ≠ 0 then Function.update s'.y.us n (s'.us n - sv a (s'.e.bp.k n) - mv (s'.e.bp.K n) (P.diff (s'.xs n) (s'.y.xs n))) else s'.y.us) = U' at *
  have hd := RD.node h.data n (x := s.y.xs n) (x' := s'.y.xs n) (u := U n) (u' := U' n)
  have hr := run_node (d := s.y.data) (d' := s'.y.data) n (h.txs n (by omega)) (hu n (by omega))
  generalize s.y.data.calcNode n (s.y.xs n) (U n) = D at *
  generalize s'.y.data.calcNode n (s'.y.xs n) (U' n) = D' at *
  have hb : (bad (s.y.cost + (D.run n).cost) || P.badX (Function.update s.y.xs (n + 1) (D.run n).xnext (n + 1))) =
      (bad (s'.y.cost + (D'.run n).cost) || P.badX (Function.update s'.y.xs (n + 1) (D'.run n).xnext (n + 1))) := by
    rw [Function.update_self, Function.update_self, hr, h.tcost]
  rw [hb]
  have hS : ∀ {X X' : DTry P}, YR true X X' → RD X.data X'.data → Srch true { s with y := X } { s' with y := X' } := fun hy hd =>
    ⟨⟨⟨⟨⟨⟨h.ctl, h.xs, h.us, hy, h.filt, h.gap⟩, ⟨hd, h.fs⟩, h.cost⟩, h.egap, h.bp⟩, h.d, h.dg⟩, h.KKT⟩, h.step⟩
  have hxs : ∀ t, t < n + 2 → Function.update s.y.xs (n + 1) (D.run n).xnext t = Function.update s'.y.xs (n + 1) (D'.run n).xnext t :=
    SQP.update_upTo (β := fun _ => P.X) h.txs (by rw [hr])
  have hS := @hS { s.y with
    lagMul := Function.update s.y.lagMul n (mv (s.e.bp.Vxx n) (s.y.dx n) + s.e.bp.Vx n)
    dx := Function.update s.y.dx n (P.diff (s.xs n) (s.y.xs n))
    us := U
    data := D
    xs := Function.update s.y.xs (n + 1) (D.run n).xnext
    cost := s.y.cost + (D.run n).cost } { s'.y with
    lagMul := Function.update s'.y.lagMul n (mv (s'.e.bp.Vxx n) (s'.y.dx n) + s'.e.bp.Vx n)
    dx := Function.update s'.y.dx n (P.diff (s'.xs n) (s'.y.xs n))
    us := U'
    data := D'
    xs := Function.update s'.y.xs (n + 1) (D'.run n).xnext
    cost := s'.y.cost + (D'.run n).cost }
    ⟨update_same (β := fun _ => Vec F P.ndx) (p := fun t => t ≤ P.T) h.y.lag (by rw [e1, e2, h.y.dx n hn]),
     update_same (β := fun _ => Vec F P.ndx) (p := fun t => t < P.T) h.y.dx ex, fun _ => hxs 0 (by omega)⟩ hd
  unfold Res.throwIf
  split
  · exact .exn hS
  · exact .ok ⟨hS, hxs, hu, by change s.y.cost + _ = s'.y.cost + _; rw [hr, h.tcost], nofun⟩

/-- after a successful trial. -/
structure Tried (g : Bool) (s s' : DDP P) : Prop extends Srch g s s' where
  txs : ∀ t, t ≤ P.T → s.y.xs t = s'.y.xs t
  tus : ∀ t, t < P.T → s.y.us t = s'.y.us t
  tcost : s.y.cost = s'.y.cost
  tgap : g = false → s.y.gap = s'.y.gap
  dV : s.m.dV = s'.m.dV

/-- before `dV_` is set. -/
structure Done (g : Bool) (s s' : DDP P) : Prop extends Srch g s s' where
  txs : ∀ t, t ≤ P.T → s.y.xs t = s'.y.xs t
  tus : ∀ t, t < P.T → s.y.us t = s'.y.us t
  tcost : s.y.cost = s'.y.cost
  tgap : g = false → s.y.gap = s'.y.gap

theorem Srch.setY (h : Srch g s s') (X X' : DTry P) (hy : YR g X X') (hd : RD X.data X'.data) :
    Srch g { s with y := X } { s' with y := X' } :=
  ⟨⟨⟨⟨⟨⟨h.ctl, h.xs, h.us, hy, h.filt, h.gap⟩, ⟨hd, h.fs⟩, h.cost⟩, h.egap, h.bp⟩, h.d, h.dg⟩, h.KKT⟩, h.step⟩

theorem RD.terminal {d d' : Data P} (h : RD d d') {x x' : P.X} : RD (d.calcTer x) (d'.calcTer x') := ⟨h.rd, h.td⟩

theorem ter_terminal {d d' : Data P} {x x' : P.X} (hx : x = x') : (d.calcTer x).ter = (d'.calcTer x').ter := by subst hx; rfl

theorem finishDDP_alike (hT : 0 < P.T) (h : TrAt true P.T (P.T + 1) s s') :
    Res.Rel (Done true) (Srch true) (finishDDP s) (finishDDP s') := by
  have e1 := h.bp.Vxx P.T (by omega) le_rfl
  have e2 := h.bp.Vx P.T (by omega) le_rfl
  have hd := RD.terminal h.data (x := s.y.xs P.T) (x' := s'.y.xs P.T)
  have ht := ter_terminal (d := s.y.data) (d' := s'.y.data) (h.txs P.T (by omega))
  unfold finishDDP
  simp only []
  generalize s.y.data.calcTer (s.y.xs P.T) = D at *
  generalize s'.y.data.calcTer (s'.y.xs P.T) = D' at *
  have hc : s.y.cost + D.ter.cost = s'.y.cost + D'.ter.cost := by rw [ht, h.tcost]
  have hS := h.toSrch.setY { s.y with
    lagMul := Function.update s.y.lagMul P.T (mv (s.e.bp.Vxx P.T) (s.y.dx (P.T - 1)) + s.e.bp.Vx P.T)
    data := D
    cost := s.y.cost + D.ter.cost } { s'.y with
    lagMul := Function.update s'.y.lagMul P.T (mv (s'.e.bp.Vxx P.T) (s'.y.dx (P.T - 1)) + s'.e.bp.Vx P.T)
    data := D'
    cost := s'.y.cost + D'.ter.cost }
    ⟨update_same (β := fun _ => Vec F P.ndx) (p := fun t => t ≤ P.T) h.y.lag (by rw [e1, e2, h.y.dx _ (by omega)]), h.y.dx, h.y.xs0⟩ hd
  have hb : bad (s.y.cost + D.ter.cost) = bad (s'.y.cost + D'.ter.cost) := by rw [hc]
  rw [hb]
  unfold Res.throwIf
  split
  · exact .exn hS
  · exact .ok ⟨hS, fun t ht => h.txs t (by omega), h.tus, hc, nofun⟩

theorem setDV_alike (h : Done g s s') : Res.Rel (Tried g) (Srch g)
    (.ok { s with m := { s.m with dV := s.e.cost - s.y.cost } }) (.ok { s' with m := { s'.m with dV := s'.e.cost - s'.y.cost } }) :=
  .ok ⟨⟨⟨⟨⟨⟨⟨h.ctl, h.xs, h.us, h.y, h.filt, h.gap⟩, ⟨h.data, h.fs⟩, h.cost⟩, h.egap, h.bp⟩, h.d, h.dg⟩, h.KKT⟩, h.step⟩,
    h.txs, h.tus, h.tcost, h.tgap, by simp only []; rw [h.cost, h.tcost]⟩

theorem tryDDP_alike (a : F) (hT : 0 < P.T) (h : Srch true s s') : Res.Rel (Tried true) (Srch true) (tryDDP a s) (tryDDP a s') := by
  unfold tryDDP
  split
  · exact .exn h
  · refine Res.Rel.bind (Res.Rel.bind (forUpR_rel (fun n => TrAt true n (n + 1)) _ P.T _ _ (fun t ht x y => stageDDP_alike a ht) ?_)
      fun x y => finishDDP_alike hT) fun x y => setDV_alike
    exact ⟨h.setY { s.y with cost := 0 } { s'.y with cost := 0 } ⟨h.y.lag, h.y.dx, h.y.xs0⟩ h.data,
      fun t ht => by obtain rfl : t = 0 := by omega
                     exact h.y.xs0 rfl, fun t ht => by omega, rfl, nofun⟩

theorem stageFDDP_alike (roll : Bool) (a : F) {n : ℕ} (hn : n < P.T) (h : TrAt false n n s s') :
    Res.Rel (TrAt false (n + 1) (n + 1)) (Srch false) (stageFDDP roll a n s) (stageFDDP roll a n s') := by
  have e1 := h.bp.Vxx n (by omega) hn.le
  have e2 := h.bp.Vx n (by omega) hn.le
  have e3 := h.bp.K n (by omega) hn
  have e4 := h.bp.k n (by omega) hn
  have e5 := h.fs n hn.le
  obtain ⟨f1, f2⟩ := h.tf rfl
  have exx : (if roll then s.y.xnext else P.integrate s.y.xnext (sv (a - 1) (s.e.fs n))) =
      (if roll then s'.y.xnext else P.integrate s'.y.xnext (sv (a - 1) (s'.e.fs n))) := by rw [f2, e5]
  unfold stageFDDP nodeFDDP
  simp only []
  generalize (if roll then s.y.xnext else P.integrate s.y.xnext (sv (a - 1) (s.e.fs n))) = x at *
  generalize (if roll then s'.y.xnext else P.integrate s'.y.xnext (sv (a - 1) (s'.e.fs n))) = x' at *
  subst exx
  have ex : P.diff (s.xs n) x = P.diff (s'.xs n) x := by rw [h.xs n hn.le]
  have hu := us_alike h.tus (n := n) (a := s.us n - sv a (s.e.bp.k n) - mv (s.e.bp.K n) (P.diff (s.xs n) x))
    (b := s'.us n - sv a (s'.e.bp.k n) - mv (s'.e.bp.K n) (P.diff (s'.xs n) x)) (by rw [e3, e4, ex, h.us n hn])
  generalize (if P.nu n ≠ 0 then Function.update s.y.us n (s.us n - sv a (s.e.bp.k n) - mv (s.e.bp.K n) (P.diff (s.xs n) x)) else s.y.us) = U at *
  generalize (if P.nu n ≠ 0 then Function.update s'.y.us n (s'.us n - sv a (s'.e.bp.k n) - mv (s'.e.bp.K n) (P.diff (s'.xs n) x)) else s'.y.us) = U' at *
  have hd := RD.node h.data n (x := x) (x' := x) (u := U n) (u' := U' n)
  have hr := run_node (d := s.y.data) (d' := s'.y.data) n (rfl : x = x) (hu n (by omega))
  generalize s.y.data.calcNode n x (U n) = D at *
  generalize s'.y.data.calcNode n x (U' n) = D' at *
  have hb : (bad (s.y.cost + (D.run n).cost) || P.badX (D.run n).xnext) = (bad (s'.y.cost + (D'.run n).cost) || P.badX (D'.run n).xnext) := by
    rw [hr, h.tcost]
  rw [hb]
  have hxs : ∀ t, t < n + 1 → Function.update s.y.xs n x t = Function.update s'.y.xs n x t :=
    SQP.update_upTo (β := fun _ => P.X) h.txs rfl
  have hS := h.toSrch.setY { s.y with
    lagMul := Function.update s.y.lagMul n
      (if roll then mv (s.e.bp.Vxx n) (s.y.dx n) + s.e.bp.Vx n else mv (s.e.bp.Vxx n) (s.y.dx n - s.e.fs n) + s.e.bp.Vx n)
    dx := Function.update s.y.dx n (P.diff (s.xs n) x)
    us := U
    data := D
    xs := Function.update s.y.xs n x
    cost := s.y.cost + (D.run n).cost
    xnext := (D.run n).xnext
    fs := Function.update s.y.fs n (P.diff x (D.run n).xnext)
    gap := s.y.gap + norm1 (P.diff x (D.run n).xnext) } { s'.y with
    lagMul := Function.update s'.y.lagMul n
      (if roll then mv (s'.e.bp.Vxx n) (s'.y.dx n) + s'.e.bp.Vx n else mv (s'.e.bp.Vxx n) (s'.y.dx n - s'.e.fs n) + s'.e.bp.Vx n)
    dx := Function.update s'.y.dx n (P.diff (s'.xs n) x)
    us := U'
    data := D'
    xs := Function.update s'.y.xs n x
    cost := s'.y.cost + (D'.run n).cost
    xnext := (D'.run n).xnext
    fs := Function.update s'.y.fs n (P.diff x (D'.run n).xnext)
    gap := s'.y.gap + norm1 (P.diff x (D'.run n).xnext) }
    ⟨update_same (β := fun _ => Vec F P.ndx) (p := fun t => t ≤ P.T) h.y.lag (by rw [e1, e2, e5, h.y.dx n hn]),
     update_same (β := fun _ => Vec F P.ndx) (p := fun t => t < P.T) h.y.dx ex, nofun⟩ hd
  unfold Res.throwIf
  split
  · exact .exn hS
  · exact .ok ⟨hS, hxs, hu, by change s.y.cost + _ = s'.y.cost + _; rw [hr, h.tcost],
      fun _ => ⟨by change s.y.gap + _ = s'.y.gap + _; rw [hr, f1], by change (D.run n).xnext = (D'.run n).xnext; rw [hr]⟩⟩

theorem finishFDDP_alike (roll : Bool) (a : F) (hT : 0 < P.T) (h : TrAt false P.T P.T s s') :
    Res.Rel (Done false) (Srch false) (finishFDDP roll a s) (finishFDDP roll a s') := by
  have e1 := h.bp.Vxx P.T (by omega) le_rfl
  have e2 := h.bp.Vx P.T (by omega) le_rfl
  have e5 := h.fs P.T le_rfl
  obtain ⟨f1, f2⟩ := h.tf rfl
  have exx : (if roll then s.y.xnext else P.integrate s.y.xnext (sv (a - 1) (s.e.fs P.T))) =
      (if roll then s'.y.xnext else P.integrate s'.y.xnext (sv (a - 1) (s'.e.fs P.T))) := by rw [f2, e5]
  unfold finishFDDP
  simp only []
  generalize (if roll then s.y.xnext else P.integrate s.y.xnext (sv (a - 1) (s.e.fs P.T))) = x at *
  generalize (if roll then s'.y.xnext else P.integrate s'.y.xnext (sv (a - 1) (s'.e.fs P.T))) = x' at *
  subst exx
  have hd := RD.terminal h.data (x := x) (x' := x)
  have ht := ter_terminal (d := s.y.data) (d' := s'.y.data) (rfl : x = x)
  generalize s.y.data.calcTer x = D at *
  generalize s'.y.data.calcTer x = D' at *
  have hc : s.y.cost + D.ter.cost = s'.y.cost + D'.ter.cost := by rw [ht, h.tcost]
  have hxs : ∀ t, t < P.T + 1 → Function.update s.y.xs P.T x t = Function.update s'.y.xs P.T x t :=
    SQP.update_upTo (β := fun _ => P.X) h.txs rfl
  have hS := h.toSrch.setY { s.y with
    lagMul := Function.update s.y.lagMul P.T
      (if roll then mv (s.e.bp.Vxx P.T) (s.y.dx (P.T - 1)) + s.e.bp.Vx P.T
        else mv (s.e.bp.Vxx P.T) (s.y.dx (P.T - 1) - s.e.fs P.T) + s.e.bp.Vx P.T)
    xs := Function.update s.y.xs P.T x
    data := D
    cost := s.y.cost + D.ter.cost } { s'.y with
    lagMul := Function.update s'.y.lagMul P.T
      (if roll then mv (s'.e.bp.Vxx P.T) (s'.y.dx (P.T - 1)) + s'.e.bp.Vx P.T
        else mv (s'.e.bp.Vxx P.T) (s'.y.dx (P.T - 1) - s'.e.fs P.T) + s'.e.bp.Vx P.T)
    xs := Function.update s'.y.xs P.T x
    data := D'
    cost := s'.y.cost + D'.ter.cost }
    ⟨update_same (β := fun _ => Vec F P.ndx) (p := fun t => t ≤ P.T) h.y.lag (by rw [e1, e2, e5, h.y.dx _ (by omega)]), h.y.dx, nofun⟩ hd
  have hb : bad (s.y.cost + D.ter.cost) = bad (s'.y.cost + D'.ter.cost) := by rw [hc]
  rw [hb]
  unfold Res.throwIf
  split
  · exact .exn hS
  · exact .ok ⟨hS, fun t ht => hxs t (by omega), h.tus, hc, fun _ => f1⟩

theorem tryFDDP_alike (a : F) (hT : 0 < P.T) (h : Srch false s s') : Res.Rel (Tried false) (Srch false) (tryFDDP a s) (tryFDDP a s') := by
  obtain ⟨c1, c2, c3, c4, c5, c6, c7, c8⟩ := ctl_all h.ctl
  have e : (s'.feas || eqb a 1) = (s.feas || eqb a 1) := by rw [c5]
  unfold tryFDDP
  simp only []
  rw [e]
  split
  · exact .exn h
  · refine Res.Rel.bind (Res.Rel.bind (forUpR_rel (fun n => TrAt false n n) _ P.T _ _ (fun t ht x y => stageFDDP_alike _ a ht) ?_)
      fun x y => finishFDDP_alike _ a hT) fun x y => setDV_alike
    exact ⟨h.setY { s.y with cost := 0, gap := 0, xnext := P.x0 } { s'.y with cost := 0, gap := 0, xnext := P.x0 } ⟨h.y.lag, h.y.dx, h.y.xs0⟩ h.data,
      fun t ht => by omega, fun t ht => by omega, rfl, fun _ => ⟨rfl, rfl⟩⟩

/-! ## acceptance -/

theorem testDDP_alike (a : F) (h : Tried true s s') : (testDDP a s).1 = (testDDP a s').1 ∧ Tried true (testDDP a s).2 (testDDP a s').2 := by
  obtain ⟨c1, c2, c3, c4, c5, c6, c7, c8⟩ := ctl_all h.ctl
  obtain ⟨d1, d2⟩ := h.d rfl
  refine ⟨?_, ⟨⟨⟨⟨⟨⟨h.ctl, h.xs, h.us, h.y, h.filt, h.gap⟩, ⟨h.data, h.fs⟩, h.cost⟩, h.egap, h.bp⟩, h.d, h.dg⟩, h.KKT⟩, h.step⟩,
    h.txs, h.tus, h.tcost, h.tgap, h.dV⟩
  simp only [testDDP, setExp]
  rw [d1, d2, c1, c5, h.dV]

theorem expFDDP_alike (hT : 0 < P.T) (h : Tried false s s') : Tried false s.expFDDP s'.expFDDP ∧ s.expFDDP.m.d0 = s'.expFDDP.m.d0 ∧
    s.expFDDP.m.d1 = s'.expFDDP.m.d1 := by
  obtain ⟨c1, c2, c3, c4, c5, c6, c7, c8⟩ := ctl_all h.ctl
  obtain ⟨g1, g2⟩ := h.dg rfl
  have eT : P.diff (s.y.xs P.T) (s.xs P.T) = P.diff (s'.y.xs P.T) (s'.xs P.T) := by rw [h.txs _ le_rfl, h.xs _ le_rfl]
  have eV := h.bp.Vxx P.T (by omega) le_rfl
  have ef := h.fs _ le_rfl
  -- the two results
  have key : ∀ (r r' : (ℕ → Vec F P.ndx) × F),
      (∀ t, t < P.T → r.1 t = r'.1 t) → r.2 = r'.2 →
      Tried false { s with y := { s.y with dx := r.1 }, m := { s.m with dv := r.2, d0 := s.m.dg + r.2, d1 := s.m.dq - lit 2 * r.2 } }
        { s' with y := { s'.y with dx := r'.1 }, m := { s'.m with dv := r'.2, d0 := s'.m.dg + r'.2, d1 := s'.m.dq - lit 2 * r'.2 } } ∧
      s.m.dg + r.2 = s'.m.dg + r'.2 ∧ s.m.dq - lit 2 * r.2 = s'.m.dq - lit 2 * r'.2 := by
    intro r r' h1 h2
    refine ⟨⟨⟨⟨⟨⟨⟨⟨h.ctl, h.xs, h.us, ⟨h.y.lag, h1, h.y.xs0⟩, h.filt, h.gap⟩, ⟨h.data, h.fs⟩, h.cost⟩, h.egap, h.bp⟩, nofun, h.dg⟩, h.KKT⟩, h.step⟩,
      h.txs, h.tus, h.tcost, h.tgap, h.dV⟩, by rw [g1, h2], by rw [g2, h2]⟩
  by_cases hf : s.feas = true
  · have hf' : s'.feas = true := c5 ▸ hf
    have e1 : s.expFDDP = { s with y := { s.y with dx := s.y.dx }, m := { s.m with dv := 0, d0 := s.m.dg + 0, d1 := s.m.dq - lit 2 * 0 } } := by
      unfold expFDDP; simp only [hf, if_true]
    have e2 : s'.expFDDP = { s' with y := { s'.y with dx := s'.y.dx }, m := { s'.m with dv := 0, d0 := s'.m.dg + 0, d1 := s'.m.dq - lit 2 * 0 } } := by
      unfold expFDDP; simp only [hf', if_true]
    rw [e1, e2]
    exact key (s.y.dx, 0) (s'.y.dx, 0) h.y.dx rfl
  · have hf' : ¬ s'.feas = true := c5 ▸ hf
    have hR := forUp_rel (fun _ (r r' : (ℕ → Vec F P.ndx) × F) => (∀ t, t < P.T → r.1 t = r'.1 t) ∧ r.2 = r'.2) P.T
      (fun t r => (Function.update r.1 t (P.diff (s.y.xs t) (s.xs t)), r.2 - dot (s.e.fs t) (mv (s.e.bp.Vxx t) (P.diff (s.y.xs t) (s.xs t)))))
      (fun t r => (Function.update r.1 t (P.diff (s'.y.xs t) (s'.xs t)), r.2 - dot (s'.e.fs t) (mv (s'.e.bp.Vxx t) (P.diff (s'.y.xs t) (s'.xs t)))))
      (fun t ht a b hab => by
        have ed : P.diff (s.y.xs t) (s.xs t) = P.diff (s'.y.xs t) (s'.xs t) := by rw [h.txs t ht.le, h.xs t ht.le]
        refine ⟨update_same (β := fun _ => Vec F P.ndx) (p := fun t => t < P.T) hab.1 ed, ?_⟩
        simp only []
        rw [hab.2, ed, h.fs t ht.le, h.bp.Vxx t (by omega) ht.le])
      (a := (Function.update s.y.dx (P.T - 1) (P.diff (s.y.xs P.T) (s.xs P.T)), 0 - dot (s.e.fs P.T) (mv (s.e.bp.Vxx P.T) (P.diff (s.y.xs P.T) (s.xs P.T)))))
      (b := (Function.update s'.y.dx (P.T - 1) (P.diff (s'.y.xs P.T) (s'.xs P.T)), 0 - dot (s'.e.fs P.T) (mv (s'.e.bp.Vxx P.T) (P.diff (s'.y.xs P.T) (s'.xs P.T)))))
      ⟨update_same (β := fun _ => Vec F P.ndx) (p := fun t => t < P.T) h.y.dx eT, by simp only []; rw [eT, eV, ef]⟩
    have := key _ _ hR.1 hR.2
    unfold expFDDP
    simp only [if_neg hf, if_neg hf']
    exact this

theorem testFDDP_alike (a : F) (hT : 0 < P.T) (h : Tried false s s') : (testFDDP a s).1 = (testFDDP a s').1 ∧ Tried false (testFDDP a s).2 (testFDDP a s').2 := by
  obtain ⟨c1, c2, c3, c4, c5, c6, c7, c8⟩ := ctl_all h.ctl
  unfold testFDDP
  rw [← c1]
  split
  · refine ⟨?_, h⟩
    simp only []
    have hf : s.c.filterSize ≤ 1 := (h.filt rfl).resolve_left (by rename_i hu; rw [hu]; nofun)
    rw [c7, c8, h.tcost, h.tgap rfl]
    refine congrArg Bool.not ?_
    rw [Bool.eq_iff_iff, SQP.filterLoop_iff, SQP.filterLoop_iff]
    refine exists_congr fun j => ⟨?_, ?_⟩
    · rintro ⟨q1, q2, q3, q4, q5⟩; exact ⟨q1, q2, q3, by omega, q5⟩
    · rintro ⟨q1, q2, q3, q4, q5⟩; exact ⟨q1, q2, q3, by omega, q5⟩
  · obtain ⟨h1, h2, h3⟩ := expFDDP_alike hT h
    have hc : s.expFDDP.c = s.c := rfl
    generalize s.expFDDP = x at *
    generalize s'.expFDDP = y at *
    obtain ⟨k1, k2, k3, k4, k5, k6, k7, k8⟩ := ctl_all h1.ctl
    refine ⟨?_, ⟨⟨⟨⟨⟨⟨h1.ctl, h1.xs, h1.us, h1.y, h1.filt, h1.gap⟩, ⟨h1.data, h1.fs⟩, h1.cost⟩, h1.egap, h1.bp⟩, nofun, h1.dg⟩, h1.KKT⟩, h1.step⟩,
      h1.txs, h1.tus, h1.tcost, h1.tgap, h1.dV⟩
    have j1 : (setExp a x).m.dVexp = (setExp a y).m.dVexp := by simp only [setExp]; rw [h2, h3]
    have j2 : (setExp a x).m.d0 = (setExp a y).m.d0 := h2
    have j3 : (setExp a x).m.dV = (setExp a y).m.dV := h1.dV
    have j4 : (setExp a x).c = (setExp a y).c := k1
    simp only []
    rw [j1, j2, j3, j4]

/-- after a line search. -/
structure Next (g : Bool) (s s' : DDP P) : Prop extends Core g s s' where
  cost : s.e.cost = s'.e.cost
  egap : s.e.gap = s'.e.gap
  KKT : s.m.KKT = s'.m.KKT
  step : s.steplength = s'.steplength

theorem Srch.next (h : Srch g s s') : Next g s s' := ⟨h.toCore, h.cost, h.egap, h.KKT, h.step⟩

theorem commitDDP_alike (a : F) (h : Tried true s s') : Next true { commitDDP a s with recalc := true } { commitDDP a s' with recalc := true } := by
  obtain ⟨c1, c2, c3, c4, c5, c6, c7, c8⟩ := ctl_all h.ctl
  exact ⟨⟨by simp only [Split.ctl, commitDDP, setCandidate, c1, c2, c3, c4, c7, c8], h.txs, h.tus, h.y, h.filt, h.gap⟩, 
    h.tcost, h.egap, h.KKT, h.step⟩

theorem commitFDDP_alike (a : F) (h : Tried false s s') : Next false { commitFDDP a s with recalc := true } { commitFDDP a s' with recalc := true } := by
  obtain ⟨c1, c2, c3, c4, c5, c6, c7, c8⟩ := ctl_all h.ctl
  by_cases hf : s.c.useFilter = true
  · have hf' : s'.c.useFilter = true := c1 ▸ hf
    have e1 : commitFDDP a s = s.setCandidate s.y.xs s.y.us false := by unfold commitFDDP; rw [if_pos hf]
    have e2 : commitFDDP a s' = s'.setCandidate s'.y.xs s'.y.us false := by unfold commitFDDP; rw [if_pos hf']
    rw [e1, e2]
    exact ⟨⟨by simp only [Split.ctl, setCandidate, c1, c2, c3, c4, c7, c8], h.txs, h.tus, h.y, h.filt, h.gap⟩, 
      h.cost, h.egap, h.KKT, h.step⟩
  · have hf' : ¬ s'.c.useFilter = true := c1 ▸ hf
    have e1 : commitFDDP a s = { s with wasFeas := s.feas, xs := s.y.xs, us := s.y.us, feas := s.feas || eqb a 1, e := { s.e with cost := s.y.cost } } := by
      unfold commitFDDP; rw [if_neg hf]; rfl
    have e2 : commitFDDP a s' = { s' with wasFeas := s'.feas, xs := s'.y.xs, us := s'.y.us, feas := s'.feas || eqb a 1, e := { s'.e with cost := s'.y.cost } } := by
      unfold commitFDDP; rw [if_neg hf']; rfl
    rw [e1, e2]
    exact ⟨⟨by simp only [Split.ctl, c1, c2, c3, c4, c5, c7, c8], h.txs, h.tus, h.y, h.filt, h.gap⟩, 
      h.tcost, h.egap, h.KKT, h.step⟩

/-! ## the loop, for both kinds -/

/-- the lemmas above, for one kind. -/
structure Lock (k : Kind P) (g : Bool) : Prop where
  dir : ∀ {s s' : DDP P} (llt : LLT F), Head g s s' → Res.Rel (Dir g) (Ev g) (k.dir llt s.recalc s) (k.dir llt s'.recalc s')
  improve : ∀ {s s' : DDP P}, Dir g s s' → Imp g (k.improve s) (k.improve s')
  push : ∀ {s s' : DDP P}, Chk g s s' → Chk g (k.push s) (k.push s')
  trial : ∀ {s s' : DDP P} (a : F), Srch g s s' → Res.Rel (Tried g) (Srch g) (k.trial a s) (k.trial a s')
  test : ∀ {s s' : DDP P} (a : F), Tried g s s' → (k.test a s).1 = (k.test a s').1 ∧ Tried g (k.test a s).2 (k.test a s').2
  commit : ∀ {s s' : DDP P} (a : F), Tried g s s' → Next g { k.commit a s with recalc := true } { k.commit a s' with recalc := true }

theorem lock_ddp (hT : 0 < P.T) : Lock (ddp P) true :=
  ⟨dirDDP_alike, improveDDP_alike, fun h => h, fun a => tryDDP_alike a hT, testDDP_alike, commitDDP_alike⟩

theorem lock_fddp (hT : 0 < P.T) : Lock (fddp P) false :=
  ⟨dirFDDP_alike, improveFDDP_alike, pushFDDP_alike, fun a => tryFDDP_alike a hT, fun a => testFDDP_alike a hT, commitFDDP_alike⟩

variable {k : Kind P}

theorem retry_alike (hk : Lock k g) (hpar : k.Laws) (llt : LLT F) (fuel : ℕ) (h : Head g s s') :
    (retry k llt fuel s = none ∧ retry k llt fuel s' = none) ∨
    (∃ a b, retry k llt fuel s = some (true, a) ∧ retry k llt fuel s' = some (true, b) ∧ Dir g a b) ∨
    ∃ a b, retry k llt fuel s = some (false, a) ∧ retry k llt fuel s' = some (false, b) ∧ Core g a b := by
  induction fuel generalizing s s' with
  | zero => exact .inl ⟨rfl, rfl⟩
  | succ n ih =>
    have hc := hk.dir llt h
    have i1 : HeadInv ({ (k.dir llt s.recalc s).st with recalc := false } : DDP P).increaseReg := by
      obtain ⟨bp, gg, e⟩ := hpar.dir llt s.recalc s
      rw [e]
      exact .inr ⟨rfl, (evald_evalFresh h.inv).congr rfl rfl rfl rfl rfl rfl⟩
    have i2 : HeadInv ({ (k.dir llt s'.recalc s').st with recalc := false } : DDP P).increaseReg := by
      obtain ⟨bp, gg, e⟩ := hpar.dir llt s'.recalc s'
      rw [e]
      exact .inr ⟨rfl, (evald_evalFresh h.inv').congr rfl rfl rfl rfl rfl rfl⟩
    unfold retry
    generalize k.dir llt s.recalc s = x at *
    generalize k.dir llt s'.recalc s' = y at *
    cases hc with
    | @ok a b h => exact .inr (.inl ⟨a, b, rfl, rfl, h⟩)
    | @exn a b h =>
      have i1 : HeadInv ({ a with recalc := false } : DDP P).increaseReg := i1
      have i2 : HeadInv ({ b with recalc := false } : DDP P).increaseReg := i2
      obtain ⟨c1, c2, c3, c4, c5, c6, c7, c8⟩ := ctl_all h.ctl
      have h' : Ev g ({ a with recalc := false } : DDP P).increaseReg ({ b with recalc := false } : DDP P).increaseReg :=
        ⟨⟨by simp only [Split.ctl, increaseReg, c1, c2, c3, c4, c5, c7, c8], h.xs, h.us, h.y, h.filt, h.gap⟩, ⟨h.data, h.fs⟩, h.cost⟩
      have hp : ({ a with recalc := false } : DDP P).increaseReg.preg = ({ b with recalc := false } : DDP P).increaseReg.preg := (ctl_all h'.ctl).2.1
      have hc : ({ a with recalc := false } : DDP P).increaseReg.c = ({ b with recalc := false } : DDP P).increaseReg.c := c1
      simp only []
      generalize ({ a with recalc := false } : DDP P).increaseReg = A at *
      generalize ({ b with recalc := false } : DDP P).increaseReg = B at *
      rw [hp, hc]
      split
      · exact .inr (.inr ⟨_, _, rfl, rfl, h'.toCore⟩)
      · exact ih ⟨h'.toCore, i1, i2⟩

theorem lineSearch_alike (hk : Lock k g) (as : List F) (h : Chk g s s') (hst : as ≠ [] ∨ s.steplength = s'.steplength) :
    (lineSearch k as s).1 = (lineSearch k as s').1 ∧ Next g (lineSearch k as s).2 (lineSearch k as s').2 := by
  induction as generalizing s s' with
  | nil => exact ⟨rfl, Srch.next ⟨h, hst.resolve_left fun h => h rfl⟩⟩
  | cons a as ih =>
    have hc := hk.trial a (s := { s with steplength := a, nTry := s.nTry + 1 }) (s' := { s' with steplength := a, nTry := s'.nTry + 1 })
      ⟨⟨⟨⟨⟨⟨h.ctl, h.xs, h.us, h.y, h.filt, h.gap⟩, ⟨h.data, h.fs⟩, h.cost⟩, h.egap, h.bp⟩, h.d, h.dg⟩, h.KKT⟩, rfl⟩
    unfold lineSearch
    generalize k.trial a { s with steplength := a, nTry := s.nTry + 1 } = x at *
    generalize k.trial a { s' with steplength := a, nTry := s'.nTry + 1 } = y at *
    cases hc with
    | @exn x y h => exact ih h.toChk (.inr h.step)
    | @ok x y h =>
      obtain ⟨h1, h2⟩ := hk.test a h
      simp only []
      rw [← h1]
      split
      · exact ⟨rfl, hk.commit a h2⟩
      · exact ih h2.toChk (.inr h2.step)

theorem search_alike (hk : Lock k g) (h : Chk g s s') (ha : s.c.par.alphas ≠ []) : Next g (search k s) (search k s') := by
  obtain ⟨c1, c2, c3, c4, c5, c6, c7, c8⟩ := ctl_all h.ctl
  have := lineSearch_alike hk s.c.par.alphas (s := { s with recalc := false }) (s' := { s' with recalc := false })
    ⟨⟨⟨⟨⟨by simp only [Split.ctl, c1, c2, c3, c4, c5, c7, c8], h.xs, h.us, h.y, h.filt, h.gap⟩, ⟨h.data, h.fs⟩, h.cost⟩, h.egap, h.bp⟩, h.d, h.dg⟩, h.KKT⟩ (.inl ha)
  unfold search
  rw [show s'.c.par.alphas = s.c.par.alphas from by rw [c1]]
  generalize lineSearch k s.c.par.alphas { s with recalc := false } = x at *
  generalize lineSearch k s.c.par.alphas { s' with recalc := false } = y at *
  obtain ⟨f, a⟩ := x
  obtain ⟨f', b⟩ := y
  obtain ⟨h1, h2⟩ := this
  simp only [] at h1 h2 ⊢
  subst h1
  cases f with
  | true => exact h2
  | false => exact ⟨⟨h2.ctl, h2.xs, h2.us, h2.y, h2.filt, h2.gap⟩, h2.cost, h2.egap, h2.KKT, h2.step⟩

theorem Next.reg (h : Next g s s') {p q p' q' : F} (hp : p = p') (hq : q = q') :
    Next g { s with preg := p, dreg := q } { s' with preg := p', dreg := q' } := by
  subst hp hq
  obtain ⟨c1, c2, c3, c4, c5, c6, c7, c8⟩ := ctl_all h.ctl
  exact ⟨⟨by simp only [Split.ctl, c1, c4, c5, c6, c7, c8], h.xs, h.us, h.y, h.filt, h.gap⟩, h.cost, h.egap, h.KKT, h.step⟩

theorem updateReg_alike (h : Next g s s') : s.updateReg.1 = s'.updateReg.1 ∧ Next g s.updateReg.2 s'.updateReg.2 := by
  obtain ⟨c1, c2, c3, c4, c5, c6, c7, c8⟩ := ctl_all h.ctl
  have h1 : Next g (if ltb s.c.par.thStepDec s.steplength then s.decreaseReg else s)
      (if ltb s'.c.par.thStepDec s'.steplength then s'.decreaseReg else s') := by
    rw [← c1, ← h.step]
    split
    · exact h.reg (by rw [c1, c2]) (by rw [c1, c2])
    · exact h
  unfold updateReg
  simp only []
  generalize (if ltb s.c.par.thStepDec s.steplength then s.decreaseReg else s) = a at *
  generalize (if ltb s'.c.par.thStepDec s'.steplength then s'.decreaseReg else s') = b at *
  obtain ⟨d1, d2, d3, d4, d5, d6, d7, d8⟩ := ctl_all h1.ctl
  rw [← d1, ← h1.step]
  split
  · refine ⟨?_, h1.reg (by rw [d1, d2]) (by rw [d1, d2])⟩
    change eqb (incReg a.c.par a.preg) a.c.par.regMax = eqb (incReg b.c.par b.preg) b.c.par.regMax
    rw [d1, d2]
  · exact ⟨rfl, h1⟩

theorem callbacks_alike (h : Next g s s') : Next g s.stopping.callbacks s'.stopping.callbacks := by
  obtain ⟨c1, c2, c3, c4, c5, c6, c7, c8⟩ := ctl_all h.ctl
  exact ⟨⟨h.ctl, h.xs, h.us, h.y, h.filt, h.gap⟩, h.cost, h.egap, h.KKT, h.step⟩

/-- one iteration. -/
theorem body_alike (hk : Lock k g) (hpar : k.Laws) (llt : LLT F) (fuel : ℕ) (ha : s.c.par.alphas ≠ []) (h : Head g s s') :
    (body k llt fuel s = none ∧ body k llt fuel s' = none) ∨
    (∃ a b, body k llt fuel s = some (some true, a) ∧ body k llt fuel s' = some (some true, b) ∧ Chk g a b) ∨
    (∃ a b, body k llt fuel s = some (some false, a) ∧ body k llt fuel s' = some (some false, b) ∧ Core g a b) ∨
    ∃ a b, body k llt fuel s = some (none, a) ∧ body k llt fuel s' = some (none, b) ∧ Next g a b := by
  have hc : ∀ a, retry k llt fuel s = some (true, a) → (k.push (k.improve a).checkKKT).c = s.c := by
    intro a ha
    have h1 : a.c = s.c := by
      obtain ⟨⟨p, q, bp, gg, r, e⟩, -⟩ := retry_spec hpar ha
      obtain ⟨fs, c, d, e'⟩ := evald_frame s.recalc s
      rw [e, e']
    obtain ⟨_, _, _, _, e2⟩ := hpar.improve a
    obtain ⟨_, _, _, e3⟩ := hpar.push (k.improve a).checkKKT
    rw [e3]
    change (k.improve a).c = s.c
    rw [e2]; exact h1
  unfold body
  rcases retry_alike hk hpar llt fuel h with ⟨e1, e2⟩ | ⟨a, b, e1, e2, hd⟩ | ⟨a, b, e1, e2, hd⟩
  · rw [e1, e2]; exact .inl ⟨rfl, rfl⟩
  · have hp := hc a e1
    rw [e1, e2]
    have hc := check_alike (hk.improve hd)
    simp only []
    generalize (k.improve a).checkKKT = x at *
    generalize (k.improve b).checkKKT = y at *
    obtain ⟨c1, c2, c3, c4, c5, c6, c7, c8⟩ := ctl_all hc.ctl
    rw [← hc.KKT, ← c1]
    split
    · exact .inr (.inl ⟨x, y, rfl, rfl, hc⟩)
    · obtain ⟨h3, h4⟩ := updateReg_alike (search_alike hk (hk.push hc) (by rw [hp]; exact ha))
      rw [← h3]
      split
      · exact .inr (.inr (.inl ⟨_, _, rfl, rfl, h4.toCore⟩))
      · exact .inr (.inr (.inr ⟨_, _, rfl, rfl, callbacks_alike h4⟩))
  · rw [e1, e2]; exact .inr (.inr (.inl ⟨a, b, rfl, rfl, hd⟩))

theorem body_c (hpar : k.Laws) {llt : LLT F} {fuel : ℕ} {s a : DDP P} {r : Option Bool} (h : body k llt fuel s = some (r, a)) : a.c = s.c :=
  (body_frame hpar h).1

/-- the iterations of a solve. -/
theorem iterate_alike (hk : Lock k g) (hpar : k.Laws) (llt : LLT F) (fuel n : ℕ) (ha : s.c.par.alphas ≠ []) (h : Head g s s') :
    (iterate k llt fuel n s = none ∧ iterate k llt fuel n s' = none) ∨
    (∃ a b, iterate k llt fuel n s = some (some true, a) ∧ iterate k llt fuel n s' = some (some true, b) ∧ Chk g a b) ∨
    (∃ a b, iterate k llt fuel n s = some (some false, a) ∧ iterate k llt fuel n s' = some (some false, b) ∧ Core g a b) ∨
    ∃ a b, iterate k llt fuel n s = some (none, a) ∧ iterate k llt fuel n s' = some (none, b) ∧ Core g a b := by
  induction n generalizing s s' with
  | zero => exact .inr (.inr (.inr ⟨s, s', rfl, rfl, h.toCore⟩))
  | succ n ih =>
    unfold iterate
    have hp : ∀ r a, body k llt fuel s = some (r, a) → a.c = s.c := fun r a ha => body_c hpar ha
    rcases body_alike hk hpar llt fuel ha h with ⟨e1, e2⟩ | ⟨a, b, e1, e2, hd⟩ | ⟨a, b, e1, e2, hd⟩ | ⟨a, b, e1, e2, hd⟩
    · rw [e1, e2]; exact .inl ⟨rfl, rfl⟩
    · rw [e1, e2]; exact .inr (.inl ⟨a, b, rfl, rfl, hd⟩)
    · rw [e1, e2]; exact .inr (.inr (.inl ⟨a, b, rfl, rfl, hd⟩))
    · have hp := hp _ _ e1
      rw [e1, e2]
      obtain ⟨c1, c2, c3, c4, c5, c6, c7, c8⟩ := ctl_all hd.ctl
      refine ih (s := { a with iter := a.iter + 1 }) (s' := { b with iter := b.iter + 1 }) (by change a.c.par.alphas ≠ []; rw [hp]; exact ha) ?_
      exact ⟨⟨by simp only [Split.ctl, c1, c2, c3, c4, c5, c6, c7, c8], hd.xs, hd.us, hd.y, hd.filt, hd.gap⟩,
        body_headInv hpar e1 h.inv, body_headInv hpar e2 h.inv'⟩

end DDP.Split
end
end Mim
