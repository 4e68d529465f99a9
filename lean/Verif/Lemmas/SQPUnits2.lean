import Verif.Lemmas.SQPUnits

/-!
# Changing the unit and the zero of the costs: trials, iterations, solves
-/
set_option autoImplicit false
set_option linter.unusedSectionVars false
set_option linter.unusedSimpArgs false

namespace Mim
namespace Units
section
variable {K : Type} [Field K] [LinearOrder K] [IsStrictOrderedRing K]
attribute [local instance 2000] noScreen
open SQP
variable {P : Problem K} {c : K} {D : ℕ → K} {s : SQP P} {s' : SQP (P.recost c D)}

/-- what the two solvers have in common during a line search. -/
structure UTrial (c : K) (D : ℕ → K) (s : SQP P) (s' : SQP (P.recost c D)) : Prop extends UAlike c D (s.iter + 1) s s' where
  data : DRel c D s.data s'.data
  merit : s'.merit = c * s.merit + total P D
  dx : ∀ t, t ≤ P.T → s'.dx t = s.dx t
  du : ∀ t, t < P.T → s'.du t = s.du t

/-- after `n` nodes of a trial. -/
structure UTrialAt (c : K) (D : ℕ → K) (n : ℕ) (s : SQP P) (s' : SQP (P.recost c D)) : Prop extends UTrial c D s s' where
  xsTry : ∀ t, t < n → s'.xsTry t = s.xsTry t
  usTry : ∀ t, t < n → s'.usTry t = s.usTry t
  costTry : s'.costTry = c * s.costTry + sumUp n D
  gapTry : s'.gapTry = s.gapTry
  step : s'.steplength = s.steplength

theorem DRel.node {d : Data P} {d' : Data (P.recost c D)} (h : DRel c D d d') (t : ℕ) {x x' : P.X} {u u' : Vec K (P.nu t)}
    (hx : x' = x) (hu : u' = u) : DRel c D (d.calcNode t x u) (d'.calcNode (P := P.recost c D) t x' u') := by
  subst hx hu
  refine ⟨fun j hj => ?_, fun j hj => ?_, h.ter⟩
  · simp only [Data.calcNode]
    by_cases e : j = t
    · subst e; simp
    · rw [Function.update_of_ne e, Function.update_of_ne e]; exact h.cost j hj
  · simp only [Data.calcNode]
    by_cases e : j = t
    · subst e; simp
    · rw [Function.update_of_ne e, Function.update_of_ne e]; exact h.xnext j hj

theorem tryStage_rel (a : K) {n : ℕ} (hn : n < P.T) (h : UTrialAt c D n s s') :
    Res.Rel (UTrialAt c D (n + 1)) (fun _ _ => False) (tryStage a n s) (tryStage a n s') := by
  have ex : P.integrate (s'.xs n) (sv a (s'.dx n)) = P.integrate (s.xs n) (sv a (s.dx n)) := by rw [h.xs n hn.le, h.dx n hn.le]
  have eu : ∀ t, t < n + 1 → (if P.nu n ≠ 0 then Function.update s'.usTry n (s'.us n + sv a (s'.du n)) else s'.usTry) t =
      (if P.nu n ≠ 0 then Function.update s.usTry n (s.us n + sv a (s.du n)) else s.usTry) t := by
    intro t ht
    by_cases h0 : P.nu n ≠ 0
    · rw [if_pos h0, if_pos h0]
      exact update_upTo h.usTry (by rw [h.us n hn, h.du n hn]) t ht
    · rw [if_neg h0, if_neg h0]
      by_cases e : t = n
      · subst e; exact vec_eq_of_zero (not_not.mp h0) _ _
      · exact h.usTry t (by omega)
  obtain ⟨c1, c2, c3, c4, c5, c6, c7, c8, c9, c10, c11⟩ := h.conf
  have e2 : ∀ f : ℕ → K, sumUp (n + 1) f = sumUp n f + f n := fun _ => rfl
  unfold tryStage
  simp only [ns_bad, Bool.false_eq_true, if_false]
  generalize hU : (if P.nu n ≠ 0 then Function.update s.usTry n (s.us n + sv a (s.du n)) else s.usTry) = U at *
  generalize hU' : (if P.nu n ≠ 0 then Function.update s'.usTry n (s'.us n + sv a (s'.du n)) else s'.usTry) = U' at *
  generalize P.integrate (s.xs n) (sv a (s.dx n)) = X at *
  generalize P.integrate (s'.xs n) (sv a (s'.dx n)) = X' at *
  have hd := DRel.node h.data n ex (eu n (by omega))
  have hc : s'.costTry + ((s'.data.calcNode n X' (U' n)).run n).cost =
      c * (s.costTry + ((s.data.calcNode n X (U n)).run n).cost) + sumUp (n + 1) D := by
    rw [h.costTry, hd.cost n hn, e2]; ring
  have hxs : ∀ t, t < n + 1 → Function.update s'.xsTry n X' t = Function.update s.xsTry n X t :=
    update_upTo (β := fun _ => P.X) h.xsTry ex
  by_cases h0 : 0 < n
  · have hg : s'.gapTry + norm1 (P.diff X' ((s'.data.calcNode n X' (U' n)).run (n - 1)).xnext) =
        s.gapTry + norm1 (P.diff X ((s.data.calcNode n X (U n)).run (n - 1)).xnext) := by
      rw [h.gapTry, hd.xnext (n - 1) (by omega), ex]
    simp only [if_pos h0]
    exact .ok ⟨⟨⟨⟨c1, c2, c3, c4, c5, c6, c7, c8, c9, c10, c11⟩, h.xs, h.us, h.dx0⟩, hd, h.merit, h.dx, h.du⟩, hxs, eu, hc, hg, h.step⟩
  · simp only [if_neg h0]
    exact .ok ⟨⟨⟨⟨c1, c2, c3, c4, c5, c6, c7, c8, c9, c10, c11⟩, h.xs, h.us, h.dx0⟩, hd, h.merit, h.dx, h.du⟩, hxs, eu, hc, h.gapTry, h.step⟩

/-- after a successful trial. -/
structure UTried (c : K) (D : ℕ → K) (s : SQP P) (s' : SQP (P.recost c D)) : Prop extends UTrial c D s s' where
  xsTry : ∀ t, t ≤ P.T → s'.xsTry t = s.xsTry t
  usTry : ∀ t, t < P.T → s'.usTry t = s.usTry t
  costTry : s'.costTry = c * s.costTry + total P D
  gapTry : s'.gapTry = s.gapTry
  meritTry : s'.meritTry = c * s.meritTry + total P D
  step : s'.steplength = s.steplength

theorem tryTerminal_rel (a : K) (hT : 0 < P.T) (h : UTrialAt c D P.T s s') :
    Res.Rel (UTried c D) (fun _ _ => False) (tryTerminal a s) (tryTerminal a s') := by
  have ex : P.integrate (s'.xs P.T) (sv a (s'.dx P.T)) = P.integrate (s.xs P.T) (sv a (s.dx P.T)) := by
    rw [h.xs _ le_rfl, h.dx _ le_rfl]
  obtain ⟨c1, c2, c3, c4, c5, c6, c7, c8, c9, c10, c11⟩ := h.conf
  unfold tryTerminal
  simp only [ns_bad, Bool.false_eq_true, if_false]
  generalize P.integrate (s.xs P.T) (sv a (s.dx P.T)) = X at *
  generalize P.integrate (s'.xs P.T) (sv a (s'.dx P.T)) = X' at *
  subst ex
  have hd : DRel c D (s.data.calcTer X') (s'.data.calcTer (P := P.recost c D) X') := ⟨h.data.cost, h.data.xnext, rfl⟩
  have hc : s'.costTry + (s'.data.calcTer X').ter.cost = c * (s.costTry + (s.data.calcTer X').ter.cost) + total P D := by
    rw [h.costTry, hd.ter, total]; ring
  have hg : s'.gapTry + norm1 (P.diff X' ((s'.data.calcTer X').run (P.T - 1)).xnext) =
      s.gapTry + norm1 (P.diff X' ((s.data.calcTer X').run (P.T - 1)).xnext) := by
    rw [h.gapTry, hd.xnext _ (by omega)]
  have hxs : ∀ t, t < P.T + 1 → Function.update s'.xsTry P.T X' t = Function.update s.xsTry P.T X' t :=
    update_upTo (β := fun _ => P.X) h.xsTry rfl
  refine .ok ⟨⟨⟨⟨c1, c2, c3, c4, c5, c6, c7, c8, c9, c10, c11⟩, h.xs, h.us, h.dx0⟩, hd, h.merit, h.dx, h.du⟩,
    fun t ht => hxs t (by omega), h.usTry, hc, hg, ?_, h.step⟩
  change (s'.costTry + (s'.data.calcTer X').ter.cost) + s'.mu * (s'.gapTry + norm1 (P.diff X' ((s'.data.calcTer X').run (P.T - 1)).xnext)) =
    c * ((s.costTry + (s.data.calcTer X').ter.cost) + s.mu * (s.gapTry + norm1 (P.diff X' ((s.data.calcTer X').run (P.T - 1)).xnext))) + total P D
  rw [hc, hg, c2]; ring

theorem rel_mono {S S' : Type} {R Q Q' : S → S' → Prop} {x : Res S} {y : Res S'} (h : Res.Rel R Q x y) (hq : ∀ a b, Q a b → Q' a b) :
    Res.Rel R Q' x y := by
  cases h with
  | ok h => exact .ok h
  | exn h => exact .exn (hq _ _ h)

theorem tryStep_rel (a : K) (hT : 0 < P.T) (h : UTrial c D s s') (hst : s'.steplength = s.steplength) :
    Res.Rel (UTried c D) (fun s s' => UTrial c D s s' ∧ s'.steplength = s.steplength) (tryStep a s) (tryStep a s') := by
  obtain ⟨c1, c2, c3, c4, c5, c6, c7, c8, c9, c10, c11⟩ := h.conf
  unfold tryStep
  simp only []
  split
  · exact .exn ⟨⟨⟨⟨c1, c2, c3, c4, c5, c6, c7, c8, c9, c10, c11⟩, h.xs, h.us, h.dx0⟩, h.data, h.merit, h.dx, h.du⟩, hst⟩
  · have h0 : UTrialAt c D 0 { s with nTry := s.nTry + 1, costTry := 0, meritTry := 0, gapTry := 0 }
        { s' with nTry := s'.nTry + 1, costTry := 0, meritTry := 0, gapTry := 0 } :=
      ⟨⟨⟨⟨c1, c2, c3, c4, c5, c6, c7, c8, c9, c10, c11⟩, h.xs, h.us, h.dx0⟩, h.data, h.merit, h.dx, h.du⟩, fun t ht => by omega,
        fun t ht => by omega, by simp [sumUp, forUp], rfl, hst⟩
    have := Res.Rel.bind (forUpR_rel (UTrialAt c D) (fun _ _ => False) P.T (tryStage a) (tryStage a) (fun t ht x y => tryStage_rel a ht) h0)
      fun x y => tryTerminal_rel a hT
    exact rel_mono this fun _ _ h => h.elim

theorem worse_rel (hc : 0 < c) (h : UTried c D s s') : s'.worse = s.worse := by
  obtain ⟨old, old', hs, h1, h2, h3⟩ := h.conf.costs
  have h3 : hs.length = s.iter + 1 := h3
  unfold worse
  rw [h.conf.filterSize, h.conf.iter, h.conf.gapList, h.costTry, h.gapTry, Bool.eq_iff_iff, filterLoop_iff, filterLoop_iff]
  refine exists_congr fun j => ?_
  have : j < s.filterSize → j ≤ s.iter → leb (s'.costList.get (s.filterSize - 1 - j)) (c * s.costTry + total P D) =
      leb (s.costList.get (s.filterSize - 1 - j)) s.costTry := by
    intro a1 a2
    have b1 := h1.get j a1 (by omega)
    have b2 := h2.get j a1 (by rw [List.length_map]; omega)
    rw [List.length_map, List.getElem?_map, b1, Option.map_some, Option.some_inj] at b2
    rw [← b2]
    exact leb_aff hc _ _ _
  constructor
  · rintro ⟨q1, q2, q3, q4, q5, q6⟩
    exact ⟨q1, q2, q3, q4, (this q3 q4) ▸ q5, q6⟩
  · rintro ⟨q1, q2, q3, q4, q5, q6⟩
    exact ⟨q1, q2, q3, q4, (this q3 q4).symm ▸ q5, q6⟩

theorem accept_rel (h : UTried c D s s') : UTrial c D (s.setCandidate s.xsTry s.usTry false) (s'.setCandidate s'.xsTry s'.usTry false) := by
  obtain ⟨c1, c2, c3, c4, c5, c6, c7, c8, c9, c10, c11⟩ := h.conf
  exact ⟨⟨⟨c1, c2, c3, c4, c5, c6, c7, c8, rfl, c10, c11⟩, h.xsTry, h.usTry, h.dx0⟩, h.data, h.merit, h.dx, h.du⟩

/-- `isWorse` and `steplength` are not compared. -/
theorem UTrial.worse' (h : UTrial c D s s') (v w : Bool) : UTrial c D { s with isWorse := v } { s' with isWorse := w } := by
  obtain ⟨c1, c2, c3, c4, c5, c6, c7, c8, c9, c10, c11⟩ := h.conf
  exact ⟨⟨⟨c1, c2, c3, c4, c5, c6, c7, c8, c9, c10, c11⟩, h.xs, h.us, h.dx0⟩, h.data, h.merit, h.dx, h.du⟩

theorem UTrial.step' (h : UTrial c D s s') (v w : K) : UTrial c D { s with steplength := v } { s' with steplength := w } := by
  obtain ⟨c1, c2, c3, c4, c5, c6, c7, c8, c9, c10, c11⟩ := h.conf
  exact ⟨⟨⟨c1, c2, c3, c4, c5, c6, c7, c8, c9, c10, c11⟩, h.xs, h.us, h.dx0⟩, h.data, h.merit, h.dx, h.du⟩

theorem UTrial.rej' (h : UTrial c D s s') (v w : ℕ) : UTrial c D { s with nRej := v } { s' with nRej := w } := by
  obtain ⟨c1, c2, c3, c4, c5, c6, c7, c8, c9, c10, c11⟩ := h.conf
  exact ⟨⟨⟨c1, c2, c3, c4, c5, c6, c7, c8, c9, c10, c11⟩, h.xs, h.us, h.dx0⟩, h.data, h.merit, h.dx, h.du⟩

theorem lineSearch_rel (hc : 0 < c) (hT : 0 < P.T) (as : List K) (h : UTrial c D s s') (hst : as ≠ [] ∨ s'.steplength = s.steplength) :
    (lineSearch as s').1 = (lineSearch as s).1 ∧ UTrial c D (lineSearch as s).2 (lineSearch as s').2 ∧
      (lineSearch as s').2.steplength = (lineSearch as s).2.steplength := by
  induction as generalizing s s' with
  | nil => exact ⟨rfl, h, hst.resolve_left fun h => h rfl⟩
  | cons a as ih =>
    have hr := tryStep_rel a hT (h.step' a a) rfl
    unfold lineSearch
    generalize tryStep a { s with steplength := a } = x at *
    generalize tryStep a { s' with steplength := a } = y at *
    cases hr with
    | @exn a b h => exact ih h.1 (.inr h.2)
    | @ok a b h =>
      have hw := worse_rel hc h
      have hA := accept_rel h
      have hm : ltb b.meritTry b.merit = ltb a.meritTry a.merit := by rw [h.meritTry, h.merit, ltb_aff hc]
      have e1 : ∀ {α} (p q : α), (if b.useFilter = true then p else q) = if a.useFilter = true then p else q := by
        rw [h.conf.useFilter]; intros; rfl
      have e2 : ∀ {α} (p q : α), (if b.worse = true then p else q) = if a.worse = true then p else q := by rw [hw]; intros; rfl
      have e3 : ∀ {α} (p q : α), (if ltb b.meritTry b.merit = true then p else q) = if ltb a.meritTry a.merit = true then p else q := by
        rw [hm]; intros; rfl
      simp only []
      rw [e1, e2, e3]
      split
      · split
        · exact ih (h.toUTrial.worse' _ _) (.inr h.step)
        · exact ⟨rfl, hA.worse' _ _, h.step⟩
      · split
        · exact ⟨rfl, hA, h.step⟩
        · exact ih h.toUTrial (.inr h.step)

/-! ## iterations -/

/-- the residuals: their parts scale differently. -/
def KRel (c k k' : K) : Prop := ∃ a g, 0 ≤ a ∧ 0 ≤ g ∧ k = max a g ∧ k' = max (c * a) g

theorem checked_rel (hc : 0 < c) (h : UDir c D s s') : UDir c D s.checkKKT.callbacks s'.checkKKT.callbacks ∧
    KRel c s.checkKKT.callbacks.KKT s'.checkKKT.callbacks.KKT := by
  obtain ⟨c1, c2, c3, c4, c5, c6, c7, c8, c9, c10, c11⟩ := h.conf
  have hk : KRel c s.checkKKT.KKT s'.checkKKT.KKT := kkt_rel hc h.data h.fs h.lag
  exact ⟨⟨⟨⟨⟨c1, c2, c3, c4, c5, c6, c7, c8, c9, c10, c11⟩, h.xs, h.us, h.dx0⟩, h.data, h.cost, h.fs⟩, h.gap, h.merit, h.bp, h.dx, h.du, h.lag⟩, hk⟩

theorem push_rel (h : UDir c D s s') : UTrial c D s.pushFilter s'.pushFilter := by
  obtain ⟨c1, c2, c3, c4, c5, c6, c7, c8, c9, c10, old, old', hs, h1, h2, h3⟩ := h.conf
  refine ⟨⟨⟨c1, c2, c3, c4, c5, c6, c7, c8, c9, ?_, old, old', hs ++ [s.cost], h1.push _, ?_, ?_⟩, h.xs, h.us, h.dx0⟩, h.data.toDRel, h.merit, h.dx, h.du⟩
  · change s'.gapList.push s'.gap = s.gapList.push s.gap
    rw [c10, h.gap]
  · have := h2.push s'.cost
    rw [h.cost] at this
    rw [List.map_append, List.map_singleton]
    change CBuf.Holds (s'.costList.push s'.cost) _ _ _
    rw [h.cost]
    exact this
  · rw [List.length_append, h3]; rfl

theorem search_rel (hc : 0 < c) (hT : 0 < P.T) (h : UTrial c D s s') (ha : s.par.alphas ≠ []) :
    UTrial c D s.search s'.search ∧ s'.search.steplength = s.search.steplength := by
  have := lineSearch_rel hc hT s.par.alphas h (.inl ha)
  have e : s'.par.alphas = s.par.alphas := by rw [h.conf.par]; rfl
  unfold search
  rw [e]
  generalize lineSearch s.par.alphas s = x at *
  generalize lineSearch s.par.alphas s' = y at *
  obtain ⟨f, a⟩ := x
  obtain ⟨g, b⟩ := y
  obtain ⟨h1, h2, h3⟩ := this
  simp only [] at h1 h2 h3 ⊢
  subst h1
  cases g with
  | true => exact ⟨h2, h3⟩
  | false => exact ⟨h2.rej' _ _, h3⟩

theorem UTrial.reg (h : UTrial c D s s') {p q p' q' : K} (hp : p' = c * p) (hq : q' = c * q) :
    UTrial c D { s with preg := p, dreg := q } { s' with preg := p', dreg := q' } :=
  ⟨⟨h.conf.reg hp hq, h.xs, h.us, h.dx0⟩, h.data, h.merit, h.dx, h.du⟩

theorem updateReg_rel (hc : 0 < c) (h : UTrial c D s s') (hs : s'.steplength = s.steplength) :
    s'.updateReg.1 = s.updateReg.1 ∧ UTrial c D s.updateReg.2 s'.updateReg.2 := by
  have dd : decReg s'.par s'.preg = c * decReg s.par s.preg := by rw [h.conf.par, h.conf.preg, decReg_recost hc]
  have t1 : s'.par.thStepDec = s.par.thStepDec := by rw [h.conf.par]; rfl
  have h1 : UTrial c D (if ltb s.par.thStepDec s.steplength then s.decreaseReg else s)
      (if ltb s'.par.thStepDec s'.steplength then s'.decreaseReg else s') ∧
      (if ltb s'.par.thStepDec s'.steplength then s'.decreaseReg else s').steplength =
      (if ltb s.par.thStepDec s.steplength then s.decreaseReg else s).steplength := by
    rw [t1, hs]
    split
    · exact ⟨h.reg dd dd, hs⟩
    · exact ⟨h, hs⟩
  unfold updateReg
  simp only []
  generalize (if ltb s.par.thStepDec s.steplength then s.decreaseReg else s) = a at *
  generalize (if ltb s'.par.thStepDec s'.steplength then s'.decreaseReg else s') = b at *
  obtain ⟨h1, h2⟩ := h1
  have ii : incReg b.par b.preg = c * incReg a.par a.preg := by rw [h1.conf.par, h1.conf.preg, incReg_recost hc]
  have t2 : b.par.thStepInc = a.par.thStepInc := by rw [h1.conf.par]; rfl
  rw [t2, h2]
  split
  · have h3 : UTrial c D a.increaseReg b.increaseReg := h1.reg ii ii
    exact ⟨regMax_rel hc h3.conf, h3⟩
  · exact ⟨rfl, h1⟩

theorem body_tol {P : Problem K} {llt : LLT K} {fuel : ℕ} {s a : SQP P} {r : Option Bool} (h : body llt fuel s = some (r, a)) : a.tol = s.tol :=
  body_frame tol (fun _ _ _ _ _ _ _ _ _ _ _ _ => rfl) (fun _ _ _ => rfl) (fun _ _ _ _ _ _ _ _ _ => rfl) (fun _ _ _ _ _ _ => rfl)
    (fun _ _ _ _ => rfl) (fun _ _ _ _ => rfl) (fun _ _ => rfl) h

theorem retry_tol {P : Problem K} {llt : LLT K} {fuel : ℕ} {r q : Bool} {s a : SQP P} (h : retry llt fuel r s = some (q, a)) : a.tol = s.tol :=
  retry_frame tol (fun _ _ _ _ _ _ _ _ _ _ _ _ => rfl) (fun _ _ _ => rfl) _ _ _ _ _ _ h

theorem retry_par {P : Problem K} {llt : LLT K} {fuel : ℕ} {r q : Bool} {s a : SQP P} (h : retry llt fuel r s = some (q, a)) : a.par = s.par :=
  retry_frame par (fun _ _ _ _ _ _ _ _ _ _ _ _ => rfl) (fun _ _ _ => rfl) _ _ _ _ _ _ h

/-- the two stopping tests agree on all pairs of residuals that can occur. -/
def TolOK (c tol tol' : K) : Prop := ∀ k k', KRel c k k' → (k' ≤ tol' ↔ k ≤ tol)

theorem TolOK.leb {tol tol' k k' : K} (h : TolOK c tol tol') (hk : KRel c k k') : leb k' tol' = leb k tol := by
  rw [ns_leb, ns_leb]; exact decide_eq_decide.mpr (h k k' hk)

/-- one iteration. -/
theorem body_rel (hc : 0 < c) {llt : LLT K} (hL : llt.Unitless c) (fuel : ℕ) (hT : 0 < P.T) (ha : s.par.alphas ≠ []) (h : UHead c D s s') :
    (body llt fuel s = none ∧ body llt fuel s' = none) ∨
    (∃ a b, body llt fuel s = some (some false, a) ∧ body llt fuel s' = some (some false, b) ∧ ∃ n, UAlike c D n a b) ∨
    (∃ a b k k', UDir c D a b ∧ KRel c k k' ∧ k = a.KKT ∧ k' = b.KKT ∧
      ∃ (y y' : Bool) (z : SQP P) (z' : SQP (P.recost c D)), UTrial c D z z' ∧
      body llt fuel s = (if leb k s.tol then some (some true, a) else some (if y then some false else none, z)) ∧
      body llt fuel s' = (if leb k' s'.tol then some (some true, b) else some (if y' then some false else none, z')) ∧ y' = y) := by
  unfold body
  rcases retry_rel hc hL fuel true h with ⟨e1, e2⟩ | ⟨a, b, e1, e2, hd⟩ | ⟨a, b, e1, e2, hd⟩
  · rw [e1, e2]; exact .inl ⟨rfl, rfl⟩
  · have hp := retry_par e1
    have t1 := retry_tol e1
    have t2 := retry_tol e2
    rw [e1, e2]
    obtain ⟨hc', hk⟩ := checked_rel hc hd
    simp only []
    have hxp : a.checkKKT.callbacks.par = s.par := hp
    have hx1 : a.checkKKT.callbacks.tol = s.tol := t1
    have hx2 : b.checkKKT.callbacks.tol = s'.tol := t2
    generalize a.checkKKT.callbacks = x at *
    generalize b.checkKKT.callbacks = y at *
    obtain ⟨h1, h2⟩ := search_rel hc hT (push_rel hc') (by change x.par.alphas ≠ []; rw [hxp]; exact ha)
    obtain ⟨h3, h4⟩ := updateReg_rel hc h1 h2
    refine .inr (.inr ⟨x, y, x.KKT, y.KKT, hc', hk, rfl, rfl, _, _, _, _, h4, ?_, ?_, h3⟩)
    · rw [hx1]; split
      · rfl
      · split <;> rfl
    · rw [hx2]; split
      · rfl
      · split <;> rfl
  · rw [e1, e2]; exact .inr (.inl ⟨a, b, rfl, rfl, _, hd.toUAlike⟩)

theorem UTrial.next (h : UTrial c D s s') : UHead c D { s with iter := s.iter + 1 } { s' with iter := s'.iter + 1 } := by
  obtain ⟨c1, c2, c3, c4, c5, c6, c7, c8, c9, c10, c11⟩ := h.conf
  exact ⟨⟨⟨c1, c2, c3, c4, c5, c6, c7, congrArg (· + 1) c8, c9, c10, c11⟩, h.xs, h.us, h.dx0⟩, .inr h.data⟩

/-- the iterations of a solve, when the stopping tests agree. -/
theorem iterate_rel (hc : 0 < c) {llt : LLT K} (hL : llt.Unitless c) (fuel : ℕ) (hT : 0 < P.T) (n : ℕ) (ha : s.par.alphas ≠ [])
    (ht : TolOK c s.tol s'.tol) (h : UHead c D s s') :
    (iterate llt fuel n s = none ∧ iterate llt fuel n s' = none) ∨
    (∃ a b, iterate llt fuel n s = some (some true, a) ∧ iterate llt fuel n s' = some (some true, b) ∧ UDir c D a b ∧ KRel c a.KKT b.KKT) ∨
    (∃ a b, iterate llt fuel n s = some (some false, a) ∧ iterate llt fuel n s' = some (some false, b) ∧ ∃ n, UAlike c D n a b) ∨
    ∃ a b, iterate llt fuel n s = some (none, a) ∧ iterate llt fuel n s' = some (none, b) ∧ UHead c D a b ∧ TolOK c a.tol b.tol := by
  induction n generalizing s s' with
  | zero => exact .inr (.inr (.inr ⟨s, s', rfl, rfl, h, ht⟩))
  | succ n ih =>
    unfold iterate
    rcases body_rel hc hL fuel hT ha h with ⟨e1, e2⟩ | ⟨a, b, e1, e2, hd⟩ | ⟨a, b, k, k', hd, hk, ek, ek', y, y', z, z', hz, e1, e2, ey⟩
    · rw [e1, e2]; exact .inl ⟨rfl, rfl⟩
    · rw [e1, e2]; exact .inr (.inr (.inl ⟨a, b, rfl, rfl, hd⟩))
    · rw [ht.leb hk, ey] at e2
      by_cases hl : leb k s.tol = true
      · rw [if_pos hl] at e1 e2
        rw [e1, e2]; exact .inr (.inl ⟨a, b, rfl, rfl, hd, ek ▸ ek' ▸ hk⟩)
      · rw [if_neg hl] at e1 e2
        cases y with
        | true => rw [e1, e2]; exact .inr (.inr (.inl ⟨z, z', rfl, rfl, _, hz.toUAlike⟩))
        | false =>
          rw [if_neg (by simp)] at e1 e2
          have hp := body_par e1
          have q1 := body_tol e1
          have q2 := body_tol e2
          rw [e1, e2]
          exact ih (s := { z with iter := z.iter + 1 }) (s' := { z' with iter := z'.iter + 1 }) (by change z.par.alphas ≠ []; rw [hp]; exact ha)
            (by change TolOK c z.tol z'.tol; rw [q1, q2]; exact ht) hz.next

/-- the iterations of a solve that neither of the two solvers stops. -/
theorem iterate_rel_run (hc : 0 < c) {llt : LLT K} (hL : llt.Unitless c) {fuel : ℕ} (hT : 0 < P.T) {n : ℕ} (ha : s.par.alphas ≠ [])
    (h : UHead c D s s') {a : SQP P} {b : SQP (P.recost c D)} (h1 : iterate llt fuel n s = some (none, a))
    (h2 : iterate llt fuel n s' = some (none, b)) : UHead c D a b := by
  induction n generalizing s s' with
  | zero =>
    simp only [iterate, Option.some.injEq, Prod.mk.injEq, true_and] at h1 h2
    subst h1 h2; exact h
  | succ n ih =>
    unfold iterate at h1 h2
    rcases body_rel hc hL fuel hT ha h with ⟨e1, e2⟩ | ⟨p, q, e1, e2, hd⟩ | ⟨p, q, k, k', hd, hk, ek, ek', y, y', z, z', hz, e1, e2, ey⟩
    · rw [e1] at h1; cases h1
    · rw [e1] at h1; cases h1
    · subst ey
      by_cases hl : leb k s.tol = true
      · rw [if_pos hl] at e1; rw [e1] at h1; cases h1
      by_cases hl' : leb k' s'.tol = true
      · rw [if_pos hl'] at e2; rw [e2] at h2; cases h2
      rw [if_neg hl] at e1
      rw [if_neg hl'] at e2
      cases y' with
      | true => rw [e1] at h1; cases h1
      | false =>
        rw [if_neg (by simp)] at e1 e2
        have hp := body_par e1
        rw [e1] at h1
        rw [e2] at h2
        exact ih (by change z.par.alphas ≠ []; rw [hp]; exact ha) hz.next h1 h2

theorem extraIter_rel (hc : 0 < c) {llt : LLT K} (hL : llt.Unitless c) (fuel : ℕ) (ht : TolOK c s.tol s'.tol) (h : UHead c D s s') :
    (extraIter llt fuel s = none ∧ extraIter llt fuel s' = none) ∨
    ∃ r a b, extraIter llt fuel s = some (r, a) ∧ extraIter llt fuel s' = some (r, b) ∧ (∃ n, UAlike c D n a b) ∧
      (r = true → UDir c D a b ∧ KRel c a.KKT b.KKT) := by
  unfold extraIter
  rw [h.conf.extra]
  split
  · rcases retry_rel hc hL fuel true h with ⟨e1, e2⟩ | ⟨a, b, e1, e2, hd⟩ | ⟨a, b, e1, e2, hd⟩
    · rw [e1, e2]; exact .inl ⟨rfl, rfl⟩
    · have t1 := retry_tol e1
      have t2 := retry_tol e2
      rw [e1, e2]
      obtain ⟨hc', hk⟩ := checked_rel hc hd
      have hx1 : a.checkKKT.callbacks.tol = s.tol := t1
      have hx2 : b.checkKKT.callbacks.tol = s'.tol := t2
      exact .inr ⟨_, _, _, rfl, by simp only [hx1, hx2, ht.leb hk], ⟨_, hc'.toUAlike⟩, fun _ => ⟨hc', hk⟩⟩
    · rw [e1, e2]; exact .inr ⟨false, a, b, rfl, rfl, ⟨_, hd.toUAlike⟩, nofun⟩
  · exact .inr ⟨false, s, s', rfl, rfl, ⟨_, h.toUAlike⟩, nofun⟩

end
end Units
end Mim
