import Verif.Props.CSQPLine
import Verif.Props.SQPFilter
import Verif.Props.CSQPWarm
import Verif.Props.CSQPNoCon

/-!
# The filter line search of SolverCSQP (C11, C12, C13, C14)
-/
set_option linter.unusedSectionVars false
set_option linter.unusedSimpArgs false

namespace Mim
open Spec QP Matrix

namespace Spec
variable {F : Type} [FloatOps F]
/-- Some triple in `mem` has cost `<= c`, gap norm `<= g` and constraint violation `<= v`. -/
def Dominated3 (mem : List (F × F × F)) (c g v : F) : Prop :=
  ∃ e ∈ mem, leb e.1 c = true ∧ leb e.2.1 g = true ∧ leb e.2.2 v = true
end Spec

namespace CSQP
section
variable {F : Type} [Add F] [Sub F] [Mul F] [Div F] [Neg F] [Zero F] [One F] [FloatOps F] [SqrtOps F] {P : Problem F}

/-- The filter buffers have the configured size.  True after construction and preserved by everything except decreasing the
filter size (`FilterWF.new`, `FilterWF.grow`, `FilterWF.solve`). -/
def FilterWF (s : CSQP P) : Prop :=
  s.m.costList.Full s.c.filterSize ∧ s.m.gapList.Full s.c.filterSize ∧ s.m.conList.Full s.c.filterSize

theorem FilterWF.new (d : Data P) (r i : (t : ℕ) → Vec F (P.ng t)) (l : F) : FilterWF (CSQP.new d r i l) := by
  unfold FilterWF CSQP.new CBuf.Full CBuf.empty CBuf.resize
  simp

theorem FilterWF.grow {s : CSQP P} (h : FilterWF s) (n : ℕ) (hn : s.c.filterSize ≤ n) : FilterWF (s.setFilterSize n) :=
  ⟨CBuf.resize_full h.1 hn, CBuf.resize_full h.2.1 hn, CBuf.resize_full h.2.2 hn⟩

/-- the filter holds the last entries of `old ++` the history of this solve. -/
structure FilterInv (f : ℕ) (oc og on : List F) (s : CSQP P) : Prop where
  size : s.c.filterSize = f
  cost : s.m.costList.Holds f oc (s.hist.map fun e => e.1)
  gap : s.m.gapList.Holds f og (s.hist.map fun e => e.2.1)
  con : s.m.conList.Holds f on (s.hist.map fun e => e.2.2)

variable {f : ℕ} {oc og on oc' og' on' : List F}

theorem FilterInv.wf {s : CSQP P} (h : FilterInv f oc og on s) : FilterWF s := by
  unfold FilterWF
  rw [h.size]; exact ⟨h.cost.1, h.gap.1, h.con.1⟩

theorem FilterInv.push {s : CSQP P} (h : FilterInv f oc og on s) : FilterInv f oc og on s.pushFilter := by
  refine ⟨h.size, ?_, ?_, ?_⟩
  · change (s.m.costList.push s.e.cost).Holds f oc ((s.hist ++ [(s.e.cost, s.e.gap, s.e.con)]).map fun e => e.1)
    rw [List.map_append]; exact h.cost.push s.e.cost
  · change (s.m.gapList.push s.e.gap).Holds f og ((s.hist ++ [(s.e.cost, s.e.gap, s.e.con)]).map fun e => e.2.1)
    rw [List.map_append]; exact h.gap.push s.e.gap
  · change (s.m.conList.push s.e.con).Holds f on ((s.hist ++ [(s.e.cost, s.e.gap, s.e.con)]).map fun e => e.2.2)
    rw [List.map_append]; exact h.con.push s.e.con

/-- the part of the state the filter lives in. -/
abbrev fpart (s : CSQP P) := (s.c, s.m.costList, s.m.gapList, s.m.conList, s.hist)

theorem FilterInv.congr {s1 s2 : CSQP P} (h : FilterInv f oc og on s1) (he : fpart s2 = fpart s1) :
    FilterInv f oc og on s2 := by
  simp only [fpart, Prod.mk.injEq] at he
  obtain ⟨e1, e2, e3, e4, e5⟩ := he
  exact ⟨by rw [e1]; exact h.size, by rw [e2, e5]; exact h.cost, by rw [e3, e5]; exact h.gap, by rw [e4, e5]; exact h.con⟩

/-- the memory test in terms of the history. -/
theorem FilterInv.worse_iff {s : CSQP P} (h : FilterInv f oc og on s) (hl : s.hist.length = s.iter + 1) (c g v : F) :
    s.WorseThanMemory c g v ↔ Dominated3 (lastN (min f (s.iter + 1)) s.hist) c g v := by
  unfold WorseThanMemory Dominated3
  rw [h.size]
  constructor
  · rintro ⟨j, h1, h2, h3, h4, h5⟩
    have hc := h.cost.get j h1 (by simp; omega)
    have hg := h.gap.get j h1 (by simp; omega)
    have hn := h.con.get j h1 (by simp; omega)
    simp only [List.length_map, List.getElem?_map, Option.map_eq_some_iff] at hc hg hn
    obtain ⟨e, he, hec⟩ := hc
    obtain ⟨e', he', heg⟩ := hg
    obtain ⟨e'', he'', hen⟩ := hn
    rw [he] at he' he''
    obtain rfl := Option.some.inj he'
    obtain rfl := Option.some.inj he''
    exact ⟨e, (mem_lastN_iff (by omega) e).mpr ⟨j, by omega, he⟩, by rw [hec]; exact h3, by rw [heg]; exact h4,
      by rw [hen]; exact h5⟩
  · rintro ⟨e, he, h3, h4, h5⟩
    obtain ⟨j, hj, he⟩ := (mem_lastN_iff (by omega) e).mp he
    have hc := h.cost.get j (by omega) (by simp; omega)
    have hg := h.gap.get j (by omega) (by simp; omega)
    have hn := h.con.get j (by omega) (by simp; omega)
    simp only [List.length_map, List.getElem?_map, he, Option.map_some, Option.some.injEq] at hc hg hn
    exact ⟨j, by omega, by omega, by rw [← hc]; exact h3, by rw [← hg]; exact h4, by rw [← hn]; exact h5⟩

variable {W : World F} {fuel : ℕ} {xs : Option (Traj P)} {us : Option (Ctrls P)} {m : ℕ} {ri : F} {s0 : CSQP P}

theorem entry_fpart (s : CSQP P) : fpart (entry s) = fpart s ∧ (entry s).iter = s.iter := by
  unfold entry prepare; simp only []; split <;> exact ⟨rfl, rfl⟩

theorem direction_fpart {chk : Bool} {s s' : CSQP P} {o : Option Out} (h : direction W fuel chk s = some (o, s')) :
    fpart s' = fpart s ∧ s'.iter = s.iter := by
  obtain ⟨q, p, d, rfl⟩ := direction_set h
  exact ⟨rfl, rfl⟩

theorem search_fpart (as : List F) (s : CSQP P) :
    fpart (lineSearch as s).2 = fpart s ∧ (lineSearch as s).2.iter = s.iter := by
  obtain ⟨_, _, _, _, _, _, _, _, _, h⟩ := lineSearch_set as s
  rw [h]; exact ⟨rfl, rfl⟩

theorem updateReg_fpart (s : CSQP P) : fpart s.updateReg.2 = fpart s ∧ s.updateReg.2.iter = s.iter := by
  obtain ⟨p, d, h⟩ := updateReg_set s
  rw [h]; exact ⟨rfl, rfl⟩

/-- the memory during one iteration. -/
theorem body_filter {s s' : CSQP P} {r : Step} (hI : FilterInv f oc og on s) (h : body W fuel s = some (r, s')) :
    FilterInv f oc og on s' ∧ (r = .next → s'.iter = s.iter ∧
      s'.hist = s.hist ++ [(trajCost P s.xs s.us, shootGapNorm P s.xs s.us, conViol P s.xs s.us)]) := by
  have hd : ∀ o s1, direction W fuel true (entry s) = some (o, s1) → FilterInv f oc og on s1 ∧ s1.iter = s.iter ∧ s1.hist = s.hist := by
    intro o s1 h1
    have e := (direction_fpart h1).1.trans (entry_fpart s).1
    refine ⟨hI.congr e, (direction_fpart h1).2.trans (entry_fpart s).2, ?_⟩
    simp only [fpart, Prod.mk.injEq] at e
    exact e.2.2.2.2
  cases body_cases h with
  | timeUp hu hs hr => subst hs; exact ⟨hI.congr rfl, fun h => by rw [h] at hr; cases hr⟩
  | ended hu o h1 hr => exact ⟨(hd _ _ h1).1, fun h => by rw [h] at hr; cases hr⟩
  | noQP hu h1 hq hr => exact ⟨(hd _ _ h1).1, fun h => by rw [h] at hr; cases hr⟩
  | converged hu s1 h1 hq hk hs hr =>
    subst hs; exact ⟨FilterInv.congr (s2 := checked s1) (hd _ _ h1).1 rfl, fun h => by rw [h] at hr; cases hr⟩
  | searched hu s1 h1 hq hk ha =>
    obtain ⟨h2, h3, h4⟩ := hd _ _ h1
    have h5 : FilterInv f oc og on (checked s1).pushFilter.setMerit :=
      FilterInv.congr (FilterInv.push (s := checked s1) (h2.congr rfl)) rfl
    have hsf := search_fpart (checked s1).c.par.alphas (checked s1).pushFilter.setMerit
    have he : Evald s1 := direction_evald h1 (entry_evald s)
    obtain ⟨q, p, d, e⟩ := direction_set h1
    have hxu : s1.xs = s.xs ∧ s1.us = s.us := by rw [e]; exact ⟨(entry_conf s).2.2.1, (entry_conf s).2.2.2⟩
    cases ha with
    | rejected s2 h6 hs hr =>
      rw [h6] at hsf
      subst hs; exact ⟨(h5.congr hsf.1).congr rfl, fun h => by rw [h] at hr; cases hr⟩
    | accepted s2 h6 hs hr =>
      rw [h6] at hsf
      have hu := updateReg_fpart s2
      subst hs
      refine ⟨(h5.congr hsf.1).congr hu.1, fun _ => ⟨hu.2.trans (hsf.2.trans h3), ?_⟩⟩
      have e1 := hu.1.trans hsf.1
      simp only [fpart, Prod.mk.injEq] at e1
      rw [e1.2.2.2.2]
      change s1.hist ++ [(s1.e.cost, s1.e.gap, s1.e.con)] = _
      rw [h4, he.cost, he.gap, he.con, hxu.1, hxu.2]

theorem start_fpart (W : World F) (xs : Option (Traj P)) (us : Option (Ctrls P)) (m : ℕ) (ri : F) (s : CSQP P) :
    fpart (s.start W xs us m ri) = (s.c, s.m.costList, s.m.gapList, s.m.conList, []) ∧ (s.start W xs us m ri).iter = 0 := by
  unfold start
  by_cases h : m = 0
  · subst h; exact ⟨rfl, rfl⟩
  · simp only [if_neg h]; exact ⟨trivial, trivial⟩

theorem start_filter (hwf : FilterWF s0) :
    FilterInv s0.c.filterSize s0.m.costList.items s0.m.gapList.items s0.m.conList.items (s0.start W xs us m ri) := by
  have e := (start_fpart W xs us m ri s0).1
  simp only [fpart, Prod.mk.injEq] at e
  obtain ⟨e1, e2, e3, e4, e5⟩ := e
  refine ⟨by rw [e1], ?_, ?_, ?_⟩
  · rw [e2, e5]; exact hwf.1.holds
  · rw [e3, e5]; exact hwf.2.1.holds
  · rw [e4, e5]; exact hwf.2.2.holds

/-- at the head of every iteration the filter holds the history of this solve. -/
theorem AtHead.filter (hwf : FilterWF s0) {s : CSQP P} (h : AtHead W fuel xs us m ri s0 s) :
    FilterInv s0.c.filterSize s0.m.costList.items s0.m.gapList.items s0.m.conList.items s ∧ s.hist.length = s.iter := by
  induction h with
  | start =>
    refine ⟨start_filter hwf, ?_⟩
    have e := start_fpart W xs us m ri s0
    simp only [fpart, Prod.mk.injEq] at e
    rw [e.1.2.2.2.2, e.2]; rfl
  | @next s s' h hi hb ih =>
    obtain ⟨h1, h2⟩ := body_filter ih.1 hb
    obtain ⟨h3, h4⟩ := h2 rfl
    refine ⟨h1.congr rfl, ?_⟩
    change s'.hist.length = s'.iter + 1
    rw [h4, h3, List.length_append, ih.2]; rfl

/-- `solve` keeps the buffers well-formed, so the next solve starts well-formed again. -/
theorem FilterWF.solve {s' : CSQP P} {o : Out} (hwf : FilterWF s0) (h : solve W fuel xs us m ri s0 = some (o, s')) :
    FilterWF s' := by
  refine solve_inv1 (fun s => FilterWF s) (fun s _ _ h => h) (fun s _ h => h) (fun s h => ?_) (fun s h => h)
    (fun s s' chk o h hd => ?_) (fun s h => h) (fun s h => ?_) (fun s _ _ _ h => h) ?_ h
  · unfold prepare; simp only []; split <;> exact h
  · obtain ⟨q, p, d, rfl⟩ := direction_set hd; exact h
  · have e := (search_fpart s.c.par.alphas s.pushFilter.setMerit).1
    have h' : FilterWF s.pushFilter.setMerit := ⟨h.1.push _, h.2.1.push _, h.2.2.push _⟩
    simp only [fpart, Prod.mk.injEq] at e
    unfold FilterWF
    rw [e.1, e.2.1, e.2.2.1, e.2.2.2.1]
    exact h'
  · exact (start_filter (W := W) (xs := xs) (us := us) (m := m) (ri := ri) hwf).wf

/-- **C11 (CSQP).**  With the filter line search and buffers of the configured size, in every iteration of every solve (`s` at
its head, direction computed in `s1`, memory pushed: `s3`) a step length is acceptable iff it lies in `[0,1]`, its trial
does not blow up and none of the last `min(filter_size, iter + 1)` (cost, gap norm, constraint violation) triples of *this*
solve is componentwise `<=` those of the trial.  The history has one triple per iteration, the last one being that of the
current iterate, and the next iteration continues with it. -/
theorem C11_csqp_filter (hwf : FilterWF s0) (huf : s0.c.useFilter = true) {s s1 : CSQP P}
    (h : AtHead W fuel xs us m ri s0 s) (hd : direction W fuel true (entry s) = some (none, s1)) :
    let s3 := (checked s1).pushFilter.setMerit
    s3.hist.length = s.iter + 1 ∧
    s3.hist = s.hist ++ [(trajCost P s.xs s.us, shootGapNorm P s.xs s.us, conViol P s.xs s.us)] ∧
    (∀ s' : CSQP P, body W fuel s = some (.next, s') → s'.hist = s3.hist) ∧
    ∀ a, Acceptable s3 a ↔
      (ltb 1 a = false ∧ ltb a 0 = false ∧
        ¬ CostBlowsUp P (stepX P s.xs s1.q.v.dx a) (stepU P s.us s1.q.v.du a) ∧
        ¬ Dominated3 (lastN (min s0.c.filterSize (s.iter + 1)) s3.hist)
          (trajCost P (stepX P s.xs s1.q.v.dx a) (stepU P s.us s1.q.v.du a))
          (shootGapNorm P (stepX P s.xs s1.q.v.dx a) (stepU P s.us s1.q.v.du a))
          (conViol P (stepX P s.xs s1.q.v.dx a) (stepU P s.us s1.q.v.du a))) := by
  simp only []
  obtain ⟨i1, i2⟩ := h.filter hwf
  obtain ⟨e1, e2⟩ := direction_fpart hd
  have e1 := e1.trans (entry_fpart s).1
  have e2 := e2.trans (entry_fpart s).2
  have hI : FilterInv s0.c.filterSize s0.m.costList.items s0.m.gapList.items s0.m.conList.items
      (checked s1).pushFilter.setMerit :=
    FilterInv.congr (FilterInv.push (s := checked s1) (i1.congr e1)) rfl
  have he : Evald s1 := direction_evald hd (entry_evald s)
  obtain ⟨q, p, d, e⟩ := direction_set hd
  have hxu : s1.xs = s.xs ∧ s1.us = s.us := by rw [e]; exact ⟨(entry_conf s).2.2.1, (entry_conf s).2.2.2⟩
  have hc : s1.c = s0.c := by
    have := h.conf
    simp only [fpart, Prod.mk.injEq] at e1
    exact e1.1.trans this
  have hhist : (checked s1).pushFilter.setMerit.hist =
      s.hist ++ [(trajCost P s.xs s.us, shootGapNorm P s.xs s.us, conViol P s.xs s.us)] := by
    change s1.hist ++ [(s1.e.cost, s1.e.gap, s1.e.con)] = _
    simp only [fpart, Prod.mk.injEq] at e1
    rw [e1.2.2.2.2, he.cost, he.gap, he.con, hxu.1, hxu.2]
  have hlen : (checked s1).pushFilter.setMerit.hist.length = s.iter + 1 := by rw [hhist, List.length_append, i2]; rfl
  have hiter : (checked s1).pushFilter.setMerit.iter = s.iter := e2
  have hu : (checked s1).pushFilter.setMerit.c.useFilter = true := by
    change s1.c.useFilter = true
    rw [hc]; exact huf
  refine ⟨hlen, hhist, fun s' hb => ?_, fun a => ?_⟩
  · rw [hhist]; exact ((body_filter i1 hb).2 rfl).2
  · unfold Acceptable
    rw [if_pos hu, hI.worse_iff (by rw [hlen, hiter]), hiter]
    change _ ∧ _ ∧ ¬ CostBlowsUp P (stepX P s1.xs s1.q.v.dx a) (stepU P s1.us s1.q.v.du a) ∧ ¬ Dominated3 _
      (trajCost P (stepX P s1.xs s1.q.v.dx a) (stepU P s1.us s1.q.v.du a))
      (shootGapNorm P (stepX P s1.xs s1.q.v.dx a) (stepU P s1.us s1.q.v.du a))
      (conViol P (stepX P s1.xs s1.q.v.dx a) (stepU P s1.us s1.q.v.du a)) ↔ _
    rw [hxu.1, hxu.2]

/-! ## C12: solves do not interfere through the filter memory -/

/-- the solver with other buffer contents. -/
abbrev withBufs (g c n : CBuf F) (s : CSQP P) : CSQP P := { s with m := { s.m with gapList := g, costList := c, conList := n } }

theorem dir_bufs (g c n : CBuf F) (s : CSQP P) : dir W (withBufs g c n s) = (dir W s).map (withBufs g c n) := by
  unfold dir
  change Res.map _ (s.q.computeDirection W.llt (s.env W)) = _
  cases s.q.computeDirection W.llt (s.env W) <;> rfl

theorem retry_bufs (g c n : CBuf F) (chk : Bool) (k : ℕ) (s : CSQP P) :
    retry W chk k (withBufs g c n s) = (retry W chk k s).map fun x => (x.1, withBufs g c n x.2) := by
  induction k generalizing s with
  | zero => rfl
  | succ k ih =>
    unfold retry
    by_cases hr : (chk && s.q.reached) = true
    · have hr' : (chk && (withBufs g c n s).q.reached) = true := hr
      rw [if_pos hr', if_pos hr]; rfl
    · have hr' : ¬ (chk && (withBufs g c n s).q.reached) = true := hr
      rw [if_neg hr', if_neg hr, dir_bufs]
      cases dir W s with
      | ok s1 => rfl
      | exn s1 =>
        simp only [Res.map_exn]
        have h1 : (withBufs g c n s1).increaseReg = withBufs g c n s1.increaseReg := rfl
        rw [h1, ih]
        by_cases hl : leb s1.increaseReg.c.par.regMax s1.increaseReg.preg = true
        · rw [if_pos hl, if_pos hl]; rfl
        · rw [if_neg hl, if_neg hl]

theorem direction_bufs (g c n : CBuf F) (chk : Bool) (s : CSQP P) :
    direction W fuel chk (withBufs g c n s) = (direction W fuel chk s).map fun x => (x.1, withBufs g c n x.2) := by
  unfold direction
  by_cases hr : s.c.removeReg = true
  · rw [if_pos hr, if_pos hr, dir_bufs]
    cases dir W s <;> rfl
  · rw [if_neg hr, if_neg hr, retry_bufs]
    cases retry W chk fuel s with
    | none => rfl
    | some x => obtain ⟨b, s1⟩ := x; cases b <;> rfl

theorem tryStep_bufs (g c n : CBuf F) (a : F) (s : CSQP P) :
    tryStep a (withBufs g c n s) = (tryStep a s).map (withBufs g c n) := by
  have hst : ∀ t (s : CSQP P), tryStage t (withBufs g c n s) = (tryStage t s).map (withBufs g c n) := by
    intro t s
    unfold tryStage
    simp only []
    unfold Res.throwIf
    split <;> rfl
  have hter : ∀ s : CSQP P, tryTerminal (withBufs g c n s) = (tryTerminal s).map (withBufs g c n) := by
    intro s
    unfold tryTerminal
    simp only []
    unfold Res.throwIf
    split <;> rfl
  have hloop : ∀ k (s : CSQP P), forUpR k tryStage (withBufs g c n s) = (forUpR k tryStage s).map (withBufs g c n) := by
    intro k s
    induction k with
    | zero => rfl
    | succ k ih =>
      rw [forUpR_succ, ih, forUpR_succ]
      cases forUpR k tryStage s with
      | ok s1 => exact hst k s1
      | exn s1 => rfl
  unfold tryStep
  simp only []
  split
  · rfl
  · have h := hloop P.T (({ s with nTry := s.nTry + 1, w := { s.w with cost := 0, merit := 0, gap := 0, con := 0 } } : CSQP P).tryMove a)
    have e : ((({ withBufs g c n s with nTry := s.nTry + 1 } : CSQP P) : CSQP P)) = withBufs g c n { s with nTry := s.nTry + 1 } := rfl
    change (forUpR P.T tryStage (withBufs g c n (({ s with nTry := s.nTry + 1, w := { s.w with cost := 0, merit := 0, gap := 0, con := 0 } } : CSQP P).tryMove a))).bind _ = _
    rw [h]
    cases forUpR P.T tryStage (({ s with nTry := s.nTry + 1, w := { s.w with cost := 0, merit := 0, gap := 0, con := 0 } } : CSQP P).tryMove a) with
    | ok s1 => exact hter s1
    | exn s1 => rfl

/-- the slots the filter looks at are equal. -/
def SameSlots (f it : ℕ) (g c n g' c' n' : CBuf F) : Prop :=
  ∀ j, j < f → j ≤ it → c.get (f - 1 - j) = c'.get (f - 1 - j) ∧ g.get (f - 1 - j) = g'.get (f - 1 - j) ∧
    n.get (f - 1 - j) = n'.get (f - 1 - j)

theorem lineSearch_bufs (as : List F) (s : CSQP P) (g c n : CBuf F)
    (h : SameSlots s.c.filterSize s.iter s.m.gapList s.m.costList s.m.conList g c n) :
    lineSearch as (withBufs g c n s) = ((lineSearch as s).1, withBufs g c n (lineSearch as s).2) := by
  induction as generalizing s with
  | nil => rfl
  | cons a as ih =>
    obtain ⟨d, w, hf⟩ := tryStep_set a s
    unfold lineSearch
    rw [tryStep_bufs]
    cases h1 : tryStep a s with
    | exn s1 =>
      rw [h1] at hf
      change s1 = _ at hf
      simp only [Res.map_exn]
      exact ih s1 (by rw [hf]; exact h)
    | ok s1 =>
      rw [h1] at hf
      change s1 = _ at hf
      simp only [Res.map_ok]
      have h' : SameSlots s1.c.filterSize s1.iter s1.m.gapList s1.m.costList s1.m.conList g c n := by rw [hf]; exact h
      have hw : (withBufs g c n s1).worse = s1.worse := by
        rw [Bool.eq_iff_iff, worse_iff, CSQP.worse_iff]
        unfold WorseThanMemory
        constructor
        · rintro ⟨j, j1, j2, j3, j4, j5⟩
          exact ⟨j, j1, j2, by rw [(h' j j1 j2).1]; exact j3, by rw [(h' j j1 j2).2.1]; exact j4,
            by rw [(h' j j1 j2).2.2]; exact j5⟩
        · rintro ⟨j, j1, j2, j3, j4, j5⟩
          exact ⟨j, j1, j2, by rw [← (h' j j1 j2).1]; exact j3, by rw [← (h' j j1 j2).2.1]; exact j4,
            by rw [← (h' j j1 j2).2.2]; exact j5⟩
      by_cases hu : s1.c.useFilter = true
      · have hu' : (withBufs g c n s1).c.useFilter = true := hu
        rw [if_pos hu', if_pos hu]
        by_cases hs : s1.worse = true
        · rw [if_pos (hw.trans hs), if_pos hs]
          have := ih { s1 with m := { s1.m with isWorse := s1.worse } } h'
          rw [← this, hw]
        · rw [if_neg (by rw [hw]; exact hs), if_neg hs, hw]; rfl
      · have hu' : ¬ (withBufs g c n s1).c.useFilter = true := hu
        rw [if_neg hu', if_neg hu]
        by_cases hs : ltb s1.w.merit s1.m.merit = true
        · have hs' : ltb (withBufs g c n s1).w.merit (withBufs g c n s1).m.merit = true := hs
          rw [if_pos hs', if_pos hs]; rfl
        · have hs' : ¬ ltb (withBufs g c n s1).w.merit (withBufs g c n s1).m.merit = true := hs
          rw [if_neg hs', if_neg hs]
          exact ih s1 h'

theorem updateReg_bufs (s : CSQP P) (g c n : CBuf F) :
    updateReg (withBufs g c n s) = ((updateReg s).1, withBufs g c n (updateReg s).2) := by
  unfold updateReg
  by_cases h0 : s.c.removeReg = true
  · rw [if_pos h0, if_pos h0]
  · rw [if_neg h0, if_neg h0]
    by_cases h1 : ltb s.c.par.thStepDec s.steplength = true
    · rw [if_pos h1, if_pos h1]; rfl
    · rw [if_neg h1, if_neg h1]; rfl

/-- the simulation relation between a solver and one with another filter memory. -/
structure BufSim (f : ℕ) (oc og on oc' og' on' : List F) (s t : CSQP P) : Prop where
  eq : t = withBufs t.m.gapList t.m.costList t.m.conList s
  left : FilterInv f oc og on s
  right : FilterInv f oc' og' on' t
  len : s.hist.length = s.iter

theorem slots_of_inv {s t : CSQP P} (h1 : FilterInv f oc og on s) (h2 : FilterInv f oc' og' on' t)
    (hh : t.hist = s.hist) (hi : s.iter < s.hist.length) :
    SameSlots s.c.filterSize s.iter s.m.gapList s.m.costList s.m.conList t.m.gapList t.m.costList t.m.conList := by
  intro j hj1 hj2
  rw [h1.size] at hj1 ⊢
  have a1 := h1.cost.get j hj1 (by simp; omega)
  have a2 := h2.cost.get j hj1 (by rw [hh]; simp; omega)
  have b1 := h1.gap.get j hj1 (by simp; omega)
  have b2 := h2.gap.get j hj1 (by rw [hh]; simp; omega)
  have c1 := h1.con.get j hj1 (by simp; omega)
  have c2 := h2.con.get j hj1 (by rw [hh]; simp; omega)
  rw [hh] at a2 b2 c2
  exact ⟨Option.some.inj (a1.symm.trans a2), Option.some.inj (b1.symm.trans b2), Option.some.inj (c1.symm.trans c2)⟩

theorem advance_bufs (s : CSQP P) (g c n : CBuf F)
    (h : SameSlots s.c.filterSize s.iter s.pushFilter.m.gapList s.pushFilter.m.costList s.pushFilter.m.conList
      (g.push s.e.gap) (c.push s.e.cost) (n.push s.e.con)) :
    advance (withBufs g c n s) = ((advance s).1, withBufs (g.push s.e.gap) (c.push s.e.cost) (n.push s.e.con) (advance s).2) := by
  have hl := lineSearch_bufs s.c.par.alphas s.pushFilter.setMerit (g.push s.e.gap) (c.push s.e.cost) (n.push s.e.con) h
  unfold advance
  have e : (withBufs g c n s).pushFilter.setMerit =
      withBufs (g.push s.e.gap) (c.push s.e.cost) (n.push s.e.con) s.pushFilter.setMerit := rfl
  rw [e, hl]
  generalize lineSearch s.c.par.alphas s.pushFilter.setMerit = x
  obtain ⟨b, s2⟩ := x
  cases b with
  | false => rfl
  | true =>
    simp only []
    rw [updateReg_bufs]

theorem entry_bufs (s : CSQP P) (g c n : CBuf F) : entry (withBufs g c n s) = withBufs g c n (entry s) := by
  unfold entry prepare
  change (if s.iter = 0 ∧ s.c.resetRho = false then _ else _) =
    withBufs g c n (if s.iter = 0 ∧ s.c.resetRho = false then _ else _)
  by_cases h : s.iter = 0 ∧ s.c.resetRho = false
  · rw [if_pos h, if_pos h]; rfl
  · rw [if_neg h, if_neg h]; rfl

theorem body_sim {s t : CSQP P} (h : BufSim f oc og on oc' og' on' s t) :
    (body W fuel s = none ∧ body W fuel t = none) ∨
    ∃ r s1 t1, body W fuel s = some (r, s1) ∧ body W fuel t = some (r, t1) ∧
      t1 = withBufs t1.m.gapList t1.m.costList t1.m.conList s1 ∧
      (r = .next → BufSim f oc og on oc' og' on' { s1 with iter := s1.iter + 1 } { t1 with iter := t1.iter + 1 }) := by
  obtain ⟨heq, hl, hr, hlen⟩ := h
  have hfin : ∀ r s1 t1, body W fuel s = some (r, s1) → body W fuel t = some (r, t1) →
      t1 = withBufs t1.m.gapList t1.m.costList t1.m.conList s1 →
      (r = .next → BufSim f oc og on oc' og' on' { s1 with iter := s1.iter + 1 } { t1 with iter := t1.iter + 1 }) := by
    intro r s1 t1 h1 h2 h3 hn
    obtain ⟨a1, a2⟩ := body_filter hl h1
    obtain ⟨b1, b2⟩ := body_filter hr h2
    refine ⟨by rw [h3], a1.congr rfl, b1.congr rfl, ?_⟩
    obtain ⟨a3, a4⟩ := a2 hn
    change s1.hist.length = s1.iter + 1
    rw [a4, a3, List.length_append, hlen]; rfl
  suffices hs : (body W fuel s = none ∧ body W fuel t = none) ∨
      ∃ r s1 t1, body W fuel s = some (r, s1) ∧ body W fuel t = some (r, t1) ∧
        t1 = withBufs t1.m.gapList t1.m.costList t1.m.conList s1 by
    rcases hs with hs | ⟨r, s1, t1, h1, h2, h3⟩
    · exact .inl hs
    · exact .inr ⟨r, s1, t1, h1, h2, h3, hfin r s1 t1 h1 h2 h3⟩
  have het : entry t = withBufs t.m.gapList t.m.costList t.m.conList (entry s) := by
    conv_lhs => rw [heq]
    exact entry_bufs _ _ _ _
  have hut : t.q.timeUp (t.env W) = s.q.timeUp (s.env W) := by rw [heq]; rfl
  unfold body
  simp only []
  rw [hut]
  by_cases hu : s.q.timeUp (s.env W) = true
  · rw [if_pos hu, if_pos hu]
    right
    refine ⟨_, _, _, rfl, rfl, ?_⟩
    rw [heq]
  · rw [if_neg hu, if_neg hu]
    change ((match direction W fuel true (entry s) with | none => none | some (some o, s) => some (Step.fin o, s) | some (none, s) => some s.finish) = none ∧
      (match direction W fuel true (entry t) with | none => none | some (some o, s) => some (Step.fin o, s) | some (none, s) => some s.finish) = none) ∨
      ∃ r s1 t1, (match direction W fuel true (entry s) with | none => none | some (some o, s) => some (Step.fin o, s) | some (none, s) => some s.finish) = some (r, s1) ∧
      (match direction W fuel true (entry t) with | none => none | some (some o, s) => some (Step.fin o, s) | some (none, s) => some s.finish) = some (r, t1) ∧ _
    rw [het, direction_bufs t.m.gapList t.m.costList t.m.conList true (entry s)]
    cases hd : direction W fuel true (entry s) with
    | none => exact .inl ⟨rfl, rfl⟩
    | some x =>
      obtain ⟨o, s1⟩ := x
      right
      cases o with
      | some o => exact ⟨_, _, _, rfl, rfl, rfl⟩
      | none =>
        simp only [Option.map_some]
        unfold finish
        by_cases hq : s1.q.qpIters = 0
        · have hq' : (withBufs t.m.gapList t.m.costList t.m.conList s1).q.qpIters = 0 := hq
          rw [if_pos hq, if_pos hq']
          exact ⟨_, _, _, rfl, rfl, rfl⟩
        · have hq' : ¬ (withBufs t.m.gapList t.m.costList t.m.conList s1).q.qpIters = 0 := hq
          rw [if_neg hq, if_neg hq']
          simp only []
          have ek : (withBufs t.m.gapList t.m.costList t.m.conList s1).checkKKT.callbacks =
            withBufs t.m.gapList t.m.costList t.m.conList (checked s1) := rfl
          rw [ek]
          by_cases hk : leb (checked s1).m.KKT (checked s1).c.tol = true
          · have hk' : leb (withBufs t.m.gapList t.m.costList t.m.conList (checked s1)).m.KKT
              (withBufs t.m.gapList t.m.costList t.m.conList (checked s1)).c.tol = true := hk
            rw [if_pos hk, if_pos hk']
            exact ⟨_, _, _, rfl, rfl, rfl⟩
          · have hk' : ¬ leb (withBufs t.m.gapList t.m.costList t.m.conList (checked s1)).m.KKT
              (withBufs t.m.gapList t.m.costList t.m.conList (checked s1)).c.tol = true := hk
            rw [if_neg hk, if_neg hk']
            have e1 := (direction_fpart hd).1.trans (entry_fpart s).1
            have e2 := (direction_fpart hd).2.trans (entry_fpart s).2
            have hI : FilterInv f oc og on (checked s1).pushFilter :=
              FilterInv.push (s := checked s1) (hl.congr e1)
            have e1' : fpart (withBufs t.m.gapList t.m.costList t.m.conList (checked s1)) = fpart t := by
              simp only [fpart, Prod.mk.injEq] at e1 ⊢
              refine ⟨?_, trivial, trivial, trivial, ?_⟩
              · rw [heq]; exact e1.1
              · rw [heq]; exact e1.2.2.2.2
            have hI' : FilterInv f oc' og' on' (withBufs t.m.gapList t.m.costList t.m.conList (checked s1)).pushFilter :=
              FilterInv.push (hr.congr e1')
            have hslots := slots_of_inv hI hI' rfl (by
              change s1.iter < (s1.hist ++ [(s1.e.cost, s1.e.gap, s1.e.con)]).length
              simp only [fpart, Prod.mk.injEq] at e1
              rw [e1.2.2.2.2, e2, List.length_append, hlen]
              exact Nat.lt_succ_self _)
            have ha := advance_bufs (checked s1) t.m.gapList t.m.costList t.m.conList hslots
            rw [ha]
            exact ⟨_, _, _, rfl, rfl, rfl⟩

theorem iterate_sim (k : ℕ) {s t : CSQP P} (h : BufSim f oc og on oc' og' on' s t) :
    (iterate W fuel k s = none ∧ iterate W fuel k t = none) ∨
    ∃ r s1 t1, iterate W fuel k s = some (r, s1) ∧ iterate W fuel k t = some (r, t1) ∧
      t1 = withBufs t1.m.gapList t1.m.costList t1.m.conList s1 := by
  induction k generalizing s t with
  | zero => exact .inr ⟨none, s, t, rfl, rfl, h.eq⟩
  | succ k ih =>
    unfold iterate
    rcases body_sim (W := W) (fuel := fuel) h with ⟨h1, h2⟩ | ⟨r, s1, t1, h1, h2, h3, h4⟩
    · left; rw [h1, h2]; exact ⟨rfl, rfl⟩
    · rw [h1, h2]
      cases r with
      | fin o => exact .inr ⟨some o, s1, t1, rfl, rfl, h3⟩
      | brk => exact .inr ⟨none, s1, t1, rfl, rfl, h3⟩
      | next => exact ih (h4 rfl)

/-- **C12 (CSQP).**  Two solvers that differ only in the contents of their filter memory (both of the configured size) behave
identically: `solve` either loops forever on both or ends the same way (same verdict or an escaping exception) and leaves
states that again differ only in the filter memory. -/
theorem C12_csqp_filter_noninterference (g c n : CBuf F) (hwf : FilterWF s0) (hg : g.Full s0.c.filterSize)
    (hc : c.Full s0.c.filterSize) (hn : n.Full s0.c.filterSize) :
    (solve W fuel xs us m ri s0 = none ∧
      solve W fuel xs us m ri { s0 with m := { s0.m with gapList := g, costList := c, conList := n } } = none) ∨
    ∃ o s' g' c' n', solve W fuel xs us m ri s0 = some (o, s') ∧
      solve W fuel xs us m ri { s0 with m := { s0.m with gapList := g, costList := c, conList := n } } =
        some (o, { s' with m := { s'.m with gapList := g', costList := c', conList := n' } }) := by
  have hst : (withBufs g c n s0).start W xs us m ri = withBufs g c n (s0.start W xs us m ri) := by
    unfold start
    by_cases h : m = 0
    · subst h; rfl
    · simp only [if_neg h]
  have hsim : BufSim s0.c.filterSize s0.m.costList.items s0.m.gapList.items s0.m.conList.items c.items g.items n.items
      (s0.start W xs us m ri) ((withBufs g c n s0).start W xs us m ri) := by
    refine ⟨by rw [hst], start_filter hwf, start_filter (s0 := withBufs g c n s0) ⟨hc, hg, hn⟩, ?_⟩
    have e := start_fpart W xs us m ri s0
    simp only [fpart, Prod.mk.injEq] at e
    rw [e.1.2.2.2.2, e.2]; rfl
  unfold solve
  rcases iterate_sim (W := W) (fuel := fuel) m hsim with ⟨h1, h2⟩ | ⟨r, s1, t1, h1, h2, h3⟩
  · rw [h1, h2]; exact .inl ⟨rfl, rfl⟩
  · rw [h1, h2]
    cases r with
    | some b => exact .inr ⟨b, s1, t1.m.gapList, t1.m.costList, t1.m.conList, rfl, by rw [h3]⟩
    | none =>
      have hx : (t1.c.extra && !t1.q.reached) = (s1.c.extra && !s1.q.reached) := by rw [h3]
      simp only [extraIter, hx]
      by_cases hx : (s1.c.extra && !s1.q.reached) = true
      · simp only [hx, if_true]
        have hb := direction_bufs (W := W) (fuel := fuel) t1.m.gapList t1.m.costList t1.m.conList false s1.calcEval
        have hct : t1.calcEval = withBufs t1.m.gapList t1.m.costList t1.m.conList s1.calcEval := by rw [h3]; rfl
        rw [hct, hb]
        cases h4 : direction W fuel false s1.calcEval with
        | none => exact .inl ⟨rfl, rfl⟩
        | some x =>
          obtain ⟨o, s2⟩ := x
          cases o with
          | some o => exact .inr ⟨o, s2, t1.m.gapList, t1.m.costList, t1.m.conList, rfl, rfl⟩
          | none => exact .inr ⟨_, _, t1.m.gapList, t1.m.costList, t1.m.conList, rfl, rfl⟩
      · simp only [hx]
        exact .inr ⟨.ret false, s1, t1.m.gapList, t1.m.costList, t1.m.conList, rfl, by rw [h3]; rfl⟩

/-! ## C13, C14: filter of size 1; NaN -/

/-- **C13 (CSQP).**  With `filter_size = 1` a step length in `[0,1]` whose trial does not blow up is acceptable iff the trial's
cost, gap norm or constraint violation is smaller than that of the current iterate; for values that are not NaN. -/
theorem C13_csqp_filter_one [IEEE F] (hwf : FilterWF s0) (huf : s0.c.useFilter = true) (h1f : s0.c.filterSize = 1)
    {s s1 : CSQP P} (h : AtHead W fuel xs us m ri s0 s) (hd : direction W fuel true (entry s) = some (none, s1)) (a : F)
    (ha : ltb 1 a = false) (ha0 : ltb a 0 = false)
    (hb : ¬ CostBlowsUp P (stepX P s.xs s1.q.v.dx a) (stepU P s.us s1.q.v.du a))
    (n1 : isnan (trajCost P s.xs s.us) = false) (n2 : isnan (shootGapNorm P s.xs s.us) = false)
    (n3 : isnan (conViol P s.xs s.us) = false)
    (n4 : isnan (trajCost P (stepX P s.xs s1.q.v.dx a) (stepU P s.us s1.q.v.du a)) = false)
    (n5 : isnan (shootGapNorm P (stepX P s.xs s1.q.v.dx a) (stepU P s.us s1.q.v.du a)) = false)
    (n6 : isnan (conViol P (stepX P s.xs s1.q.v.dx a) (stepU P s.us s1.q.v.du a)) = false) :
    Acceptable (checked s1).pushFilter.setMerit a ↔
      ltb (trajCost P (stepX P s.xs s1.q.v.dx a) (stepU P s.us s1.q.v.du a)) (trajCost P s.xs s.us) = true ∨
      ltb (shootGapNorm P (stepX P s.xs s1.q.v.dx a) (stepU P s.us s1.q.v.du a)) (shootGapNorm P s.xs s.us) = true ∨
      ltb (conViol P (stepX P s.xs s1.q.v.dx a) (stepU P s.us s1.q.v.du a)) (conViol P s.xs s.us) = true := by
  obtain ⟨hl, hh, _, h⟩ := C11_csqp_filter hwf huf h hd
  rw [h a, h1f]
  have hmin : min 1 (s.iter + 1) = 1 := by omega
  rw [hmin, hh]
  have hlast : lastN 1 (s.hist ++ [(trajCost P s.xs s.us, shootGapNorm P s.xs s.us, conViol P s.xs s.us)]) =
      [(trajCost P s.xs s.us, shootGapNorm P s.xs s.us, conViol P s.xs s.us)] := by simp [lastN]
  rw [hlast]
  simp only [ha, ha0, hb, not_false_eq_true, true_and]
  unfold Dominated3
  simp only [List.mem_singleton, exists_eq_left]
  rw [IEEE.leb_not_ltb _ _ n1 n4, IEEE.leb_not_ltb _ _ n2 n5, IEEE.leb_not_ltb _ _ n3 n6]
  cases ltb (trajCost P (stepX P s.xs s1.q.v.dx a) (stepU P s.us s1.q.v.du a)) (trajCost P s.xs s.us) <;>
    cases ltb (shootGapNorm P (stepX P s.xs s1.q.v.dx a) (stepU P s.us s1.q.v.du a)) (shootGapNorm P s.xs s.us) <;>
    cases ltb (conViol P (stepX P s.xs s1.q.v.dx a) (stepU P s.us s1.q.v.du a)) (conViol P s.xs s.us) <;> simp

/-- **C14 (CSQP).**  Whatever the solver state: a trial with a NaN gap norm or a NaN constraint violation passes the filter (if
its cost does not blow up), a trial with a NaN merit is rejected by the merit test, and a trial whose accumulated cost is
NaN, infinite or `>= 1e30` at some node is rejected by both. -/
theorem C14_csqp_nan [IEEE F] (s : CSQP P) (a : F) :
    (s.c.useFilter = true → ltb 1 a = false → ltb a 0 = false →
      ¬ CostBlowsUp P (stepX P s.xs s.q.v.dx a) (stepU P s.us s.q.v.du a) →
      (isnan (shootGapNorm P (stepX P s.xs s.q.v.dx a) (stepU P s.us s.q.v.du a)) = true ∨
       isnan (conViol P (stepX P s.xs s.q.v.dx a) (stepU P s.us s.q.v.du a)) = true) → Acceptable s a) ∧
    (s.c.useFilter = false →
      isnan (Spec.merit P s.c s.m.lagInf (stepX P s.xs s.q.v.dx a) (stepU P s.us s.q.v.du a)) = true → ¬ Acceptable s a) ∧
    (CostBlowsUp P (stepX P s.xs s.q.v.dx a) (stepU P s.us s.q.v.du a) → ¬ Acceptable s a) := by
  refine ⟨?_, ?_, ?_⟩
  · intro h1 h2 h3 h4 h5
    refine ⟨h2, h3, h4, ?_⟩
    rw [if_pos h1]
    rintro ⟨j, _, _, _, hg, hn⟩
    rcases h5 with h5 | h5
    · rw [IEEE.leb_nan_right _ _ h5] at hg
      cases hg
    · rw [IEEE.leb_nan_right _ _ h5] at hn
      cases hn
  · rintro h1 h2 ⟨_, _, _, h⟩
    rw [if_neg (by rw [h1]; simp), IEEE.ltb_nan_left _ _ h2] at h
    cases h
  · rintro h ⟨_, _, h', _⟩
    exact h' h

end
end CSQP

/-! ## non-vacuity and the negative parts -/
namespace Ex
open CSQP

/-- `clqN` with a filter of size 3. -/
def clqN3 : CSQP (clq 1 1 1 1 (-10)) := CSQP.setFilterSize 3 clqN

example : CSQP.FilterWF clqN3 :=
  CSQP.FilterWF.grow (s := clqN) ((CSQP.FilterWF.new (P := clq 1 1 1 1 (-10)) (Data.zero _) (fun _ _ => 0) (fun _ _ => 0) 0 :)) 3 (by decide)

/-- its first iteration pushes one triple, accepts a step and goes on: the hypotheses of C11 and C12 are met. -/
example : clqN3.c.useFilter = true ∧ (direction world 20 true (entry (clqN3.start world none none 5 0))).map (fun r => r.1) = some none ∧
    (body world 20 (clqN3.start world none none 5 0)).map (fun r => (r.1, r.2.hist.length, r.2.nTry)) = some (.next, 1, 1) := by
  refine ⟨?_, ?_, ?_⟩ <;> decide +kernel

/-- filter of size 1 (the default). -/
example : clqN.c.filterSize = 1 ∧ clqN.c.useFilter = true := by decide +kernel

/-- the merit line search: an accepted step in the first iteration of `clqN`. -/
def clqM : CSQP (clq 1 1 1 1 (-10)) := { clqN with c := { clqN.c with useFilter := false } }
theorem clqM_next : (body world 20 (clqM.start world none none 5 0)).map (fun r => (r.1, r.2.nTry, r.2.acc)) = some (.next, 1, [1]) := by
  decide +kernel

/-- C15 applied to it. -/
example : ∃ s', body world 20 (clqM.start world none none 5 0) = some (.next, s') ∧
    ltb (trajCost _ s'.xs s'.us + clqM.c.muDyn * shootGapNorm _ s'.xs s'.us + clqM.c.muCon * conViol _ s'.xs s'.us)
      (trajCost _ (clqM.start world none none 5 0).xs (clqM.start world none none 5 0).us +
        clqM.c.muDyn * shootGapNorm _ (clqM.start world none none 5 0).xs (clqM.start world none none 5 0).us +
        clqM.c.muCon * conViol _ (clqM.start world none none 5 0).xs (clqM.start world none none 5 0).us) = true := by
  have h := clqM_next
  cases hb : body world 20 (clqM.start world none none 5 0) with
  | none => rw [hb] at h; cases h
  | some y =>
    obtain ⟨r, s'⟩ := y
    rw [hb] at h
    simp only [Option.map_some, Option.some.injEq, Prod.mk.injEq] at h
    obtain ⟨rfl, _⟩ := h
    exact ⟨s', rfl, C15_csqp_merit_monotone rfl (by decide +kernel) AtHead.start hb⟩

/-- the solver after `set_filter_size(2); set_filter_size(1)`: capacity 2 but one element. -/
def shrunkC : CSQP lq := CSQP.setFilterSize 1 (CSQP.setFilterSize 2 lqC)

/-- **C11, negative part (CSQP).**  After decreasing the filter size the filter reads the wrong slots: on a strictly convex
linear-quadratic problem the full step to the minimiser, which the solver otherwise takes at once, is refused, as are all
other step lengths, although the trial's gap norm is strictly smaller than the current one. -/
theorem C11_csqp_shrunk_filter_refuted :
    (CSQP.solve world 20 none none 1 0 lqC).map (fun r => (r.2.nTry, r.2.nRej, r.2.acc)) = some (1, 0, [1]) ∧
    (CSQP.solve world 20 none none 1 0 shrunkC).map (fun r => (r.2.nTry, r.2.nRej, r.2.acc)) = some (10, 1, []) ∧
    (CSQP.solve world 20 none none 1 0 shrunkC).map (fun r =>
      decide (shootGapNorm lq (stepX lq r.2.xs r.2.q.v.dx 1) (stepU lq r.2.us r.2.q.v.du 1) < r.2.e.gap)) = some true := by
  refine ⟨?_, ?_, ?_⟩ <;> decide +kernel

instance sqrtD : SqrtOps (Dbl ℚ) := ⟨fun x => x⟩
/-- as `world`, with IEEE special values. -/
def worldD : World (Dbl ℚ) := ⟨lltD, fun _ => Dbl.fin 0, none⟩
def nanC (uf : Bool) : CSQP nanGap :=
  let s := CSQP.new (Data.zero nanGap) (fun _ _ => Dbl.fin 0) (fun _ _ => Dbl.fin 0) (Dbl.fin 0)
  { s with c := { s.c with maxQP := 1, maxTime := Dbl.fin 1, removeReg := true, useFilter := uf } }

/-- C14, witness (CSQP): with the filter line search the solver takes the full step into a trajectory whose gap is NaN; with
the merit line search it refuses all ten step lengths. -/
theorem C14_csqp_filter_accepts_nan :
    (CSQP.solve worldD 20 none none 1 (Dbl.fin 0) (nanC true)).map
      (fun r => (r.2.nTry, r.2.nRej, isnan (shootGapNorm nanGap r.2.xs r.2.us))) = some (1, 0, true) ∧
    (CSQP.solve worldD 20 none none 1 (Dbl.fin 0) (nanC false)).map
      (fun r => (r.2.nTry, r.2.nRej, isnan (shootGapNorm nanGap r.2.xs r.2.us))) = some (10, 1, false) := by
  constructor <;> decide +kernel

/-- C20 applied to the first direction of `lqC`: the full step closes the gap. -/
example : ∃ s', lqCCall.dir world = .ok s' ∧ shootGapNorm lq lqCCall.xs lqCCall.us ≠ 0 ∧
    shootGapNorm lq (stepX lq s'.xs s'.q.v.dx 1) (stepU lq s'.us s'.q.v.du 1) = 0 := by
  obtain ⟨s', hd⟩ := lqC_dir
  exact ⟨s', hd, by decide +kernel, (C20_csqp_gap_contraction lq_euclid lq_affine lqC_calls hd (.inr rfl) 1).2 rfl⟩

end Ex
end Mim
