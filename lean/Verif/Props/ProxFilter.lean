import Verif.Props.CSQPFilter
import Verif.Props.ProxReturn
import Verif.Props.ProxQP
import Verif.Props.Suboptimal

/-!
# The line search of SolverPROXQP (C11, C12, C13, C14, C15, C20)
-/
set_option linter.unusedSectionVars false
set_option linter.unusedSimpArgs false

namespace Mim
open Spec Matrix

namespace PROX
section
variable {F : Type} [Add F] [Sub F] [Mul F] [Div F] [Neg F] [Zero F] [One F] [FloatOps F] {P : Problem F}

/-- The filter buffers have the configured size.  True after construction and preserved by everything except decreasing the
filter size (`FilterWF.new`, `FilterWF.grow`, `FilterWF.solve`). -/
def FilterWF (s : PROX P) : Prop :=
  s.costList.Full s.c.filterSize ∧ s.gapList.Full s.c.filterSize ∧ s.conList.Full s.c.filterSize

theorem FilterWF.new (d : Data P) : FilterWF (PROX.new d) := by
  unfold FilterWF PROX.new CBuf.Full CBuf.empty CBuf.resize
  simp

theorem FilterWF.grow {s : PROX P} (h : FilterWF s) (n : ℕ) (hn : s.c.filterSize ≤ n) : FilterWF (s.setFilterSize n) :=
  ⟨CBuf.resize_full h.1 hn, CBuf.resize_full h.2.1 hn, CBuf.resize_full h.2.2 hn⟩

/-- the filter holds the last entries of `old ++` the history of this solve. -/
structure FilterInv (f : ℕ) (oc og on : List F) (s : PROX P) : Prop where
  size : s.c.filterSize = f
  cost : s.costList.Holds f oc (s.hist.map fun e => e.1)
  gap : s.gapList.Holds f og (s.hist.map fun e => e.2.1)
  con : s.conList.Holds f on (s.hist.map fun e => e.2.2)

variable {f : ℕ} {oc og on oc' og' on' : List F}

theorem FilterInv.wf {s : PROX P} (h : FilterInv f oc og on s) : FilterWF s := by
  unfold FilterWF
  rw [h.size]; exact ⟨h.cost.1, h.gap.1, h.con.1⟩

theorem FilterInv.push {s : PROX P} (h : FilterInv f oc og on s) : FilterInv f oc og on s.pushFilter := by
  refine ⟨h.size, ?_, ?_, ?_⟩
  · change (s.costList.push s.e.cost).Holds f oc ((s.hist ++ [(s.e.cost, s.e.gap, s.e.con)]).map fun e => e.1)
    rw [List.map_append]; exact h.cost.push s.e.cost
  · change (s.gapList.push s.e.gap).Holds f og ((s.hist ++ [(s.e.cost, s.e.gap, s.e.con)]).map fun e => e.2.1)
    rw [List.map_append]; exact h.gap.push s.e.gap
  · change (s.conList.push s.e.con).Holds f on ((s.hist ++ [(s.e.cost, s.e.gap, s.e.con)]).map fun e => e.2.2)
    rw [List.map_append]; exact h.con.push s.e.con

/-- the part of the state the filter lives in. -/
abbrev fpart (s : PROX P) := (s.c, s.costList, s.gapList, s.conList, s.hist)

theorem FilterInv.congr {s1 s2 : PROX P} (h : FilterInv f oc og on s1) (he : fpart s2 = fpart s1) :
    FilterInv f oc og on s2 := by
  simp only [fpart, Prod.mk.injEq] at he
  obtain ⟨e1, e2, e3, e4, e5⟩ := he
  exact ⟨by rw [e1]; exact h.size, by rw [e2, e5]; exact h.cost, by rw [e3, e5]; exact h.gap, by rw [e4, e5]; exact h.con⟩

/-- the memory test in terms of the history. -/
theorem FilterInv.worse_iff {s : PROX P} (h : FilterInv f oc og on s) (hl : s.hist.length = s.iter + 1) (c g v : F) :
    s.WorseThanMemory c g v ↔ Dominated3 (lastN (min f (s.iter + 1)) s.hist) c g v := by
  unfold WorseThanMemory Dominated3
  rw [h.size]
  constructor
  · rintro ⟨j, h1, h2, h3, h4, h5⟩
    have hc := h.cost.get j h1 (by simp; omega)
    have hg := h.gap.get j h1 (by simp; omega)
    have hn := h.con.get j h1 (by simp; omega)
    simp only [List.length_map, List.getElem?_map, Option.map_eq_some_iff] at hc hg hn
    obtain ⟨e, he, hec⟩ := hc
    obtain ⟨e', he', heg⟩ := hg
    obtain ⟨e'', he'', hen⟩ := hn
    rw [he] at he' he''
    obtain rfl := Option.some.inj he'
    obtain rfl := Option.some.inj he''
    exact ⟨e, (mem_lastN_iff (by omega) e).mpr ⟨j, by omega, he⟩, by rw [hec]; exact h3, by rw [heg]; exact h4,
      by rw [hen]; exact h5⟩
  · rintro ⟨e, he, h3, h4, h5⟩
    obtain ⟨j, hj, he⟩ := (mem_lastN_iff (by omega) e).mp he
    have hc := h.cost.get j (by omega) (by simp; omega)
    have hg := h.gap.get j (by omega) (by simp; omega)
    have hn := h.con.get j (by omega) (by simp; omega)
    simp only [List.length_map, List.getElem?_map, he, Option.map_some, Option.some.injEq] at hc hg hn
    exact ⟨j, by omega, by omega, by rw [← hc]; exact h3, by rw [← hg]; exact h4, by rw [← hn]; exact h5⟩

variable {qp : PSolve F} {fuel : ℕ} {xs : Option (Traj P)} {us : Option (Ctrls P)} {m : ℕ} {ri : F} {s0 : PROX P}

/-- what the direction computation of an iteration leaves alone, and the evaluation it works on. -/
theorem retry_keeps {s s1 : PROX P} {b : Bool} (h : retry qp fuel true { s with wasFeas := false } = some (b, s1)) :
    fpart s1 = fpart s ∧ s1.iter = s.iter ∧ s1.xs = s.xs ∧ s1.us = s.us ∧ Evald s1 ∧ s1.nRej = s.nRej ∧ s1.acc = s.acc := by
  have he := head_evald s
  cases retry_post h with
  | found j a _ _ _ _ hs => subst hs; exact ⟨rfl, rfl, rfl, rfl, he.congr rfl rfl rfl rfl rfl rfl, rfl, rfl⟩
  | gaveUp j _ _ _ _ hs => subst hs; exact ⟨rfl, rfl, rfl, rfl, he.congr rfl rfl rfl rfl rfl rfl, rfl, rfl⟩

theorem search_fpart (s : PROX P) : fpart s.search = fpart s ∧ s.search.iter = s.iter := by
  obtain ⟨_, _, _, _, _, _, _, _, _, _, _, _, h⟩ := search_set s
  rw [h]; exact ⟨rfl, rfl⟩

theorem updateReg_fpart (s : PROX P) : fpart s.updateReg.2 = fpart s ∧ s.updateReg.2.iter = s.iter := by
  obtain ⟨p, d, h⟩ := updateReg_set s
  rw [h]; exact ⟨rfl, rfl⟩

/-- the memory during one iteration. -/
theorem body_filter {s s' : PROX P} {r : Option Bool} (hI : FilterInv f oc og on s) (h : body qp fuel s = some (r, s')) :
    FilterInv f oc og on s' ∧ (r = none → s'.iter = s.iter ∧
      s'.hist = s.hist ++ [(trajCost P s.xs s.us, shootGapNorm P s.xs s.us, conViol P s.xs s.us)]) := by
  cases body_cases h with
  | gaveUp hr hb => exact ⟨hI.congr (retry_keeps hr).1, fun h => by rw [h] at hb; cases hb⟩
  | converged s1 hr hk hs hb =>
    subst hs; exact ⟨FilterInv.congr (s2 := s1.callbacks) (hI.congr (retry_keeps hr).1) rfl, fun h => by rw [h] at hb; cases hb⟩
  | searched s1 hr hk hs hb =>
    obtain ⟨k1, k2, k3, k4, k5, _⟩ := retry_keeps hr
    have h5 : FilterInv f oc og on s1.pushFilter := FilterInv.push (hI.congr k1)
    have e1 : fpart s1.pushFilter.search.updateReg.2 = fpart s1.pushFilter :=
      (updateReg_fpart _).1.trans (search_fpart _).1
    have e2 : s1.pushFilter.search.updateReg.2.iter = s.iter :=
      (updateReg_fpart _).2.trans ((search_fpart _).2.trans k2)
    have e : fpart s' = fpart s1.pushFilter ∧ s'.iter = s.iter := by
      rw [hs]; split
      · exact ⟨e1, e2⟩
      · exact ⟨e1, e2⟩
    refine ⟨h5.congr e.1, fun _ => ⟨e.2, ?_⟩⟩
    have e3 := e.1
    simp only [fpart, Prod.mk.injEq] at e3 k1
    rw [e3.2.2.2.2]
    change s1.hist ++ [(s1.e.cost, s1.e.gap, s1.e.con)] = _
    rw [k1.2.2.2.2, k5.cost, k5.gap, k5.con, k3, k4]

theorem start_filter (hwf : FilterWF s0) :
    FilterInv s0.c.filterSize s0.costList.items s0.gapList.items s0.conList.items (s0.start xs us ri) :=
  ⟨rfl, hwf.1.holds, hwf.2.1.holds, hwf.2.2.holds⟩

/-- at the head of every iteration the filter holds the history of this solve. -/
theorem AtHead.filter (hwf : FilterWF s0) {s : PROX P} (h : AtHead qp fuel xs us m ri s0 s) :
    FilterInv s0.c.filterSize s0.costList.items s0.gapList.items s0.conList.items s ∧ s.hist.length = s.iter := by
  induction h with
  | start => exact ⟨start_filter hwf, rfl⟩
  | @next s s' h hi hb ih =>
    obtain ⟨h1, h2⟩ := body_filter ih.1 hb
    obtain ⟨h3, h4⟩ := h2 rfl
    refine ⟨h1.congr rfl, ?_⟩
    change s'.hist.length = s'.iter + 1
    rw [h4, h3, List.length_append, ih.2]; rfl

/-- `solve` keeps the buffers well-formed, so the next solve starts well-formed again. -/
theorem FilterWF.solve {s' : PROX P} {b : Bool} (hwf : FilterWF s0) (h : solve qp fuel xs us m ri s0 = some (b, s')) :
    FilterWF s' := by
  rcases solve_end h with ⟨_, h1, _⟩ | ⟨s, h1, _, h2⟩
  · exact (h1.filter hwf).1.wf
  · exact (body_filter (h1.filter hwf).1 h2).1.wf

/-- **C11 (PROXQP).**  With the filter line search and buffers of the configured size, in every iteration of every solve (`s` at
its head, direction computed in `s1`, memory pushed: `s1.pushFilter`) a step length is acceptable iff it lies in `[0,1]`, its
trial does not blow up and none of the last `min(filter_size, iter + 1)` (cost, gap norm, constraint violation) triples of
*this* solve is componentwise `<=` those of the trial.  The history has one triple per iteration, the last one being that of
the current iterate, and the next iteration continues with it. -/
theorem C11_prox_filter (hwf : FilterWF s0) (huf : s0.c.useFilter = true) {s s1 : PROX P}
    (h : AtHead qp fuel xs us m ri s0 s) (hd : retry qp fuel true { s with wasFeas := false } = some (true, s1)) :
    let s3 := s1.pushFilter
    s3.hist.length = s.iter + 1 ∧
    s3.hist = s.hist ++ [(trajCost P s.xs s.us, shootGapNorm P s.xs s.us, conViol P s.xs s.us)] ∧
    (∀ s' : PROX P, body qp fuel s = some (none, s') → s'.hist = s3.hist) ∧
    ∀ a, Acceptable s3 a ↔
      (ltb 1 a = false ∧ ltb a 0 = false ∧
        ¬ CostBlowsUp P (stepX P s.xs s1.dx a) (stepU P s.us s1.du a) ∧
        ¬ Dominated3 (lastN (min s0.c.filterSize (s.iter + 1)) s3.hist)
          (trajCost P (stepX P s.xs s1.dx a) (stepU P s.us s1.du a))
          (shootGapNorm P (stepX P s.xs s1.dx a) (stepU P s.us s1.du a))
          (conViol P (stepX P s.xs s1.dx a) (stepU P s.us s1.du a))) := by
  simp only []
  obtain ⟨i1, i2⟩ := h.filter hwf
  obtain ⟨k1, k2, k3, k4, k5, _⟩ := retry_keeps hd
  have hI : FilterInv s0.c.filterSize s0.costList.items s0.gapList.items s0.conList.items s1.pushFilter :=
    FilterInv.push (i1.congr k1)
  simp only [fpart, Prod.mk.injEq] at k1
  have hc : s1.c = s0.c := k1.1.trans h.conf
  have hhist : s1.pushFilter.hist = s.hist ++ [(trajCost P s.xs s.us, shootGapNorm P s.xs s.us, conViol P s.xs s.us)] := by
    change s1.hist ++ [(s1.e.cost, s1.e.gap, s1.e.con)] = _
    rw [k1.2.2.2.2, k5.cost, k5.gap, k5.con, k3, k4]
  have hlen : s1.pushFilter.hist.length = s.iter + 1 := by rw [hhist, List.length_append, i2]; rfl
  have hiter : s1.pushFilter.iter = s.iter := k2
  have hu : s1.pushFilter.c.useFilter = true := by
    change s1.c.useFilter = true
    rw [hc]; exact huf
  refine ⟨hlen, hhist, fun s' hb => ?_, fun a => ?_⟩
  · rw [hhist]; exact ((body_filter i1 hb).2 rfl).2
  · unfold Acceptable
    rw [if_pos hu, hI.worse_iff (by rw [hlen, hiter]), hiter]
    change _ ∧ _ ∧ ¬ CostBlowsUp P (stepX P s1.xs s1.dx a) (stepU P s1.us s1.du a) ∧ ¬ Dominated3 _
      (trajCost P (stepX P s1.xs s1.dx a) (stepU P s1.us s1.du a))
      (shootGapNorm P (stepX P s1.xs s1.dx a) (stepU P s1.us s1.du a))
      (conViol P (stepX P s1.xs s1.dx a) (stepU P s1.us s1.du a)) ↔ _
    rw [k3, k4]

/-! ## C12: solves do not interfere through the filter memory -/

/-- the solver with other buffer contents. -/
abbrev withBufs (g c n : CBuf F) (s : PROX P) : PROX P := { s with gapList := g, costList := c, conList := n }

theorem computeDirection_bufs (g c n : CBuf F) (rc : Bool) (s : PROX P) :
    computeDirection qp rc (withBufs g c n s) = (computeDirection qp rc s).map (withBufs g c n) := by
  unfold computeDirection
  cases rc with
  | true =>
    simp only [if_true]
    change (match qp s.nQP s.calcEval.checkKKT.m with | none => _ | some a => _) = Res.map _ (match qp s.nQP s.calcEval.checkKKT.m with | none => _ | some a => _)
    cases qp s.nQP s.calcEval.checkKKT.m <;> rfl
  | false =>
    simp only [Bool.false_eq_true, if_false]
    change (match qp s.nQP s.m with | none => _ | some a => _) = Res.map _ (match qp s.nQP s.m with | none => _ | some a => _)
    cases qp s.nQP s.m <;> rfl

theorem retry_bufs (g c n : CBuf F) (k : ℕ) (rc : Bool) (s : PROX P) :
    retry qp k rc (withBufs g c n s) = (retry qp k rc s).map fun x => (x.1, withBufs g c n x.2) := by
  induction k generalizing s rc with
  | zero => rfl
  | succ k ih =>
    unfold retry
    rw [computeDirection_bufs]
    cases computeDirection qp rc s with
    | ok s1 => rfl
    | exn s1 =>
      simp only [Res.map_exn]
      have h1 : (withBufs g c n s1).increaseReg = withBufs g c n s1.increaseReg := rfl
      rw [h1, ih]
      by_cases hl : eqb s1.increaseReg.preg s1.increaseReg.c.par.regMax = true
      · rw [if_pos hl, if_pos hl]; rfl
      · rw [if_neg hl, if_neg hl]

theorem tryStep_bufs (g c n : CBuf F) (a : F) (s : PROX P) :
    tryStep a (withBufs g c n s) = (tryStep a s).map (withBufs g c n) := by
  have hst : ∀ t (s : PROX P), tryStage t (withBufs g c n s) = (tryStage t s).map (withBufs g c n) := by
    intro t s
    unfold tryStage
    simp only []
    unfold Res.throwIf
    split <;> rfl
  have hter : ∀ s : PROX P, tryTerminal (withBufs g c n s) = (tryTerminal s).map (withBufs g c n) := by
    intro s
    unfold tryTerminal
    simp only []
    unfold Res.throwIf
    split <;> rfl
  have hloop : ∀ k (s : PROX P), forUpR k tryStage (withBufs g c n s) = (forUpR k tryStage s).map (withBufs g c n) := by
    intro k s
    induction k with
    | zero => rfl
    | succ k ih =>
      rw [forUpR_succ, ih, forUpR_succ]
      cases forUpR k tryStage s with
      | ok s1 => exact hst k s1
      | exn s1 => rfl
  unfold tryStep
  simp only []
  split
  · rfl
  · have h := hloop P.T (({ s with nTry := s.nTry + 1, w := { s.w with cost := 0, merit := 0, gap := 0, con := 0 } } : PROX P).tryMove a)
    change (forUpR P.T tryStage (withBufs g c n (({ s with nTry := s.nTry + 1, w := { s.w with cost := 0, merit := 0, gap := 0, con := 0 } } : PROX P).tryMove a))).bind _ = _
    rw [h]
    cases forUpR P.T tryStage (({ s with nTry := s.nTry + 1, w := { s.w with cost := 0, merit := 0, gap := 0, con := 0 } } : PROX P).tryMove a) with
    | ok s1 => exact hter s1
    | exn s1 => rfl

/-- the slots the filter looks at are equal. -/
def SameSlots (f it : ℕ) (g c n g' c' n' : CBuf F) : Prop :=
  ∀ j, j < f → j ≤ it → c.get (f - 1 - j) = c'.get (f - 1 - j) ∧ g.get (f - 1 - j) = g'.get (f - 1 - j) ∧
    n.get (f - 1 - j) = n'.get (f - 1 - j)

theorem lineSearch_bufs (as : List F) (s : PROX P) (g c n : CBuf F)
    (h : SameSlots s.c.filterSize s.iter s.gapList s.costList s.conList g c n) :
    lineSearch as (withBufs g c n s) = ((lineSearch as s).1, withBufs g c n (lineSearch as s).2) := by
  induction as generalizing s with
  | nil => rfl
  | cons a as ih =>
    obtain ⟨d, w, hf⟩ := tryStep_set a { s with steplength := a }
    unfold lineSearch
    have e0 : ({ withBufs g c n s with steplength := a } : PROX P) = withBufs g c n { s with steplength := a } := rfl
    rw [e0, tryStep_bufs]
    cases h1 : tryStep a { s with steplength := a } with
    | exn s1 =>
      rw [h1] at hf
      change s1 = _ at hf
      simp only [Res.map_exn]
      exact ih s1 (by rw [hf]; exact h)
    | ok s1 =>
      rw [h1] at hf
      change s1 = _ at hf
      simp only [Res.map_ok]
      have h' : SameSlots s1.c.filterSize s1.iter s1.gapList s1.costList s1.conList g c n := by rw [hf]; exact h
      have hw : (withBufs g c n s1).worse = s1.worse := by
        rw [Bool.eq_iff_iff, worse_iff, PROX.worse_iff]
        unfold WorseThanMemory
        constructor
        · rintro ⟨j, j1, j2, j3, j4, j5⟩
          exact ⟨j, j1, j2, by rw [(h' j j1 j2).1]; exact j3, by rw [(h' j j1 j2).2.1]; exact j4,
            by rw [(h' j j1 j2).2.2]; exact j5⟩
        · rintro ⟨j, j1, j2, j3, j4, j5⟩
          exact ⟨j, j1, j2, by rw [← (h' j j1 j2).1]; exact j3, by rw [← (h' j j1 j2).2.1]; exact j4,
            by rw [← (h' j j1 j2).2.2]; exact j5⟩
      by_cases hu : s1.c.useFilter = true
      · have hu' : (withBufs g c n s1).c.useFilter = true := hu
        rw [if_pos hu', if_pos hu]
        by_cases hs : s1.worse = true
        · rw [if_pos (hw.trans hs), if_pos hs]
          have := ih { s1 with isWorse := s1.worse } h'
          rw [← this, hw]
        · rw [if_neg (by rw [hw]; exact hs), if_neg hs, hw]; rfl
      · have hu' : ¬ (withBufs g c n s1).c.useFilter = true := hu
        rw [if_neg hu', if_neg hu]
        by_cases hs : ltb s1.w.merit s1.merit = true
        · have hs' : ltb (withBufs g c n s1).w.merit (withBufs g c n s1).merit = true := hs
          rw [if_pos hs', if_pos hs]; rfl
        · have hs' : ¬ ltb (withBufs g c n s1).w.merit (withBufs g c n s1).merit = true := hs
          rw [if_neg hs', if_neg hs]
          exact ih s1 h'

theorem search_bufs (s : PROX P) (g c n : CBuf F)
    (h : SameSlots s.c.filterSize s.iter s.gapList s.costList s.conList g c n) :
    search (withBufs g c n s) = withBufs g c n s.search := by
  unfold search
  have hl := lineSearch_bufs s.c.par.alphas s g c n h
  change (match lineSearch s.c.par.alphas (withBufs g c n s) with | (found, s) => if found then s else _) = _
  rw [hl]
  generalize lineSearch s.c.par.alphas s = x
  obtain ⟨b, s2⟩ := x
  cases b <;> rfl

theorem updateReg_bufs (s : PROX P) (g c n : CBuf F) :
    updateReg (withBufs g c n s) = ((updateReg s).1, withBufs g c n (updateReg s).2) := by
  unfold updateReg
  by_cases h1 : ltb s.c.par.thStepDec s.steplength = true
  · have h1' : ltb (withBufs g c n s).c.par.thStepDec (withBufs g c n s).steplength = true := h1
    rw [if_pos h1', if_pos h1]
    by_cases h2 : leb s.decreaseReg.steplength s.decreaseReg.c.par.thStepInc = true
    · have h2' : leb (withBufs g c n s).decreaseReg.steplength (withBufs g c n s).decreaseReg.c.par.thStepInc = true := h2
      simp only [if_pos h2, if_pos h2']; rfl
    · have h2' : ¬ leb (withBufs g c n s).decreaseReg.steplength (withBufs g c n s).decreaseReg.c.par.thStepInc = true := h2
      simp only [if_neg h2, if_neg h2']; rfl
  · have h1' : ¬ ltb (withBufs g c n s).c.par.thStepDec (withBufs g c n s).steplength = true := h1
    rw [if_neg h1', if_neg h1]
    by_cases h2 : leb s.steplength s.c.par.thStepInc = true
    · have h2' : leb (withBufs g c n s).steplength (withBufs g c n s).c.par.thStepInc = true := h2
      simp only [if_pos h2, if_pos h2']; rfl
    · have h2' : ¬ leb (withBufs g c n s).steplength (withBufs g c n s).c.par.thStepInc = true := h2
      simp only [if_neg h2, if_neg h2']

/-- the simulation relation between a solver and one with another filter memory. -/
structure BufSim (f : ℕ) (oc og on oc' og' on' : List F) (s t : PROX P) : Prop where
  eq : t = withBufs t.gapList t.costList t.conList s
  left : FilterInv f oc og on s
  right : FilterInv f oc' og' on' t
  len : s.hist.length = s.iter

theorem slots_of_inv {s t : PROX P} (h1 : FilterInv f oc og on s) (h2 : FilterInv f oc' og' on' t)
    (hh : t.hist = s.hist) (hi : s.iter < s.hist.length) :
    SameSlots s.c.filterSize s.iter s.gapList s.costList s.conList t.gapList t.costList t.conList := by
  intro j hj1 hj2
  rw [h1.size] at hj1 ⊢
  have a1 := h1.cost.get j hj1 (by simp; omega)
  have a2 := h2.cost.get j hj1 (by rw [hh]; simp; omega)
  have b1 := h1.gap.get j hj1 (by simp; omega)
  have b2 := h2.gap.get j hj1 (by rw [hh]; simp; omega)
  have c1 := h1.con.get j hj1 (by simp; omega)
  have c2 := h2.con.get j hj1 (by rw [hh]; simp; omega)
  rw [hh] at a2 b2 c2
  exact ⟨Option.some.inj (a1.symm.trans a2), Option.some.inj (b1.symm.trans b2), Option.some.inj (c1.symm.trans c2)⟩

theorem body_sim {s t : PROX P} (h : BufSim f oc og on oc' og' on' s t) :
    (body qp fuel s = none ∧ body qp fuel t = none) ∨
    ∃ r s1 t1, body qp fuel s = some (r, s1) ∧ body qp fuel t = some (r, t1) ∧
      t1 = withBufs t1.gapList t1.costList t1.conList s1 ∧
      (r = none → BufSim f oc og on oc' og' on' { s1 with iter := s1.iter + 1 } { t1 with iter := t1.iter + 1 }) := by
  obtain ⟨heq, hl, hr, hlen⟩ := h
  have hfin : ∀ r s1 t1, body qp fuel s = some (r, s1) → body qp fuel t = some (r, t1) →
      t1 = withBufs t1.gapList t1.costList t1.conList s1 →
      (r = none → BufSim f oc og on oc' og' on' { s1 with iter := s1.iter + 1 } { t1 with iter := t1.iter + 1 }) := by
    intro r s1 t1 h1 h2 h3 hn
    obtain ⟨a1, a2⟩ := body_filter hl h1
    obtain ⟨b1, b2⟩ := body_filter hr h2
    refine ⟨by rw [h3], a1.congr rfl, b1.congr rfl, ?_⟩
    obtain ⟨a3, a4⟩ := a2 hn
    change s1.hist.length = s1.iter + 1
    rw [a4, a3, List.length_append, hlen]; rfl
  suffices hs : (body qp fuel s = none ∧ body qp fuel t = none) ∨
      ∃ r s1 t1, body qp fuel s = some (r, s1) ∧ body qp fuel t = some (r, t1) ∧
        t1 = withBufs t1.gapList t1.costList t1.conList s1 by
    rcases hs with hs | ⟨r, s1, t1, h1, h2, h3⟩
    · exact .inl hs
    · exact .inr ⟨r, s1, t1, h1, h2, h3, hfin r s1 t1 h1 h2 h3⟩
  have het : ({ t with wasFeas := false } : PROX P) = withBufs t.gapList t.costList t.conList { s with wasFeas := false } := by
    conv_lhs => rw [heq]
  unfold body
  rw [het, retry_bufs]
  cases hd : retry qp fuel true { s with wasFeas := false } with
  | none => exact .inl ⟨rfl, rfl⟩
  | some x =>
    obtain ⟨b, s1⟩ := x
    right
    simp only [Option.map_some]
    cases b with
    | false => exact ⟨_, _, _, rfl, rfl, rfl⟩
    | true =>
      simp only []
      by_cases hk : leb s1.KKT s1.c.tol = true
      · have hk' : leb (withBufs t.gapList t.costList t.conList s1).KKT (withBufs t.gapList t.costList t.conList s1).c.tol = true := hk
        rw [if_pos hk, if_pos hk']
        exact ⟨_, _, _, rfl, rfl, rfl⟩
      · have hk' : ¬ leb (withBufs t.gapList t.costList t.conList s1).KKT (withBufs t.gapList t.costList t.conList s1).c.tol = true := hk
        rw [if_neg hk, if_neg hk']
        obtain ⟨k1, k2, _⟩ := retry_keeps hd
        have hI : FilterInv f oc og on s1.pushFilter := FilterInv.push (hl.congr k1)
        have k1' : fpart (withBufs t.gapList t.costList t.conList s1) = fpart t := by
          simp only [fpart, Prod.mk.injEq] at k1 ⊢
          refine ⟨?_, trivial, trivial, trivial, ?_⟩
          · rw [heq]; exact k1.1
          · rw [heq]; exact k1.2.2.2.2
        have hI' : FilterInv f oc' og' on' (withBufs t.gapList t.costList t.conList s1).pushFilter :=
          FilterInv.push (hr.congr k1')
        have hslots := slots_of_inv hI hI' rfl (by
          change s1.iter < (s1.hist ++ [(s1.e.cost, s1.e.gap, s1.e.con)]).length
          simp only [fpart, Prod.mk.injEq] at k1
          rw [k1.2.2.2.2, k2, List.length_append, hlen]
          exact Nat.lt_succ_self _)
        have ha := search_bufs s1.pushFilter _ _ _ hslots
        have ep : (withBufs t.gapList t.costList t.conList s1).pushFilter =
          withBufs (t.gapList.push s1.e.gap) (t.costList.push s1.e.cost) (t.conList.push s1.e.con) s1.pushFilter := rfl
        have ha' : (withBufs t.gapList t.costList t.conList s1).pushFilter.search =
          withBufs (t.gapList.push s1.e.gap) (t.costList.push s1.e.cost) (t.conList.push s1.e.con) s1.pushFilter.search := ha
        rw [ha', updateReg_bufs s1.pushFilter.search (t.gapList.push s1.e.gap) (t.costList.push s1.e.cost) (t.conList.push s1.e.con)]
        simp only []
        by_cases hu : s1.pushFilter.search.updateReg.1 = true
        · rw [if_pos hu, if_pos hu]
          exact ⟨_, _, _, rfl, rfl, rfl⟩
        · rw [if_neg hu, if_neg hu]
          exact ⟨_, _, _, rfl, rfl, rfl⟩

theorem iterate_sim (k : ℕ) {s t : PROX P} (h : BufSim f oc og on oc' og' on' s t) :
    (iterate qp fuel k s = none ∧ iterate qp fuel k t = none) ∨
    ∃ r s1 t1, iterate qp fuel k s = some (r, s1) ∧ iterate qp fuel k t = some (r, t1) ∧
      t1 = withBufs t1.gapList t1.costList t1.conList s1 := by
  induction k generalizing s t with
  | zero => exact .inr ⟨none, s, t, rfl, rfl, h.eq⟩
  | succ k ih =>
    unfold iterate
    rcases body_sim (qp := qp) (fuel := fuel) h with ⟨h1, h2⟩ | ⟨r, s1, t1, h1, h2, h3, h4⟩
    · left; rw [h1, h2]; exact ⟨rfl, rfl⟩
    · rw [h1, h2]
      cases r with
      | some b => exact .inr ⟨some b, s1, t1, rfl, rfl, h3⟩
      | none => exact ih (h4 rfl)

/-- **C12 (PROXQP).**  Two solvers that differ only in the contents of their filter memory (both of the configured size) behave
identically: `solve` either loops forever on both or returns the same verdict on both and leaves states that again differ only
in the filter memory. -/
theorem C12_prox_filter_noninterference (g c n : CBuf F) (hwf : FilterWF s0) (hg : g.Full s0.c.filterSize)
    (hc : c.Full s0.c.filterSize) (hn : n.Full s0.c.filterSize) :
    (solve qp fuel xs us m ri s0 = none ∧
      solve qp fuel xs us m ri { s0 with gapList := g, costList := c, conList := n } = none) ∨
    ∃ b s' g' c' n', solve qp fuel xs us m ri s0 = some (b, s') ∧
      solve qp fuel xs us m ri { s0 with gapList := g, costList := c, conList := n } =
        some (b, { s' with gapList := g', costList := c', conList := n' }) := by
  have hsim : BufSim s0.c.filterSize s0.costList.items s0.gapList.items s0.conList.items c.items g.items n.items
      (s0.start xs us ri) ((withBufs g c n s0).start xs us ri) :=
    ⟨rfl, start_filter hwf, start_filter (s0 := withBufs g c n s0) ⟨hc, hg, hn⟩, rfl⟩
  unfold solve
  rcases iterate_sim (qp := qp) (fuel := fuel) m hsim with ⟨h1, h2⟩ | ⟨r, s1, t1, h1, h2, h3⟩
  · rw [h1, h2]; exact .inl ⟨rfl, rfl⟩
  · rw [h1, h2]
    cases r with
    | some b => exact .inr ⟨b, s1, t1.gapList, t1.costList, t1.conList, rfl, by rw [h3]⟩
    | none => exact .inr ⟨false, s1, t1.gapList, t1.costList, t1.conList, rfl, by rw [h3]⟩

/-! ## C13, C14: filter of size 1; NaN -/

/-- **C13 (PROXQP).**  With `filter_size = 1` (the default) a step length in `[0,1]` whose trial does not blow up is acceptable iff
the trial's cost, gap norm or constraint violation is smaller than that of the current iterate; for values that are not NaN. -/
theorem C13_prox_filter_one [IEEE F] (hwf : FilterWF s0) (huf : s0.c.useFilter = true) (h1f : s0.c.filterSize = 1)
    {s s1 : PROX P} (h : AtHead qp fuel xs us m ri s0 s) (hd : retry qp fuel true { s with wasFeas := false } = some (true, s1)) (a : F)
    (ha : ltb 1 a = false) (ha0 : ltb a 0 = false)
    (hb : ¬ CostBlowsUp P (stepX P s.xs s1.dx a) (stepU P s.us s1.du a))
    (n1 : isnan (trajCost P s.xs s.us) = false) (n2 : isnan (shootGapNorm P s.xs s.us) = false)
    (n3 : isnan (conViol P s.xs s.us) = false)
    (n4 : isnan (trajCost P (stepX P s.xs s1.dx a) (stepU P s.us s1.du a)) = false)
    (n5 : isnan (shootGapNorm P (stepX P s.xs s1.dx a) (stepU P s.us s1.du a)) = false)
    (n6 : isnan (conViol P (stepX P s.xs s1.dx a) (stepU P s.us s1.du a)) = false) :
    Acceptable s1.pushFilter a ↔
      ltb (trajCost P (stepX P s.xs s1.dx a) (stepU P s.us s1.du a)) (trajCost P s.xs s.us) = true ∨
      ltb (shootGapNorm P (stepX P s.xs s1.dx a) (stepU P s.us s1.du a)) (shootGapNorm P s.xs s.us) = true ∨
      ltb (conViol P (stepX P s.xs s1.dx a) (stepU P s.us s1.du a)) (conViol P s.xs s.us) = true := by
  obtain ⟨hl, hh, _, h⟩ := C11_prox_filter hwf huf h hd
  rw [h a, h1f]
  have hmin : min 1 (s.iter + 1) = 1 := by omega
  rw [hmin, hh]
  have hlast : lastN 1 (s.hist ++ [(trajCost P s.xs s.us, shootGapNorm P s.xs s.us, conViol P s.xs s.us)]) =
      [(trajCost P s.xs s.us, shootGapNorm P s.xs s.us, conViol P s.xs s.us)] := by simp [lastN]
  rw [hlast]
  simp only [ha, ha0, hb, not_false_eq_true, true_and]
  unfold Dominated3
  simp only [List.mem_singleton, exists_eq_left]
  rw [IEEE.leb_not_ltb _ _ n1 n4, IEEE.leb_not_ltb _ _ n2 n5, IEEE.leb_not_ltb _ _ n3 n6]
  cases ltb (trajCost P (stepX P s.xs s1.dx a) (stepU P s.us s1.du a)) (trajCost P s.xs s.us) <;>
    cases ltb (shootGapNorm P (stepX P s.xs s1.dx a) (stepU P s.us s1.du a)) (shootGapNorm P s.xs s.us) <;>
    cases ltb (conViol P (stepX P s.xs s1.dx a) (stepU P s.us s1.du a)) (conViol P s.xs s.us) <;> simp

/-- **C14 (PROXQP).**  Whatever the solver state: a trial with a NaN gap norm or a NaN constraint violation passes the filter (if
its cost does not blow up), a trial with a NaN merit is rejected by the merit test, and a trial whose accumulated cost is
NaN, infinite or `>= 1e30` at some node is rejected by both. -/
theorem C14_prox_nan [IEEE F] (s : PROX P) (a : F) :
    (s.c.useFilter = true → ltb 1 a = false → ltb a 0 = false →
      ¬ CostBlowsUp P (stepX P s.xs s.dx a) (stepU P s.us s.du a) →
      (isnan (shootGapNorm P (stepX P s.xs s.dx a) (stepU P s.us s.du a)) = true ∨
       isnan (conViol P (stepX P s.xs s.dx a) (stepU P s.us s.du a)) = true) → Acceptable s a) ∧
    (s.c.useFilter = false →
      isnan (pmerit P s.c.muDyn s.c.muCon (stepX P s.xs s.dx a) (stepU P s.us s.du a)) = true → ¬ Acceptable s a) ∧
    (CostBlowsUp P (stepX P s.xs s.dx a) (stepU P s.us s.du a) → ¬ Acceptable s a) := by
  refine ⟨?_, ?_, ?_⟩
  · intro h1 h2 h3 h4 h5
    refine ⟨h2, h3, h4, ?_⟩
    rw [if_pos h1]
    rintro ⟨j, _, _, _, hg, hn⟩
    rcases h5 with h5 | h5
    · rw [IEEE.leb_nan_right _ _ h5] at hg
      cases hg
    · rw [IEEE.leb_nan_right _ _ h5] at hn
      cases hn
  · rintro h1 h2 ⟨_, _, _, h⟩
    rw [if_neg (by rw [h1]; simp), IEEE.ltb_nan_left _ _ h2] at h
    cases h
  · rintro h ⟨_, _, h', _⟩
    exact h' h

/-! ## C15: merit -/

theorem pmerit_congr (a b : F) {xs xs' : Traj P} {us us' : Ctrls P} (hx : ∀ t, t ≤ P.T → xs t = xs' t)
    (hu : ∀ t, t < P.T → us t = us' t) : pmerit P a b xs us = pmerit P a b xs' us' := by
  obtain ⟨_, h1, h2, h3, _⟩ := CSQP.eval_congr hx hu
  unfold pmerit
  rw [h1, h2, h3]

/-- **C15 (PROXQP), over a solve.**  Merit line search: between two consecutive iterations (`s` at the head, `s'` after it) either
the search accepted a step and the merit function `cost + mu_dynamic * gaps + mu_constraint * violation` strictly decreased, or it
accepted nothing and the trajectory is unchanged.  Any arithmetic, any QP solver, any solver state, however the iteration ends. -/
theorem C15_prox_merit_monotone (huf : s0.c.useFilter = false) {s s' : PROX P} {r : Option Bool}
    (h : AtHead qp fuel xs us m ri s0 s) (hb : body qp fuel s = some (r, s')) :
    (∃ a, s'.acc = s.acc ++ [a] ∧
      ltb (trajCost P s'.xs s'.us + s0.c.muDyn * shootGapNorm P s'.xs s'.us + s0.c.muCon * conViol P s'.xs s'.us)
        (trajCost P s.xs s.us + s0.c.muDyn * shootGapNorm P s.xs s.us + s0.c.muCon * conViol P s.xs s.us) = true) ∨
    (s'.acc = s.acc ∧ s'.xs = s.xs ∧ s'.us = s.us) := by
  cases body_cases hb with
  | gaveUp hr _ => obtain ⟨_, _, k3, k4, _, _, k7⟩ := retry_keeps hr; exact .inr ⟨k7, k3, k4⟩
  | converged s1 hr hk hs _ => subst hs; obtain ⟨_, _, k3, k4, _, _, k7⟩ := retry_keeps hr; exact .inr ⟨k7, k3, k4⟩
  | searched s1 hr hk hs _ =>
    obtain ⟨k1, k2, k3, k4, k5, k6, k7⟩ := retry_keeps hr
    simp only [fpart, Prod.mk.injEq] at k1
    have hc : s1.c = s0.c := k1.1.trans h.conf
    obtain ⟨p, d, hu⟩ := updateReg_set s1.pushFilter.search
    have e : s'.xs = s1.pushFilter.search.xs ∧ s'.us = s1.pushFilter.search.us ∧ s'.acc = s1.pushFilter.search.acc := by
      rw [hs]; split <;> rw [hu] <;> exact ⟨rfl, rfl, rfl⟩
    rw [e.1, e.2.1, e.2.2]
    rcases C16_prox_first_acceptable s1.pushFilter with ⟨pre, a, post, _, _, h3, h4, h5, h6, _⟩ | ⟨_, h3, h4, h5, _⟩
    · refine .inl ⟨a, by rw [h6, ← k7]; rfl, ?_⟩
      obtain ⟨_, _, _, h7⟩ := h3
      have huf' : s1.pushFilter.c.useFilter = false := by change s1.c.useFilter = false; rw [hc]; exact huf
      rw [huf'] at h7
      simp only [Bool.false_eq_true, if_false] at h7
      have hm : s1.pushFilter.merit = pmerit P s1.c.muDyn s1.c.muCon s1.xs s1.us := k5.merit
      have hw : s1.pushFilter.c = s0.c := hc
      rw [hm, ← pmerit_congr _ _ h4 h5, hw, hc, k3, k4] at h7
      exact h7
    · exact .inr ⟨h5.trans k7, h3.trans k3, h4.trans k4⟩

end

/-! ## C20: the gaps along a step -/
section
variable {K : Type} [Field K] [LinearOrder K] [IsStrictOrderedRing K] {P : Problem K}
variable {qp : PSolve K} {fuel : ℕ} {xs : Option (Traj P)} {us : Option (Ctrls P)} {m : ℕ} {ri : K} {s0 : PROX P}

/-- **C20 (PROXQP).**  Affine dynamics, exact arithmetic, exact QP solver: in every iteration of every solve the trial with step
length `a` along the computed direction has exactly `(1 - a)` times the current shooting gaps; the full step closes all gaps. -/
theorem C20_prox_gap_contraction {φ : P.X → Vec K P.ndx} (hE : Euclid P φ) (hA : AffineDyn P φ) (hr : Reachable s0) (hT : 0 < P.T)
    (hc : ColsOK P) (hqp : QPExact P.nVars P.nEq P.nIn qp) {s s1 : PROX P} (hs : AtHead qp fuel xs us m ri s0 s)
    (hd : retry qp fuel true { s with wasFeas := false } = some (true, s1)) (a : K) :
    (∀ t, t < P.T → shootGap P (stepX P s.xs s1.dx a) (stepU P s.us s1.du a) t = (1 - a) • shootGap P s.xs s.us t) ∧
    (a = 1 → shootGapNorm P (stepX P s.xs s1.dx a) (stepU P s.us s1.du a) = 0) := by
  obtain ⟨_, h2, h3⟩ := C40_prox_direction_kkt hr hT hc hqp hs hd
  obtain ⟨_, _, k3, k4, k5, _⟩ := retry_keeps hd
  have key := gap_contraction hE hA s.xs s.us s1.dx s1.du (fun t ht => by
    rw [h3.feas.dyn t ht, k5.fs t ht, h2.run t ht, k3, k4]) a
  refine ⟨key, fun ha => ?_⟩
  unfold shootGapNorm
  apply sumUp_zero_of
  intro t ht
  rw [key t ht, ha, sub_self, zero_smul]
  simp

end
end PROX

/-! ## non-vacuity and the negative parts -/
namespace Ex
open PROX

/-- a new solver. -/
def pNew : PROX (clq 1 1 1 1 1) := PROX.new (Data.zero _)
/-- with a filter of size 3. -/
def pNew3 : PROX (clq 1 1 1 1 1) := pNew.setFilterSize 3

example : PROX.FilterWF pNew3 := PROX.FilterWF.grow (s := pNew) (PROX.FilterWF.new _) 3 (by decide)

theorem pNew_dir : (retry qp2 5 true { pNew.start none none 0 with wasFeas := false }).map (fun r => r.1) = some true := by decide +kernel

/-- C11, C12, C13: the first iteration pushes one triple, accepts a step and goes on. -/
example : pNew3.c.useFilter = true ∧
    (retry qp2 5 true { pNew3.start none none 0 with wasFeas := false }).map (fun r => r.1) = some true ∧
    (body qp2 5 (pNew3.start none none 0)).map (fun r => (r.1, r.2.hist.length, r.2.nTry, r.2.acc)) = some (none, 1, 1, [1]) ∧
    pNew.c.filterSize = 1 := by
  refine ⟨?_, ?_, ?_, ?_⟩ <;> decide +kernel

/-- the merit line search. -/
def pMerit : PROX (clq 1 1 1 1 1) := { pNew with c := { pNew.c with useFilter := false } }
theorem pMerit_next : (body qp2 5 (pMerit.start none none 0)).map (fun r => (r.1, r.2.nTry, r.2.acc)) = some (none, 1, [1]) := by
  decide +kernel

/-- C15 applied to it: the first alternative. -/
example : ∃ s', body qp2 5 (pMerit.start none none 0) = some (none, s') ∧
    ltb (trajCost _ s'.xs s'.us + pMerit.c.muDyn * shootGapNorm _ s'.xs s'.us + pMerit.c.muCon * conViol _ s'.xs s'.us)
      (trajCost _ (pMerit.start none none 0).xs (pMerit.start none none 0).us +
        pMerit.c.muDyn * shootGapNorm _ (pMerit.start none none 0).xs (pMerit.start none none 0).us +
        pMerit.c.muCon * conViol _ (pMerit.start none none 0).xs (pMerit.start none none 0).us) = true := by
  have h := pMerit_next
  cases hb : body qp2 5 (pMerit.start none none 0) with
  | none => rw [hb] at h; cases h
  | some y =>
    obtain ⟨r, s'⟩ := y
    rw [hb] at h
    simp only [Option.map_some, Option.some.injEq, Prod.mk.injEq] at h
    obtain ⟨rfl, _, h2⟩ := h
    refine ⟨s', rfl, ?_⟩
    rcases C15_prox_merit_monotone (s0 := pMerit) rfl (AtHead.start (m := 1)) hb with ⟨a, _, h3⟩ | ⟨h3, _⟩
    · exact h3
    · rw [h2] at h3; cases h3

/-- the solver after `set_filter_size(2); set_filter_size(1)`. -/
def pShrunk : PROX (clq 1 1 1 1 1) := (pNew.setFilterSize 2).setFilterSize 1

/-- **C11, negative part (PROXQP).**  After decreasing the filter size the filter reads the wrong slots: the full step to the
minimiser of a strictly convex problem, which a solver that always had size 1 takes at once, is refused, as are all other step
lengths, although the trial's gap norm is strictly smaller than the current one. -/
theorem C11_prox_shrunk_filter_refuted :
    (PROX.solve qp2 5 none none 1 0 pNew).map (fun r => (r.2.nTry, r.2.nRej, r.2.acc)) = some (1, 0, [1]) ∧
    (PROX.solve qp2 5 none none 1 0 pShrunk).map (fun r => (r.2.nTry, r.2.nRej, r.2.acc)) = some (10, 1, []) ∧
    (PROX.solve qp2 5 none none 1 0 pShrunk).map (fun r =>
      decide (shootGapNorm (clq 1 1 1 1 1) (stepX (clq 1 1 1 1 1) r.2.xs r.2.dx 1) (stepU (clq 1 1 1 1 1) r.2.us r.2.du 1) < r.2.e.gap)) = some true := by
  refine ⟨?_, ?_, ?_⟩ <;> decide +kernel

/-- a QP solver that returns the full step `dx = du = -1`. -/
def qpOne : PSolve (Dbl ℚ) := fun _ _ => some ⟨fun _ => Dbl.fin (-1), fun _ => Dbl.fin 0, fun _ => Dbl.fin 0, 1, Dbl.fin 0, Dbl.fin 0⟩
def pNan (uf : Bool) : PROX nanGap :=
  let s := PROX.new (Data.zero nanGap)
  { s with c := { s.c with useFilter := uf } }

/-- C14, witness (PROXQP): with the filter line search the solver takes the full step into a trajectory whose gap is NaN; with
the merit line search it refuses all ten step lengths. -/
theorem C14_prox_filter_accepts_nan :
    (PROX.solve qpOne 5 none none 1 (Dbl.fin 0) (pNan true)).map
      (fun r => (r.2.nTry, r.2.nRej, isnan (shootGapNorm nanGap r.2.xs r.2.us))) = some (1, 0, true) ∧
    (PROX.solve qpOne 5 none none 1 (Dbl.fin 0) (pNan false)).map
      (fun r => (r.2.nTry, r.2.nRej, isnan (shootGapNorm nanGap r.2.xs r.2.us))) = some (10, 1, false) := by
  constructor <;> decide +kernel

/-- C20 applied to the first direction: the full step closes the gap, which was not zero. -/
example : ∃ s1, retry qp2 5 true { pNew.start none none 0 with wasFeas := false } = some (true, s1) ∧
    shootGapNorm (clq 1 1 1 1 1) (pNew.start none none 0).xs (pNew.start none none 0).us ≠ 0 ∧
    shootGapNorm (clq 1 1 1 1 1) (stepX (clq 1 1 1 1 1) (pNew.start none none 0).xs s1.dx 1)
      (stepU (clq 1 1 1 1 1) (pNew.start none none 0).us s1.du 1) = 0 := by
  have h := pNew_dir
  cases hr : retry qp2 5 true { pNew.start none none 0 with wasFeas := false } with
  | none => rw [hr] at h; cases h
  | some r =>
    obtain ⟨b, s1⟩ := r
    rw [hr] at h
    simp only [Option.map_some, Option.some.injEq] at h
    subst h
    exact ⟨s1, rfl, by decide +kernel, (C20_prox_gap_contraction (clq_euclid 1 1 1 1 1) (clq_affine 1 1 1 1 1) (.new _) (by decide)
      (PROX.ColsOK.of_const (n := 1) fun _ => rfl) qp2_exact (AtHead.start (m := 1)) hr 1).2 rfl⟩

end Ex
end Mim
