import Verif.Props.SQPLine
import Verif.Lemmas.Filter
import Verif.Base.Dbl

/-!
# The filter line search of SolverSQP (C11, C12, C13, C14)
-/
set_option linter.unusedSectionVars false
set_option linter.unusedSimpArgs false

namespace Mim
open Spec SQP Matrix

namespace Spec
variable {F : Type} [FloatOps F]
/-- Some pair in `mem` has both a cost `<= c` and a gap norm `<= g`. -/
def Dominated (mem : List (F × F)) (c g : F) : Prop := ∃ e ∈ mem, leb e.1 c = true ∧ leb e.2 g = true
end Spec

section
variable {F : Type} [Add F] [Sub F] [Mul F] [Div F] [Neg F] [Zero F] [One F] [FloatOps F] {P : Problem F}
variable {llt : LLT F} {fuel : ℕ} {xs : Option (Traj P)} {us : Option (Ctrls P)} {m : ℕ} {ri : F} {s s' : SQP P} {b : Bool}

/-- The filter buffers have the configured size.  True after construction and preserved by everything except
decreasing the filter size (`FilterWF.new`, `FilterWF.grow`, `FilterWF.solve`). -/
def FilterWF (s : SQP P) : Prop := s.costList.Full s.filterSize ∧ s.gapList.Full s.filterSize

theorem FilterWF.new (d : Data P) : FilterWF (SQP.new d) := by
  unfold FilterWF SQP.new CBuf.Full CBuf.empty CBuf.resize
  simp

theorem FilterWF.grow (h : FilterWF s) (n : ℕ) (hn : s.filterSize ≤ n) : FilterWF (s.setFilterSize n) :=
  ⟨CBuf.resize_full h.1 hn, CBuf.resize_full h.2 hn⟩

/-- the filter holds the last entries of `old ++` the history of this solve. -/
structure FilterInv (f : ℕ) (oldc oldg : List F) (s : SQP P) : Prop where
  size : s.filterSize = f
  cost : s.costList.Holds f oldc (s.hist.map Prod.fst)
  gap : s.gapList.Holds f oldg (s.hist.map Prod.snd)

theorem FilterInv.wf {f : ℕ} {oldc oldg : List F} (h : FilterInv f oldc oldg s) : FilterWF s := by
  unfold FilterWF
  rw [h.size]; exact ⟨h.cost.1, h.gap.1⟩

theorem FilterInv.push {f : ℕ} {oldc oldg : List F} (h : FilterInv f oldc oldg s) : FilterInv f oldc oldg s.pushFilter := by
  refine ⟨h.size, ?_, ?_⟩
  · change (s.costList.push s.cost).Holds f oldc ((s.hist ++ [(s.cost, s.gap)]).map Prod.fst)
    rw [List.map_append]; exact h.cost.push s.cost
  · change (s.gapList.push s.gap).Holds f oldg ((s.hist ++ [(s.cost, s.gap)]).map Prod.snd)
    rw [List.map_append]; exact h.gap.push s.gap

theorem FilterInv.congr {f : ℕ} {oldc oldg : List F} {s1 s2 : SQP P} (h : FilterInv f oldc oldg s1)
    (he : (s2.filterSize, s2.costList, s2.gapList, s2.hist) = (s1.filterSize, s1.costList, s1.gapList, s1.hist)) :
    FilterInv f oldc oldg s2 := by
  simp only [Prod.mk.injEq] at he
  obtain ⟨e1, e2, e3, e4⟩ := he
  exact ⟨e1.trans h.size, by rw [e2, e4]; exact h.cost, by rw [e3, e4]; exact h.gap⟩

/-- the memory test in terms of the history. -/
theorem FilterInv.worse_iff {f : ℕ} {oldc oldg : List F} (h : FilterInv f oldc oldg s) (hl : s.hist.length = s.iter + 1)
    (c g : F) : s.WorseThanMemory c g ↔ Dominated (lastN (min f (s.iter + 1)) s.hist) c g := by
  unfold WorseThanMemory Dominated
  rw [h.size]
  constructor
  · rintro ⟨j, h1, h2, h3, h4⟩
    have hc := h.cost.get j h1 (by simp; omega)
    have hg := h.gap.get j h1 (by simp; omega)
    simp only [List.length_map, List.getElem?_map, Option.map_eq_some_iff] at hc hg
    obtain ⟨e, he, hec⟩ := hc
    obtain ⟨e', he', heg⟩ := hg
    rw [he] at he'
    obtain rfl := Option.some.inj he'
    refine ⟨e, (mem_lastN_iff (by omega) e).mpr ⟨j, by omega, he⟩, by rw [hec]; exact h3, by rw [heg]; exact h4⟩
  · rintro ⟨e, he, h3, h4⟩
    obtain ⟨j, hj, he⟩ := (mem_lastN_iff (by omega) e).mp he
    have hc := h.cost.get j (by omega) (by simp; omega)
    have hg := h.gap.get j (by omega) (by simp; omega)
    simp only [List.length_map, List.getElem?_map, he, Option.map_some, Option.some.injEq] at hc hg
    exact ⟨j, by omega, by omega, by rw [← hc]; exact h3, by rw [← hg]; exact h4⟩

theorem retry_filter {r : Bool} {s s1 : SQP P} (h : retry llt fuel r s = some (b, s1)) :
    (s1.filterSize, s1.costList, s1.gapList, s1.hist) = (s.filterSize, s.costList, s.gapList, s.hist) ∧
    s1.iter = s.iter ∧ s1.useFilter = s.useFilter :=
  ⟨retry_frame (fun s => (s.filterSize, s.costList, s.gapList, s.hist)) (fun _ _ _ _ _ _ _ _ _ _ _ _ => rfl)
    (fun _ _ _ => rfl) _ _ _ _ _ _ h,
   retry_frame iter (fun _ _ _ _ _ _ _ _ _ _ _ _ => rfl) (fun _ _ _ => rfl) _ _ _ _ _ _ h,
   retry_frame useFilter (fun _ _ _ _ _ _ _ _ _ _ _ _ => rfl) (fun _ _ _ => rfl) _ _ _ _ _ _ h⟩

theorem search_filter (s : SQP P) :
    ((updateReg (search s)).2.filterSize, (updateReg (search s)).2.costList, (updateReg (search s)).2.gapList,
      (updateReg (search s)).2.hist) = (s.filterSize, s.costList, s.gapList, s.hist) ∧
    (updateReg (search s)).2.iter = s.iter :=
  ⟨(updateReg_frame (fun s => (s.filterSize, s.costList, s.gapList, s.hist)) (fun _ _ _ => rfl) _).trans
    (search_frame (fun s => (s.filterSize, s.costList, s.gapList, s.hist)) (fun _ _ _ _ _ _ _ _ _ => rfl)
      (fun _ _ _ _ _ _ => rfl) (fun _ _ => rfl) s),
   (updateReg_frame iter (fun _ _ _ => rfl) _).trans
    (search_frame iter (fun _ _ _ _ _ _ _ _ _ => rfl) (fun _ _ _ _ _ _ => rfl) (fun _ _ => rfl) s)⟩

theorem body_filter {f : ℕ} {oldc oldg : List F} {s1 s2 : SQP P} {r : Option Bool} (hI : FilterInv f oldc oldg s1)
    (hl : s1.hist.length = s1.iter) (h : body llt fuel s1 = some (r, s2)) :
    FilterInv f oldc oldg s2 ∧ (r = none → s2.hist.length = s1.iter + 1 ∧ s2.iter = s1.iter) := by
  cases body_cases h with
  | gaveUp hr hb => exact ⟨hI.congr (retry_filter hr).1, fun h => by rw [h] at hb; cases hb⟩
  | converged s3 hr hk hs hb =>
    rw [hs]
    exact ⟨hI.congr (retry_filter hr).1, fun h => by rw [h] at hb; cases hb⟩
  | searched s3 hr hk hs hb =>
    have hI3 : FilterInv f oldc oldg (checked s3) := hI.congr (retry_filter hr).1
    have e := search_filter (checked s3).pushFilter
    rw [← hs] at e
    refine ⟨hI3.push.congr e.1, fun _ => ?_⟩
    have he := e.1
    simp only [Prod.mk.injEq] at he
    have hh := (retry_filter hr).1
    simp only [Prod.mk.injEq] at hh
    constructor
    · rw [he.2.2.2]
      change (s3.hist ++ [(s3.cost, s3.gap)]).length = _
      rw [hh.2.2.2, List.length_append, hl]; rfl
    · rw [e.2]; exact (retry_filter hr).2.1

theorem start_filter (hwf : FilterWF s) :
    FilterInv s.filterSize s.costList.items s.gapList.items (s.start xs us ri) :=
  ⟨rfl, hwf.1.holds, hwf.2.holds⟩

/-- after `n` iterations of a solve the filter holds the history of that solve. -/
theorem iterate_filter (hwf : FilterWF s) (n : ℕ) (r : Option Bool) (s1 : SQP P)
    (h : iterate llt fuel n (s.start xs us ri) = some (r, s1)) :
    FilterInv s.filterSize s.costList.items s.gapList.items s1 ∧
    (r = none → s1.hist.length = n ∧ s1.iter = n) := by
  have key := iterate_inv llt fuel
    (fun k s1 => FilterInv s.filterSize s.costList.items s.gapList.items s1 ∧ s1.hist.length = s1.iter ∧ s1.iter + k = n)
    (fun _ s1 => FilterInv s.filterSize s.costList.items s.gapList.items s1)
    (fun k s1 s2 hI h => by
      obtain ⟨i1, i2, i3⟩ := hI
      obtain ⟨j1, j2⟩ := body_filter i1 i2 h
      obtain ⟨j2, j3⟩ := j2 rfl
      refine ⟨j1.congr rfl, ?_, ?_⟩
      · change s2.hist.length = s2.iter + 1; omega
      · change s2.iter + 1 + k = n; omega)
    (fun k s1 b s2 hI h => (body_filter hI.1 hI.2.1 h).1)
    n (s.start xs us ri) ⟨start_filter hwf, rfl, Nat.zero_add n⟩ r s1 h
  rcases key with ⟨_, i1, i2, i3⟩ | ⟨b', h', h''⟩
  · exact ⟨i1, fun _ => ⟨by omega, by omega⟩⟩
  · exact ⟨h'', fun hr => by rw [hr] at h'; cases h'⟩

/-- `solve` keeps the buffers well-formed, so the next solve starts well-formed again. -/
theorem FilterWF.solve (hwf : FilterWF s) (h : solve llt fuel xs us m ri s = some (b, s')) : FilterWF s' := by
  rcases solve_cases h with h | ⟨s1, h1, h2⟩
  · exact (iterate_filter hwf m _ _ h).1.wf
  · have h1' := (iterate_filter hwf m _ _ h1).1
    cases extra_cases h2 with
    | off he hb' hs => rw [hs]; exact h1'.wf
    | gaveUp he hr hb' => exact (h1'.congr (retry_filter hr).1).wf
    | checked he s2 hr hs hb' => rw [hs]; exact (FilterInv.congr (s2 := SQP.checked s2) h1' (retry_filter hr).1).wf

/-- **C11 (SQP).**  With the filter line search and buffers of the configured size, at iteration `n` of a solve (direction
computed in `s2`, history pushed: `s3`) a step length is acceptable iff it lies in `[0,1]`, its trial does not blow up and
none of the last `min(filter_size, n + 1)` (cost, gap norm) pairs of *this* solve has both cost and gap norm `<=` those of
the trial.  The history has one pair per iteration, the last one being the current iterate's. -/
theorem C11_sqp_filter (hwf : FilterWF s) (huf : s.useFilter = true) (n : ℕ) {s1 s2 : SQP P}
    (h1 : iterate llt fuel n (s.start xs us ri) = some (none, s1)) (h2 : retry llt fuel true s1 = some (true, s2)) :
    let s3 := (checked s2).pushFilter
    s3.hist.length = n + 1 ∧ s3.hist = s1.hist ++ [(s2.cost, s2.gap)] ∧
    ∀ a, Acceptable s3 a ↔
      (ltb 1 a = false ∧ ltb a 0 = false ∧
        ¬ CostBlowsUp P (stepX P s2.xs s2.dx a) (stepU P s2.us s2.du a) ∧
        ¬ Dominated (lastN (min s.filterSize (n + 1)) s3.hist)
          (trajCost P (stepX P s2.xs s2.dx a) (stepU P s2.us s2.du a))
          (shootGapNorm P (stepX P s2.xs s2.dx a) (stepU P s2.us s2.du a))) := by
  simp only []
  obtain ⟨i1, i2⟩ := iterate_filter hwf n _ _ h1
  obtain ⟨i2, i3⟩ := i2 rfl
  obtain ⟨e1, e2, e3⟩ := retry_filter h2
  have hI : FilterInv s.filterSize s.costList.items s.gapList.items (checked s2).pushFilter :=
    FilterInv.push (i1.congr (s2 := checked s2) e1)
  have hhist : (checked s2).pushFilter.hist = s1.hist ++ [(s2.cost, s2.gap)] := by
    change s2.hist ++ [(s2.cost, s2.gap)] = _
    simp only [Prod.mk.injEq] at e1
    rw [e1.2.2.2]
  have hlen : (checked s2).pushFilter.hist.length = n + 1 := by rw [hhist, List.length_append, i2]; rfl
  have hiter : (checked s2).pushFilter.iter = n := by change s2.iter = n; rw [e2, i3]
  have hu : (checked s2).pushFilter.useFilter = true := by
    change s2.useFilter = true
    rw [e3]
    have : s1.useFilter = s.useFilter := by
      have hb : ∀ (s : SQP P) r s', body llt fuel s = some (r, s') → s'.useFilter = s.useFilter := fun s r s' h =>
        body_frame useFilter (fun _ _ _ _ _ _ _ _ _ _ _ _ => rfl) (fun _ _ _ => rfl)
          (fun _ _ _ _ _ _ _ _ _ => rfl) (fun _ _ _ _ _ _ => rfl) (fun _ _ _ _ => rfl) (fun _ _ _ _ => rfl)
          (fun _ _ => rfl) h
      rcases iterate_inv llt fuel (fun _ s1 => s1.useFilter = s.useFilter) (fun _ _ => True)
        (fun n s1 s2 hI h => (hb _ _ _ h).trans hI) (fun _ _ _ _ _ _ => trivial)
        n (s.start xs us ri) rfl none s1 h1 with ⟨_, h⟩ | ⟨_, h, _⟩
      · exact h
      · cases h
    rw [this]; exact huf
  refine ⟨hlen, hhist, fun a => ?_⟩
  unfold Acceptable
  rw [if_pos hu, hI.worse_iff (by rw [hlen, hiter]), hiter]
  rfl

/-! ## C12: solves do not interfere through the filter memory -/

/-- the solver with other buffer contents. -/
abbrev withBufs (g c : CBuf F) (s : SQP P) : SQP P := { s with gapList := g, costList := c }

theorem computeDirection_bufs (g c : CBuf F) (r : Bool) (s : SQP P) :
    computeDirection llt r (withBufs g c s) = (computeDirection llt r s).map (withBufs g c) := by
  have hfw : ∀ s : SQP P, forwardPass (withBufs g c s) = withBufs g c (forwardPass s) := by
    intro s
    have : ∀ n (s : SQP P), forUp n forwardStage (withBufs g c s) = withBufs g c (forUp n forwardStage s) := by
      intro n s
      induction n with
      | zero => rfl
      | succ n ih => rw [forUp_succ, ih]; rfl
    unfold forwardPass
    simp only []
    have h := this P.T { s with xGrad := 0, uGrad := 0 }
    simp only [withBufs] at h ⊢
    rw [h]
  unfold computeDirection
  cases r
  · simp only [Bool.false_eq_true, if_false]
    cases backwardPass llt s.data s.fs s.feas s.preg s.dreg s.bp with
    | ok b => simp only [Res.map_ok, ← hfw]
    | exn b => rfl
  · have hcd : (withBufs g c s).calcDiff = withBufs g c s.calcDiff := rfl
    simp only [if_true, hcd]
    cases backwardPass llt s.calcDiff.data s.calcDiff.fs s.calcDiff.feas s.calcDiff.preg s.calcDiff.dreg s.calcDiff.bp with
    | ok b => simp only [Res.map_ok, ← hfw]
    | exn b => rfl

theorem retry_bufs (g c : CBuf F) (n : ℕ) (r : Bool) (s : SQP P) :
    retry llt n r (withBufs g c s) = (retry llt n r s).map fun x => (x.1, withBufs g c x.2) := by
  induction n generalizing r s with
  | zero => rfl
  | succ n ih =>
    unfold retry
    rw [computeDirection_bufs]
    cases computeDirection llt r s with
    | ok s1 => rfl
    | exn s1 =>
      simp only [Res.map_exn]
      have h1 : (withBufs g c s1).increaseReg = withBufs g c s1.increaseReg := rfl
      rw [h1, ih]
      have h2 : (withBufs g c s1.increaseReg).preg = s1.increaseReg.preg := rfl
      have h3 : (withBufs g c s1.increaseReg).par = s1.increaseReg.par := rfl
      rw [h2, h3]
      split
      · rfl
      · rfl

theorem tryStep_bufs (g c : CBuf F) (a : F) (s : SQP P) :
    tryStep a (withBufs g c s) = (tryStep a s).map (withBufs g c) := by
  have hst : ∀ t (s : SQP P), tryStage a t (withBufs g c s) = (tryStage a t s).map (withBufs g c) := by
    intro t s
    unfold tryStage
    by_cases ht : 0 < t
    · simp only [ht, if_true]
      rw [apply_ite (Res.map (withBufs g c))]
      rfl
    · simp only [ht, if_false]
      rw [apply_ite (Res.map (withBufs g c))]
      rfl
  have hter : ∀ s : SQP P, tryTerminal a (withBufs g c s) = (tryTerminal a s).map (withBufs g c) := by
    intro s
    unfold tryTerminal
    simp only []
    rw [apply_ite (Res.map (withBufs g c))]
    rfl
  have hloop : ∀ n (s : SQP P), forUpR n (tryStage a) (withBufs g c s) = (forUpR n (tryStage a) s).map (withBufs g c) := by
    intro n s
    induction n with
    | zero => rfl
    | succ n ih =>
      rw [forUpR_succ, ih, forUpR_succ]
      cases forUpR n (tryStage a) s with
      | ok s1 => exact hst n s1
      | exn s1 => rfl
  unfold tryStep
  simp only []
  split
  · rfl
  · have h := hloop P.T { s with nTry := s.nTry + 1, costTry := 0, meritTry := 0, gapTry := 0 }
    simp only [withBufs] at h ⊢
    rw [h]
    cases forUpR P.T (tryStage a) { s with nTry := s.nTry + 1, costTry := 0, meritTry := 0, gapTry := 0 } with
    | ok s1 => exact hter s1
    | exn s1 => rfl

/-- the slots the filter looks at are equal. -/
def SameSlots (f it : ℕ) (g c g' c' : CBuf F) : Prop :=
  ∀ j, j < f → j ≤ it → c.get (f - 1 - j) = c'.get (f - 1 - j) ∧ g.get (f - 1 - j) = g'.get (f - 1 - j)

theorem lineSearch_bufs (as : List F) (s : SQP P) (g c : CBuf F)
    (h : SameSlots s.filterSize s.iter s.gapList s.costList g c) :
    lineSearch as (withBufs g c s) = ((lineSearch as s).1, withBufs g c (lineSearch as s).2) := by
  induction as generalizing s with
  | nil => rfl
  | cons a as ih =>
    have hf := tryStep_frame (P := P) (fun s => (s.filterSize, s.iter, s.gapList, s.costList))
      (fun _ _ _ _ _ _ _ _ _ => rfl) a { s with steplength := a }
    have ht := tryStep_bufs g c a { s with steplength := a }
    unfold lineSearch
    have e : ({ withBufs g c s with steplength := a } : SQP P) = withBufs g c { s with steplength := a } := rfl
    rw [e, ht]
    cases h1 : tryStep a { s with steplength := a } with
    | exn s1 =>
      rw [h1] at hf
      simp only [Res.map_exn]
      simp only [Res.st, Prod.mk.injEq] at hf
      exact ih s1 (by rw [hf.1, hf.2.1, hf.2.2.1, hf.2.2.2]; exact h)
    | ok s1 =>
      rw [h1] at hf
      simp only [Res.map_ok]
      simp only [Res.st, Prod.mk.injEq] at hf
      have h' : SameSlots s1.filterSize s1.iter s1.gapList s1.costList g c := by
        rw [hf.1, hf.2.1, hf.2.2.1, hf.2.2.2]; exact h
      have hw : (withBufs g c s1).worse = s1.worse := by
        rw [Bool.eq_iff_iff, worse_iff, worse_iff]
        unfold WorseThanMemory
        constructor
        · rintro ⟨j, j1, j2, j3, j4⟩
          exact ⟨j, j1, j2, by rw [(h' j j1 j2).1]; exact j3, by rw [(h' j j1 j2).2]; exact j4⟩
        · rintro ⟨j, j1, j2, j3, j4⟩
          exact ⟨j, j1, j2, by rw [← (h' j j1 j2).1]; exact j3, by rw [← (h' j j1 j2).2]; exact j4⟩
      by_cases hu : s1.useFilter = true
      · have hu' : (withBufs g c s1).useFilter = true := hu
        rw [if_pos hu', if_pos hu]
        by_cases hs : s1.worse = true
        · rw [if_pos (hw.trans hs), if_pos hs]
          have := ih { s1 with isWorse := s1.worse } h'
          rw [← this, hw]
        · rw [if_neg (by rw [hw]; exact hs), if_neg hs, hw]; rfl
      · have hu' : ¬ (withBufs g c s1).useFilter = true := hu
        rw [if_neg hu', if_neg hu]
        by_cases hs : ltb s1.meritTry s1.merit = true
        · have hs' : ltb (withBufs g c s1).meritTry (withBufs g c s1).merit = true := hs
          rw [if_pos hs', if_pos hs]; rfl
        · have hs' : ¬ ltb (withBufs g c s1).meritTry (withBufs g c s1).merit = true := hs
          rw [if_neg hs', if_neg hs]
          exact ih s1 h'

theorem search_bufs (s : SQP P) (g c : CBuf F) (h : SameSlots s.filterSize s.iter s.gapList s.costList g c) :
    search (withBufs g c s) = withBufs g c (search s) := by
  unfold search
  have e : (withBufs g c s).par = s.par := rfl
  rw [e, lineSearch_bufs _ s g c h]
  simp only []
  by_cases hb : (lineSearch s.par.alphas s).1 = true
  · simp only [hb, if_true]
  · simp only [hb]; rfl

theorem updateReg_bufs (s : SQP P) (g c : CBuf F) :
    updateReg (withBufs g c s) = ((updateReg s).1, withBufs g c (updateReg s).2) := by
  unfold updateReg
  by_cases h1 : ltb s.par.thStepDec s.steplength = true <;>
    by_cases h2 : leb s.steplength s.par.thStepInc = true <;>
      simp [h1, h2, decreaseReg, increaseReg, withBufs]

/-- the simulation relation between a solver and one with another filter memory. -/
structure BufSim (f : ℕ) (oc og oc' og' : List F) (s t : SQP P) : Prop where
  eq : t = withBufs t.gapList t.costList s
  left : FilterInv f oc og s
  right : FilterInv f oc' og' t
  len : s.hist.length = s.iter

theorem slots_of_inv {f : ℕ} {oc og oc' og' : List F} {s t : SQP P} (h1 : FilterInv f oc og s) (h2 : FilterInv f oc' og' t)
    (hh : t.hist = s.hist) (hi : s.iter < s.hist.length) :
    SameSlots s.filterSize s.iter s.gapList s.costList t.gapList t.costList := by
  intro j hj1 hj2
  rw [h1.size] at hj1 ⊢
  have a1 := h1.cost.get j hj1 (by simp; omega)
  have a2 := h2.cost.get j hj1 (by rw [hh]; simp; omega)
  have b1 := h1.gap.get j hj1 (by simp; omega)
  have b2 := h2.gap.get j hj1 (by rw [hh]; simp; omega)
  rw [hh] at a2 b2
  exact ⟨Option.some.inj (a1.symm.trans a2), Option.some.inj (b1.symm.trans b2)⟩

theorem body_sim {f : ℕ} {oc og oc' og' : List F} {s t : SQP P} (h : BufSim f oc og oc' og' s t) :
    (body llt fuel s = none ∧ body llt fuel t = none) ∨
    ∃ r s1 t1, body llt fuel s = some (r, s1) ∧ body llt fuel t = some (r, t1) ∧
      t1 = withBufs t1.gapList t1.costList s1 ∧
      (r = none → BufSim f oc og oc' og' { s1 with iter := s1.iter + 1 } { t1 with iter := t1.iter + 1 }) := by
  obtain ⟨heq, hl, hr, hlen⟩ := h
  have hb := retry_bufs (llt := llt) t.gapList t.costList fuel true s
  rw [← heq] at hb
  cases h1 : retry llt fuel true s with
  | none =>
    rw [h1] at hb
    left
    constructor <;> unfold body
    · rw [h1]
    · rw [hb]; rfl
  | some x =>
    obtain ⟨b1, s1⟩ := x
    rw [h1] at hb
    simp only [Option.map_some] at hb
    right
    cases b1 with
    | false =>
      refine ⟨some false, s1, withBufs t.gapList t.costList s1, ?_, ?_, rfl, fun h => by cases h⟩
      · unfold body; rw [h1]
      · unfold body; rw [hb]
    | true =>
      by_cases hk : leb (checked s1).KKT (checked s1).tol = true
      · refine ⟨some true, checked s1, withBufs t.gapList t.costList (checked s1), ?_, ?_, rfl, fun h => by cases h⟩
        · unfold body; rw [h1]; simp only []; rw [if_pos hk]
        · unfold body; rw [hb]; simp only []
          have hk' : leb (checked (withBufs t.gapList t.costList s1)).KKT
            (checked (withBufs t.gapList t.costList s1)).tol = true := hk
          rw [if_pos hk']; rfl
      · have hI3 : FilterInv f oc og (checked s1) := hl.congr (retry_filter h1).1
        have hI3' : FilterInv f oc' og' (checked (withBufs t.gapList t.costList s1)) :=
          hr.congr (retry_filter hb).1
        have hit : s1.iter = s.iter := (retry_filter h1).2.1
        have hhist : s1.hist = s.hist := by
          have := (retry_filter h1).1
          simp only [Prod.mk.injEq] at this
          exact this.2.2.2
        have hslots := slots_of_inv hI3.push hI3'.push rfl (by
          change s1.iter < (s1.hist ++ [(s1.cost, s1.gap)]).length
          rw [hhist, hit, List.length_append, hlen]
          exact Nat.lt_succ_self _)
        have hsearch := search_bufs (checked s1).pushFilter _ _ hslots
        have hreg := updateReg_bufs (search (checked s1).pushFilter)
          (checked (withBufs t.gapList t.costList s1)).pushFilter.gapList
          (checked (withBufs t.gapList t.costList s1)).pushFilter.costList
        have hreg' : updateReg (search (checked (withBufs t.gapList t.costList s1)).pushFilter) =
            ((updateReg (search (checked s1).pushFilter)).1,
              withBufs (checked (withBufs t.gapList t.costList s1)).pushFilter.gapList
                (checked (withBufs t.gapList t.costList s1)).pushFilter.costList
                (updateReg (search (checked s1).pushFilter)).2) := by
          have e : (checked (withBufs t.gapList t.costList s1)).pushFilter =
            withBufs (checked (withBufs t.gapList t.costList s1)).pushFilter.gapList
              (checked (withBufs t.gapList t.costList s1)).pushFilter.costList (checked s1).pushFilter := rfl
          rw [e, hsearch]
          exact hreg
        have hbody : body llt fuel s = some (if (updateReg (search (checked s1).pushFilter)).1 then some false else none,
            (updateReg (search (checked s1).pushFilter)).2) := by
          unfold body; rw [h1]; simp only []; rw [if_neg hk]; split <;> rfl
        have hk' : ¬ leb (checked (withBufs t.gapList t.costList s1)).KKT
            (checked (withBufs t.gapList t.costList s1)).tol = true := hk
        have hbody' : body llt fuel t = some (if (updateReg (search (checked s1).pushFilter)).1 then some false else none,
            (updateReg (search (checked (withBufs t.gapList t.costList s1)).pushFilter)).2) := by
          unfold body; rw [hb]; simp only []; rw [if_neg hk', hreg']; split <;> rfl
        refine ⟨_, _, _, hbody, hbody', ?_, ?_⟩
        · rw [hreg']
        · intro hn
          obtain ⟨j1, j2⟩ := body_filter hl hlen hbody
          have hl' : t.hist.length = t.iter := by rw [heq]; exact hlen
          obtain ⟨k1, k2⟩ := body_filter hr hl' hbody'
          refine ⟨?_, j1.congr rfl, k1.congr rfl, ?_⟩
          · rw [hreg']
          · have h := j2 hn
            change (updateReg (search (checked s1).pushFilter)).2.hist.length =
              (updateReg (search (checked s1).pushFilter)).2.iter + 1
            rw [h.1, h.2]

theorem iterate_sim {f : ℕ} {oc og oc' og' : List F} (n : ℕ) {s t : SQP P} (h : BufSim f oc og oc' og' s t) :
    (iterate llt fuel n s = none ∧ iterate llt fuel n t = none) ∨
    ∃ r s1 t1, iterate llt fuel n s = some (r, s1) ∧ iterate llt fuel n t = some (r, t1) ∧
      t1 = withBufs t1.gapList t1.costList s1 := by
  induction n generalizing s t with
  | zero => exact .inr ⟨none, s, t, rfl, rfl, h.eq⟩
  | succ n ih =>
    unfold iterate
    rcases body_sim (llt := llt) (fuel := fuel) h with ⟨h1, h2⟩ | ⟨r, s1, t1, h1, h2, h3, h4⟩
    · left; rw [h1, h2]; exact ⟨rfl, rfl⟩
    · rw [h1, h2]
      cases r with
      | some b => exact .inr ⟨some b, s1, t1, rfl, rfl, h3⟩
      | none => exact ih (h4 rfl)

/-- **C12 (SQP).**  Two solvers that differ only in the contents of their filter memory (both of the configured size)
behave identically: `solve` either loops forever on both or returns the same verdict and leaves states that again differ
only in the filter memory.  So nothing a previous solve left in the filter can influence a later one. -/
theorem C12_sqp_filter_noninterference (g c : CBuf F) (hwf : FilterWF s) (hg : g.Full s.filterSize)
    (hc : c.Full s.filterSize) :
    (solve llt fuel xs us m ri s = none ∧ solve llt fuel xs us m ri { s with gapList := g, costList := c } = none) ∨
    ∃ b s' g' c', solve llt fuel xs us m ri s = some (b, s') ∧
      solve llt fuel xs us m ri { s with gapList := g, costList := c } = some (b, { s' with gapList := g', costList := c' }) := by
  have hsim : BufSim s.filterSize s.costList.items s.gapList.items c.items g.items (s.start xs us ri)
      ((withBufs g c s).start xs us ri) :=
    ⟨rfl, start_filter hwf, start_filter (s := withBufs g c s) ⟨hc, hg⟩, rfl⟩
  unfold solve
  rcases iterate_sim (llt := llt) (fuel := fuel) m hsim with ⟨h1, h2⟩ | ⟨r, s1, t1, h1, h2, h3⟩
  · rw [h1, h2]; exact .inl ⟨rfl, rfl⟩
  · rw [h1, h2]
    cases r with
    | some b => exact .inr ⟨b, s1, t1.gapList, t1.costList, rfl, by rw [h3]⟩
    | none =>
      have hb := retry_bufs (llt := llt) t1.gapList t1.costList fuel true s1
      rw [← h3] at hb
      have he : t1.extra = s1.extra := by rw [h3]
      simp only [extraIter, he]
      by_cases hx : s1.extra = true
      · simp only [hx, if_true]
        cases h4 : retry llt fuel true s1 with
        | none => rw [h4] at hb; rw [hb]; exact .inl ⟨rfl, rfl⟩
        | some x =>
          obtain ⟨b1, s2⟩ := x
          rw [h4] at hb
          rw [hb]
          cases b1 with
          | false => exact .inr ⟨false, s2, t1.gapList, t1.costList, rfl, rfl⟩
          | true => exact .inr ⟨_, _, t1.gapList, t1.costList, rfl, rfl⟩
      · simp only [hx]
        exact .inr ⟨false, s1, t1.gapList, t1.costList, rfl, by rw [h3]; rfl⟩

/-! ## C13, C14: filter of size 1; NaN -/

/-- **C13 (SQP).**  With `filter_size = 1` a step length in `[0,1]` whose trial does not blow up is acceptable at iteration
`n` iff the trial's cost is smaller than the current cost or its gap norm is smaller than the current gap norm; for values
that are not NaN. -/
theorem C13_sqp_filter_one [IEEE F] (hwf : FilterWF s) (huf : s.useFilter = true) (h1f : s.filterSize = 1) (n : ℕ)
    {s1 s2 : SQP P}
    (h1 : iterate llt fuel n (s.start xs us ri) = some (none, s1)) (h2 : retry llt fuel true s1 = some (true, s2)) (a : F)
    (ha : ltb 1 a = false) (ha0 : ltb a 0 = false)
    (hb : ¬ CostBlowsUp P (stepX P s2.xs s2.dx a) (stepU P s2.us s2.du a))
    (n1 : isnan s2.cost = false) (n2 : isnan s2.gap = false)
    (n3 : isnan (trajCost P (stepX P s2.xs s2.dx a) (stepU P s2.us s2.du a)) = false)
    (n4 : isnan (shootGapNorm P (stepX P s2.xs s2.dx a) (stepU P s2.us s2.du a)) = false) :
    Acceptable (checked s2).pushFilter a ↔
      ltb (trajCost P (stepX P s2.xs s2.dx a) (stepU P s2.us s2.du a)) s2.cost = true ∨
      ltb (shootGapNorm P (stepX P s2.xs s2.dx a) (stepU P s2.us s2.du a)) s2.gap = true := by
  obtain ⟨hl, hh, h⟩ := C11_sqp_filter hwf huf n h1 h2
  rw [h a, h1f]
  have hmin : min 1 (n + 1) = 1 := by omega
  have hlast : lastN 1 (checked s2).pushFilter.hist = [(s2.cost, s2.gap)] := by
    rw [hh]; simp [lastN]
  rw [hmin, hlast]
  simp only [ha, ha0, hb, not_false_eq_true, true_and]
  unfold Dominated
  simp only [List.mem_singleton, exists_eq_left]
  rw [IEEE.leb_not_ltb _ _ n1 n3, IEEE.leb_not_ltb _ _ n2 n4]
  cases ltb (trajCost P (stepX P s2.xs s2.dx a) (stepU P s2.us s2.du a)) s2.cost <;>
    cases ltb (shootGapNorm P (stepX P s2.xs s2.dx a) (stepU P s2.us s2.du a)) s2.gap <;> simp

/-- **C14 (SQP).**  Whatever the solver state: a trial with a NaN gap norm passes the filter (if its cost does not blow
up), a trial with a NaN merit is rejected by the merit test, and a trial whose accumulated cost is NaN, infinite or
`>= 1e30` at some node is rejected by both. -/
theorem C14_sqp_nan [IEEE F] (s : SQP P) (a : F) :
    (s.useFilter = true → ltb 1 a = false → ltb a 0 = false →
      ¬ CostBlowsUp P (stepX P s.xs s.dx a) (stepU P s.us s.du a) →
      isnan (shootGapNorm P (stepX P s.xs s.dx a) (stepU P s.us s.du a)) = true → Acceptable s a) ∧
    (s.useFilter = false →
      isnan (trajCost P (stepX P s.xs s.dx a) (stepU P s.us s.du a) +
        s.mu * shootGapNorm P (stepX P s.xs s.dx a) (stepU P s.us s.du a)) = true → ¬ Acceptable s a) ∧
    (CostBlowsUp P (stepX P s.xs s.dx a) (stepU P s.us s.du a) → ¬ Acceptable s a) := by
  refine ⟨?_, ?_, ?_⟩
  · intro h1 h2 h3 h4 h5
    refine ⟨h2, h3, h4, ?_⟩
    rw [if_pos h1]
    rintro ⟨j, _, _, _, h⟩
    rw [IEEE.leb_nan_right _ _ h5] at h
    cases h
  · rintro h1 h2 ⟨_, _, _, h⟩
    rw [if_neg (by rw [h1]; simp), IEEE.ltb_nan_left _ _ h2] at h
    cases h
  · rintro h ⟨_, _, h', _⟩
    exact h' h

/-- a trial whose total cost is NaN blows up. -/
theorem C14_sqp_nan_cost [IEEE F] (X : Traj P) (U : Ctrls P) (h : isnan (trajCost P X U) = true) : CostBlowsUp P X U := by
  right
  exact IEEE.bad_nan _ h

end

namespace Ex

/-- C11, C12: buffers of size 3, history of two iterations, a real decision. -/
example : FilterWF (SQP.setFilterSize 3 lqSolver) := (FilterWF.new _).grow 3 (by decide)
example : (SQP.iterate llt1 20 1 (SQP.start none none (1/2) (SQP.setFilterSize 3 lqSolver))).map
    (fun r => (r.1, r.2.hist.length, r.2.costList.items.length, r.2.nTry)) = some (none, 1, 3, 1) := by decide +kernel
example : (SQP.solve llt1 20 none none 10 0 (SQP.setFilterSize 3 lqSolver)).map (fun r => (r.1, r.2.iter, r.2.nTry)) =
    some (true, 1, 1) := by decide +kernel

/-- the solver after `set_filter_size(2); set_filter_size(1)`: capacity 2 but one element. -/
def shrunk : SQP lq := SQP.setFilterSize 1 (SQP.setFilterSize 2 lqSolver)

/-- **C11, negative part.**  After decreasing the filter size the filter reads the wrong slots: on a strictly convex
linear-quadratic problem the full step to the minimiser, which the solver otherwise takes at once
(`solve` returns true after one trial), is refused, as are all other step lengths, although the trial's gap norm 0 is
strictly smaller than the current one. -/
theorem C11_sqp_shrunk_filter_refuted :
    (SQP.solve llt1 20 none none 1 0 lqSolver).map (fun r => (r.2.nTry, r.2.nRej)) = some (1, 0) ∧
    (SQP.solve llt1 20 none none 1 0 shrunk).map (fun r => (r.2.nTry, r.2.nRej)) = some (10, 1) ∧
    (SQP.retry llt1 20 true (SQP.start none none 0 shrunk)).map (fun r => (r.1,
      decide (shootGapNorm lq (stepX lq r.2.xs r.2.dx 1) (stepU lq r.2.us r.2.du 1) < r.2.gap),
      decide (r.2.checkKKT.callbacks.pushFilter.filterSize = 1))) = some (true, true, true) := by
  refine ⟨?_, ?_, ?_⟩ <;> decide +kernel

/-- an exact Cholesky for size 1 over numbers with IEEE special values. -/
def lltD : LLT (Dbl ℚ) := fun n A =>
  match n, A with
  | 0, _ => some id
  | 1, A => if ltb (Dbl.fin 0) (A 0 0) then some (fun b i => b i / A 0 0) else none
  | _ + 2, _ => none

/-- constant 1×1 matrix. -/
def d1 (a : ℚ) : Mat (Dbl ℚ) 1 1 := Matrix.of fun _ _ => Dbl.fin a

/-- one node; the dynamics return NaN for every nonzero control; cost 0. -/
def nanGap : Problem (Dbl ℚ) where
  T := 1
  ndx := 1
  nu _ := 1
  ng _ := 0
  X := Dbl ℚ
  integrate x d := x + d 0
  diff a b := fun _ => b - a
  zeroX := Dbl.fin 0
  x0 := Dbl.fin 0
  calcR _ _ u := ⟨Dbl.fin 0, if u 0 = Dbl.fin 0 then Dbl.fin 1 else Dbl.nan, fun i => i.elim0⟩
  calcDiffR _ _ _ := ⟨fun _ => Dbl.fin 0, fun _ => Dbl.fin 0, d1 1, d1 0, d1 1, d1 1, d1 1,
    Matrix.of fun i => i.elim0, Matrix.of fun i => i.elim0⟩
  calcT _ := ⟨Dbl.fin 0, fun i => i.elim0⟩
  calcDiffT _ := ⟨fun _ => Dbl.fin 0, d1 1, Matrix.of fun i => i.elim0⟩
  badX _ := false
  lb _ i := i.elim0
  ub _ i := i.elim0

/-- C14, witness: with the filter line search the solver takes the full step into a trajectory whose gap is NaN; with the
merit line search it refuses all ten step lengths. -/
theorem C14_sqp_filter_accepts_nan :
    (SQP.solve lltD 20 none none 1 (Dbl.fin 0) (SQP.new (Data.zero nanGap))).map
      (fun r => (r.1, r.2.nTry, r.2.nRej, isnan (shootGapNorm nanGap r.2.xs r.2.us))) = some (false, 1, 0, true) ∧
    (SQP.solve lltD 20 none none 1 (Dbl.fin 0) { SQP.new (Data.zero nanGap) with useFilter := false }).map
      (fun r => (r.1, r.2.nTry, r.2.nRej, isnan (shootGapNorm nanGap r.2.xs r.2.us))) = some (false, 10, 1, false) := by
  constructor <;> decide +kernel

end Ex
end Mim
