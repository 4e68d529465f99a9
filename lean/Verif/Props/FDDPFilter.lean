import Verif.Props.DDPStop
import Verif.Model.Attributes
import Verif.Props.SQPFilter

/-!
# The filter line search of SolverFDDP (C11, C12, C13, C14)
-/
set_option linter.unusedSectionVars false
set_option linter.unusedSimpArgs false

namespace Mim
open Spec DDP Matrix

section
variable {F : Type} [Add F] [Sub F] [Mul F] [Div F] [Neg F] [Zero F] [One F] [FloatOps F] {P : Problem F}
variable {llt : LLT F} {fuel : ℕ} {xs : Option (Traj P)} {us : Option (Ctrls P)} {m : ℕ} {fe : Bool} {ri : F} {s s' : DDP P}
  {b : Bool}

/-- The filter buffers have the configured size; true after construction and preserved by everything except decreasing the
filter size (`FDDPWF.new`, `FDDPWF.grow`, `FDDPWF.solve`). -/
def FDDPWF (s : DDP P) : Prop := s.m.costList.Full s.c.filterSize ∧ s.m.gapList.Full s.c.filterSize

theorem FDDPWF.new (d : Data P) : FDDPWF (DDP.new d) := by
  unfold FDDPWF DDP.new CBuf.Full CBuf.empty CBuf.resize
  simp

theorem FDDPWF.grow (h : FDDPWF s) (n : ℕ) (hn : s.c.filterSize ≤ n) : FDDPWF (s.setFilterSize n) :=
  ⟨CBuf.resize_full h.1 hn, CBuf.resize_full h.2 hn⟩

/-- the filter holds the last entries of `old ++` the history of this solve. -/
structure FDDPInv (f : ℕ) (oldc oldg : List F) (s : DDP P) : Prop where
  size : s.c.filterSize = f
  cost : s.m.costList.Holds f oldc (s.hist.map Prod.fst)
  gap : s.m.gapList.Holds f oldg (s.hist.map Prod.snd)

theorem FDDPInv.wf {f : ℕ} {oldc oldg : List F} (h : FDDPInv f oldc oldg s) : FDDPWF s := by
  unfold FDDPWF
  rw [h.size]; exact ⟨h.cost.1, h.gap.1⟩

theorem FDDPInv.push {f : ℕ} {oldc oldg : List F} (h : FDDPInv f oldc oldg s) : FDDPInv f oldc oldg (pushFDDP s) := by
  refine ⟨h.size, ?_, ?_⟩
  · change (s.m.costList.push s.e.cost).Holds f oldc ((s.hist ++ [(s.e.cost, s.e.gap)]).map Prod.fst)
    rw [List.map_append]; exact h.cost.push s.e.cost
  · change (s.m.gapList.push s.e.gap).Holds f oldg ((s.hist ++ [(s.e.cost, s.e.gap)]).map Prod.snd)
    rw [List.map_append]; exact h.gap.push s.e.gap

theorem FDDPInv.congr {f : ℕ} {oldc oldg : List F} {s1 s2 : DDP P} (h : FDDPInv f oldc oldg s1)
    (he : (s2.c.filterSize, s2.m.costList, s2.m.gapList, s2.hist) = (s1.c.filterSize, s1.m.costList, s1.m.gapList, s1.hist)) :
    FDDPInv f oldc oldg s2 := by
  simp only [Prod.mk.injEq] at he
  obtain ⟨e1, e2, e3, e4⟩ := he
  exact ⟨e1.trans h.size, by rw [e2, e4]; exact h.cost, by rw [e3, e4]; exact h.gap⟩

/-- the memory test in terms of the history. -/
theorem FDDPInv.worse_iff {f : ℕ} {oldc oldg : List F} (h : FDDPInv f oldc oldg s) (hl : s.hist.length = s.iter + 1)
    (c g : F) : s.WorseThanMemory c g ↔ Dominated (lastN (min f (s.iter + 1)) s.hist) c g := by
  unfold DDP.WorseThanMemory Dominated
  rw [h.size]
  constructor
  · rintro ⟨j, h1, h2, h3, h4⟩
    have hc := h.cost.get j h1 (by simp; omega)
    have hg := h.gap.get j h1 (by simp; omega)
    simp only [List.length_map, List.getElem?_map, Option.map_eq_some_iff] at hc hg
    obtain ⟨e, he, hec⟩ := hc
    obtain ⟨e', he', heg⟩ := hg
    rw [he] at he'
    obtain rfl := Option.some.inj he'
    refine ⟨e, (mem_lastN_iff (by omega) e).mpr ⟨j, by omega, he⟩, by rw [hec]; exact h3, by rw [heg]; exact h4⟩
  · rintro ⟨e, he, h3, h4⟩
    obtain ⟨j, hj, he⟩ := (mem_lastN_iff (by omega) e).mp he
    have hc := h.cost.get j (by omega) (by simp; omega)
    have hg := h.gap.get j (by omega) (by simp; omega)
    simp only [List.length_map, List.getElem?_map, he, Option.map_some, Option.some.injEq] at hc hg
    exact ⟨j, by omega, by omega, by rw [← hc]; exact h3, by rw [← hg]; exact h4⟩

theorem fddp_retry_filter {s s1 : DDP P} (h : retry (fddp P) llt fuel s = some (b, s1)) :
    (s1.c.filterSize, s1.m.costList, s1.m.gapList, s1.hist) = (s.c.filterSize, s.m.costList, s.m.gapList, s.hist) ∧
    s1.iter = s.iter ∧ s1.c = s.c := by
  obtain ⟨p, q, e, d, r, e1⟩ := retry_frame fddp_laws h
  rw [e1]; exact ⟨rfl, rfl, rfl⟩

theorem fddp_search_filter (s : DDP P) :
    ((updateReg (search (fddp P) s)).2.c.filterSize, (updateReg (search (fddp P) s)).2.m.costList,
      (updateReg (search (fddp P) s)).2.m.gapList,
      (updateReg (search (fddp P) s)).2.hist) = (s.c.filterSize, s.m.costList, s.m.gapList, s.hist) ∧
    (updateReg (search (fddp P) s)).2.iter = s.iter := by
  obtain ⟨p, q, e1⟩ := updateReg_frame (search (fddp P) s)
  obtain ⟨_, _, _, _, _, _, _, _, _, _, _, _, _, _, _, e2, _⟩ := search_frame fddp_laws s
  rw [e1, e2]; exact ⟨rfl, rfl⟩

theorem fddp_body_filter {f : ℕ} {oldc oldg : List F} {s1 s2 : DDP P} {r : Option Bool} (hI : FDDPInv f oldc oldg s1)
    (hl : s1.hist.length = s1.iter) (h : body (fddp P) llt fuel s1 = some (r, s2)) :
    FDDPInv f oldc oldg s2 ∧ (r = none → s2.hist.length = s1.iter + 1 ∧ s2.iter = s1.iter) := by
  have hlen : ∀ s3, retry (fddp P) llt fuel s1 = some (true, s3) →
      (pushFDDP (checked (fddp P) s3)).hist.length = s1.iter + 1 := by
    intro s3 hr
    have hh := (fddp_retry_filter hr).1
    simp only [Prod.mk.injEq] at hh
    change (s3.hist ++ [_]).length = _
    rw [hh.2.2.2, List.length_append, hl]; rfl
  cases body_cases h with
  | gaveUp hr hb => exact ⟨hI.congr (fddp_retry_filter hr).1, fun h => by rw [h] at hb; cases hb⟩
  | converged s3 hr hk hs hb =>
    rw [hs]
    exact ⟨hI.congr (fddp_retry_filter hr).1, fun h => by rw [h] at hb; cases hb⟩
  | stuck s3 hr hk _ hs hb =>
    have hI3 : FDDPInv f oldc oldg (checked (fddp P) s3) := hI.congr (fddp_retry_filter hr).1
    have e := fddp_search_filter (pushFDDP (checked (fddp P) s3))
    rw [hs]
    exact ⟨hI3.push.congr e.1, fun h => by rw [h] at hb; cases hb⟩
  | next s3 hr hk _ hs hb =>
    have hI3 : FDDPInv f oldc oldg (checked (fddp P) s3) := hI.congr (fddp_retry_filter hr).1
    have e := fddp_search_filter (pushFDDP (checked (fddp P) s3))
    rw [hs]
    refine ⟨hI3.push.congr e.1, fun _ => ⟨?_, ?_⟩⟩
    · have he := e.1
      simp only [Prod.mk.injEq] at he
      change (updateReg (search (fddp P) (pushFDDP (checked (fddp P) s3)))).2.hist.length = _
      rw [he.2.2.2]; exact hlen s3 hr
    · change (updateReg (search (fddp P) (pushFDDP (checked (fddp P) s3)))).2.iter = _
      rw [e.2]; exact (fddp_retry_filter hr).2.1

theorem fddp_start_filter (hwf : FDDPWF s) :
    FDDPInv s.c.filterSize s.m.costList.items s.m.gapList.items (s.start xs us fe ri) :=
  ⟨rfl, hwf.1.holds, hwf.2.holds⟩

/-- after `n` iterations of a solve the filter holds the history of that solve. -/
theorem fddp_iterate_filter (hwf : FDDPWF s) (n : ℕ) (r : Option Bool) (s1 : DDP P)
    (h : iterate (fddp P) llt fuel n (s.start xs us fe ri) = some (r, s1)) :
    FDDPInv s.c.filterSize s.m.costList.items s.m.gapList.items s1 ∧
    (r = none → s1.hist.length = n ∧ s1.iter = n) := by
  have key := iterate_inv fuel
    (fun k s1 => FDDPInv s.c.filterSize s.m.costList.items s.m.gapList.items s1 ∧ s1.hist.length = s1.iter ∧ s1.iter + k = n)
    (fun _ s1 => FDDPInv s.c.filterSize s.m.costList.items s.m.gapList.items s1)
    (fun k s1 s2 hI h => by
      obtain ⟨i1, i2, i3⟩ := hI
      obtain ⟨j1, j2⟩ := fddp_body_filter i1 i2 h
      obtain ⟨j2, j3⟩ := j2 rfl
      refine ⟨j1.congr rfl, ?_, ?_⟩
      · change s2.hist.length = s2.iter + 1; omega
      · change s2.iter + 1 + k = n; omega)
    (fun k s1 b s2 hI h => (fddp_body_filter hI.1 hI.2.1 h).1)
    n (s.start xs us fe ri) ⟨fddp_start_filter hwf, rfl, Nat.zero_add n⟩ r s1 h
  rcases key with ⟨_, i1, i2, i3⟩ | ⟨b', h', h''⟩
  · exact ⟨i1, fun _ => ⟨by omega, by omega⟩⟩
  · exact ⟨h'', fun hr => by rw [hr] at h'; cases h'⟩

/-- `solve` keeps the buffers well-formed. -/
theorem FDDPWF.solve (hwf : FDDPWF s) (h : solve (fddp P) llt fuel xs us m fe ri s = some (b, s')) : FDDPWF s' := by
  rcases solve_cases h with h | ⟨_, h⟩
  · exact (fddp_iterate_filter hwf m _ _ h).1.wf
  · exact (fddp_iterate_filter hwf m _ _ h).1.wf

/-- **C11 (FDDP).**  With the filter line search and buffers of the configured size, at iteration `n` of a solve a step length
is acceptable iff it lies in `[0,1]`, its rollout does not blow up and none of the last `min(filter_size, n + 1)` (cost, gap
norm) pairs of *this* solve has both cost and gap norm `<=` those of the trial – where "gap norm of the trial" is the quantity
described by `C23_fddp_gap_try`. -/
theorem C11_fddp_filter (hwf : FDDPWF s) (huf : s.c.useFilter = true) (n : ℕ) {s1 s2 : DDP P}
    (h1 : iterate (fddp P) llt fuel n (s.start xs us fe ri) = some (none, s1))
    (h2 : retry (fddp P) llt fuel s1 = some (true, s2)) :
    let s3 := (fddp P).push (checked (fddp P) s2)
    s3.hist.length = n + 1 ∧ s3.hist = s1.hist ++ [(s2.e.cost, s2.e.gap)] ∧
    ∀ a, AcceptFDDP s3 a ↔
      (ltb 1 a = false ∧ ltb a 0 = false ∧ ¬ s2.policy.BlowsUp (s2.closes a) a ∧
        ¬ Dominated (lastN (min s.c.filterSize (n + 1)) s3.hist)
          (trajCost P (s2.policy.X (s2.closes a) a) (s2.policy.U (s2.closes a) a)) (s2.gapTryAt a)) := by
  simp only []
  obtain ⟨i1, i2⟩ := fddp_iterate_filter hwf n _ _ h1
  obtain ⟨i2, i3⟩ := i2 rfl
  obtain ⟨e1, e2, e3⟩ := fddp_retry_filter h2
  have hI : FDDPInv s.c.filterSize s.m.costList.items s.m.gapList.items ((fddp P).push (checked (fddp P) s2)) :=
    FDDPInv.push (i1.congr (s2 := checked (fddp P) s2) e1)
  have hhist : ((fddp P).push (checked (fddp P) s2)).hist = s1.hist ++ [(s2.e.cost, s2.e.gap)] := by
    change s2.hist ++ [(s2.e.cost, s2.e.gap)] = _
    simp only [Prod.mk.injEq] at e1
    rw [e1.2.2.2]
  have hlen : ((fddp P).push (checked (fddp P) s2)).hist.length = n + 1 := by rw [hhist, List.length_append, i2]; rfl
  have hiter : ((fddp P).push (checked (fddp P) s2)).iter = n := by change s2.iter = n; rw [e2, i3]
  have hu : ((fddp P).push (checked (fddp P) s2)).c.useFilter = true := by
    change s2.c.useFilter = true
    rw [e3, (iterate_headInv fddp_laws s xs us fe ri n h1).2.1]; exact huf
  refine ⟨hlen, hhist, fun a => ?_⟩
  unfold AcceptFDDP
  rw [if_pos hu, hI.worse_iff (by rw [hlen, hiter]), hiter]
  rfl

/-! ## C13, C14 -/

/-- **C13 (FDDP).**  With `filter_size = 1` a step length in `[0,1]` whose rollout does not blow up is acceptable iff the
trial's cost is smaller than the current cost or its (computed) gap norm is smaller than the current one; for values that are
not NaN. -/
theorem C13_fddp_filter_one [IEEE F] (hwf : FDDPWF s) (huf : s.c.useFilter = true) (h1f : s.c.filterSize = 1) (n : ℕ)
    {s1 s2 : DDP P} (h1 : iterate (fddp P) llt fuel n (s.start xs us fe ri) = some (none, s1))
    (h2 : retry (fddp P) llt fuel s1 = some (true, s2)) (a : F)
    (ha : ltb 1 a = false) (ha0 : ltb a 0 = false) (hb : ¬ s2.policy.BlowsUp (s2.closes a) a)
    (n1 : isnan s2.e.cost = false) (n2 : isnan s2.e.gap = false)
    (n3 : isnan (trajCost P (s2.policy.X (s2.closes a) a) (s2.policy.U (s2.closes a) a)) = false)
    (n4 : isnan (s2.gapTryAt a) = false) :
    AcceptFDDP ((fddp P).push (checked (fddp P) s2)) a ↔
      ltb (trajCost P (s2.policy.X (s2.closes a) a) (s2.policy.U (s2.closes a) a)) s2.e.cost = true ∨
      ltb (s2.gapTryAt a) s2.e.gap = true := by
  obtain ⟨hl, hh, h⟩ := C11_fddp_filter hwf huf n h1 h2
  rw [h a, h1f]
  have hmin : min 1 (n + 1) = 1 := by omega
  have hlast : lastN 1 ((fddp P).push (checked (fddp P) s2)).hist = [(s2.e.cost, s2.e.gap)] := by
    rw [hh]; simp [lastN]
  rw [hmin, hlast]
  simp only [ha, ha0, hb, not_false_eq_true, true_and]
  unfold Dominated
  simp only [List.mem_singleton, exists_eq_left]
  rw [IEEE.leb_not_ltb _ _ n1 n3, IEEE.leb_not_ltb _ _ n2 n4]
  cases ltb (trajCost P (s2.policy.X (s2.closes a) a) (s2.policy.U (s2.closes a) a)) s2.e.cost <;>
    cases ltb (s2.gapTryAt a) s2.e.gap <;> simp

/-- **C14 (DDP, FDDP).**  Whatever the solver state: a trial with a NaN gap norm passes FDDP's filter (if it does not blow up);
a trial with NaN predicted improvement or NaN actual decrease (and `d0` not below `th_grad`, candidate feasible) is rejected by
DDP; a trial that blows up is rejected by both. -/
theorem C14_ddp_nan [IEEE F] (s : DDP P) (a : F) :
    (s.c.useFilter = true → ltb 1 a = false → ltb a 0 = false → ¬ s.policy.BlowsUp (s.closes a) a →
      isnan (s.gapTryAt a) = true → AcceptFDDP s a) ∧
    (isnan (predicted s.m.d0 s.m.d1 a) = true → ¬ AcceptDDP s a) ∧
    (s.feas = true → ltb s.m.d0 s.c.par.thGrad = false →
      isnan (s.e.cost - trajCost P (s.policy.X true a) (s.policy.U true a)) = true → ¬ AcceptDDP s a) ∧
    (s.policy.BlowsUp true a → ¬ AcceptDDP s a) ∧ (s.policy.BlowsUp (s.closes a) a → ¬ AcceptFDDP s a) := by
  refine ⟨?_, ?_, ?_, ?_, ?_⟩
  · intro h1 h2 h3 h4 h5
    refine ⟨h2, h3, h4, ?_⟩
    rw [if_pos h1]
    rintro ⟨j, _, _, _, h⟩
    rw [IEEE.leb_nan_right _ _ h5] at h
    cases h
  · rintro h1 ⟨_, _, _, h, _⟩
    rw [IEEE.leb_nan_right _ _ h1] at h
    cases h
  · rintro h1 h2 h3 ⟨_, _, _, _, h⟩
    rw [h1, h2, IEEE.ltb_nan_right _ _ h3] at h
    simp at h
  · rintro h ⟨_, _, h', _⟩
    exact h' h
  · rintro h ⟨_, _, h', _⟩
    exact h' h

/-! ## C12 -/

/-- the solver with other buffer contents. -/
def withFBufs (g c : CBuf F) (s : DDP P) : DDP P := { s with m := { s.m with gapList := g, costList := c } }

theorem fddp_retry_bufs (g c : CBuf F) (n : ℕ) (s : DDP P) :
    retry (fddp P) llt n (withFBufs g c s) = (retry (fddp P) llt n s).map fun r => (r.1, withFBufs g c r.2) := by
  have hdir : ∀ r (s : DDP P), dirFDDP llt r (withFBufs g c s) = (dirFDDP llt r s).map (withFBufs g c) := by
    intro r s
    cases r <;> (change Res.map _ _ = (Res.map _ _).map _; rw [map_map]; rfl)
  induction n generalizing s with
  | zero => rfl
  | succ n ih =>
    unfold retry
    rw [show (fddp P).dir llt (withFBufs g c s).recalc (withFBufs g c s) =
      ((fddp P).dir llt s.recalc s).map (withFBufs g c) from hdir _ s]
    cases (fddp P).dir llt s.recalc s with
    | ok s1 => rfl
    | exn s1 =>
      simp only [Res.map]
      change (if eqb (increaseReg { s1 with recalc := false }).preg s1.c.par.regMax = true then _
        else retry (fddp P) llt n (withFBufs g c (increaseReg { s1 with recalc := false }))) = _
      rw [ih]
      split
      · rename_i h; rw [if_pos (by exact h)]; rfl
      · rename_i h; rw [if_neg (by exact h)]

theorem fddp_try_bufs (g c : CBuf F) (a : F) (s : DDP P) :
    tryFDDP a (withFBufs g c s) = (tryFDDP a s).map (withFBufs g c) := by
  unfold tryFDDP
  split
  · rfl
  · have h1 := forUpR_map (f := stageFDDP (P := P) (s.feas || eqb a 1) a) (g := withFBufs g c)
      (fun t s' => by unfold stageFDDP; simp only []; rw [← Res.throwIf_map]; rfl) P.T
      { s with y := { s.y with cost := 0, gap := 0, xnext := P.x0 } }
    have h2 : ∀ s' : DDP P, finishFDDP (s.feas || eqb a 1) a (withFBufs g c s') =
        (finishFDDP (s.feas || eqb a 1) a s').map (withFBufs g c) := fun s => by
      unfold finishFDDP; simp only []; rw [← Res.throwIf_map]; rfl
    change ((forUpR P.T (stageFDDP (s.feas || eqb a 1) a)
      (withFBufs g c { s with y := { s.y with cost := 0, gap := 0, xnext := P.x0 } })).bind
        (finishFDDP (s.feas || eqb a 1) a)).bind _ = _
    rw [h1, Res.bind_map h2, Res.bind_map]
    intro s; rfl

theorem fddp_test_bufs (g c : CBuf F) (a : F) (s : DDP P)
    (h : SameSlots s.c.filterSize s.iter s.m.gapList s.m.costList g c) :
    testFDDP a (withFBufs g c s) = ((testFDDP a s).1, withFBufs g c (testFDDP a s).2) := by
  unfold testFDDP
  cases hu : s.c.useFilter
  · simp only [withFBufs, hu]; rfl
  · have e : SQP.filterLoop c g s.c.filterSize s.iter s.y.cost s.y.gap s.c.filterSize 0 =
        SQP.filterLoop s.m.costList s.m.gapList s.c.filterSize s.iter s.y.cost s.y.gap s.c.filterSize 0 := by
      rw [Bool.eq_iff_iff, SQP.filterLoop_iff, SQP.filterLoop_iff]
      constructor
      · rintro ⟨j, i1, i2, j1, j2, j3, j4⟩
        exact ⟨j, i1, i2, j1, j2, by rw [(h j j1 j2).1]; exact j3, by rw [(h j j1 j2).2]; exact j4⟩
      · rintro ⟨j, i1, i2, j1, j2, j3, j4⟩
        exact ⟨j, i1, i2, j1, j2, by rw [← (h j j1 j2).1]; exact j3, by rw [← (h j j1 j2).2]; exact j4⟩
    simp only [withFBufs, hu, if_true, e]

theorem fddp_lineSearch_bufs (as : List F) (s : DDP P) (g c : CBuf F)
    (h : SameSlots s.c.filterSize s.iter s.m.gapList s.m.costList g c) :
    lineSearch (fddp P) as (withFBufs g c s) =
      ((lineSearch (fddp P) as s).1, withFBufs g c (lineSearch (fddp P) as s).2) := by
  induction as generalizing s with
  | nil => rfl
  | cons a as ih =>
    have ht := trial_lsframe fddp_laws a s
    unfold lineSearch
    rw [show (fddp P).trial a { withFBufs g c s with steplength := a, nTry := (withFBufs g c s).nTry + 1 } =
      ((fddp P).trial a { s with steplength := a, nTry := s.nTry + 1 }).map (withFBufs g c) from
        fddp_try_bufs g c a { s with steplength := a, nTry := s.nTry + 1 }]
    cases h1 : (fddp P).trial a { s with steplength := a, nTry := s.nTry + 1 } with
    | exn s1 =>
      rw [h1] at ht
      obtain ⟨_, _, _, _, _, _, _, _, _, _, _, _, _, _, e, _⟩ := ht
      change s1 = _ at e
      exact ih s1 (by rw [e]; exact h)
    | ok s1 =>
      rw [h1] at ht
      obtain ⟨_, _, _, _, _, _, _, _, _, _, _, _, _, _, e, _⟩ := ht
      change s1 = _ at e
      have h' : SameSlots s1.c.filterSize s1.iter s1.m.gapList s1.m.costList g c := by rw [e]; exact h
      simp only [Res.map]
      rw [show (fddp P).test a (withFBufs g c s1) = (((fddp P).test a s1).1, withFBufs g c ((fddp P).test a s1).2) from
        fddp_test_bufs g c a s1 h']
      simp only []
      split
      · have : ∀ s2 : DDP P, commitFDDP a (withFBufs g c s2) = withFBufs g c (commitFDDP a s2) := by
          intro s2
          unfold commitFDDP
          cases hu : s2.c.useFilter <;> (simp only [withFBufs, hu]; rfl)
        rw [show (fddp P).commit a (withFBufs g c ((fddp P).test a s1).2) =
          withFBufs g c ((fddp P).commit a ((fddp P).test a s1).2) from this _]
        rfl
      · refine ih _ ?_
        obtain ⟨_, _, _, _, _, e2⟩ := fddp_laws.test a s1
        rw [e2]; exact h'

theorem fddp_search_bufs (s : DDP P) (g c : CBuf F)
    (h : SameSlots s.c.filterSize s.iter s.m.gapList s.m.costList g c) :
    search (fddp P) (withFBufs g c s) = withFBufs g c (search (fddp P) s) := by
  have h := fddp_lineSearch_bufs s.c.par.alphas { s with recalc := false } g c h
  unfold search
  simp only []
  change (if (lineSearch (fddp P) s.c.par.alphas (withFBufs g c { s with recalc := false })).1 = true then
    (lineSearch (fddp P) s.c.par.alphas (withFBufs g c { s with recalc := false })).2
    else { (lineSearch (fddp P) s.c.par.alphas (withFBufs g c { s with recalc := false })).2 with
      nRej := (lineSearch (fddp P) s.c.par.alphas (withFBufs g c { s with recalc := false })).2.nRej + 1 }) = _
  rw [h]
  simp only []
  split <;> rfl

theorem fddp_updateReg_bufs (s : DDP P) (g c : CBuf F) :
    updateReg (withFBufs g c s) = ((updateReg s).1, withFBufs g c (updateReg s).2) := by
  unfold updateReg
  by_cases h1 : ltb s.c.par.thStepDec s.steplength = true <;>
    by_cases h2 : leb s.steplength s.c.par.thStepInc = true <;>
      simp [h1, h2, decreaseReg, increaseReg, withFBufs]

/-- the simulation relation between a solver and one with another filter memory. -/
structure FBufSim (f : ℕ) (oc og oc' og' : List F) (s t : DDP P) : Prop where
  eq : t = withFBufs t.m.gapList t.m.costList s
  left : FDDPInv f oc og s
  right : FDDPInv f oc' og' t
  len : s.hist.length = s.iter

theorem fddp_slots {f : ℕ} {oc og oc' og' : List F} {s t : DDP P} (h1 : FDDPInv f oc og s) (h2 : FDDPInv f oc' og' t)
    (hh : t.hist = s.hist) (hi : s.iter < s.hist.length) :
    SameSlots s.c.filterSize s.iter s.m.gapList s.m.costList t.m.gapList t.m.costList := by
  intro j hj1 hj2
  rw [h1.size] at hj1 ⊢
  have a1 := h1.cost.get j hj1 (by simp; omega)
  have a2 := h2.cost.get j hj1 (by rw [hh]; simp; omega)
  have b1 := h1.gap.get j hj1 (by simp; omega)
  have b2 := h2.gap.get j hj1 (by rw [hh]; simp; omega)
  rw [hh] at a2 b2
  exact ⟨Option.some.inj (a1.symm.trans a2), Option.some.inj (b1.symm.trans b2)⟩

theorem fddp_body_sim {f : ℕ} {oc og oc' og' : List F} {s t : DDP P} (h : FBufSim f oc og oc' og' s t) :
    (body (fddp P) llt fuel s = none ∧ body (fddp P) llt fuel t = none) ∨
    ∃ r s1 t1, body (fddp P) llt fuel s = some (r, s1) ∧ body (fddp P) llt fuel t = some (r, t1) ∧
      t1 = withFBufs t1.m.gapList t1.m.costList s1 ∧
      (r = none → FBufSim f oc og oc' og' { s1 with iter := s1.iter + 1 } { t1 with iter := t1.iter + 1 }) := by
  obtain ⟨heq, hl, hr, hlen⟩ := h
  have hb := fddp_retry_bufs (llt := llt) t.m.gapList t.m.costList fuel s
  rw [← heq] at hb
  cases h1 : retry (fddp P) llt fuel s with
  | none =>
    rw [h1] at hb
    left
    constructor <;> unfold body
    · rw [h1]
    · rw [hb]; rfl
  | some x =>
    obtain ⟨b1, s1⟩ := x
    rw [h1] at hb
    simp only [Option.map_some] at hb
    right
    cases b1 with
    | false =>
      refine ⟨some false, s1, withFBufs t.m.gapList t.m.costList s1, ?_, ?_, rfl, fun h => by cases h⟩
      · unfold body; rw [h1]
      · unfold body; rw [hb]
    | true =>
      set G := t.m.gapList with hG
      set C := t.m.costList with hC
      have hck : checked (fddp P) (withFBufs G C s1) = withFBufs G C (checked (fddp P) s1) := rfl
      by_cases hk : leb (checked (fddp P) s1).m.KKT (checked (fddp P) s1).c.tol = true
      · refine ⟨some true, checked (fddp P) s1, withFBufs G C (checked (fddp P) s1), ?_, ?_, rfl, fun h => by cases h⟩
        · unfold body; rw [h1]; simp only []; exact if_pos hk
        · unfold body; rw [hb]; simp only []; exact if_pos hk
      · have hI3 : FDDPInv f oc og (checked (fddp P) s1) := hl.congr (fddp_retry_filter h1).1
        have hI3' : FDDPInv f oc' og' (checked (fddp P) (withFBufs G C s1)) := hr.congr (fddp_retry_filter hb).1
        have hit : s1.iter = s.iter := (fddp_retry_filter h1).2.1
        have hhist : s1.hist = s.hist := by
          have := (fddp_retry_filter h1).1
          simp only [Prod.mk.injEq] at this
          exact this.2.2.2
        have hslots := fddp_slots hI3.push hI3'.push rfl (by
          change s1.iter < (s1.hist ++ [(s1.e.cost, s1.e.gap)]).length
          rw [hhist, hit, List.length_append, hlen]
          exact Nat.lt_succ_self _)
        set p := pushFDDP (checked (fddp P) s1) with hp
        set q := pushFDDP (checked (fddp P) (withFBufs G C s1)) with hq
        have hqp : q = withFBufs q.m.gapList q.m.costList p := rfl
        have hreg : updateReg (search (fddp P) q) = ((updateReg (search (fddp P) p)).1,
            withFBufs q.m.gapList q.m.costList (updateReg (search (fddp P) p)).2) := by
          rw [hqp, fddp_search_bufs p _ _ hslots]
          exact fddp_updateReg_bufs _ _ _
        have hbody : body (fddp P) llt fuel s = if (updateReg (search (fddp P) p)).1 then
            some (some false, (updateReg (search (fddp P) p)).2)
            else some (none, (updateReg (search (fddp P) p)).2.stopping.callbacks) := by
          unfold body; rw [h1]; simp only []; exact if_neg hk
        have hbody' : body (fddp P) llt fuel t = if (updateReg (search (fddp P) p)).1 then
            some (some false, withFBufs q.m.gapList q.m.costList (updateReg (search (fddp P) p)).2)
            else some (none, (withFBufs q.m.gapList q.m.costList (updateReg (search (fddp P) p)).2).stopping.callbacks) := by
          have : body (fddp P) llt fuel t = if (updateReg (search (fddp P) q)).1 then
            some (some false, (updateReg (search (fddp P) q)).2)
            else some (none, (updateReg (search (fddp P) q)).2.stopping.callbacks) := by
            unfold body; rw [hb]; simp only []; exact if_neg hk
          rw [this, hreg]
        cases hu : (updateReg (search (fddp P) p)).1 with
        | true =>
          rw [hu] at hbody hbody'
          exact ⟨some false, _, _, hbody, hbody', rfl, fun h => by cases h⟩
        | false =>
          rw [hu] at hbody hbody'
          refine ⟨none, _, _, hbody, hbody', rfl, fun _ => ?_⟩
          obtain ⟨j1, j2⟩ := fddp_body_filter hl hlen hbody
          have hl' : t.hist.length = t.iter := by rw [heq]; exact hlen
          obtain ⟨k1, k2⟩ := fddp_body_filter hr hl' hbody'
          refine ⟨rfl, j1.congr rfl, k1.congr rfl, ?_⟩
          have h := j2 rfl
          change (updateReg (search (fddp P) p)).2.stopping.callbacks.hist.length =
            (updateReg (search (fddp P) p)).2.stopping.callbacks.iter + 1
          rw [h.1, h.2]

theorem fddp_iterate_sim {f : ℕ} {oc og oc' og' : List F} (n : ℕ) {s t : DDP P} (h : FBufSim f oc og oc' og' s t) :
    (iterate (fddp P) llt fuel n s = none ∧ iterate (fddp P) llt fuel n t = none) ∨
    ∃ r s1 t1, iterate (fddp P) llt fuel n s = some (r, s1) ∧ iterate (fddp P) llt fuel n t = some (r, t1) ∧
      t1 = withFBufs t1.m.gapList t1.m.costList s1 := by
  induction n generalizing s t with
  | zero => exact .inr ⟨none, s, t, rfl, rfl, h.eq⟩
  | succ n ih =>
    unfold iterate
    rcases fddp_body_sim (llt := llt) (fuel := fuel) h with ⟨h1, h2⟩ | ⟨r, s1, t1, h1, h2, h3, h4⟩
    · left; rw [h1, h2]; exact ⟨rfl, rfl⟩
    · rw [h1, h2]
      cases r with
      | some b => exact .inr ⟨some b, s1, t1, rfl, rfl, h3⟩
      | none => exact ih (h4 rfl)

/-- **C12 (FDDP).**  Two solvers that differ only in the contents of their filter memory (both of the configured size)
behave identically: `solve` either loops forever on both or returns the same verdict and leaves states that again differ
only in the filter memory. -/
theorem C12_fddp_filter_noninterference (g c : CBuf F) (hwf : FDDPWF s) (hg : g.Full s.c.filterSize)
    (hc : c.Full s.c.filterSize) :
    (solve (fddp P) llt fuel xs us m fe ri s = none ∧ solve (fddp P) llt fuel xs us m fe ri (withFBufs g c s) = none) ∨
    ∃ b s' g' c', solve (fddp P) llt fuel xs us m fe ri s = some (b, s') ∧
      solve (fddp P) llt fuel xs us m fe ri (withFBufs g c s) = some (b, withFBufs g' c' s') := by
  have hsim : FBufSim s.c.filterSize s.m.costList.items s.m.gapList.items c.items g.items (s.start xs us fe ri)
      ((withFBufs g c s).start xs us fe ri) :=
    ⟨rfl, fddp_start_filter hwf, fddp_start_filter (s := withFBufs g c s) ⟨hc, hg⟩, rfl⟩
  unfold solve
  rcases fddp_iterate_sim (llt := llt) (fuel := fuel) m hsim with ⟨h1, h2⟩ | ⟨r, s1, t1, h1, h2, h3⟩
  · rw [h1, h2]; exact .inl ⟨rfl, rfl⟩
  · rw [h1, h2]
    cases r with
    | some b => exact .inr ⟨b, s1, t1.m.gapList, t1.m.costList, rfl, by rw [← h3]⟩
    | none => exact .inr ⟨false, s1, t1.m.gapList, t1.m.costList, rfl, by rw [← h3]⟩

end

namespace Ex

/-- C11, C12: buffers of size 3, history of two iterations. -/
example : FDDPWF (DDP.setFilterSize 3 lqDDP) := (FDDPWF.new _).grow 3 (by decide)
example : (DDP.iterate (fddp lq) llt1 20 2 (DDP.start none none false (1 / 2) (DDP.setFilterSize 3 lqDDP))).map
    (fun r => (r.1, r.2.hist.length, r.2.m.costList.items.length)) = some (none, 2, 3) := by decide +kernel

end Ex
end Mim
