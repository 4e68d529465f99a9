import Verif.Lemmas.CSQPReach
import Verif.Model.ProxQP

/-!
# `tryStep` and the line search of SolverPROXQP
-/
set_option linter.unusedSectionVars false
set_option linter.unusedSimpArgs false

namespace Mim
open Spec

namespace Spec
variable {F : Type} [Add F] [Sub F] [Mul F] [Div F] [Neg F] [Zero F] [One F] [FloatOps F]
/-- merit function with weights `muDyn` for the gaps and `muCon` for the constraint violation. -/
def pmerit (P : Problem F) (muDyn muCon : F) (xs : Traj P) (us : Ctrls P) : F :=
  trajCost P xs us + muDyn * shootGapNorm P xs us + muCon * conViol P xs us
end Spec

namespace PROX
variable {F : Type} [Add F] [Sub F] [Mul F] [Div F] [Neg F] [Zero F] [One F] [FloatOps F] {P : Problem F}
open CSQP (conUpTo eval_congr filterLoop_iff)

/-- state of the evaluation loop before node `t`. -/
structure TryInv (s0 : PROX P) (t : ℕ) (s1 : PROX P) : Prop where
  eq : ∃ d f, s1 = { s0 with
    data := d
    w := { s0.w with
      fs := f
      cost := sumUp t (nodeCost P s0.w.xs s0.w.us)
      gap := sumUp t fun j => norm1 (shootGap P s0.w.xs s0.w.us j)
      con := conUpTo s0.w.xs s0.w.us t } }
  run : ∀ j, j < t → s1.data.run j = P.calcR j (s0.w.xs j) (s0.w.us j)

theorem tryStage_st {s0 : PROX P} {t : ℕ} {s1 : PROX P} (hI : TryInv s0 t s1) : TryInv s0 (t + 1) (tryStage t s1).st := by
  obtain ⟨⟨d, f, rfl⟩, hrun⟩ := hI
  simp only [tryStage, Res.throwIf_st, Data.calcNode, Function.update_self]
  refine ⟨⟨_, _, rfl⟩, ?_⟩
  intro j hj
  rcases Nat.lt_succ_iff_lt_or_eq.mp hj with hj | rfl
  · simp only [Function.update_of_ne (Nat.ne_of_lt hj)]; exact hrun j hj
  · simp only [Function.update_self]

theorem tryStage_ok_iff {s0 : PROX P} {t : ℕ} {s1 : PROX P} (hI : TryInv s0 t s1) :
    (∃ s2, tryStage t s1 = .ok s2) ↔ bad (sumUp (t + 1) (nodeCost P s0.w.xs s0.w.us)) = false := by
  obtain ⟨⟨d, f, rfl⟩, hrun⟩ := hI
  simp only [tryStage, Data.calcNode, Function.update_self]
  change (∃ s2, Res.throwIf (bad (sumUp (t + 1) (nodeCost P s0.w.xs s0.w.us))) _ = .ok s2) ↔ _
  cases bad (sumUp (t + 1) (nodeCost P s0.w.xs s0.w.us)) <;> simp [Res.throwIf]

theorem tryLoop {s0 : PROX P} (h0 : TryInv s0 0 s0) (n : ℕ) :
    (∀ s1, forUpR n tryStage s0 = .ok s1 → TryInv s0 n s1 ∧
      ∀ t, t < n → bad (sumUp (t + 1) (nodeCost P s0.w.xs s0.w.us)) = false) ∧
    ((∀ t, t < n → bad (sumUp (t + 1) (nodeCost P s0.w.xs s0.w.us)) = false) → ∃ s1, forUpR n tryStage s0 = .ok s1) := by
  induction n with
  | zero =>
    refine ⟨fun s1 h => ?_, fun _ => ⟨s0, rfl⟩⟩
    cases h
    exact ⟨h0, fun t ht => absurd ht (Nat.not_lt_zero t)⟩
  | succ n ih =>
    constructor
    · intro s2 h
      obtain ⟨s1, h1, h2⟩ := Res.bind_eq_ok h
      obtain ⟨hI, hb⟩ := ih.1 s1 h1
      have hI2 := tryStage_st hI
      rw [h2] at hI2
      refine ⟨hI2, fun t ht => ?_⟩
      rcases Nat.lt_succ_iff_lt_or_eq.mp ht with ht | rfl
      · exact hb t ht
      · exact (tryStage_ok_iff hI).mp ⟨s2, h2⟩
    · intro hb
      obtain ⟨s1, h1⟩ := ih.2 fun t ht => hb t (Nat.lt_succ_of_lt ht)
      obtain ⟨hI, _⟩ := ih.1 s1 h1
      rw [forUpR_succ, h1, Res.bind_ok]
      exact (tryStage_ok_iff hI).mpr (hb n (Nat.lt_succ_self n))

/-- what a successful `tryStep` leaves behind. -/
structure TryPost (s : PROX P) (a : F) (s' : PROX P) : Prop where
  range : ltb 1 a = false ∧ ltb a 0 = false
  noBlow : ¬ CostBlowsUp P (stepX P s.xs s.dx a) (stepU P s.us s.du a)
  xt : ∀ j, j ≤ P.T → s'.w.xs j = stepX P s.xs s.dx a j
  ut : ∀ j, j < P.T → s'.w.us j = stepU P s.us s.du a j
  fresh : FreshCalc P s'.data (stepX P s.xs s.dx a) (stepU P s.us s.du a)
  cost : s'.w.cost = trajCost P (stepX P s.xs s.dx a) (stepU P s.us s.du a)
  gap : s'.w.gap = shootGapNorm P (stepX P s.xs s.dx a) (stepU P s.us s.du a)
  con : s'.w.con = conViol P (stepX P s.xs s.dx a) (stepU P s.us s.du a)
  merit : s'.w.merit = pmerit P s.c.muDyn s.c.muCon (stepX P s.xs s.dx a) (stepU P s.us s.du a)

theorem tryStep_spec (a : F) (s : PROX P) :
    (∀ s', tryStep a s = .ok s' → TryPost s a s') ∧
    (ltb 1 a = false → ltb a 0 = false → ¬ CostBlowsUp P (stepX P s.xs s.dx a) (stepU P s.us s.du a) →
      ∃ s', tryStep a s = .ok s') := by
  let s0 : PROX P := ({ s with nTry := s.nTry + 1, w := { s.w with cost := 0, merit := 0, gap := 0, con := 0 } } : PROX P).tryMove a
  have h0 : TryInv s0 0 s0 := ⟨⟨s0.data, s0.w.fs, rfl⟩, fun j hj => absurd hj (Nat.not_lt_zero j)⟩
  have hx : ∀ t, t ≤ P.T → s0.w.xs t = stepX P s.xs s.dx a t := by
    intro t ht
    change (if t ≤ P.T then _ else _) = _
    rw [if_pos ht]; rfl
  have hu : ∀ t, t < P.T → s0.w.us t = stepU P s.us s.du a t := by
    intro t ht
    change (if t < P.T ∧ P.nu t ≠ 0 then _ else _) = _
    split
    · rfl
    · rename_i h
      exact vec_eq_of_zero (by simpa [ht] using h) _ _
  obtain ⟨e1, e2, e3, e4, e5⟩ := eval_congr hx hu
  have hl := tryLoop h0 P.T
  have hstep : tryStep a s = if ltb 1 a || ltb a 0 then .exn { s with nTry := s.nTry + 1 }
      else (forUpR P.T tryStage s0).bind tryTerminal := rfl
  have hterm : ∀ s1, TryInv s0 P.T s1 →
      (tryTerminal s1).isOk = !(bad (trajCost P (stepX P s.xs s.dx a) (stepU P s.us s.du a))) ∧
      (∀ s', tryTerminal s1 = .ok s' → ltb 1 a = false ∧ ltb a 0 = false →
        ¬ CostBlowsUp P (stepX P s.xs s.dx a) (stepU P s.us s.du a) → TryPost s a s') := by
    rintro s1 ⟨⟨d, f, rfl⟩, hrun⟩
    have hcost : sumUp P.T (nodeCost P s0.w.xs s0.w.us) + (P.calcT (s0.w.xs P.T)).cost
        = trajCost P (stepX P s.xs s.dx a) (stepU P s.us s.du a) := e2
    have hcon : addViol (P.lb P.T) (P.ub P.T) (P.calcT (s0.w.xs P.T)).g (conUpTo s0.w.xs s0.w.us P.T)
        = conViol P (stepX P s.xs s.dx a) (stepU P s.us s.du a) := e4
    simp only [tryTerminal, Data.calcTer, Res.throwIf_isOk, hcost, hcon]
    refine ⟨trivial, ?_⟩
    intro s' hs' hr hnb
    obtain ⟨_, rfl⟩ := Res.throwIf_eq_ok hs'
    refine ⟨hr, hnb, hx, hu, ⟨?_, ?_⟩, rfl, e3, rfl, ?_⟩
    · intro t ht
      rw [← hx t ht.le, ← hu t ht]
      exact hrun t ht
    · rw [← hx _ le_rfl]
    · unfold Spec.pmerit
      rw [← e3]
      rfl
  rw [hstep]
  constructor
  · intro s' h
    split at h
    · cases h
    · rename_i hr
      simp only [Bool.or_eq_true, not_or, Bool.not_eq_true] at hr
      obtain ⟨s1, h1, h2⟩ := Res.bind_eq_ok h
      obtain ⟨hI, hb⟩ := hl.1 s1 h1
      obtain ⟨t1, t2⟩ := hterm s1 hI
      refine t2 s' h2 hr ?_
      rw [h2] at t1
      rw [← e5]
      rintro (⟨t, ht, hb'⟩ | hb')
      · rw [hb t ht] at hb'; cases hb'
      · rw [e2] at hb'
        rw [hb'] at t1
        cases t1
  · intro ha1 ha2 hnb
    rw [ha1, ha2]
    simp only [Bool.or_self, Bool.false_eq_true, if_false]
    rw [← e5] at hnb
    unfold CostBlowsUp at hnb
    push Not at hnb
    obtain ⟨s1, h1⟩ := hl.2 fun t ht => by simpa using hnb.1 t ht
    obtain ⟨hI, _⟩ := hl.1 s1 h1
    obtain ⟨t1, _⟩ := hterm s1 hI
    rw [h1, Res.bind_ok]
    have hb : bad (trajCost P s0.w.xs s0.w.us) = false := by simpa using hnb.2
    rw [e2] at hb
    rw [hb] at t1
    cases ht : tryTerminal s1 with
    | ok s2 => exact ⟨s2, rfl⟩
    | exn s2 => rw [ht] at t1; cases t1

/-- what `tryStep` writes. -/
theorem tryStep_set (a : F) (s : PROX P) :
    ∃ d w, (tryStep a s).st = { s with data := d, w := w, nTry := s.nTry + 1 } := by
  unfold tryStep
  simp only []
  split
  · exact ⟨s.data, s.w, rfl⟩
  · have h : ∀ s0 : PROX P, (∃ d w, s0 = { s with data := d, w := w, nTry := s.nTry + 1 }) →
        ∃ d w, (forUpR P.T tryStage s0).st = { s with data := d, w := w, nTry := s.nTry + 1 } := by
      intro s0 h0
      refine forUpR_inv_st (fun s1 => ∃ d w, s1 = { s with data := d, w := w, nTry := s.nTry + 1 }) _ _ _ h0 ?_
      rintro t _ s1 ⟨d, w, rfl⟩
      simp only [tryStage, Res.throwIf_st]
      exact ⟨_, _, rfl⟩
    obtain ⟨d, w, hd⟩ := h (({ s with nTry := s.nTry + 1, w := { s.w with cost := 0, merit := 0, gap := 0, con := 0 } } : PROX P).tryMove a)
      ⟨_, _, rfl⟩
    generalize forUpR P.T tryStage
      (({ s with nTry := s.nTry + 1, w := { s.w with cost := 0, merit := 0, gap := 0, con := 0 } } : PROX P).tryMove a) = r at hd
    cases r with
    | exn s1 => exact ⟨d, w, hd⟩
    | ok s1 =>
      simp only [Res.bind_ok]
      change s1 = _ at hd
      subst hd
      simp only [tryTerminal, Res.throwIf_st]
      exact ⟨_, _, rfl⟩

/-- the filter finds an entry at least as good as `(c, g, v)` among the slots it looks at. -/
def WorseThanMemory (s : PROX P) (c g v : F) : Prop :=
  ∃ j, j < s.c.filterSize ∧ j ≤ s.iter ∧ leb (s.costList.get (s.c.filterSize - 1 - j)) c = true ∧
    leb (s.gapList.get (s.c.filterSize - 1 - j)) g = true ∧ leb (s.conList.get (s.c.filterSize - 1 - j)) v = true

theorem worse_iff (s : PROX P) : s.worse = true ↔ s.WorseThanMemory s.w.cost s.w.gap s.w.con := by
  unfold worse WorseThanMemory
  rw [filterLoop_iff]
  constructor
  · rintro ⟨j, _, _, h1, h3⟩; exact ⟨j, by omega, by omega, h3⟩
  · rintro ⟨j, h1, h2, h3⟩; exact ⟨j, Nat.zero_le _, by omega, by omega, h3⟩

/-- Step length `a` passes in state `s`: it lies in `[0,1]`, the trial's cost does not blow up, and the trial passes the
filter test (not worse than memory), respectively strictly decreases the merit function. -/
def Acceptable (s : PROX P) (a : F) : Prop :=
  ltb 1 a = false ∧ ltb a 0 = false ∧ ¬ CostBlowsUp P (stepX P s.xs s.dx a) (stepU P s.us s.du a) ∧
  if s.c.useFilter = true then
    ¬ s.WorseThanMemory (trajCost P (stepX P s.xs s.dx a) (stepU P s.us s.du a))
        (shootGapNorm P (stepX P s.xs s.dx a) (stepU P s.us s.du a))
        (conViol P (stepX P s.xs s.dx a) (stepU P s.us s.du a))
  else ltb (pmerit P s.c.muDyn s.c.muCon (stepX P s.xs s.dx a) (stepU P s.us s.du a)) s.merit = true

/-- the accepted step: the candidate is the trial trajectory and the stored costs and next states are its own. -/
structure Stepped (s : PROX P) (a : F) (s' : PROX P) : Prop where
  xs : ∀ t, t ≤ P.T → s'.xs t = stepX P s.xs s.dx a t
  us : ∀ t, t < P.T → s'.us t = stepU P s.us s.du a t
  fresh : FreshCalc P s'.data (stepX P s.xs s.dx a) (stepU P s.us s.du a)
  acc : s'.acc = s.acc ++ [a]
  step : s'.steplength = a

/-- what the line search writes. -/
theorem lineSearch_set (as : List F) (s : PROX P) :
    ∃ d w iw n xs us fe ac sl, n ≤ s.nTry + as.length ∧
      (lineSearch as s).2 = { s with data := d, w := w, isWorse := iw, nTry := n, xs := xs, us := us, feas := fe
                                     acc := ac, steplength := sl } := by
  induction as generalizing s with
  | nil => exact ⟨s.data, s.w, s.isWorse, s.nTry, s.xs, s.us, s.feas, s.acc, s.steplength, le_rfl, rfl⟩
  | cons a as ih =>
    obtain ⟨d, w, hd⟩ := tryStep_set a { s with steplength := a }
    have tail : ∀ (s1 : PROX P) iw, s1 = { s with data := d, w := w, isWorse := iw, nTry := s.nTry + 1, steplength := a } →
        ∃ d w iw n xs us fe ac sl, n ≤ s.nTry + (a :: as).length ∧
          (lineSearch as s1).2 = { s with data := d, w := w, isWorse := iw, nTry := n, xs := xs, us := us
                                          feas := fe, acc := ac, steplength := sl } := by
      rintro s1 iw rfl
      obtain ⟨d2, w2, iw2, n, xs, us, fe, ac, sl, hn, h⟩ :=
        ih { s with data := d, w := w, isWorse := iw, nTry := s.nTry + 1, steplength := a }
      refine ⟨d2, w2, iw2, n, xs, us, fe, ac, sl, ?_, h⟩
      simp only [List.length_cons] at hn ⊢; omega
    unfold lineSearch
    cases ht : tryStep a { s with steplength := a } with
    | exn s1 =>
      rw [ht] at hd
      exact tail s1 s.isWorse hd
    | ok s1 =>
      rw [ht] at hd
      change s1 = _ at hd
      simp only []
      have acc : ∀ (s2 : PROX P) iw, s2 = { s with data := d, w := w, isWorse := iw, nTry := s.nTry + 1, steplength := a } →
          ∃ d w iw n xs us fe ac sl, n ≤ s.nTry + (a :: as).length ∧
          s2.accept a = { s with data := d, w := w, isWorse := iw, nTry := n, xs := xs, us := us
                                 feas := fe, acc := ac, steplength := sl } := by
        rintro s2 iw rfl
        refine ⟨d, w, iw, s.nTry + 1, _, _, _, _, _, ?_, rfl⟩
        simp only [List.length_cons]; omega
      split
      · split
        · exact tail _ _ (by rw [hd])
        · exact acc _ _ (by rw [hd])
      · split
        · exact acc s1 s.isWorse hd
        · exact tail s1 s.isWorse hd

theorem lineSearch_spec (as : List F) (s : PROX P) :
    ((lineSearch as s).1 = true →
      ∃ pre a post, as = pre ++ a :: post ∧ (∀ b ∈ pre, ¬ Acceptable s b) ∧ Acceptable s a ∧ Stepped s a (lineSearch as s).2) ∧
    ((lineSearch as s).1 = false → (∀ b ∈ as, ¬ Acceptable s b) ∧
      (lineSearch as s).2.xs = s.xs ∧ (lineSearch as s).2.us = s.us ∧ (lineSearch as s).2.acc = s.acc ∧
      (lineSearch as s).2.steplength = as.getLast?.getD s.steplength) := by
  induction as generalizing s with
  | nil => simp [lineSearch]
  | cons a as ih =>
    obtain ⟨hok, hex⟩ := tryStep_spec a { s with steplength := a }
    obtain ⟨d, w, hd⟩ := tryStep_set a { s with steplength := a }
    have hrec : ∀ (s1 : PROX P) iw, s1 = { s with data := d, w := w, isWorse := iw, nTry := s.nTry + 1, steplength := a } →
        ¬ Acceptable s a →
        ((lineSearch as s1).1 = true →
          ∃ pre a' post, a :: as = pre ++ a' :: post ∧ (∀ b ∈ pre, ¬ Acceptable s b) ∧ Acceptable s a' ∧
            Stepped s a' (lineSearch as s1).2) ∧
        ((lineSearch as s1).1 = false → (∀ b ∈ a :: as, ¬ Acceptable s b) ∧
          (lineSearch as s1).2.xs = s.xs ∧ (lineSearch as s1).2.us = s.us ∧ (lineSearch as s1).2.acc = s.acc ∧
          (lineSearch as s1).2.steplength = (a :: as).getLast?.getD s.steplength) := by
      rintro s1 iw rfl hna
      obtain ⟨i1, i2⟩ := ih { s with data := d, w := w, isWorse := iw, nTry := s.nTry + 1, steplength := a }
      have hcons : ∀ l : List F, (∀ b ∈ l, ¬ Acceptable s b) → ∀ b ∈ a :: l, ¬ Acceptable s b := by
        intro l hl b hb
        rcases List.mem_cons.mp hb with rfl | hb
        · exact hna
        · exact hl b hb
      constructor
      · intro h
        obtain ⟨pre, a', post, e1, e2, e3, e4⟩ := i1 h
        exact ⟨a :: pre, a', post, by rw [e1]; rfl, hcons pre e2, e3, ⟨e4.xs, e4.us, e4.fresh, e4.acc, e4.step⟩⟩
      · intro h
        obtain ⟨e1, e2, e3, e4, e5⟩ := i2 h
        refine ⟨hcons as e1, e2, e3, e4, ?_⟩
        rw [e5]
        cases as with
        | nil => rfl
        | cons b bs =>
          rw [List.getLast?_cons_cons, List.getLast?_eq_some_getLast (List.cons_ne_nil b bs)]
          rfl
    unfold lineSearch
    cases ht : tryStep a { s with steplength := a } with
    | exn s1 =>
      rw [ht] at hd
      refine hrec s1 s.isWorse hd ?_
      rintro ⟨h1, h2, h3, _⟩
      obtain ⟨s', hs'⟩ := hex h1 h2 h3
      rw [ht] at hs'
      cases hs'
    | ok s1 =>
      rw [ht] at hd
      change s1 = _ at hd
      have hp := hok s1 ht
      have hw : s1.worse = true ↔ s.WorseThanMemory (trajCost P (stepX P s.xs s.dx a) (stepU P s.us s.du a))
          (shootGapNorm P (stepX P s.xs s.dx a) (stepU P s.us s.du a))
          (conViol P (stepX P s.xs s.dx a) (stepU P s.us s.du a)) := by
        rw [worse_iff, hp.cost, hp.gap, hp.con, hd]; rfl
      have hacc : s1.acc = s.acc := by rw [hd]
      have hsl : s1.steplength = a := by rw [hd]
      have hst : ∀ iw, Stepped s a (({ s1 with isWorse := iw } : PROX P).accept a) :=
        fun iw => ⟨hp.xt, hp.ut, hp.fresh, by change s1.acc ++ [a] = _; rw [hacc], hsl⟩
      simp only []
      split
      · rename_i huf
        have huf' : s.c.useFilter = true := by rw [hd] at huf; exact huf
        split
        · rename_i hw'
          refine hrec _ _ (by rw [hd]) ?_
          rintro ⟨_, _, _, h⟩
          rw [if_pos huf'] at h
          exact h (hw.mp hw')
        · rename_i hw'
          refine ⟨fun _ => ⟨[], a, as, rfl, by simp, ⟨hp.range.1, hp.range.2, hp.noBlow, ?_⟩, hst _⟩, fun h => by simp at h⟩
          rw [if_pos huf']
          exact fun h => hw' (hw.mpr h)
      · rename_i huf
        have huf' : ¬ s.c.useFilter = true := by rw [hd] at huf; exact huf
        have hm : s1.merit = s.merit := by rw [hd]
        have hmt : s1.w.merit = pmerit P s.c.muDyn s.c.muCon (stepX P s.xs s.dx a) (stepU P s.us s.du a) := hp.merit
        split
        · rename_i hlt
          refine ⟨fun _ => ⟨[], a, as, rfl, by simp, ⟨hp.range.1, hp.range.2, hp.noBlow, ?_⟩, hst s1.isWorse⟩,
            fun h => by simp at h⟩
          rw [if_neg huf', ← hmt, ← hm]
          exact hlt
        · rename_i hlt
          refine hrec s1 s.isWorse hd ?_
          rintro ⟨_, _, _, h⟩
          rw [if_neg huf', ← hmt, ← hm] at h
          exact hlt h

end PROX
end Mim
