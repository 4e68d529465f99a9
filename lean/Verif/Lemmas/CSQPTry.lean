import Verif.Lemmas.CSQPLoop
import Verif.Spec.Constrained

/-!
# `tryStep` of SolverCSQP computes the trial of the specification; the line search takes the first acceptable step length
-/
set_option linter.unusedSectionVars false
set_option linter.unusedSimpArgs false

namespace Mim
open Spec
namespace CSQP
variable {F : Type} [Add F] [Sub F] [Mul F] [Div F] [Neg F] [Zero F] [One F] [FloatOps F] {P : Problem F}

/-- constraint violation of the nodes before `t`. -/
def conUpTo (xs : Traj P) (us : Ctrls P) (t : ℕ) : F :=
  forUp t (fun t acc => addViol (P.lb t) (P.ub t) (P.calcR t (xs t) (us t)).g acc) 0

/-- state of the evaluation loop before node `t`. -/
structure TryInv (s0 : CSQP P) (t : ℕ) (s1 : CSQP P) : Prop where
  eq : ∃ d f, s1 = { s0 with
    data := d
    w := { s0.w with
      fs := f
      cost := sumUp t (nodeCost P s0.w.xs s0.w.us)
      gap := sumUp t fun j => norm1 (shootGap P s0.w.xs s0.w.us j)
      con := conUpTo s0.w.xs s0.w.us t } }
  run : ∀ j, j < t → s1.data.run j = P.calcR j (s0.w.xs j) (s0.w.us j)

theorem tryStage_st {s0 : CSQP P} {t : ℕ} {s1 : CSQP P} (hI : TryInv s0 t s1) : TryInv s0 (t + 1) (tryStage t s1).st := by
  obtain ⟨⟨d, f, rfl⟩, hrun⟩ := hI
  simp only [tryStage, Res.throwIf_st, Data.calcNode, Function.update_self]
  refine ⟨⟨_, _, rfl⟩, ?_⟩
  intro j hj
  rcases Nat.lt_succ_iff_lt_or_eq.mp hj with hj | rfl
  · simp only [Function.update_of_ne (Nat.ne_of_lt hj)]; exact hrun j hj
  · simp only [Function.update_self]

theorem tryStage_ok_iff {s0 : CSQP P} {t : ℕ} {s1 : CSQP P} (hI : TryInv s0 t s1) :
    (∃ s2, tryStage t s1 = .ok s2) ↔ bad (sumUp (t + 1) (nodeCost P s0.w.xs s0.w.us)) = false := by
  obtain ⟨⟨d, f, rfl⟩, hrun⟩ := hI
  simp only [tryStage, Data.calcNode, Function.update_self]
  change (∃ s2, Res.throwIf (bad (sumUp (t + 1) (nodeCost P s0.w.xs s0.w.us))) _ = .ok s2) ↔ _
  cases bad (sumUp (t + 1) (nodeCost P s0.w.xs s0.w.us)) <;> simp [Res.throwIf]

theorem tryLoop {s0 : CSQP P} (h0 : TryInv s0 0 s0) (n : ℕ) :
    (∀ s1, forUpR n tryStage s0 = .ok s1 → TryInv s0 n s1 ∧
      ∀ t, t < n → bad (sumUp (t + 1) (nodeCost P s0.w.xs s0.w.us)) = false) ∧
    ((∀ t, t < n → bad (sumUp (t + 1) (nodeCost P s0.w.xs s0.w.us)) = false) → ∃ s1, forUpR n tryStage s0 = .ok s1) := by
  induction n with
  | zero =>
    refine ⟨fun s1 h => ?_, fun _ => ⟨s0, rfl⟩⟩
    cases h
    exact ⟨h0, fun t ht => absurd ht (Nat.not_lt_zero t)⟩
  | succ n ih =>
    constructor
    · intro s2 h
      obtain ⟨s1, h1, h2⟩ := Res.bind_eq_ok h
      obtain ⟨hI, hb⟩ := ih.1 s1 h1
      have hI2 := tryStage_st hI
      rw [h2] at hI2
      refine ⟨hI2, fun t ht => ?_⟩
      rcases Nat.lt_succ_iff_lt_or_eq.mp ht with ht | rfl
      · exact hb t ht
      · exact (tryStage_ok_iff hI).mp ⟨s2, h2⟩
    · intro hb
      obtain ⟨s1, h1⟩ := ih.2 fun t ht => hb t (Nat.lt_succ_of_lt ht)
      obtain ⟨hI, _⟩ := ih.1 s1 h1
      rw [forUpR_succ, h1, Res.bind_ok]
      exact (tryStage_ok_iff hI).mpr (hb n (Nat.lt_succ_self n))

/-- what a successful `tryStep` leaves behind. -/
structure TryPost (s : CSQP P) (a : F) (s' : CSQP P) : Prop where
  range : ltb 1 a = false ∧ ltb a 0 = false
  noBlow : ¬ CostBlowsUp P (stepX P s.xs s.q.v.dx a) (stepU P s.us s.q.v.du a)
  xt : ∀ j, j ≤ P.T → s'.w.xs j = stepX P s.xs s.q.v.dx a j
  ut : ∀ j, j < P.T → s'.w.us j = stepU P s.us s.q.v.du a j
  fresh : FreshCalc P s'.data (stepX P s.xs s.q.v.dx a) (stepU P s.us s.q.v.du a)
  cost : s'.w.cost = trajCost P (stepX P s.xs s.q.v.dx a) (stepU P s.us s.q.v.du a)
  gap : s'.w.gap = shootGapNorm P (stepX P s.xs s.q.v.dx a) (stepU P s.us s.q.v.du a)
  con : s'.w.con = conViol P (stepX P s.xs s.q.v.dx a) (stepU P s.us s.q.v.du a)
  merit : s'.w.merit = Spec.merit P s.c s.m.lagInf (stepX P s.xs s.q.v.dx a) (stepU P s.us s.q.v.du a)

/-- two trajectories that agree on the nodes of the problem have the same evaluation. -/
theorem eval_congr {xs xs' : Traj P} {us us' : Ctrls P} (hx : ∀ t, t ≤ P.T → xs t = xs' t) (hu : ∀ t, t < P.T → us t = us' t) :
    (∀ n, n ≤ P.T → sumUp n (nodeCost P xs us) = sumUp n (nodeCost P xs' us')) ∧
    trajCost P xs us = trajCost P xs' us' ∧ shootGapNorm P xs us = shootGapNorm P xs' us' ∧
    conViol P xs us = conViol P xs' us' ∧ (CostBlowsUp P xs us ↔ CostBlowsUp P xs' us') := by
  have h1 : ∀ n, n ≤ P.T → sumUp n (nodeCost P xs us) = sumUp n (nodeCost P xs' us') := by
    intro n hn
    refine sumUp_congr _ _ _ fun t ht => ?_
    unfold nodeCost
    rw [hx t (by omega), hu t (by omega)]
  have h2 : trajCost P xs us = trajCost P xs' us' := by
    unfold trajCost
    rw [h1 _ le_rfl, hx _ le_rfl]
  have h3 : shootGapNorm P xs us = shootGapNorm P xs' us' := by
    unfold shootGapNorm
    refine sumUp_congr _ _ _ fun t ht => ?_
    unfold shootGap
    rw [hx t (by omega), hx (t + 1) (by omega), hu t ht]
  have h4 : conViol P xs us = conViol P xs' us' := by
    have : ∀ n, n ≤ P.T → conUpTo xs us n = conUpTo (P := P) xs' us' n := by
      intro n
      induction n with
      | zero => intro _; rfl
      | succ n ih =>
        intro hn
        have := ih (by omega)
        unfold conUpTo at this ⊢
        rw [forUp_succ, forUp_succ, this, hx n (by omega), hu n (by omega)]
    have hT := this _ le_rfl
    unfold conUpTo at hT
    unfold conViol
    rw [hT, hx _ le_rfl]
  refine ⟨h1, h2, h3, h4, ?_⟩
  unfold CostBlowsUp
  rw [h2]
  constructor
  · rintro (⟨t, ht, h⟩ | h)
    · exact .inl ⟨t, ht, by rw [← h1 _ (by omega)]; exact h⟩
    · exact .inr h
  · rintro (⟨t, ht, h⟩ | h)
    · exact .inl ⟨t, ht, by rw [h1 _ (by omega)]; exact h⟩
    · exact .inr h

theorem tryStep_spec (a : F) (s : CSQP P) :
    (∀ s', tryStep a s = .ok s' → TryPost s a s') ∧
    (ltb 1 a = false → ltb a 0 = false → ¬ CostBlowsUp P (stepX P s.xs s.q.v.dx a) (stepU P s.us s.q.v.du a) →
      ∃ s', tryStep a s = .ok s') := by
  let s0 : CSQP P := ({ s with nTry := s.nTry + 1, w := { s.w with cost := 0, merit := 0, gap := 0, con := 0 } } : CSQP P).tryMove a
  have h0 : TryInv s0 0 s0 := ⟨⟨s0.data, s0.w.fs, rfl⟩, fun j hj => absurd hj (Nat.not_lt_zero j)⟩
  have hx : ∀ t, t ≤ P.T → s0.w.xs t = stepX P s.xs s.q.v.dx a t := by
    intro t ht
    change (if t ≤ P.T then _ else _) = _
    rw [if_pos ht]; rfl
  have hu : ∀ t, t < P.T → s0.w.us t = stepU P s.us s.q.v.du a t := by
    intro t ht
    change (if t < P.T ∧ P.nu t ≠ 0 then _ else _) = _
    split
    · rfl
    · rename_i h
      exact vec_eq_of_zero (by simpa [ht] using h) _ _
  obtain ⟨e1, e2, e3, e4, e5⟩ := eval_congr hx hu
  have hl := tryLoop h0 P.T
  have hstep : tryStep a s = if ltb 1 a || ltb a 0 then .exn { s with nTry := s.nTry + 1 }
      else (forUpR P.T tryStage s0).bind tryTerminal := rfl
  have hterm : ∀ s1, TryInv s0 P.T s1 →
      (tryTerminal s1).isOk = !(bad (trajCost P (stepX P s.xs s.q.v.dx a) (stepU P s.us s.q.v.du a))) ∧
      (∀ s', tryTerminal s1 = .ok s' → ltb 1 a = false ∧ ltb a 0 = false →
        ¬ CostBlowsUp P (stepX P s.xs s.q.v.dx a) (stepU P s.us s.q.v.du a) → TryPost s a s') := by
    rintro s1 ⟨⟨d, f, rfl⟩, hrun⟩
    have hcost : sumUp P.T (nodeCost P s0.w.xs s0.w.us) + (P.calcT (s0.w.xs P.T)).cost
        = trajCost P (stepX P s.xs s.q.v.dx a) (stepU P s.us s.q.v.du a) := e2
    have hcon : addViol (P.lb P.T) (P.ub P.T) (P.calcT (s0.w.xs P.T)).g (conUpTo s0.w.xs s0.w.us P.T)
        = conViol P (stepX P s.xs s.q.v.dx a) (stepU P s.us s.q.v.du a) := e4
    simp only [tryTerminal, Data.calcTer, Res.throwIf_isOk, hcost, hcon]
    refine ⟨trivial, ?_⟩
    intro s' hs' hr hnb
    obtain ⟨_, rfl⟩ := Res.throwIf_eq_ok hs'
    refine ⟨hr, hnb, hx, hu, ⟨?_, ?_⟩, rfl, e3, rfl, ?_⟩
    · intro t ht
      rw [← hx t ht.le, ← hu t ht]
      exact hrun t ht
    · rw [← hx _ le_rfl]
    · unfold Spec.merit
      rw [← e3]
      rfl
  rw [hstep]
  constructor
  · intro s' h
    split at h
    · cases h
    · rename_i hr
      simp only [Bool.or_eq_true, not_or, Bool.not_eq_true] at hr
      obtain ⟨s1, h1, h2⟩ := Res.bind_eq_ok h
      obtain ⟨hI, hb⟩ := hl.1 s1 h1
      obtain ⟨t1, t2⟩ := hterm s1 hI
      refine t2 s' h2 hr ?_
      rw [h2] at t1
      rw [← e5]
      rintro (⟨t, ht, hb'⟩ | hb')
      · rw [hb t ht] at hb'; cases hb'
      · rw [e2] at hb'
        rw [hb'] at t1
        cases t1
  · intro ha1 ha2 hnb
    rw [ha1, ha2]
    simp only [Bool.or_self, Bool.false_eq_true, if_false]
    rw [← e5] at hnb
    unfold CostBlowsUp at hnb
    push Not at hnb
    obtain ⟨s1, h1⟩ := hl.2 fun t ht => by simpa using hnb.1 t ht
    obtain ⟨hI, _⟩ := hl.1 s1 h1
    obtain ⟨t1, _⟩ := hterm s1 hI
    rw [h1, Res.bind_ok]
    have hb : bad (trajCost P s0.w.xs s0.w.us) = false := by simpa using hnb.2
    rw [e2] at hb
    rw [hb] at t1
    cases ht : tryTerminal s1 with
    | ok s2 => exact ⟨s2, rfl⟩
    | exn s2 => rw [ht] at t1; cases t1

theorem filterLoop_iff (cl gl nl : CBuf F) (fsz mx : ℕ) (c g v : F) (n count : ℕ) :
    filterLoop cl gl nl fsz mx c g v n count = true ↔
      ∃ j, count ≤ j ∧ j < count + n ∧ j < mx ∧ leb (cl.get (fsz - 1 - j)) c = true ∧
        leb (gl.get (fsz - 1 - j)) g = true ∧ leb (nl.get (fsz - 1 - j)) v = true := by
  induction n generalizing count with
  | zero =>
    simp only [filterLoop, Bool.false_eq_true, false_iff, not_exists]
    intro j h; omega
  | succ n ih =>
    unfold filterLoop
    split
    · rename_i h1
      split
      · rename_i h2
        simp only [Bool.and_eq_true] at h2
        simp only [true_iff]
        exact ⟨count, le_rfl, by omega, h1, h2.1.1, h2.1.2, h2.2⟩
      · rename_i h2
        simp only [Bool.and_eq_true] at h2
        rw [ih]
        constructor
        · rintro ⟨j, h3, h4, h5⟩
          exact ⟨j, by omega, by omega, h5⟩
        · rintro ⟨j, h3, h4, h5, h6, h7, h8⟩
          refine ⟨j, ?_, by omega, h5, h6, h7, h8⟩
          rcases Nat.eq_or_lt_of_le h3 with rfl | h9
          · exact absurd ⟨⟨h6, h7⟩, h8⟩ h2
          · exact h9
    · rename_i h1
      simp only [Bool.false_eq_true, false_iff, not_exists]
      rintro j ⟨h3, h4, h5, _⟩
      omega

/-- the filter finds an entry at least as good as `(c, g, v)` among the slots it looks at. -/
def WorseThanMemory (s : CSQP P) (c g v : F) : Prop :=
  ∃ j, j < s.c.filterSize ∧ j ≤ s.iter ∧ leb (s.m.costList.get (s.c.filterSize - 1 - j)) c = true ∧
    leb (s.m.gapList.get (s.c.filterSize - 1 - j)) g = true ∧ leb (s.m.conList.get (s.c.filterSize - 1 - j)) v = true

theorem worse_iff (s : CSQP P) : s.worse = true ↔ s.WorseThanMemory s.w.cost s.w.gap s.w.con := by
  unfold worse WorseThanMemory
  rw [filterLoop_iff]
  constructor
  · rintro ⟨j, _, _, h1, h3⟩; exact ⟨j, by omega, by omega, h3⟩
  · rintro ⟨j, h1, h2, h3⟩; exact ⟨j, Nat.zero_le _, by omega, by omega, h3⟩

/-- Step length `a` passes in state `s`: it lies in `[0,1]`, the trial's cost does not blow up, and the trial passes the
filter test (not worse than memory), respectively strictly decreases the merit function. -/
def Acceptable (s : CSQP P) (a : F) : Prop :=
  ltb 1 a = false ∧ ltb a 0 = false ∧ ¬ CostBlowsUp P (stepX P s.xs s.q.v.dx a) (stepU P s.us s.q.v.du a) ∧
  if s.c.useFilter = true then
    ¬ s.WorseThanMemory (trajCost P (stepX P s.xs s.q.v.dx a) (stepU P s.us s.q.v.du a))
        (shootGapNorm P (stepX P s.xs s.q.v.dx a) (stepU P s.us s.q.v.du a))
        (conViol P (stepX P s.xs s.q.v.dx a) (stepU P s.us s.q.v.du a))
  else ltb (Spec.merit P s.c s.m.lagInf (stepX P s.xs s.q.v.dx a) (stepU P s.us s.q.v.du a)) s.m.merit = true

/-- the accepted step: the candidate is the trial trajectory and the stored costs and next states are its own. -/
structure Stepped (s : CSQP P) (a : F) (s' : CSQP P) : Prop where
  xs : ∀ t, t ≤ P.T → s'.xs t = stepX P s.xs s.q.v.dx a t
  us : ∀ t, t < P.T → s'.us t = stepU P s.us s.q.v.du a t
  fresh : FreshCalc P s'.data (stepX P s.xs s.q.v.dx a) (stepU P s.us s.q.v.du a)
  merit : s'.w.merit = Spec.merit P s.c s.m.lagInf (stepX P s.xs s.q.v.dx a) (stepU P s.us s.q.v.du a)
  acc : s'.acc = s.acc ++ [a]

theorem lineSearch_spec (as : List F) (s : CSQP P) :
    ((lineSearch as s).1 = true →
      ∃ pre a post, as = pre ++ a :: post ∧ (∀ b ∈ pre, ¬ Acceptable s b) ∧ Acceptable s a ∧ Stepped s a (lineSearch as s).2) ∧
    ((lineSearch as s).1 = false → (∀ b ∈ as, ¬ Acceptable s b) ∧
      (lineSearch as s).2.xs = s.xs ∧ (lineSearch as s).2.us = s.us ∧ (lineSearch as s).2.acc = s.acc) := by
  induction as generalizing s with
  | nil => simp [lineSearch]
  | cons a as ih =>
    obtain ⟨hok, hex⟩ := tryStep_spec a s
    obtain ⟨d, w, hd⟩ := tryStep_set a s
    have hrec : ∀ (s1 : CSQP P) iw, s1 = { s with data := d, w := w, m := { s.m with isWorse := iw }, nTry := s.nTry + 1 } →
        ¬ Acceptable s a →
        ((lineSearch as s1).1 = true →
          ∃ pre a' post, a :: as = pre ++ a' :: post ∧ (∀ b ∈ pre, ¬ Acceptable s b) ∧ Acceptable s a' ∧
            Stepped s a' (lineSearch as s1).2) ∧
        ((lineSearch as s1).1 = false → (∀ b ∈ a :: as, ¬ Acceptable s b) ∧
          (lineSearch as s1).2.xs = s.xs ∧ (lineSearch as s1).2.us = s.us ∧ (lineSearch as s1).2.acc = s.acc) := by
      rintro s1 iw rfl hna
      obtain ⟨i1, i2⟩ := ih { s with data := d, w := w, m := { s.m with isWorse := iw }, nTry := s.nTry + 1 }
      have hcons : ∀ l : List F, (∀ b ∈ l, ¬ Acceptable s b) → ∀ b ∈ a :: l, ¬ Acceptable s b := by
        intro l hl b hb
        rcases List.mem_cons.mp hb with rfl | hb
        · exact hna
        · exact hl b hb
      constructor
      · intro h
        obtain ⟨pre, a', post, e1, e2, e3, e4⟩ := i1 h
        exact ⟨a :: pre, a', post, by rw [e1]; rfl, hcons pre e2, e3, ⟨e4.xs, e4.us, e4.fresh, e4.merit, e4.acc⟩⟩
      · intro h
        obtain ⟨e1, e2, e3, e4⟩ := i2 h
        exact ⟨hcons as e1, e2, e3, e4⟩
    unfold lineSearch
    cases ht : tryStep a s with
    | exn s1 =>
      rw [ht] at hd
      refine hrec s1 s.m.isWorse hd ?_
      rintro ⟨h1, h2, h3, _⟩
      obtain ⟨s', hs'⟩ := hex h1 h2 h3
      rw [ht] at hs'
      cases hs'
    | ok s1 =>
      rw [ht] at hd
      change s1 = _ at hd
      have hp := hok s1 ht
      have hw : s1.worse = true ↔ s.WorseThanMemory (trajCost P (stepX P s.xs s.q.v.dx a) (stepU P s.us s.q.v.du a))
          (shootGapNorm P (stepX P s.xs s.q.v.dx a) (stepU P s.us s.q.v.du a))
          (conViol P (stepX P s.xs s.q.v.dx a) (stepU P s.us s.q.v.du a)) := by
        rw [worse_iff, hp.cost, hp.gap, hp.con, hd]; rfl
      have hacc : s1.acc = s.acc := by rw [hd]
      have hst : ∀ iw, Stepped s a (({ s1 with m := { s1.m with isWorse := iw } } : CSQP P).accept a) :=
        fun iw => ⟨hp.xt, hp.ut, hp.fresh, hp.merit, by change s1.acc ++ [a] = _; rw [hacc]⟩
      simp only []
      split
      · rename_i huf
        have huf' : s.c.useFilter = true := by rw [hd] at huf; exact huf
        split
        · rename_i hw'
          refine hrec _ _ (by rw [hd]) ?_
          rintro ⟨_, _, _, h⟩
          rw [if_pos huf'] at h
          exact h (hw.mp hw')
        · rename_i hw'
          refine ⟨fun _ => ⟨[], a, as, rfl, by simp, ⟨hp.range.1, hp.range.2, hp.noBlow, ?_⟩, hst _⟩, fun h => by simp at h⟩
          rw [if_pos huf']
          exact fun h => hw' (hw.mpr h)
      · rename_i huf
        have huf' : ¬ s.c.useFilter = true := by rw [hd] at huf; exact huf
        have hm : s1.m.merit = s.m.merit := by rw [hd]
        split
        · rename_i hlt
          refine ⟨fun _ => ⟨[], a, as, rfl, by simp, ⟨hp.range.1, hp.range.2, hp.noBlow, ?_⟩, hst s1.m.isWorse⟩,
            fun h => by simp at h⟩
          rw [if_neg huf', ← hp.merit, ← hm]
          exact hlt
        · rename_i hlt
          refine hrec s1 s.m.isWorse hd ?_
          rintro ⟨_, _, _, h⟩
          rw [if_neg huf', ← hp.merit, ← hm] at h
          exact hlt h

end CSQP
end Mim
