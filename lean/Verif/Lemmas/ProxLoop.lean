import Verif.Lemmas.ProxTry
import Verif.Lemmas.ProxQuad

/-!
# The loops of SolverPROXQP
-/
set_option linter.unusedSectionVars false
set_option linter.unusedSimpArgs false

namespace Mim
open Spec
namespace PROX
variable {F : Type} [Add F] [Sub F] [Mul F] [Div F] [Neg F] [Zero F] [One F] [FloatOps F] {P : Problem F}
open CSQP (conUpTo)

/-- All evaluations held by the solver are those of its current trajectory. -/
structure Evald (s : PROX P) : Prop where
  fresh : FreshCalc P s.data s.xs s.us
  diff : FreshDiff P s.data s.xs s.us
  fs : ∀ t, t < P.T → s.e.fs (t + 1) = shootGap P s.xs s.us t
  cost : s.e.cost = trajCost P s.xs s.us
  gap : s.e.gap = shootGapNorm P s.xs s.us
  con : s.e.con = conViol P s.xs s.us
  merit : s.merit = pmerit P s.c.muDyn s.c.muCon s.xs s.us

theorem calcEval_evald (s : PROX P) : Evald s.calcEval := by
  have hrun : ∀ t, t < P.T → s.calcEval.data.run t = P.calcR t (s.xs t) (s.us t) := by
    intro t ht
    change (if t < P.T then _ else _) = _
    rw [if_pos ht]
  have hfs : ∀ t, t < P.T → s.calcEval.e.fs (t + 1) = shootGap P s.xs s.us t := by
    intro t ht
    change (if t < P.T then P.diff (s.xs (t + 1)) (s.calcEval.data.run t).xnext else _) = _
    rw [if_pos ht, hrun t ht]; rfl
  have hcost : s.calcEval.e.cost = trajCost P s.xs s.us := by
    change sumUp P.T (fun t => (s.calcEval.data.run t).cost) + _ = trajCost P s.xs s.us
    rw [sumUp_congr _ _ (nodeCost P s.xs s.us) fun t ht => by rw [hrun t ht]; rfl]
    rfl
  have hgap : s.calcEval.e.gap = shootGapNorm P s.xs s.us := by
    change sumUp P.T (fun t => norm1 (s.calcEval.e.fs (t + 1))) = sumUp P.T _
    exact sumUp_congr _ _ _ fun t ht => by rw [hfs t ht]
  have hcon : s.calcEval.e.con = conViol P s.xs s.us := by
    have : ∀ n, n ≤ P.T → forUp n (fun t acc => addViol (P.lb t) (P.ub t) (s.calcEval.data.run t).g acc) (0 : F)
        = conUpTo s.xs s.us n := by
      intro n
      induction n with
      | zero => intro _; rfl
      | succ n ih =>
        intro hn
        rw [forUp_succ, ih (by omega), hrun n (by omega)]; rfl
    change addViol (P.lb P.T) (P.ub P.T) (P.calcT (s.xs P.T)).g (forUp P.T (fun t acc => addViol (P.lb t) (P.ub t)
      (s.calcEval.data.run t).g acc) 0) = _
    rw [this _ le_rfl]; rfl
  refine ⟨⟨hrun, rfl⟩, ⟨?_, rfl⟩, hfs, hcost, hgap, hcon, ?_⟩
  · intro t ht
    change (if t < P.T then _ else _) = _
    rw [if_pos ht]; rfl
  · change s.calcEval.e.cost + s.c.muDyn * s.calcEval.e.gap + s.c.muCon * s.calcEval.e.con = pmerit P s.c.muDyn s.c.muCon s.xs s.us
    rw [hcost, hgap, hcon]
    rfl

/-- `Evald` mentions only the trajectory, the data, the evaluation and the merit weights. -/
theorem Evald.congr {s s' : PROX P} (h : Evald s) (hx : s'.xs = s.xs) (hu : s'.us = s.us) (hd : s'.data = s.data)
    (he : s'.e = s.e) (hm : s'.merit = s.merit) (hc : s'.c = s.c) : Evald s' := by
  obtain ⟨h1, h2, h3, h4, h5, h6, h7⟩ := h
  refine ⟨?_, ?_, ?_, ?_, ?_, ?_, ?_⟩
  · rw [hx, hu, hd]; exact h1
  · rw [hx, hu, hd]; exact h2
  · rw [hx, hu, he]; exact h3
  · rw [hx, hu, he]; exact h4
  · rw [hx, hu, he]; exact h5
  · rw [hx, hu, he]; exact h6
  · rw [hx, hu, hc, hm]; exact h7

variable {qp : PSolve F}

/-- regularization after `j` increases. -/
def incN (p : Params F) : ℕ → F → F
  | 0, r => r
  | j + 1, r => incN p j (incReg p r)

/-- overwrite the residual, the regularization and the counters. -/
abbrev setD (s : PROX P) (K p d : F) (n k : ℕ) : PROX P := { s with KKT := K, preg := p, dreg := d, nQP := n, nKKT := k }

/-- the state after `j` failed calls of ProxSuite from the evaluated state `s`. -/
abbrev failed (s : PROX P) (j : ℕ) : PROX P :=
  { s with KKT := residual s.data s.e.fs s.lam s.y s.e.con, nKKT := s.nKKT + j, nQP := s.nQP + j
           preg := incN s.c.par j s.preg, dreg := if j = 0 then s.dreg else incN s.c.par j s.preg }

/-- the state in which the `j+1`-st call succeeded, before the answer is read. -/
abbrev asked (s : PROX P) (j : ℕ) : PROX P := { failed s j with nKKT := s.nKKT + j + 1, nQP := s.nQP + j + 1 }

/-- how the direction computation of one iteration ended, from the evaluated state `s`: `j` calls failed. -/
inductive DirPost (qp : PSolve F) (s : PROX P) (b : Bool) (s' : PROX P) : Prop
  | found (j : ℕ) (a : PAns F) (hf : ∀ i, i < j → qp (s.nQP + i) s.m = none) (ha : qp (s.nQP + j) s.m = some a)
      (hr : ∀ i, i < j → eqb (incN s.c.par (i + 1) s.preg) s.c.par.regMax = false) (hb : b = true)
      (hs : s' = readAnswer a (asked s j))
  | gaveUp (j : ℕ) (hf : ∀ i, i ≤ j → qp (s.nQP + i) s.m = none)
      (hr : ∀ i, i < j → eqb (incN s.c.par (i + 1) s.preg) s.c.par.regMax = false)
      (hm : eqb (incN s.c.par (j + 1) s.preg) s.c.par.regMax = true) (hb : b = false)
      (hs : s' = failed s (j + 1))

theorem DirPost.step {s s' : PROX P} {b : Bool} (h0 : qp s.nQP s.m = none)
    (hr : eqb (incN s.c.par 1 s.preg) s.c.par.regMax = false) (h : DirPost qp (failed s 1) b s') : DirPost qp s b s' := by
  have hadd : ∀ n k : ℕ, n + 1 + k = n + (k + 1) := by intros; omega
  have hinc : ∀ k, incN s.c.par k (incN s.c.par 1 s.preg) = incN s.c.par (k + 1) s.preg := fun k => rfl
  cases h with
  | found j a hf ha hr' hb hs =>
    refine .found (j + 1) a ?_ ?_ ?_ hb ?_
    · intro i hi
      cases i with
      | zero => exact h0
      | succ i => rw [← hadd]; exact hf i (by omega)
    · rw [← hadd]; exact ha
    · intro i hi
      cases i with
      | zero => exact hr
      | succ i => exact hr' i (by omega)
    · rw [hs]
      have : asked (failed s 1) j = asked s (j + 1) := by
        change setD s _ _ (if j = 0 then incN s.c.par 1 s.preg else incN s.c.par (j + 1) s.preg) (s.nQP + 1 + j + 1) (s.nKKT + 1 + j + 1) =
          setD s _ _ (incN s.c.par (j + 1) s.preg) (s.nQP + (j + 1) + 1) (s.nKKT + (j + 1) + 1)
        rw [hadd, hadd]
        cases j <;> rfl
      rw [this]
  | gaveUp j hf hr' hm hb hs =>
    refine .gaveUp (j + 1) ?_ ?_ hm hb ?_
    · intro i hi
      cases i with
      | zero => exact h0
      | succ i => rw [← hadd]; exact hf i (by omega)
    · intro i hi
      cases i with
      | zero => exact hr
      | succ i => exact hr' i (by omega)
    · rw [hs]
      change setD s _ _ _ (s.nQP + 1 + (j + 1)) (s.nKKT + 1 + (j + 1)) = setD s _ _ _ (s.nQP + (j + 1 + 1)) (s.nKKT + (j + 1 + 1))
      rw [hadd s.nQP, hadd s.nKKT]
      rfl

/-- one attempt, without recomputation. -/
theorem attempt_none {s : PROX P} (h : qp s.nQP s.m = none) :
    computeDirection qp false s = .exn { s with KKT := residual s.data s.e.fs s.lam s.y s.e.con, nKKT := s.nKKT + 1, nQP := s.nQP + 1 } := by
  have h' : qp s.checkKKT.nQP s.checkKKT.m = none := h
  simp only [computeDirection, Bool.false_eq_true, if_false, h']
  rfl

theorem attempt_some {s : PROX P} {a : PAns F} (h : qp s.nQP s.m = some a) :
    computeDirection qp false s = .ok (readAnswer a (asked s 0)) := by
  have h' : qp s.checkKKT.nQP s.checkKKT.m = some a := h
  simp only [computeDirection, Bool.false_eq_true, if_false, h']
  rfl

theorem retry_false_step (n : ℕ) (s : PROX P) :
    retry qp (n + 1) false s =
      match qp s.nQP s.m with
      | some a => some (true, readAnswer a (asked s 0))
      | none => if eqb (incN s.c.par 1 s.preg) s.c.par.regMax then some (false, failed s 1) else retry qp n false (failed s 1) := by
  cases h : qp s.nQP s.m with
  | some a => simp only [retry, attempt_some h]
  | none => simp only [retry, attempt_none h]; rfl

theorem retry_true_eq (n : ℕ) (s : PROX P) : retry qp n true s = retry qp n false s.calcEval := by
  cases n with
  | zero => rfl
  | succ n => rfl

theorem retry_false_post {n : ℕ} {s s' : PROX P} {b : Bool} (h : retry qp n false s = some (b, s')) : DirPost qp s b s' := by
  induction n generalizing s with
  | zero => cases h
  | succ n ih =>
    rw [retry_false_step] at h
    cases hq : qp s.nQP s.m with
    | some a =>
      rw [hq] at h
      cases h
      exact .found 0 a (fun i hi => absurd hi (Nat.not_lt_zero i)) hq (fun i hi => absurd hi (Nat.not_lt_zero i)) rfl rfl
    | none =>
      rw [hq] at h
      simp only [] at h
      split at h
      · rename_i hm
        cases h
        refine .gaveUp 0 ?_ (fun i hi => absurd hi (Nat.not_lt_zero i)) hm rfl rfl
        intro i hi
        obtain rfl : i = 0 := by omega
        exact hq
      · rename_i hm
        exact (ih h).step hq (by simpa using hm)

theorem retry_post {n : ℕ} {s s' : PROX P} {b : Bool} (h : retry qp n true s = some (b, s')) : DirPost qp s.calcEval b s' := by
  rw [retry_true_eq] at h
  exact retry_false_post h

/-- the ways an iteration ends. -/
inductive BodyCase (qp : PSolve F) (fuel : ℕ) (s : PROX P) (r : Option Bool) (s' : PROX P) : Prop
  | gaveUp (hr : retry qp fuel true { s with wasFeas := false } = some (false, s')) (hb : r = some false)
  | converged (s1 : PROX P) (hr : retry qp fuel true { s with wasFeas := false } = some (true, s1))
      (hk : leb s1.KKT s1.c.tol = true) (hs : s' = s1.callbacks) (hb : r = some true)
  | searched (s1 : PROX P) (hr : retry qp fuel true { s with wasFeas := false } = some (true, s1))
      (hk : leb s1.KKT s1.c.tol = false)
      (hs : s' = if s1.pushFilter.search.updateReg.1 then s1.pushFilter.search.updateReg.2
        else s1.pushFilter.search.updateReg.2.callbacks)
      (hb : r = if s1.pushFilter.search.updateReg.1 then some false else none)

theorem body_cases {fuel : ℕ} {s s' : PROX P} {r : Option Bool} (h : body qp fuel s = some (r, s')) : BodyCase qp fuel s r s' := by
  unfold body at h
  split at h
  · cases h
  · rename_i s1 hr
    cases h
    exact .gaveUp hr rfl
  · rename_i s1 hr
    split at h
    · rename_i hk
      cases h
      exact .converged s1 hr hk rfl rfl
    · rename_i hk
      simp only [] at h
      refine .searched s1 hr (by simpa using hk) ?_ ?_ <;> split at h <;> rename_i hu <;> cases h <;> simp [hu]

/-- induction over the main loop: `I n s`: state at the top of iteration number `n` (from the start). -/
theorem iterate_inv (qp : PSolve F) (fuel : ℕ) (I : PROX P → Prop) (Q : Bool → PROX P → Prop)
    (hnext : ∀ s s' : PROX P, I s → body qp fuel s = some (none, s') → I { s' with iter := s'.iter + 1 })
    (hend : ∀ (s : PROX P) (b : Bool) (s' : PROX P), I s → body qp fuel s = some (some b, s') → Q b s') :
    ∀ (n : ℕ) (s : PROX P), I s → ∀ (r : Option Bool) (s' : PROX P), iterate qp fuel n s = some (r, s') →
      (r = none ∧ I s') ∨ (∃ b, r = some b ∧ Q b s') := by
  intro n
  induction n with
  | zero =>
    intro s hI r s' h
    cases h
    exact .inl ⟨rfl, hI⟩
  | succ n ih =>
    intro s hI r s' h
    unfold iterate at h
    split at h
    · cases h
    · rename_i b s1 hb
      cases h
      exact .inr ⟨b, rfl, hend s b s' hI hb⟩
    · rename_i s1 hb
      exact ih _ (hnext s s1 hI hb) r s' h

/-- a `solve` that returns ends in an iteration, or runs out of iterations with `false`. -/
theorem solve_inv {fuel : ℕ} {xs : Option (Traj P)} {us : Option (Ctrls P)} {m : ℕ} {ri : F} {s s' : PROX P} {b : Bool}
    (I : PROX P → Prop) (Q : Bool → PROX P → Prop) (h0 : I (s.start xs us ri))
    (hnext : ∀ s s' : PROX P, I s → body qp fuel s = some (none, s') → I { s' with iter := s'.iter + 1 })
    (hend : ∀ (s : PROX P) (b : Bool) (s' : PROX P), I s → body qp fuel s = some (some b, s') → Q b s')
    (h : solve qp fuel xs us m ri s = some (b, s')) : (b = false ∧ I s') ∨ Q b s' := by
  unfold solve at h
  split at h
  · cases h
  · rename_i b1 s1 hi
    cases h
    rcases iterate_inv qp fuel I Q hnext hend m _ h0 _ _ hi with ⟨h1, _⟩ | ⟨b', h1, h2⟩
    · cases h1
    · cases h1; exact .inr h2
  · rename_i s1 hi
    cases h
    rcases iterate_inv qp fuel I Q hnext hend m _ h0 _ _ hi with ⟨_, h1⟩ | ⟨b', h1, _⟩
    · exact .inl ⟨rfl, h1⟩
    · cases h1

theorem search_set (s : PROX P) :
    ∃ d w iw n r xs us fe ac sl, n ≤ s.nTry + s.c.par.alphas.length ∧ r ≤ s.nRej + 1 ∧
      s.search = { s with data := d, w := w, isWorse := iw, nTry := n, nRej := r, xs := xs, us := us, feas := fe
                          acc := ac, steplength := sl } := by
  obtain ⟨d, w, iw, n, xs, us, fe, ac, sl, hn, h⟩ := lineSearch_set s.c.par.alphas s
  unfold search
  cases hl : lineSearch s.c.par.alphas s with
  | mk found s1 =>
    rw [hl] at h
    change s1 = _ at h
    subst h
    cases found
    · exact ⟨d, w, iw, n, s.nRej + 1, xs, us, fe, ac, sl, hn, le_rfl, rfl⟩
    · exact ⟨d, w, iw, n, s.nRej, xs, us, fe, ac, sl, hn, Nat.le_succ _, rfl⟩

theorem updateReg_set (s : PROX P) : ∃ p d, s.updateReg.2 = { s with preg := p, dreg := d } := by
  have h1 : ∀ s0 : PROX P, (∃ p d, s0 = { s with preg := p, dreg := d }) → ∃ p d,
      (if leb s0.steplength s0.c.par.thStepInc then (eqb s0.increaseReg.preg s0.increaseReg.c.par.regMax, s0.increaseReg)
       else (false, s0)).2 = { s with preg := p, dreg := d } := by
    rintro s0 ⟨p, d, rfl⟩
    split <;> exact ⟨_, _, rfl⟩
  refine h1 (if ltb s.c.par.thStepDec s.steplength then s.decreaseReg else s) ?_
  split <;> exact ⟨_, _, rfl⟩

/-- a completed, unsuccessful iteration changes nothing that the direction left except what the line search, the filter
memory, the regularization and the log need. -/
theorem after_set (s1 : PROX P) (b : Bool) :
    ∃ d w iw n r xs us fe ac sl cl gl kl hi p dr lg, n ≤ s1.nTry + s1.c.par.alphas.length ∧
      (if b then s1.pushFilter.search.updateReg.2 else s1.pushFilter.search.updateReg.2.callbacks) =
        { s1 with data := d, w := w, isWorse := iw, nTry := n, nRej := r, xs := xs, us := us, feas := fe, acc := ac
                  steplength := sl, costList := cl, gapList := gl, conList := kl, hist := hi, preg := p, dreg := dr, log := lg } := by
  obtain ⟨d, w, iw, n, r, xs, us, fe, ac, sl, hn, _, h⟩ := search_set s1.pushFilter
  obtain ⟨p, dr, h2⟩ := updateReg_set s1.pushFilter.search
  rw [h2, h]
  cases b
  · exact ⟨d, w, iw, n, r, xs, us, fe, ac, sl, _, _, _, _, p, dr, _, hn, rfl⟩
  · exact ⟨d, w, iw, n, r, xs, us, fe, ac, sl, _, _, _, _, p, dr, s1.log, hn, rfl⟩

end PROX
end Mim
