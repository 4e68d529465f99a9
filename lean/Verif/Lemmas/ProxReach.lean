import Verif.Lemmas.ProxLoop

/-!
# States at the head of an iteration, reachable states (SolverPROXQP)
-/
set_option linter.unusedSectionVars false
set_option linter.unusedSimpArgs false

namespace Mim
open Spec
namespace PROX
variable {F : Type} [Add F] [Sub F] [Mul F] [Div F] [Neg F] [Zero F] [One F] [FloatOps F] {P : Problem F}
variable {qp : PSolve F} {fuel : ℕ} {xs : Option (Traj P)} {us : Option (Ctrls P)} {m : ℕ} {ri : F} {s0 : PROX P}

/-- states at the head of an iteration of `solve(xs, us, m, _, ri)` called on `s0`. -/
inductive AtHead (qp : PSolve F) (fuel : ℕ) (xs : Option (Traj P)) (us : Option (Ctrls P)) (m : ℕ) (ri : F) (s0 : PROX P) : PROX P → Prop
  | start : AtHead qp fuel xs us m ri s0 (s0.start xs us ri)
  | next {s s' : PROX P} (h : AtHead qp fuel xs us m ri s0 s) (hi : s.iter < m) (hb : body qp fuel s = some (none, s')) :
      AtHead qp fuel xs us m ri s0 { s' with iter := s'.iter + 1 }

/-- the state right after `calc` at the head of the iteration. -/
abbrev head (s : PROX P) : PROX P := ({ s with wasFeas := false } : PROX P).calcEval

theorem head_evald (s : PROX P) : Evald (head s) := calcEval_evald _

/-- the direction an iteration computes. -/
theorem body_iter {s s' : PROX P} {r : Option Bool} (h : body qp fuel s = some (r, s')) : s'.iter = s.iter ∧ s'.c = s.c := by
  have hd : ∀ b s1, retry qp fuel true { s with wasFeas := false } = some (b, s1) → s1.iter = s.iter ∧ s1.c = s.c := by
    intro b s1 h
    cases retry_post h with
    | found j a _ _ _ _ hs => subst hs; exact ⟨rfl, rfl⟩
    | gaveUp j _ _ _ _ hs => subst hs; exact ⟨rfl, rfl⟩
  cases body_cases h with
  | gaveUp hr hb => exact hd _ _ hr
  | converged s1 hr hk hs hb => subst hs; exact (hd _ _ hr :)
  | searched s1 hr hk hs hb =>
    obtain ⟨d, w, iw, n, r', xs, us, fe, ac, sl, cl, gl, kl, hi, p, dr, lg, _, e⟩ := after_set s1 s1.pushFilter.search.updateReg.1
    rw [hs, e]
    exact (hd _ _ hr :)

theorem solve_end {b : Bool} {s' : PROX P} (h : solve qp fuel xs us m ri s0 = some (b, s')) :
    (b = false ∧ AtHead qp fuel xs us m ri s0 s' ∧ s'.iter = m) ∨
    ∃ s, AtHead qp fuel xs us m ri s0 s ∧ s.iter < m ∧ body qp fuel s = some (some b, s') := by
  have key : ∀ (n : ℕ) (s : PROX P), AtHead qp fuel xs us m ri s0 s → s.iter + n = m → ∀ r s', iterate qp fuel n s = some (r, s') →
      (r = none ∧ AtHead qp fuel xs us m ri s0 s' ∧ s'.iter = m) ∨
      ∃ b s, r = some b ∧ AtHead qp fuel xs us m ri s0 s ∧ s.iter < m ∧ body qp fuel s = some (some b, s') := by
    intro n
    induction n with
    | zero =>
      intro s hs hn r s' h
      cases h
      exact .inl ⟨rfl, hs, by omega⟩
    | succ n ih =>
      intro s hs hn r s' h
      unfold iterate at h
      split at h
      · cases h
      · rename_i b s1 hb
        cases h
        exact .inr ⟨b, s, rfl, hs, by omega, hb⟩
      · rename_i s1 hb
        have e := (body_iter hb).1
        refine ih _ (.next hs (by omega) hb) ?_ r s' h
        change s1.iter + 1 + n = m
        omega
  unfold solve at h
  split at h
  · cases h
  · rename_i b1 s1 hi
    cases h
    rcases key m _ .start (Nat.zero_add m) _ _ hi with ⟨h1, _⟩ | ⟨b', s, h1, h2⟩
    · cases h1
    · cases h1; exact .inr ⟨s, h2⟩
  · rename_i s1 hi
    cases h
    rcases key m _ .start (Nat.zero_add m) _ _ hi with ⟨_, h1⟩ | ⟨b', s, h1, _⟩
    · exact .inl ⟨rfl, h1⟩
    · cases h1

theorem AtHead.conf {s : PROX P} (h : AtHead qp fuel xs us m ri s0 s) : s.c = s0.c := by
  induction h with
  | start => rfl
  | next _ _ hb ih => exact (body_iter hb).2.trans ih

theorem AtHead.iter_le {s : PROX P} (h : AtHead qp fuel xs us m ri s0 s) : s.iter ≤ m := by
  cases h with
  | start => exact Nat.zero_le m
  | next _ hi hb => change _ + 1 ≤ m; rw [(body_iter hb).1]; omega

/-- An invariant of the state at iteration heads transfers to the end of `solve`. -/
theorem solve_pred {b : Bool} {s' : PROX P} (I : PROX P → Prop) (hiter : ∀ (s : PROX P) n, I s → I { s with iter := n })
    (h0 : I (s0.start xs us ri)) (hbody : ∀ s s' r, I s → s.c = s0.c → body qp fuel s = some (r, s') → I s')
    (h : solve qp fuel xs us m ri s0 = some (b, s')) : I s' := by
  have key : ∀ s, AtHead qp fuel xs us m ri s0 s → I s := by
    intro s hs
    induction hs with
    | start => exact h0
    | next hh hi hb ih => exact hiter _ _ (hbody _ _ _ ih hh.conf hb)
  rcases solve_end h with ⟨_, h1, _⟩ | ⟨s, h1, _, h3⟩
  · exact key s' h1
  · exact hbody _ _ _ (key s h1) h1.conf h3

/-- An invariant kept by evaluation, the QP, filter, search, regularization and callbacks. -/
theorem body_pred {s s' : PROX P} {r : Option Bool} (I : PROX P → Prop) (h1 : I s → I (head s))
    (h2 : ∀ (s : PROX P) (K p d : F) (n k : ℕ), I s → I (s.setD K p d n k)) (h3 : ∀ (s : PROX P) a, I s → I (readAnswer a s))
    (h4 : ∀ s : PROX P, I s → I s.pushFilter) (h5 : ∀ s : PROX P, s.c = (head s).c → I s → I s.search)
    (h6 : ∀ (s : PROX P) p d, I s → I { s with preg := p, dreg := d }) (h7 : ∀ s : PROX P, I s → I s.callbacks)
    (hI : I s) (h : body qp fuel s = some (r, s')) : I s' := by
  have hd : ∀ b s1, retry qp fuel true { s with wasFeas := false } = some (b, s1) → I s1 := by
    intro b s1 h
    cases retry_post h with
    | found j a _ _ _ _ hs => subst hs; exact h3 _ _ (h2 (head s) _ _ _ _ _ (h1 hI))
    | gaveUp j _ _ _ _ hs => subst hs; exact h2 (head s) _ _ _ _ _ (h1 hI)
  cases body_cases h with
  | gaveUp hr hb => exact hd _ _ hr
  | converged s1 hr hk hs hb => subst hs; exact h7 _ (hd _ _ hr)
  | searched s1 hr hk hs hb =>
    have h8 : I s1.pushFilter.search.updateReg.2 := by
      obtain ⟨p, d, e⟩ := updateReg_set s1.pushFilter.search
      rw [e]
      exact h6 _ _ _ (h5 _ rfl (h4 _ (hd _ _ hr)))
    subst hs
    split
    · exact h8
    · exact h7 _ h8

/-- States of a `SolverPROXQP` that a client can produce: construction, setters, `calc`, `computeDirection`, `checkKKTConditions`,
`tryStep`, `solve`, in any order. -/
inductive Reachable : PROX P → Prop
  | new (d : Data P) : Reachable (PROX.new d)
  | setParams (s : PROX P) (c : PConf F) : c.filterSize = s.c.filterSize → Reachable s → Reachable { s with c := c }
  | setFilterSize (s : PROX P) (n : ℕ) : Reachable s → Reachable (s.setFilterSize n)
  | calcEval (s : PROX P) : Reachable s → Reachable s.calcEval
  | checkKKT (s : PROX P) : Reachable s → Reachable s.checkKKT
  | computeDirection (s : PROX P) (qp : PSolve F) (b : Bool) : Reachable s → Reachable (s.computeDirection qp b).st
  | tryStep (s : PROX P) (a : F) : Reachable s → Reachable (s.tryStep a).st
  | solve (s s' : PROX P) (qp : PSolve F) (fuel : ℕ) (xs : Option (Traj P)) (us : Option (Ctrls P)) (m : ℕ) (ri : F) (b : Bool) :
      Reachable s → solve qp fuel xs us m ri s = some (b, s') → Reachable s'

theorem computeDirection_st (qp : PSolve F) (r : Bool) (s : PROX P) : ∃ K k n,
    (s.computeDirection qp r).st = { (if r then s.calcEval else s) with KKT := K, nKKT := k, nQP := n } ∨
    ∃ a, (s.computeDirection qp r).st = readAnswer a { (if r then s.calcEval else s) with KKT := K, nKKT := k, nQP := n } := by
  unfold computeDirection
  simp only []
  split
  · exact ⟨_, _, _, .inl rfl⟩
  · rename_i a _
    exact ⟨_, _, _, .inr ⟨a, rfl⟩⟩

/-- invariants of all reachable states. -/
theorem Reachable.pred (I : PROX P → Prop) (h0 : ∀ d, I (PROX.new d)) (hc : ∀ (s : PROX P) c, I s → I { s with c := c })
    (hf : ∀ (s : PROX P) n, I s → I (s.setFilterSize n)) (he : ∀ s : PROX P, I s → I s.calcEval)
    (h2 : ∀ (s : PROX P) (K p d : F) (n k : ℕ), I s → I (s.setD K p d n k)) (h3 : ∀ (s : PROX P) a, I s → I (readAnswer a s))
    (h4 : ∀ s : PROX P, I s → I s.pushFilter) (ht : ∀ (s : PROX P) d w n, I s → I { s with data := d, w := w, nTry := n })
    (h5 : ∀ s : PROX P, I s → I s.search) (hw : ∀ s : PROX P, I s → I { s with wasFeas := false })
    (h7 : ∀ s : PROX P, I s → I s.callbacks) (hiter : ∀ (s : PROX P) n, I s → I { s with iter := n })
    (hstart : ∀ (s : PROX P) xs us ri, I s → I (s.start xs us ri)) {s : PROX P} (h : Reachable s) : I s := by
  have h6 : ∀ (s : PROX P) p d, I s → I { s with preg := p, dreg := d } := fun s p d h => h2 s s.KKT p d s.nQP s.nKKT h
  have hK : ∀ (s : PROX P) K k n, I s → I { s with KKT := K, nKKT := k, nQP := n } := fun s K k n h => h2 s K s.preg s.dreg n k h
  induction h with
  | new d => exact h0 d
  | setParams s c _ _ ih => exact hc s c ih
  | setFilterSize s n _ ih => exact hf s n ih
  | calcEval s _ ih => exact he s ih
  | checkKKT s _ ih => exact hK s _ _ s.nQP ih
  | computeDirection s qp b _ ih =>
    obtain ⟨K, k, n, h | ⟨a, h⟩⟩ := computeDirection_st qp b s
    · rw [h]
      refine hK _ _ _ _ ?_
      split
      · exact he s ih
      · exact ih
    · rw [h]
      refine h3 _ _ (hK _ _ _ _ ?_)
      split
      · exact he s ih
      · exact ih
  | tryStep s a _ ih =>
    obtain ⟨d, w, h⟩ := tryStep_set a s
    rw [h]
    exact ht s _ _ _ ih
  | solve s s' qp fuel xs us m ri b _ h ih =>
    exact solve_pred I hiter (hstart s xs us ri ih)
      (fun s1 s2 r hI _ hb => body_pred I (fun h => he _ (hw _ h)) h2 h3 h4 (fun s _ h => h5 s h) h6 h7 hI hb) h

/-- the first state step is zero in every reachable state. -/
theorem Reachable.dx0 {s : PROX P} (h : Reachable s) : s.dx 0 = zeroV F P.ndx := by
  refine h.pred (fun s => s.dx 0 = zeroV F P.ndx) (fun _ => rfl) (fun _ _ h => h) (fun _ _ h => h) (fun _ h => h)
    (fun _ _ _ _ _ _ h => h) (fun _ _ h => h) (fun _ h => h) (fun _ _ _ _ h => h) ?_ (fun _ h => h) (fun _ h => h) (fun _ _ h => h)
    (fun _ _ _ _ h => h)
  intro s h
  obtain ⟨d, w, iw, n, r, xs, us, fe, ac, sl, _, _, e⟩ := search_set s
  rw [e]; exact h

/-- the matrices keep their sparsity pattern in every reachable state. -/
theorem Reachable.pattern (hT : 0 < P.T) (hc : ColsOK P) {s : PROX P} (h : Reachable s) : Pattern P s.m := by
  refine h.pred (fun s => Pattern P s.m) (fun _ => Pattern.new _) (fun _ _ h => h) (fun _ _ h => h)
    (fun _ h => (Pattern.assemble hT hc h).2)
    (fun _ _ _ _ _ _ h => h) (fun _ _ h => h) (fun _ h => h) (fun _ _ _ _ h => h) ?_ (fun _ h => h) (fun _ h => h) (fun _ _ h => h)
    (fun _ _ _ _ h => h)
  intro s h
  obtain ⟨d, w, iw, n, r, xs, us, fe, ac, sl, _, _, e⟩ := search_set s
  rw [e]; exact h

/-- everything an iteration does before its verdict starts from a reachable state again. -/
theorem AtHead.pred (I : PROX P → Prop) (h0 : I (s0.start xs us ri)) (hiter : ∀ (s : PROX P) n, I s → I { s with iter := n })
    (hbody : ∀ s s' r, I s → s.c = s0.c → body qp fuel s = some (r, s') → I s') {s : PROX P}
    (h : AtHead qp fuel xs us m ri s0 s) : I s := by
  induction h with
  | start => exact h0
  | next hh hi hb ih => exact hiter _ _ (hbody _ _ _ ih hh.conf hb)

theorem AtHead.pattern (hT : 0 < P.T) (hc : ColsOK P) (hr : Reachable s0) {s : PROX P} (h : AtHead qp fuel xs us m ri s0 s) :
    Pattern P s.m := by
  refine h.pred (fun s => Pattern P s.m) (hr.pattern hT hc :) (fun _ _ h => h) ?_
  intro s s' r hI _ hb
  refine body_pred (fun s => Pattern P s.m) (fun h => (Pattern.assemble hT hc h).2) (fun _ _ _ _ _ _ h => h) (fun _ _ h => h)
    (fun _ h => h) ?_ (fun _ _ _ h => h) (fun _ h => h) hI hb
  intro s _ h
  obtain ⟨d, w, iw, n, r, xs, us, fe, ac, sl, _, _, e⟩ := search_set s
  rw [e]; exact h

theorem AtHead.dx0 (hr : Reachable s0) {s : PROX P} (h : AtHead qp fuel xs us m ri s0 s) : s.dx 0 = zeroV F P.ndx := by
  refine h.pred (fun s => s.dx 0 = zeroV F P.ndx) (hr.dx0 :) (fun _ _ h => h) ?_
  intro s s' r hI _ hb
  refine body_pred (fun s => s.dx 0 = zeroV F P.ndx) (fun h => h) (fun _ _ _ _ _ _ h => h) (fun _ _ h => h)
    (fun _ h => h) ?_ (fun _ _ _ h => h) (fun _ h => h) hI hb
  intro s _ h
  obtain ⟨d, w, iw, n, r, xs, us, fe, ac, sl, _, _, e⟩ := search_set s
  rw [e]; exact h

end PROX
end Mim
