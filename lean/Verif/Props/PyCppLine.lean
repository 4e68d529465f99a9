import Verif.Props.PyCppSQP
import Verif.Props.PySQPStall

/-!
# The line search of the Python class `SQP_CPP` compares different norms (C82)

`calc()` sums the gap norms of the candidate (sqp_cpp.py:31), `tryStep` divides the sum of the trial by `T` (sqp_cpp.py:113).
-/
set_option linter.unusedSectionVars false
set_option linter.unusedSimpArgs false

namespace Mim
open Spec Matrix

namespace SQPCpp
section
variable {F : Type} [Add F] [Sub F] [Mul F] [Div F] [Neg F] [Zero F] [One F] [FloatOps F] {P : Problem F}

/-- the filter memories stay full. -/
theorem Heads.full {llt : LLT F} {s : SQPCpp P} {xs : Option (Traj P)} {us : Option (Ctrls P)} {i : ℕ} {q : SQPCpp P}
    (h : Heads llt (s.start xs us) i q) : q.gapList.Full q.filterSize ∧ q.costList.Full q.filterSize := by
  induction h with
  | zero => exact ⟨⟨rfl, by simp [start, infDeque]⟩, ⟨rfl, by simp [start, infDeque]⟩⟩
  | @succ i p q h hs ih =>
    obtain ⟨p1, h1, r, a, h2, h3, -⟩ := hs.run
    have hc := direction_checked h1
    have ef : p1.filterSize = p.filterSize := (keep_all hc.keep).2.2.2.1
    have hp : p1.pushFilter.gapList.Full p1.pushFilter.filterSize ∧ p1.pushFilter.costList.Full p1.pushFilter.filterSize := by
      change (p1.gapList.push p1.gapNorm).Full p1.filterSize ∧ (p1.costList.push p1.cost).Full p1.filterSize
      rw [hc.cLists.1, hc.cLists.2, ef]
      exact ⟨ih.1.push _, ih.2.push _⟩
    rcases search_spec i 10 (Trials.refl p1.pushFilter) 0 h2 with ⟨-, k, -, -, -, -, -, -, e⟩ | ⟨-, -, -, -, e⟩ | ⟨e, -⟩
    · obtain ⟨_, _, _, _, _, _, _, _, _, _, rfl, -⟩ := e.frame
      exact hp
    · obtain ⟨_, _, _, _, _, _, _, _, rfl, -⟩ := e
      exact hp
    · exact absurd e h3

end

section
variable {K : Type} [Field K] [LinearOrder K] [IsStrictOrderedRing K] {P : Problem K} {llt : LLT K}

/-- the candidate of every iteration starts at the problem's initial state. -/
theorem Heads.x0 (hint : ∀ x, P.integrate x 0 = x) {s : SQPCpp P} (hr : Reachable s) {xs : Option (Traj P)} {us : Option (Ctrls P)} {i : ℕ}
    {q : SQPCpp P} (h : Heads llt (s.start xs us) i q) : q.xs 0 = P.x0 := by
  have hd : ∀ {i q}, Heads llt (s.start xs us) i q → q.dx 0 = 0 := by
    intro i q h
    have := (keep_all h.keep).2.2.2.2.2.2.1
    rw [this]
    exact hr.clean.2.2.1
  induction h with
  | zero =>
    change Function.update (β := fun _ => P.X) (xs.getD fun _ => P.x0) 0 P.x0 0 = P.x0
    rw [Function.update_self]
  | @succ i p q h hs ih =>
    obtain ⟨p1, h1, r, a, h2, h3, -⟩ := hs.run
    have hc := direction_checked h1
    have hd1 : p1.dx 0 = 0 := by rw [(keep_all hc.keep).2.2.2.2.2.2.1]; exact hd h
    rcases search_spec i 10 (Trials.refl p1.pushFilter) 0 h2 with ⟨-, k, -, -, -, -, -, -, e⟩ | ⟨-, -, -, -, e⟩ | ⟨e, -⟩
    · rw [e.xs 0 (Nat.zero_le _)]
      change P.integrate (p1.xs 0) (sv a (p1.dx 0)) = _
      rw [hd1, sv_exact, smul_zero, hint, hc.xs, ih]
    · obtain ⟨_, _, _, _, _, _, _, _, rfl, -⟩ := e
      change p1.xs 0 = _
      rw [hc.xs, ih]
    · exact absurd e h3

/-- sum over the rows with the first one split off. -/
theorem rowsNorm_head {g : ℕ → Vec K P.ndx} (h : g 0 = 0) : rowsNorm g = sumUp P.T fun t => norm1 (g (t + 1)) := by
  unfold rowsNorm
  rw [sumUp_exact, sumUp_exact, Finset.sum_range_succ', h]
  simp

/-- the gap norm of the candidate as `calc()` measures it: no division by `T`. -/
theorem Checked.gapNorm_eq (hdiff : ∀ x, P.diff x x = 0) {s q : SQPCpp P} (h : Checked s q) (h0 : s.xs 0 = P.x0) :
    q.gapNorm = shootGapNorm P s.xs s.us := by
  obtain ⟨g0, g1⟩ := h.gaps
  rw [h.gapNorm, rowsNorm_head (by rw [g0, h0, hdiff])]
  exact sumUp_congr _ _ _ fun t ht => by rw [g1 t ht]

/-- **C82.**  What an accepted step of `SQP_CPP` guarantees.  With the filter (at least one entry) the cost does not increase *or the
total gap does not exceed `T` times the previous one*; with the merit function `cost + mu * gap / T` after the step is below
`cost + mu * gap` before it.  The step is `1, 1/2, ..., 1/512` times the stored direction, and `1/512` is never taken with the merit
function. -/
theorem C82_cpp_accepted (hint : ∀ x, P.integrate x 0 = x) (hdiff : ∀ x, P.diff x x = 0) {s : SQPCpp P} (hr : Reachable s)
    {xs : Option (Traj P)} {us : Option (Ctrls P)} {j : ℕ} {q s1 q' : SQPCpp P} (h : Heads llt (s.start xs us) j q)
    (h1 : computeDirection llt q = .ok s1) {a : K} (hs : search j 10 (PySQP.halve 0) s1.pushFilter = (.accepted, a, q')) :
    (∃ k, k < 10 ∧ (s.useFilter = false → k < 9) ∧ a = (1 / 2) ^ k) ∧
    (∀ t, t ≤ P.T → q'.xs t = stepX P q.xs s1.dx a t) ∧ (∀ t, t < P.T → q'.us t = stepU P q.us s1.du a t) ∧
    (s.useFilter = true → 1 ≤ s.filterSize → trajCost P q'.xs q'.us ≤ trajCost P q.xs q.us ∨
      shootGapNorm P q'.xs q'.us / (P.T : K) ≤ shootGapNorm P q.xs q.us) ∧
    (s.useFilter = false → trajCost P q'.xs q'.us + s.mu * (shootGapNorm P q'.xs q'.us / (P.T : K)) <
      trajCost P q.xs q.us + s.mu * shootGapNorm P q.xs q.us) := by
  have hc := direction_checked h1
  obtain ⟨e1, e2, e3, e4, -, -, -, e8⟩ := keep_all h.keep
  obtain ⟨f1, f2, f3, f4, -, -, -, f8⟩ := keep_all hc.keep
  have hgT : s1.gapTry P.T = 0 := by rw [f8, e8]; exact hr.clean.2.2.2
  have hgn := hc.gapNorm_eq hdiff (h.x0 hint hr)
  obtain ⟨hg, hcost⟩ := h.full
  rcases search_spec j 10 (Trials.refl s1.pushFilter) 0 hs with ⟨-, k, -, k2, k3, k4, k5, -, k7⟩ | ⟨e, -⟩ | ⟨e, -⟩
  · have hX : ∀ t, t ≤ P.T → q'.xs t = stepX P q.xs s1.dx a t := fun t ht => by
      rw [k7.xs t ht]; change stepX P s1.xs s1.dx a t = _; rw [hc.xs]
    have hU : ∀ t, t < P.T → q'.us t = stepU P q.us s1.du a t := fun t ht => by
      rw [k7.us t ht]; change stepU P s1.us s1.du a t = _; rw [hc.us]
    have hC : trialCost s1.pushFilter a = trajCost P q'.xs q'.us := by
      unfold trialCost
      change trajCost P (stepX P s1.xs s1.dx a) (stepU P s1.us s1.du a) = _
      rw [hc.xs, hc.us]
      exact (trajCost_congr P hX hU).symm
    have hG : trialGap s1.pushFilter a = shootGapNorm P q'.xs q'.us / (P.T : K) := by
      unfold trialGap
      change (shootGapNorm P (stepX P s1.xs s1.dx a) (stepU P s1.us s1.du a) + norm1 (s1.gapTry P.T)) / _ = _
      rw [hc.xs, hc.us, hgT, ← shootGapNorm_congr P hX hU]
      simp
    have eu : s1.pushFilter.useFilter = s.useFilter := f3.trans e3
    refine ⟨⟨k, by omega, fun hf => ?_, ?_⟩, hX, hU, fun hf hn => ?_, fun hf => ?_⟩
    · have := k3 (eu.trans hf); omega
    · have hh : ∀ k, (PySQP.halve k : K) = (1 / 2) ^ k := by
        intro k
        induction k with
        | zero => simp [PySQP.halve]
        | succ k ih => rw [PySQP.halve, ih, pow_succ]; simp
      rw [k4, hh]
    · unfold Good at k5
      rw [if_pos (eu.trans hf), hC, hG] at k5
      by_contra hcon
      push Not at hcon
      have en : s1.filterSize = q.filterSize := f4
      have hn' : 1 ≤ q.filterSize := by rw [e4]; exact hn
      refine k5 ⟨0, ?_, Nat.zero_le _, ?_, ?_⟩
      · change 0 < s1.filterSize; omega
      · change ltb ((s1.costList.push s1.cost).get (s1.filterSize - 1 - 0)) _ = true
        rw [Nat.sub_zero, en, hc.cLists.1, PySQP.get_push hcost hn', hc.cost]
        simp only [ltb_exact, decide_eq_true_eq]; exact hcon.1
      · change ltb ((s1.gapList.push s1.gapNorm).get (s1.filterSize - 1 - 0)) _ = true
        rw [Nat.sub_zero, en, hc.cLists.2, PySQP.get_push hg hn', hgn]
        simp only [ltb_exact, decide_eq_true_eq]; exact hcon.2
    · unfold Good at k5
      have : ¬ s1.pushFilter.useFilter = true := by rw [eu, hf]; exact Bool.false_ne_true
      rw [if_neg this, hC, hG] at k5
      simp only [ltb_exact, decide_eq_true_eq] at k5
      have em : s1.pushFilter.merit = trajCost P q.xs q.us + s.mu * shootGapNorm P q.xs q.us := by
        change s1.merit = _
        rw [hc.merit, hc.cost, hgn, e1]; rfl
      have emu : s1.pushFilter.mu = s.mu := f1.trans e1
      rw [em, emu] at k5
      exact k5
  · cases e
  · cases e

end
end SQPCpp
end Mim
