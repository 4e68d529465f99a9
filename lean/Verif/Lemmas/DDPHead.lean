import Verif.Props.DirectionExists
import Verif.Lemmas.DDPFull

/-!
# The direction computed at the head of an iteration of DDP or FDDP, with or without recomputed derivatives
-/
set_option linter.unusedSectionVars false
set_option linter.unusedSimpArgs false

namespace Mim
open Matrix Spec DDP
variable {K : Type} [Field K] [LinearOrder K] [IsStrictOrderedRing K] {P : Problem K}

namespace DDP

theorem evald_cand (r : Bool) (s : DDP P) : (evald r s).xs = s.xs ∧ (evald r s).us = s.us ∧ (evald r s).feas = s.feas ∧
    (evald r s).preg = s.preg ∧ (evald r s).dreg = s.dreg ∧ (evald r s).e.bp = s.e.bp := by
  cases r <;> exact ⟨rfl, rfl, rfl, rfl, rfl, rfl⟩

theorem dir_of_backward {k : Kind P} (hk : IsSolver k) {llt : LLT K} {r : Bool} {s : DDP P} {b : BP P}
    (h : backwardPass llt (evald r s).y.data (evald r s).e.fs s.feas s.preg s.dreg s.e.bp = .ok b) :
    ∃ s1, k.dir llt r s = .ok s1 := by
  rcases hk with rfl | rfl
  · change ∃ s1, dirDDP llt r s = .ok s1
    unfold dirDDP
    cases r
    · have h : backwardPass llt s.y.data s.e.fs s.feas s.preg s.dreg s.e.bp = .ok b := h
      simp only [Bool.false_eq_true, if_false, h]; exact ⟨_, rfl⟩
    · have h : backwardPass llt s.calcDiff.y.data s.calcDiff.e.fs s.calcDiff.feas s.calcDiff.preg s.calcDiff.dreg s.calcDiff.e.bp = .ok b := h
      simp only [if_true, h]; exact ⟨_, rfl⟩
  · change ∃ s1, dirFDDP llt r s = .ok s1
    unfold dirFDDP
    cases r
    · have h : backwardPass llt s.y.data s.e.fs s.feas s.preg s.dreg s.e.bp = .ok b := h
      simp only [Bool.false_eq_true, if_false, h]; exact ⟨_, rfl⟩
    · have h : backwardPass llt s.calcDiff.y.data s.calcDiff.e.fs s.calcDiff.feas s.calcDiff.preg s.calcDiff.dreg s.calcDiff.e.bp = .ok b := h
      simp only [if_true, h]; exact ⟨_, rfl⟩

/-- the first attempt succeeds on problems with convex costs. -/
theorem retry_head {k : Kind P} (hk : IsSolver k) {llt : LLT K} (hllt : LLTExact llt) (hP : SymProblem P) (hC : ConvexProblem P)
    {s : DDP P} (hI : HeadInv s) (hp : 0 ≤ s.preg) (hq : 0 ≤ s.dreg) (hs : StrictControls P ∨ 0 < s.dreg)
    (hr : (lqOf (evald s.recalc s).y.data (fun t => if s.feas then 0 else (evald s.recalc s).e.fs t) s.preg s.dreg).InRange) (fuel : ℕ) :
    ∃ s1, retry k llt (fuel + 1) s = some (true, s1) ∧ s1.preg = s.preg ∧ s1.dreg = s.dreg := by
  have hE := evald_evalFresh hI
  obtain ⟨c1, c2, c3, c4, c5, c6⟩ := evald_cand s.recalc s
  have hd : FreshDiff P (evald s.recalc s).y.data s.xs s.us := by have := hE.diff; rwa [c1, c2] at this
  obtain ⟨b, hb⟩ := (C57_backward_iff hllt (symHess_of_fresh hP hd) s.e.bp (feas := s.feas)).mpr ⟨posCurv_of_convex hC hd hp hq hs, hr⟩
  obtain ⟨s1, h1⟩ := dir_of_backward hk hb
  obtain ⟨b, g, e⟩ := hk.laws.dir llt s.recalc s
  rw [h1] at e
  have e : s1 = _ := e
  refine ⟨s1, ?_, by rw [e]; exact c4, by rw [e]; exact c5⟩
  unfold retry
  rw [h1]

end DDP
end Mim
