import Verif.Lemmas.SQPTry

/-!
# The line search of SolverSQP takes the first acceptable step length
-/
set_option linter.unusedSectionVars false
set_option linter.unusedSimpArgs false

namespace Mim
open Spec
namespace SQP
variable {F : Type} [Add F] [Sub F] [Mul F] [Div F] [Neg F] [Zero F] [One F] [FloatOps F] {P : Problem F}

theorem filterLoop_iff (cl gl : CBuf F) (fsz it : ℕ) (c g : F) (n count : ℕ) :
    filterLoop cl gl fsz it c g n count = true ↔
      ∃ j, count ≤ j ∧ j < count + n ∧ j < fsz ∧ j ≤ it ∧
        leb (cl.get (fsz - 1 - j)) c = true ∧ leb (gl.get (fsz - 1 - j)) g = true := by
  induction n generalizing count with
  | zero =>
    simp only [filterLoop, Bool.false_eq_true, false_iff, not_exists]
    intro j h; omega
  | succ n ih =>
    unfold filterLoop
    split
    · rename_i h1
      split
      · rename_i h2
        simp only [Bool.and_eq_true] at h2
        simp only [true_iff]
        exact ⟨count, le_rfl, by omega, h1.1, h1.2, h2.1, h2.2⟩
      · rename_i h2
        simp only [Bool.and_eq_true] at h2
        rw [ih]
        constructor
        · rintro ⟨j, h3, h4, h5⟩
          exact ⟨j, by omega, by omega, h5⟩
        · rintro ⟨j, h3, h4, h5, h6, h7, h8⟩
          refine ⟨j, ?_, by omega, h5, h6, h7, h8⟩
          rcases Nat.eq_or_lt_of_le h3 with rfl | h9
          · exact absurd ⟨h7, h8⟩ h2
          · exact h9
    · rename_i h1
      simp only [Bool.false_eq_true, false_iff, not_exists]
      rintro j ⟨h3, h4, h5, h6, _⟩
      exact h1 ⟨by omega, by omega⟩

/-- the filter finds an entry at least as good as `(c, g)` among the slots it looks at. -/
def WorseThanMemory (s : SQP P) (c g : F) : Prop :=
  ∃ j, j < s.filterSize ∧ j ≤ s.iter ∧
    leb (s.costList.get (s.filterSize - 1 - j)) c = true ∧ leb (s.gapList.get (s.filterSize - 1 - j)) g = true

theorem worse_iff (s : SQP P) : s.worse = true ↔ s.WorseThanMemory s.costTry s.gapTry := by
  unfold worse WorseThanMemory
  rw [filterLoop_iff]
  constructor
  · rintro ⟨j, _, _, h1, h2, h3⟩; exact ⟨j, h1, h2, h3⟩
  · rintro ⟨j, h1, h2, h3⟩; exact ⟨j, Nat.zero_le _, by omega, h1, h2, h3⟩

/-- Step length `a` passes in state `s`: it lies in `[0,1]`, the trial's cost does not blow up, and the trial passes the
filter test (not worse than memory), respectively strictly decreases the merit function. -/
def Acceptable (s : SQP P) (a : F) : Prop :=
  ltb 1 a = false ∧ ltb a 0 = false ∧ ¬ CostBlowsUp P (stepX P s.xs s.dx a) (stepU P s.us s.du a) ∧
  if s.useFilter = true then
    ¬ s.WorseThanMemory (trajCost P (stepX P s.xs s.dx a) (stepU P s.us s.du a))
        (shootGapNorm P (stepX P s.xs s.dx a) (stepU P s.us s.du a))
  else ltb (trajCost P (stepX P s.xs s.dx a) (stepU P s.us s.du a) +
      s.mu * shootGapNorm P (stepX P s.xs s.dx a) (stepU P s.us s.du a)) s.merit = true

/-- what the line search reads. -/
def core (s : SQP P) := (s.xs, s.us, s.dx, s.du, s.mu, s.merit, s.useFilter, s.filterSize, s.iter, s.costList, s.gapList)

theorem acceptable_congr {s1 s2 : SQP P} (h : core s1 = core s2) (a : F) : Acceptable s1 a ↔ Acceptable s2 a := by
  simp only [core, Prod.mk.injEq] at h
  obtain ⟨h1, h2, h3, h4, h5, h6, h7, h8, h9, h10, h11⟩ := h
  unfold Acceptable WorseThanMemory
  rw [h1, h2, h3, h4, h5, h6, h7, h8, h9, h10, h11]

/-- the accepted step: the candidate is the trial trajectory and the stored costs and next states are its own. -/
structure Stepped (s : SQP P) (a : F) (s' : SQP P) : Prop where
  xs : ∀ t, t ≤ P.T → s'.xs t = stepX P s.xs s.dx a t
  us : ∀ t, t < P.T → s'.us t = stepU P s.us s.du a t
  fresh : FreshCalc P s'.data (stepX P s.xs s.dx a) (stepU P s.us s.du a)
  step : s'.steplength = a
  cost : s'.costTry = trajCost P (stepX P s.xs s.dx a) (stepU P s.us s.du a)
  gap : s'.gapTry = shootGapNorm P (stepX P s.xs s.dx a) (stepU P s.us s.du a)
  merit : s'.meritTry = s'.costTry + s.mu * s'.gapTry

theorem lineSearch_spec (hT : 0 < P.T) (as : List F) (s : SQP P) :
    ((lineSearch as s).1 = true →
      ∃ pre a post, as = pre ++ a :: post ∧ (∀ b ∈ pre, ¬ Acceptable s b) ∧ Acceptable s a ∧
        Stepped s a (lineSearch as s).2) ∧
    ((lineSearch as s).1 = false → (∀ b ∈ as, ¬ Acceptable s b) ∧ core (lineSearch as s).2 = core s ∧
      (as ≠ [] → (lineSearch as s).2.steplength = as.getLastD s.steplength)) := by
  induction as generalizing s with
  | nil => simp [lineSearch]
  | cons a as ih =>
    obtain ⟨hok, hex⟩ := tryStep_spec hT a { s with steplength := a }
    have hcore := tryStep_frame (P := P) core (fun _ _ _ _ _ _ _ _ _ => rfl) a { s with steplength := a }
    have hcore' : core { s with steplength := a } = core s := rfl
    rw [hcore'] at hcore
    have hstep := tryStep_frame (P := P) steplength (fun _ _ _ _ _ _ _ _ _ => rfl) a { s with steplength := a }
    change _ = a at hstep
    -- the recursive case
    have hrec : ∀ s1 : SQP P, core s1 = core s → s1.steplength = a → ¬ Acceptable s a →
        ((lineSearch as s1).1 = true →
          ∃ pre a' post, a :: as = pre ++ a' :: post ∧ (∀ b ∈ pre, ¬ Acceptable s b) ∧ Acceptable s a' ∧
            Stepped s a' (lineSearch as s1).2) ∧
        ((lineSearch as s1).1 = false → (∀ b ∈ a :: as, ¬ Acceptable s b) ∧ core (lineSearch as s1).2 = core s ∧
          (a :: as ≠ [] → (lineSearch as s1).2.steplength = (a :: as).getLastD s.steplength)) := by
      intro s1 hc hsl hna
      obtain ⟨i1, i2⟩ := ih s1
      constructor
      · intro h
        obtain ⟨pre, a', post, e1, e2, e3, e4⟩ := i1 h
        refine ⟨a :: pre, a', post, by rw [e1]; rfl, ?_, (acceptable_congr hc a').mp e3, ?_⟩
        · intro b hb
          rcases List.mem_cons.mp hb with rfl | hb
          · exact hna
          · exact fun h => e2 b hb ((acceptable_congr hc b).mpr h)
        · simp only [core, Prod.mk.injEq] at hc
          obtain ⟨h1, h2, h3, h4, h5, _⟩ := hc
          obtain ⟨f1, f2, f3, f4, f5, f6, f7⟩ := e4
          rw [h1, h3] at f1
          rw [h2, h4] at f2
          rw [h1, h2, h3, h4] at f3 f5 f6
          rw [h5] at f7
          exact ⟨f1, f2, f3, f4, f5, f6, f7⟩
      · intro h
        obtain ⟨e1, e2, e3⟩ := i2 h
        refine ⟨?_, e2.trans hc, ?_⟩
        · intro b hb
          rcases List.mem_cons.mp hb with rfl | hb
          · exact hna
          · exact fun h => e1 b hb ((acceptable_congr hc b).mpr h)
        · intro _
          cases as with
          | nil => simpa [lineSearch] using hsl
          | cons b bs =>
            rw [e3 (by simp)]
            rfl
    unfold lineSearch
    split
    · rename_i s1 hs1
      rw [hs1] at hcore hstep
      refine hrec s1 hcore hstep ?_
      rintro ⟨h1, h2, h3, _⟩
      obtain ⟨s', hs'⟩ := hex h1 h2 h3
      rw [hs1] at hs'
      cases hs'
    · rename_i s1 hs1
      rw [hs1] at hcore hstep
      change core s1 = core s at hcore
      change s1.steplength = a at hstep
      have hp := hok s1 hs1
      have hcore2 := hcore
      simp only [core, Prod.mk.injEq] at hcore2
      obtain ⟨h1, h2, h3, h4, h5, h6, h7, h8, h9, h10, h11⟩ := hcore2
      have hst : ∀ w fe, Stepped s a { s1 with isWorse := w, xs := s1.xsTry, us := s1.usTry, feas := fe } :=
        fun w fe => ⟨hp.xt, hp.ut, hp.fresh, hstep, hp.cost, hp.gap, hp.merit⟩
      have hr := hp.range
      have hnb := hp.noBlow
      simp only []
      split
      · rename_i huf
        rw [h7] at huf
        split
        · rename_i hw
          refine hrec { s1 with isWorse := s1.worse } hcore hstep ?_
          rintro ⟨_, _, _, h⟩
          rw [if_pos huf] at h
          apply h
          have := (worse_iff s1).mp hw
          unfold WorseThanMemory at this ⊢
          rw [hp.cost, hp.gap, h8, h9, h10, h11] at this
          exact this
        · rename_i hw
          refine ⟨fun _ => ⟨[], a, as, rfl, by simp, ⟨hr.1, hr.2, hnb, ?_⟩, hst _ _⟩, fun h => by simp at h⟩
          rw [if_pos huf]
          intro h
          apply hw
          change s1.worse = true
          rw [worse_iff]
          unfold WorseThanMemory at h ⊢
          rw [hp.cost, hp.gap, h8, h9, h10, h11]
          exact h
      · rename_i huf
        rw [h7] at huf
        have hm : s1.meritTry = trajCost P (stepX P s.xs s.dx a) (stepU P s.us s.du a) +
            s.mu * shootGapNorm P (stepX P s.xs s.dx a) (stepU P s.us s.du a) := by
          rw [hp.merit, hp.cost, hp.gap]
        split
        · rename_i hlt
          refine ⟨fun _ => ⟨[], a, as, rfl, by simp, ⟨hr.1, hr.2, hnb, ?_⟩, hst s1.isWorse _⟩, fun h => by simp at h⟩
          rw [if_neg huf, ← hm, ← h6]
          exact hlt
        · rename_i hlt
          refine hrec s1 hcore hstep ?_
          rintro ⟨_, _, _, h⟩
          rw [if_neg huf, ← hm, ← h6] at h
          exact hlt h

end SQP
end Mim
