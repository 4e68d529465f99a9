import Verif.Props.PyCppLine
import Verif.Props.PyCppMirror

/-!
# `SQP_CPP` on linear-quadratic problems from a guess with gaps (C80, continued)
-/
set_option linter.unusedSectionVars false
set_option linter.unusedSimpArgs false

namespace Mim
open Spec Matrix

namespace SQPCpp
section
variable {K : Type} [Field K] [LinearOrder K] [IsStrictOrderedRing K] {P : Problem K} {llt : LLT K}
variable {φ : P.X → Vec K P.ndx} {s s1 : SQPCpp P} {X : Traj P} {U : Ctrls P}

/-- **C80 (any guess).**  Linear-quadratic problem, exact arithmetic, filter line search, any reachable solver object, any guess that
starts at the initial state and that the stored multipliers do not certify already, at least two iterations: `solve` returns true with
residual zero.  The first iteration reaches the exact KKT point `(X*, U*)`, and what is returned is either that point or
`X* + 2⁻ᵏ (X* - X)` for some `k < 10`, whose gaps are `-2⁻ᵏ` times the gaps of the guess; the latter happens, with at least one filter
entry, only if the guess was feasible or the cost there is not larger than the optimal one. -/
theorem C80_cpp_overshoot (h : LQStart llt φ s X U s1) (hf : s.useFilter = true) (m : ℕ) :
    ∃ s', solve llt (some X) (some U) (m + 2) s = (.ret true, s') ∧ s'.KKT = 0 ∧
      ∃ (X' : Traj P) (U' : Ctrls P), IsKKT P 0 X' U' s'.lagMul ∧
        (((∀ t, t ≤ P.T → s'.xs t = X' t) ∧ ∀ t, t < P.T → s'.us t = U' t) ∨
         ∃ k, k < 10 ∧ (∀ t, t ≤ P.T → φ (s'.xs t) = φ (X' t) + ((1 / 2 : K) ^ k) • (φ (X' t) - φ (X t))) ∧
           (∀ t, t < P.T → s'.us t = U' t + ((1 / 2 : K) ^ k) • (U' t - U t)) ∧
           (∀ t, t < P.T → shootGap P s'.xs s'.us t = -((1 / 2 : K) ^ k) • shootGap P X U t) ∧
           (1 ≤ s.filterSize → (∃ t, t < P.T ∧ shootGap P X U t ≠ 0) → trajCost P s'.xs s'.us ≤ trajCost P X' U')) := by
  have hh : ∀ k, (PySQP.halve k : K) = (1 / 2) ^ k := by
    intro k
    induction k with
    | zero => simp [PySQP.halve]
    | succ k ih => rw [PySQP.halve, ih, pow_succ]; simp
  have h1 : (PySQP.halve 0 : K) = 1 := by simp [PySQP.halve]
  obtain ⟨hF, hnk, hgT, htol, huf, hfs, hgn, hnn, hfull, hcfull⟩ := h.first0
  have hgap0 : ∀ (a : K) (Y : Traj P) (V : Ctrls P), (∀ t, t < P.T → shootGap P Y V t = (1 - a) • shootGap P X U t) →
      shootGapNorm P Y V = |1 - a| * shootGapNorm P X U := by
    intro a Y V hY
    unfold shootGapNorm
    rw [sumUp_exact, sumUp_exact, Finset.mul_sum]
    refine Finset.sum_congr rfl fun t ht => ?_
    rw [hY t (Finset.mem_range.mp ht), norm1_exact, norm1_exact, Finset.mul_sum]
    refine Finset.sum_congr rfl fun i _ => ?_
    rw [Pi.smul_apply, smul_eq_mul, abs_mul]
  have hp1 : GapsNonneg s1.pushFilter := hnn.push hgn
  have hgap1 : trialGap s1.pushFilter (PySQP.halve 0) = 0 := by
    unfold trialGap
    change (shootGapNorm P (stepX P s1.xs s1.dx _) (stepU P s1.us s1.du _) + norm1 (s1.gapTry P.T)) / _ = 0
    rw [hF.xs, hF.us, hgap0 _ _ _ (hF.gap (PySQP.halve 0)), hgT, h1]
    simp
  obtain ⟨q, es, et⟩ := search_first (iter := 0) (good_of_feasible (by change s1.useFilter = true; rw [huf, hf]) hp1 hgap1)
  obtain ⟨q1, ed, hk1, hc1, d1, d2, d3, x1, u1, hgq⟩ := h.second hF htol et
  have hqk : q.KKT = s1.KKT ∧ q.tol = s1.tol ∧ q.useFilter = s1.useFilter ∧ q.gapList = s1.pushFilter.gapList ∧
      q.costList = s1.pushFilter.costList ∧ q.filterSize = s1.filterSize := by
    obtain ⟨_, _, _, _, _, _, _, _, _, _, rfl, -⟩ := et.frame
    exact ⟨rfl, rfl, rfl, rfl, rfl, rfl⟩
  have hkq1 := keep_all hc1.keep
  have x1' : ∀ t, t ≤ P.T → q.xs t = stepX P X s1.dx 1 t := fun t ht => by rw [← hc1.xs]; exact x1 t ht
  have u1' : ∀ t, t < P.T → q.us t = stepU P U s1.du 1 t := fun t ht => by rw [← hc1.us]; exact u1 t ht
  have hgapn : q1.gapNorm = 0 := by
    rw [hc1.gapNorm]
    refine rowsNorm_zero fun t ht => ?_
    obtain ⟨g0, g1⟩ := hc1.gaps
    cases t with
    | zero => rw [g0, x1' 0 (Nat.zero_le _)]; exact funext fun i => abs_nonpos_iff.mp (hF.kkt.init i)
    | succ t => rw [g1 t ht, shootGap_congr P x1' u1' t ht]; exact funext fun i => abs_nonpos_iff.mp (hF.kkt.gaps t ht i)
  have hX2 : ∀ (a : K) t, t ≤ P.T → stepX P q1.xs q1.dx a t = stepX P X s1.dx (1 + a) t := fun a t ht => by
    rw [d1, ← stepX_add h.euclid]; unfold stepX; rw [x1 t ht]; rfl
  have hU2 : ∀ (a : K) t, t < P.T → stepU P q1.us q1.du a t = stepU P U s1.du (1 + a) t := fun a t ht => by
    rw [d2, ← stepU_add]; unfold stepU; rw [u1 t ht]; rfl
  have huse : q1.pushFilter.useFilter = true := by change q1.useFilter = true; rw [hkq1.2.2.1, hqk.2.2.1, huf, hf]
  obtain ⟨r, a, s', es'⟩ : ∃ r a s', search 1 10 (PySQP.halve 0) q1.pushFilter = (r, a, s') := ⟨_, _, _, rfl⟩
  have hspec := search_spec 1 10 (Trials.refl q1.pushFilter) 0 es'
  have hkkt' : s'.KKT = q1.KKT ∧ s'.tol = q1.tol ∧ s'.lagMul = q1.lagMul ∧ r ≠ .gaveUp := by
    rcases hspec with ⟨e, k, -, -, -, -, -, -, ek⟩ | ⟨e, -, -, -, ek⟩ | ⟨-, e, -⟩
    · obtain ⟨_, _, _, _, _, _, _, _, _, _, rfl, -⟩ := ek.frame
      exact ⟨rfl, rfl, rfl, by rw [e]; exact fun h => (by cases h)⟩
    · obtain ⟨_, _, _, _, _, _, _, _, rfl, -⟩ := ek
      exact ⟨rfl, rfl, rfl, by rw [e]; exact fun h => (by cases h)⟩
    · rw [huse] at e; cases e
  refine ⟨s', ?_, hkkt'.1.trans hk1, stepX P X s1.dx 1, stepU P U s1.du 1, ?_, ?_⟩
  · unfold solve iterate
    rw [h.dir]
    simp only []
    rw [show (lit 1 : K) = PySQP.halve 0 from rfl, es]
    simp only []
    rw [if_neg (by rw [hqk.1, hqk.2.1, htol]; simpa using hnk)]
    unfold iterate
    rw [ed]
    simp only []
    rw [show (lit 1 : K) = PySQP.halve 0 from rfl, es']
    have hif : ltb s'.KKT s'.tol = true := by
      rw [hkkt'.1, hkkt'.2.1, hk1, hkq1.2.1, hqk.2.1, htol]; simpa using h.tol
    cases r with
    | gaveUp => exact absurd rfl hkkt'.2.2.2
    | accepted => simp only []; rw [if_pos hif]
    | exhausted => simp only []; rw [if_pos hif]
  · rw [hkkt'.2.2.1, d3]; exact hF.kkt
  · rcases hspec with ⟨-, k, -, hk, -, rfl, hgood, -, ek⟩ | ⟨-, -, -, -, ek⟩ | ⟨-, e, -⟩
    · right
      have hxf : ∀ t, t ≤ P.T → s'.xs t = stepX P X s1.dx (1 + (1 / 2) ^ k) t := fun t ht => by
        rw [ek.xs t ht, ← hX2 _ t ht, hh]; rfl
      have huf' : ∀ t, t < P.T → s'.us t = stepU P U s1.du (1 + (1 / 2) ^ k) t := fun t ht => by
        rw [ek.us t ht, ← hU2 _ t ht, hh]; rfl
      refine ⟨k, by omega, fun t ht => ?_, fun t ht => ?_, fun t ht => ?_, fun hn hne => ?_⟩
      · rw [hxf t ht]
        unfold stepX
        rw [h.euclid.integrate, h.euclid.integrate, sv_exact, sv_exact, add_smul, one_smul]
        rw [add_sub_cancel_left]
        abel
      · rw [huf' t ht]
        unfold stepU
        rw [sv_exact, sv_exact, add_smul, one_smul, add_sub_cancel_left]
        abel
      · rw [shootGap_congr P hxf huf' t ht, hF.gap _ t ht]
        congr 1
        ring
      · by_contra hcon
        push Not at hcon
        unfold Good at hgood
        rw [if_pos huse] at hgood
        have en : q1.filterSize = s1.filterSize := hkq1.2.2.2.1.trans hqk.2.2.2.2.2
        have hn' : 1 ≤ s1.filterSize := by rw [hfs]; exact hn
        refine hgood ⟨0, ?_, Nat.zero_le _, ?_, ?_⟩
        · change 0 < q1.filterSize; omega
        · change ltb ((q1.costList.push q1.cost).get (q1.filterSize - 1 - 0)) (trajCost P (stepX P q1.xs q1.dx _) (stepU P q1.us q1.du _)) = true
          rw [Nat.sub_zero, en, hc1.cLists.1, show q.costList = s1.costList.push s1.cost from hqk.2.2.2.2.1]
          rw [PySQP.get_push (hcfull.push _) hn', hc1.cost, trajCost_congr P x1' u1', hh,
            trajCost_congr P (hX2 _) (hU2 _), ← trajCost_congr P hxf huf']
          simp only [ltb_exact, decide_eq_true_eq]
          exact hcon
        · change ltb ((q1.gapList.push q1.gapNorm).get (q1.filterSize - 1 - 0)) (trialGap q1.pushFilter (PySQP.halve k)) = true
          rw [Nat.sub_zero, en, hc1.cLists.2, show q.gapList = s1.gapList.push s1.gapNorm from hqk.2.2.2.1]
          rw [PySQP.get_push (hfull.push _) hn', hgapn]
          simp only [ltb_exact, decide_eq_true_eq]
          unfold trialGap
          change 0 < (shootGapNorm P (stepX P q1.xs q1.dx _) (stepU P q1.us q1.du _) + norm1 (q1.gapTry P.T)) / _
          rw [shootGapNorm_congr P (hX2 _) (hU2 _), hgap0 _ _ _ (hF.gap _), hkq1.2.2.2.2.2.2.2, hgq, hgT, hh]
          obtain ⟨t, ht, hne⟩ := hne
          have hT : (0 : K) < (P.T : K) := by exact_mod_cast (by omega : 0 < P.T)
          have hpos : 0 < shootGapNorm P X U := by
            unfold shootGapNorm
            rw [sumUp_exact]
            refine Finset.sum_pos' (fun t _ => by rw [norm1_exact]; exact Finset.sum_nonneg fun _ _ => abs_nonneg _)
              ⟨t, Finset.mem_range.mpr ht, ?_⟩
            rw [norm1_exact]
            by_contra hz
            refine hne (funext fun i => ?_)
            have hz' : ∑ i, |shootGap P X U t i| = 0 :=
              le_antisymm (not_lt.mp hz) (Finset.sum_nonneg fun _ _ => abs_nonneg _)
            have := (Finset.sum_eq_zero_iff_of_nonneg fun i _ => abs_nonneg _).1 hz' i (Finset.mem_univ i)
            simpa using this
          have hz : norm1 (0 : Vec K P.ndx) = 0 := by rw [norm1_exact]; simp
          rw [hz, add_zero, lit_exact, show (1 : K) - (1 + (1 / 2) ^ k) = -(1 / 2) ^ k by ring, abs_neg]
          have hk2 : (0 : K) < (1 / 2) ^ k := by positivity
          rw [abs_of_pos hk2]
          push_cast
          exact div_pos (mul_pos hk2 hpos) hT
    · left
      obtain ⟨_, _, _, _, _, _, _, _, rfl, -⟩ := ek
      exact ⟨x1, u1⟩
    · rw [huse] at e; cases e

end
end SQPCpp
end Mim
