import Verif.Lemmas.ConvexLQ
import Verif.Props.SQPFilter

/-!
# SQP solves strictly convex linear-quadratic problems (C58)
-/
set_option linter.unusedSectionVars false
set_option linter.unusedSimpArgs false

namespace Mim
open Spec SQP Matrix
variable {K : Type} [Field K] [LinearOrder K] [IsStrictOrderedRing K] {P : Problem K}
variable {llt : LLT K} {fuel : ℕ} {xs : Option (Traj P)} {us : Option (Ctrls P)} {m : ℕ} {s : SQP P}

/-- the unique minimiser of the optimal control problem over all feasible trajectories. -/
def Spec.OptimalTraj (P : Problem K) (X : Traj P) (U : Ctrls P) : Prop :=
  Feasible P X U ∧ ∀ X' U', Feasible P X' U' → trajCost P X U ≤ trajCost P X' U' ∧
    (trajCost P X' U' = trajCost P X U → (∀ t, t ≤ P.T → X' t = X t) ∧ ∀ t, t < P.T → U' t = U t)

/-- the trial with full step is acceptable in the first iteration, unless the residual is already zero. -/
theorem full_step_acceptable {φ : P.X → Vec K P.ndx} (hE : Euclid P φ) (hA : AffineDyn P φ) (hC : QuadCost P φ)
    (hP : SymProblem P) (hT : 0 < P.T) (hllt : LLTExact llt) (hs : Reachable s) {s3 : SQP P}
    (hr : retry llt fuel true (s.start xs us 0) = some (true, s3)) (hz : s3.preg = 0 ∧ s3.dreg = 0)
    (hk : kktResidual s3.data s3.fs s3.lagMul ≠ 0)
    (hb : ¬ CostBlowsUp P (stepX P s3.xs s3.dx 1) (stepU P s3.us s3.du 1))
    (hline : (s.useFilter = true ∧ FilterWF s) ∨ (s.useFilter = false ∧ shootGapNorm P s3.xs s3.us = 0)) :
    Acceptable (checked s3).pushFilter 1 := by
  obtain ⟨f1, f2, f3, f4, f5⟩ := C17_sqp_directions_fresh hT 0 (s1 := s.start xs us 0) rfl rfl hr
  obtain ⟨k3, kd3⟩ := C18_sqp_every_iteration (n := 0) (s1 := s.start xs us 0) hllt hs rfl hr (symHess_of_fresh hP f2)
  have hx0 : s3.xs 0 = P.x0 := by
    rw [(retry_xs hr).1]
    simp [start, setCandidate]
  have hfs0 : s3.fs 0 = 0 := by rw [f4, hx0, hE.diff, sub_self]
  have hg1 : shootGapNorm P (stepX P s3.xs s3.dx 1) (stepU P s3.us s3.du 1) = 0 :=
    (C20_sqp_gap_contraction hT hE hA 0 (s := s) (s1 := s.start xs us 0) rfl rfl hr 1).2 rfl
  obtain ⟨d1, d2, d3, d4, d5⟩ := retry_eval hr
  have hgap : s3.gap = shootGapNorm P s3.xs s3.us := by rw [d4, ← d3, gapNorm_fresh hfs0 f5]
  have hdesc : shootGapNorm P s3.xs s3.us = 0 →
      trajCost P (stepX P s3.xs s3.dx 1) (stepU P s3.us s3.du 1) < trajCost P s3.xs s3.us := by
    intro h0
    have hgz : ∀ t, t < P.T → shootGap P s3.xs s3.us t = 0 := by
      unfold shootGapNorm at h0
      rw [sumUp_exact] at h0
      intro t ht
      have hnn : ∀ t ∈ Finset.range P.T, 0 ≤ norm1 (shootGap P s3.xs s3.us t) := fun t _ => by
        rw [norm1_exact]; exact Finset.sum_nonneg fun _ _ => abs_nonneg _
      have := (Finset.sum_eq_zero_iff_of_nonneg hnn).mp h0 t (Finset.mem_range.mpr ht)
      rw [norm1_exact, Finset.sum_eq_zero_iff_of_nonneg (fun _ _ => abs_nonneg _)] at this
      exact funext fun i => abs_eq_zero.mp (this i (Finset.mem_univ i))
    have hfs : ∀ t, t ≤ P.T → s3.fs t = 0 := by
      intro t ht
      cases t with
      | zero => exact hfs0
      | succ t => rw [f5 t ht, hgz t ht]
    have hmin := C19_sqp_direction_minimal (dx' := fun _ => 0) (du' := fun _ => 0) hllt rfl hr (symHess_of_fresh hP f2)
      (by intro t ht; simp only [lqOf, Matrix.mulVec_zero, zero_add, hfs (t + 1) ht]) kd3.symm
    have hc0 : (lqOf s3.data s3.fs s3.preg s3.dreg).cost (fun _ => 0) (fun _ => 0) = 0 := by
      unfold LQ.cost LQ.stageCost
      simp
    have h2 : (fun t => φ (stepX P s3.xs s3.dx 1 t) - φ (s3.xs t)) = s3.dx := funext fun t => by
      unfold stepX; rw [hE.integrate, sv_exact, one_smul]; abel
    have h3 : (fun t => stepU P s3.us s3.du 1 t - s3.us t) = s3.du := funext fun t => by
      unfold stepU; rw [sv_exact, one_smul]; abel
    have hm := trajCost_model (fs := s3.fs) hC f2 (stepX P s3.xs s3.dx 1) (stepU P s3.us s3.du 1)
    rw [h2, h3] at hm
    rw [hc0, hz.1, hz.2] at hmin
    rw [hm]
    rcases lt_or_eq_of_le hmin.1 with h | h
    · linarith
    · exfalso
      obtain ⟨e1, e2⟩ := hmin.2 h.symm
      apply hk
      refine le_antisymm ?_ ?_
      · rw [C02_sqp_residual_meaning _ _ _ _ le_rfl]
        have hv : ∀ {n : ℕ} {v : Vec K n}, v = 0 → ∀ i, |v i| ≤ 0 := fun h i => by rw [h]; simp
        refine ⟨fun t ht => hv ?_, fun t ht => hv ?_, hv ?_, fun t ht => hv (hfs t ht)⟩
        · have := k3.stat_x t ht
          rw [← e2 t ht.le, ← e1 t ht] at this
          simp only [lqOf, Matrix.mulVec_zero, zero_add] at this
          rw [this, sub_self]
        · have := k3.stat_u t ht
          rw [← e2 t ht.le, ← e1 t ht] at this
          simpa only [lqOf, Matrix.mulVec_zero, zero_add] using this
        · have := k3.stat_T
          rw [← e2 P.T le_rfl] at this
          simp only [lqOf, Matrix.mulVec_zero, zero_add] at this
          rw [this, sub_self]
      · unfold kktResidual
        simp only [cppMax_exact, normInf_exact]
        exact le_max_of_le_left (le_max_of_le_right (exactNormInf_nonneg _))
  have hgn : 0 ≤ shootGapNorm P s3.xs s3.us := by
    unfold shootGapNorm
    rw [sumUp_exact]
    exact Finset.sum_nonneg fun t _ => by rw [norm1_exact]; exact Finset.sum_nonneg fun _ _ => abs_nonneg _
  rcases hline with ⟨huf, hwf⟩ | ⟨huf, hg⟩
  · obtain ⟨_, hh, hiff⟩ := C11_sqp_filter hwf huf 0 (s1 := s.start xs us 0) rfl hr
    refine (hiff 1).mpr ⟨by simp, by simp, hb, ?_⟩
    rintro ⟨e, he, h1, h2⟩
    have he := List.mem_of_mem_drop he
    rw [hh] at he
    have he : e ∈ [(s3.cost, s3.gap)] := he
    rw [List.mem_singleton] at he
    subst he
    rw [leb_exact, decide_eq_true_eq] at h1 h2
    simp only [] at h1 h2
    rw [hg1, hgap] at h2
    rw [f3] at h1
    exact absurd h1 (not_le.mpr (hdesc (le_antisymm h2 hgn)))
  · have hu3 : (checked s3).pushFilter.useFilter = false := by
      have : s3.useFilter = (s.start xs us 0).useFilter :=
        retry_frame useFilter (fun _ _ _ _ _ _ _ _ _ _ _ _ => rfl) (fun _ _ _ => rfl) _ _ _ _ _ _ hr
      exact this.trans huf
    refine ⟨by simp, by simp, hb, ?_⟩
    rw [if_neg (by rw [hu3]; simp)]
    change ltb (trajCost P (stepX P s3.xs s3.dx 1) (stepU P s3.us s3.du 1) + s3.mu * shootGapNorm P (stepX P s3.xs s3.dx 1)
      (stepU P s3.us s3.du 1)) s3.merit = true
    rw [hg1, d5, ← d3, ← d2, gapNorm_fresh hfs0 f5, hg, mul_zero, mul_zero, add_zero, add_zero, f3, ltb_exact, decide_eq_true_eq]
    exact hdesc hg

/-- Values stay below `1e30` at the solution: its costs, and the value functions there with the regularization of the second
iteration. -/
structure Spec.SolutionInRange (P : Problem K) (p : K) : Prop where
  cost : ∀ X U lam, IsKKT P 0 X U lam → ¬ CostBlowsUp P X U
  value : ∀ X U lam, IsKKT P 0 X U lam → ∀ d, FreshDiff P d X U → (lqOf d (fun _ => 0) p p).InRange

/-- the regularization after a full step from zero. -/
def Params.regAfter (p : Params K) : K := if p.thStepDec < 1 then max p.regMin 0 else 0

theorem updateReg_full {z : SQP P} (h1 : z.steplength = 1) (h2 : z.preg = 0) (h3 : z.dreg = 0) (h4 : z.par.thStepInc < 1) :
    z.updateReg.1 = false ∧ z.updateReg.2.preg = z.par.regAfter ∧ z.updateReg.2.dreg = z.par.regAfter := by
  have hd : decReg z.par z.preg = max z.par.regMin 0 := by rw [decReg_exact, h2, zero_div]
  unfold updateReg Params.regAfter
  simp only [h1, ltb_exact, leb_exact, decide_eq_true_eq]
  by_cases h : z.par.thStepDec < 1
  · simp only [h, if_true]
    have e : z.decreaseReg.steplength = 1 := h1
    have e2 : z.decreaseReg.par = z.par := rfl
    rw [e, e2, if_neg (not_le.mpr h4)]
    exact ⟨rfl, hd, hd⟩
  · simp only [h, if_false]
    rw [h1, if_neg (not_le.mpr h4)]
    exact ⟨rfl, h2, h3⟩

/-- **C58.**  Strictly convex linear-quadratic problem, exact arithmetic, `reginit = 0`, first step length `1`, filter line search (or
a feasible initial guess): from every state of the solver and every guess `solve` returns true after at most two iterations.  Either the
guess already is a KKT point up to the tolerance and is returned, or the returned trajectory is the unique minimiser of the problem and
the multipliers are exact. -/
theorem C58_sqp_convex_lq (hllt : LLTExact llt) (hT : 0 < P.T) {φ : P.X → Vec K P.ndx} (hE : Euclid P φ)
    (hA : AffineDyn P φ) (hQ : QuadGrad P φ) (hC : QuadCost P φ) (hP : SymProblem P) (hcv : ConvexProblem P) (hst : StrictControls P)
    (hs : Reachable s) (htol : 0 ≤ s.tol) (hmax : 0 ≤ s.par.regMax) (hal : s.par.alphas.head? = some 1) (hinc : s.par.thStepInc < 1)
    (hline : (s.useFilter = true ∧ FilterWF s) ∨
      (s.useFilter = false ∧ shootGapNorm P (s.start xs us 0).xs (s.start xs us 0).us = 0))
    (hr0 : (lqOf (s.start xs us 0).calcDiff.data (s.start xs us 0).calcDiff.fs 0 0).InRange)
    (hr1 : SolutionInRange P s.par.regAfter) (fuel m : ℕ) :
    ∃ s', solve llt (fuel + 1) xs us (m + 2) 0 s = some (true, s') ∧
      ((s'.iter = 0 ∧ s'.xs = (s.start xs us 0).xs ∧ s'.us = (s.start xs us 0).us ∧ IsKKT P s.tol s'.xs s'.us s'.lagMul) ∨
       (s'.iter = 1 ∧ s'.KKT = 0 ∧ IsKKT P 0 s'.xs s'.us s'.lagMul ∧ OptimalTraj P s'.xs s'.us)) := by
  obtain ⟨s3, hr, hp3, hq3⟩ := C57_sqp_convex hllt hP hcv (s := s.start xs us 0) rfl le_rfl le_rfl (.inl hst) hr0 fuel
  obtain ⟨x1, x2, _⟩ := retry_xs hr
  obtain ⟨f1, f2, f3, f4, f5⟩ := C17_sqp_directions_fresh hT 0 (s1 := s.start xs us 0) rfl rfl hr
  obtain ⟨k3, kd3⟩ := C18_sqp_every_iteration (n := 0) (s1 := s.start xs us 0) hllt hs rfl hr (symHess_of_fresh hP f2)
  have hpz : s3.preg = 0 ∧ s3.dreg = 0 := ⟨hp3, hq3⟩
  have hx0 : s3.xs 0 = P.x0 := by
    rw [x1]
    simp [start, setCandidate]
  rw [hpz.1, hpz.2] at k3
  have hkkt := full_step_kkt hE hA hQ f2 f5 k3 hx0 kd3
  have ht3 : s3.tol = s.tol :=
    (retry_frame SQP.tol (fun _ _ _ _ _ _ _ _ _ _ _ _ => rfl) (fun _ _ _ => rfl) _ _ _ _ _ _ hr : s3.tol = (s.start xs us 0).tol)
  have hi3 : s3.iter = 0 :=
    (retry_frame SQP.iter (fun _ _ _ _ _ _ _ _ _ _ _ _ => rfl) (fun _ _ _ => rfl) _ _ _ _ _ _ hr : s3.iter = (s.start xs us 0).iter)
  have hpar : s3.par = s.par :=
    (retry_frame SQP.par (fun _ _ _ _ _ _ _ _ _ _ _ _ => rfl) (fun _ _ _ => rfl) _ _ _ _ _ _ hr : s3.par = (s.start xs us 0).par)
  have hnr : s3.nRej = s.nRej :=
    (retry_frame SQP.nRej (fun _ _ _ _ _ _ _ _ _ _ _ _ => rfl) (fun _ _ _ => rfl) _ _ _ _ _ _ hr : s3.nRej = (s.start xs us 0).nRej)
  by_cases hconv : leb (kktResidual s3.data s3.fs s3.lagMul) s.tol = true
  · -- converged at once
    have hb : body llt (fuel + 1) (s.start xs us 0) = some (some true, checked s3) := by
      unfold body
      rw [hr]
      simp only []
      rw [if_pos]
      change leb (kktResidual s3.data s3.fs s3.lagMul) s3.tol = true
      rw [ht3]; exact hconv
    have hsol : solve llt (fuel + 1) xs us (m + 2) 0 s = some (true, checked s3) := by
      unfold solve iterate
      rw [hb]
    refine ⟨checked s3, hsol, .inl ⟨hi3, x1, x2, ?_⟩⟩
    exact C17_sqp_true_is_kkt hT hsol hnr
  · have hk : kktResidual s3.data s3.fs s3.lagMul ≠ 0 := by
      intro h
      apply hconv
      rw [h, leb_exact, decide_eq_true_eq]; exact htol
    have hacc : Acceptable (checked s3).pushFilter 1 := full_step_acceptable hE hA hC hP hT hllt hs hr hpz hk
      (hr1.cost _ _ _ hkkt) (by rw [x1, x2]; exact hline)
    obtain ⟨as, has⟩ : ∃ as, s.par.alphas = 1 :: as := by
      cases h : s.par.alphas with
      | nil => rw [h] at hal; cases hal
      | cons a as => rw [h] at hal; cases hal; exact ⟨as, rfl⟩
    have hpar' : (checked s3).pushFilter.par = s.par := hpar
    obtain ⟨hxs, hus, hfc, hstep, hrej⟩ : (∀ t, t ≤ P.T → (checked s3).pushFilter.search.xs t = stepX P s3.xs s3.dx 1 t) ∧
        (∀ t, t < P.T → (checked s3).pushFilter.search.us t = stepU P s3.us s3.du 1 t) ∧
        FreshCalc P (checked s3).pushFilter.search.data (checked s3).pushFilter.search.xs (checked s3).pushFilter.search.us ∧
        (checked s3).pushFilter.search.steplength = 1 ∧ (checked s3).pushFilter.search.nRej = s3.nRej := by
      rcases C16_sqp_first_acceptable hT (checked s3).pushFilter with ⟨pre, a, post, g1, g2, g3, g4, g5, g6, g7, g8⟩ | ⟨g1, _⟩
      · have ha : a = 1 := by
          cases pre with
          | nil =>
            rw [hpar', has] at g1
            simp only [List.nil_append, List.cons.injEq] at g1
            exact g1.1.symm
          | cons b pre =>
            rw [hpar', has] at g1
            simp only [List.cons_append, List.cons.injEq] at g1
            exact absurd hacc (g1.1 ▸ g2 b List.mem_cons_self)
        subst ha
        exact ⟨g4, g5, g6, g7, g8⟩
      · exact absurd hacc (g1 1 (by rw [hpar', has]; exact List.mem_cons_self))
    have hsp : (checked s3).pushFilter.search.par = s.par ∧ (checked s3).pushFilter.search.preg = 0 ∧
        (checked s3).pushFilter.search.dreg = 0 := by
      obtain ⟨i1, i2, i3⟩ := search_reg (p := s.par) (I := fun r => r = 0) (s := (checked s3).pushFilter)
        ⟨hpar, hpz.2.trans hpz.1.symm, hpz.1⟩
      exact ⟨i1, i3, i2.trans i3⟩
    have hu : (checked s3).pushFilter.search.updateReg.1 = false ∧
        (checked s3).pushFilter.search.updateReg.2.preg = s.par.regAfter ∧
        (checked s3).pushFilter.search.updateReg.2.dreg = s.par.regAfter := by
      have := updateReg_full hstep hsp.2.1 hsp.2.2 (by rw [hsp.1]; exact hinc)
      rw [hsp.1] at this
      exact this
    have hb : body llt (fuel + 1) (s.start xs us 0) = some (none, (checked s3).pushFilter.search.updateReg.2) := by
      unfold body
      rw [hr]
      simp only []
      rw [if_neg, if_neg (by rw [hu.1]; simp)]
      change ¬ leb (kktResidual s3.data s3.fs s3.lagMul) s3.tol = true
      rw [ht3]; exact hconv
    obtain ⟨u1, u2, u3, u4⟩ := updateReg_xs (checked s3).pushFilter.search
    have ust : (checked s3).pushFilter.search.updateReg.2.steplength = 1 :=
      (updateReg_frame SQP.steplength (fun _ _ _ => rfl) _).trans hstep
    have unr : (checked s3).pushFilter.search.updateReg.2.nRej = s.nRej :=
      ((updateReg_frame SQP.nRej (fun _ _ _ => rfl) _).trans hrej).trans hnr
    generalize hs1 : (checked s3).pushFilter.search.updateReg.2 = s1 at hb u1 u2 u3 u4 ust unr hu
    have hkkt1 : IsKKT P 0 s1.xs s1.us s3.lagMul := by
      have hx : ∀ t, t ≤ P.T → s1.xs t = stepX P s3.xs s3.dx 1 t := fun t ht => by rw [u1]; exact hxs t ht
      have hw : ∀ t, t < P.T → s1.us t = stepU P s3.us s3.du 1 t := fun t ht => by rw [u2]; exact hus t ht
      refine ⟨?_, ?_, ?_, ?_, ?_⟩
      · intro t ht; rw [hx t ht.le, hw t ht]; exact hkkt.stat_x t ht
      · intro t ht; rw [hx t ht.le, hw t ht]; exact hkkt.stat_u t ht
      · rw [hx P.T le_rfl]; exact hkkt.stat_T
      · rw [hx 0 (Nat.zero_le _)]; exact hkkt.init
      · intro t ht
        have := hkkt.gaps t ht
        unfold shootGap at this ⊢
        rw [hx (t + 1) ht, hx t ht.le, hw t ht]; exact this
    have hit1 : iterate llt (fuel + 1) 1 (s.start xs us 0) = some (none, { s1 with iter := s1.iter + 1 }) := by
      unfold iterate; rw [hb]; rfl
    have hfc1 : FreshCalc P s1.data s1.xs s1.us := by rw [u1, u2, u4]; exact hfc
    obtain ⟨c1, c2, c3, _⟩ := calcDiff_fresh ({ s1 with iter := s1.iter + 1 } : SQP P) (.inr hfc1)
    have hz : ∀ {n : ℕ} {v : Vec K n}, (∀ i, |v i| ≤ 0) → v = 0 := fun h => funext fun i => abs_nonpos_iff.mp (h i)
    have hgz : ∀ t, t ≤ P.T → ({ s1 with iter := s1.iter + 1 } : SQP P).calcDiff.fs t = 0 := by
      obtain ⟨g1, g2⟩ := gapsOf_fresh c1
      intro t ht
      rw [c3]
      cases t with
      | zero => rw [g1]; exact hz hkkt1.init
      | succ t => rw [g2 t ht]; exact hz (hkkt1.gaps t ht)
    have hp0 : 0 ≤ s.par.regAfter := by
      unfold Params.regAfter
      split
      · exact le_max_right _ _
      · exact le_rfl
    obtain ⟨s2, hr2, _, _⟩ := C57_sqp_convex hllt hP hcv (s := { s1 with iter := s1.iter + 1 }) (iterate_feas 1 hit1)
      (by change 0 ≤ s1.preg; rw [hu.2.1]; exact hp0) (by change 0 ≤ s1.dreg; rw [hu.2.2]; exact hp0) (.inl hst)
      (by
        change (lqOf _ _ s1.preg s1.dreg).InRange
        rw [hu.2.1, hu.2.2]
        exact inRange_congr (fun _ _ => rfl) rfl (fun t ht => (hgz t ht).symm) (hr1.value _ _ _ hkkt1 _ c2)) fuel
    obtain ⟨s', h1, h2, h3, h4⟩ := C44_sqp_lq_one_step hllt hT hE hA hQ hP hs htol hmax hb unr ust hr2 m
    exact ⟨s', h1, .inr ⟨h3, h2, h4, kkt_feasible hE h4, fun X' U' hf => kkt_global_min hE hA hC hP hcv hst s.data h4 hf⟩⟩

end Mim

/-! ## The hypotheses are met by `Ex.lq` -/
namespace Mim.Ex
open Spec SQP Matrix

theorem quad1 (x x' u u' : ℚ) : (1 * x' * x' + 1 * u' * u') / 2 = (1 * x * x + 1 * u * u) / 2 +
    (fun _ : Fin 1 => 1 * x) ⬝ᵥ ((fun _ => x') - fun _ => x) + (fun _ : Fin 1 => 1 * u) ⬝ᵥ ((fun _ => u') - fun _ => u) +
    (((fun _ : Fin 1 => x') - fun _ => x) ⬝ᵥ (m1 (1 : ℚ) *ᵥ ((fun _ => x') - fun _ => x))) / 2 +
    ((fun _ : Fin 1 => x') - fun _ => x) ⬝ᵥ (m1 (0 : ℚ) *ᵥ ((fun _ => u') - fun _ => u)) +
    (((fun _ : Fin 1 => u') - fun _ => u) ⬝ᵥ (m1 (1 : ℚ) *ᵥ ((fun _ => u') - fun _ => u))) / 2 := by
  rw [m1_form, m1_form, m1_form]
  simp only [dotProduct, Fin.sum_univ_one, Pi.sub_apply]
  ring

theorem lq_quadCost : QuadCost lq chart where
  run t _ x u x' u' := by
    have h := quad1 x x' (u (0 : Fin 1)) (u' (0 : Fin 1))
    rw [← one_fun u, ← one_fun u'] at h
    exact h
  ter x x' := by
    have h := quad1 x x' 0 0
    simp only [mul_zero, add_zero, sub_self, Matrix.mulVec_zero, dotProduct_zero, zero_div] at h
    exact h

def lqX : Traj lq := fun t => (if t = 0 then 1 else if t = 1 then 2 / 5 else 1 / 5 : ℚ)
def lqU : Ctrls lq := fun t _ => (if t = 0 then -3 / 5 else -1 / 5 : ℚ)
def lqLam : ℕ → Vec ℚ lq.ndx := fun t _ => (if t = 0 then 8 / 5 else if t = 1 then 3 / 5 else 1 / 5 : ℚ)

theorem lq_kkt : IsKKT lq 0 lqX lqU lqLam :=
  ⟨by decide +kernel, by decide +kernel, by decide +kernel, by decide +kernel, by decide +kernel⟩

/-- every KKT point of `lq` is that one. -/
theorem lq_kkt_unique {X : Traj lq} {U : Ctrls lq} {lam : ℕ → Vec ℚ lq.ndx} (h : IsKKT lq 0 X U lam) :
    (∀ t, t ≤ lq.T → lqX t = X t) ∧ ∀ t, t < lq.T → lqU t = U t := by
  have h1 := kkt_global_min lq_euclid lq_affine lq_quadCost lq_sym lq_convex lq_strict (Data.zero lq) h (kkt_feasible lq_euclid lq_kkt)
  have h2 := kkt_global_min lq_euclid lq_affine lq_quadCost lq_sym lq_convex lq_strict (Data.zero lq) lq_kkt (kkt_feasible lq_euclid h)
  exact h1.2 (le_antisymm h2.1 h1.1)

/-- a solver standing at the solution of `lq` with the regularization of the second iteration. -/
def lqAt : SQP lq := { lqSolver with xs := lqX, us := lqU, preg := lqSolver.par.regAfter, dreg := lqSolver.par.regAfter }

theorem lq_inRange : SolutionInRange lq lqSolver.par.regAfter where
  cost X U lam h hb := by
    obtain ⟨h1, h2⟩ := lq_kkt_unique h
    have := costBlowsUp_congr (fun t ht => (h1 t ht).symm) (fun t ht => (h2 t ht).symm) hb
    rcases this with ⟨t, ht, h⟩ | h
    · revert h
      revert t
      decide +kernel
    · revert h
      decide +kernel
  value X U lam h d hd := by
    obtain ⟨h1, h2⟩ := lq_kkt_unique h
    have hr := (inRange_of_ok (s := lqAt) (scalar_sym _ _ _ _ _) rfl (by decide +kernel)).2
    refine inRange_congr (fun t ht => ?_) ?_ (fun t ht => ?_) hr
    · rw [hd.run t ht, ← h1 t ht.le, ← h2 t ht]
      exact if_pos ht
    · rw [hd.ter, ← h1 _ le_rfl]
      rfl
    · have h3 : ((lqAt.calcDiff.fs 0 (0 : Fin 1) : ℚ), (lqAt.calcDiff.fs 1 (0 : Fin 1) : ℚ), (lqAt.calcDiff.fs 2 (0 : Fin 1) : ℚ)) =
          ((0 : ℚ), (0 : ℚ), (0 : ℚ)) := by decide +kernel
      simp only [Prod.mk.injEq] at h3
      funext i
      have hi : i = (0 : Fin 1) := Fin.fin_one_eq_zero i
      match t, ht with
      | 0, _ => rw [hi]; exact h3.1
      | 1, _ => rw [hi]; exact h3.2.1
      | 2, _ => rw [hi]; exact h3.2.2
      | t + 3, ht => exact absurd ht (by change ¬ t + 3 ≤ 2; omega)

/-- **C58 is met**: all hypotheses of `C58_sqp_convex_lq` hold for the default solver on `lq` started from nothing. -/
theorem C58_example : ∃ s', solve llt1 20 none none 2 0 lqSolver = some (true, s') ∧ s'.iter = 1 ∧ s'.KKT = 0 ∧
    OptimalTraj lq s'.xs s'.us := by
  obtain ⟨s', h1, h2⟩ := C58_sqp_convex_lq (xs := none) (us := none) llt1_exact (by decide) lq_euclid lq_affine lq_quad lq_quadCost
    lq_sym lq_convex lq_strict (.new _) (by decide +kernel) (by decide +kernel) (by decide +kernel) (by decide +kernel)
    (.inl ⟨rfl, FilterWF.new _⟩) C57_convex_example.2.2.2.2 lq_inRange 19 0
  refine ⟨s', h1, ?_⟩
  rcases h2 with ⟨h3, _⟩ | ⟨h3, h4, _, h6⟩
  · exfalso
    have : (solve llt1 20 none none 2 0 lqSolver).map (fun r => r.2.iter) = some 1 := by decide +kernel
    have h1 : solve llt1 20 none none 2 0 lqSolver = some (true, s') := h1
    rw [h1] at this
    have : s'.iter = 1 := Option.some.inj this
    omega
  · exact ⟨h3, h4, h6⟩

end Mim.Ex
