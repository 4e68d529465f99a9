import Verif.Props.PyFull

/-!
# C88: the Python `CSQP` with an exact dense back end solves strictly convex constrained linear-quadratic problems
-/
set_option linter.unusedSectionVars false
set_option linter.unusedSimpArgs false

namespace Mim
open Spec Matrix QP

namespace PyFull
section
variable {K : Type} [Field K] [LinearOrder K] [IsStrictOrderedRing K] [SqrtOps K] {P : Problem K} {B : PyDense.Backend K P}
open PyCSQP (Trials Took Good keep keep_all search_spec trialCost trialGap trialCon meritOf_eq)
open PySQP (halve)

theorem halve_zero : (halve 0 : K) = 1 := by simp [halve]

section
variable {φ : P.X → Vec K P.ndx} (hT : 0 < P.T) (hu : ∀ t, P.nu t = P.nu 0) (hB : BackExact B) (hE : Euclid P φ) (hA : AffineDyn P φ)
  (hQ : QuadGrad P φ) (hC : QuadCost P φ) (hG : AffineCon P φ) (hJ : ConstCon P) (hp : Spec.SymProblem P) (hcv : ConvexProblem P)
  (hS : StrictControls P)

include hT hu hB hE hA hC hG hp hcv hS in
/-- the full step leads to the unique solution. -/
theorem full_step {q q1 : PyFull B} (hx : q.p.xs 0 = P.x0) (hd : dirAt q = .ok q1) :
    OptimalCon P (stepX P q.p.xs q1.p.q.dx 1) (stepU P q.p.us q1.p.q.du 1) := by
  obtain ⟨f1, f2, hk⟩ := back_direction hT hu hB hd
  exact optimalCon_of_qp hE hA hC hG f1 f2 (fun t ht => rfl) hx hp hcv hS hk

include hT hu hB hE hA hQ hC hG hJ hp hcv hS in
/-- a candidate that is the solution is recognised. -/
theorem recognised {q q1 : PyFull B} (hx : q.p.xs 0 = P.x0) (hg : q.p.gap P.T = 0) (hd : dirAt q = .ok q1) (ho : OptimalCon P q.p.xs q.p.us) :
    q1.kktCheck.p.KKT ≤ 0 := by
  obtain ⟨f1, f2, hk⟩ := back_direction hT hu hB hd
  have hopt := full_step hT hu hB hE hA hC hG hp hcv hS hx hd
  obtain ⟨c1, c2⟩ := hopt.2.2 _ _ ho.1 ho.2.1
  obtain ⟨d1, -⟩ := ho.2.2 _ _ hopt.1 hopt.2.1
  obtain ⟨e1, e2⟩ := c2 (le_antisymm d1 c1)
  obtain ⟨hpk, -⟩ := pkkt_of_qp hE hA hQ hG f1 f2 (fun t ht => rfl) hx hJ hT hk
  obtain ⟨-, ex, eu⟩ := dirAt_atPoint hd
  rw [passes_cert hg hd 0 le_rfl, ex, eu]
  exact PROX.isPKKT_congr e1 e2 hpk

/-- **C88.**  Strictly convex linear-quadratic problem with affine constraints and one control dimension, exact arithmetic, a back end that
answers the QPs of the first two iterations with KKT points; the filter line search with any memory, or the merit line search from a feasible
guess.  From every state the solver can be in and every initial guess, `solve` with `maxiter ≥ 2` returns true after at most two QPs.  Either
the guess itself satisfies the optimality conditions to the tolerance, or the returned trajectory is the unique solution of the constrained
optimal control problem, with residual zero. -/
theorem C88_dense_constrained_lq {φ : P.X → Vec K P.ndx} (hT : 0 < P.T) (hu : ∀ t, P.nu t = P.nu 0) (hB : BackExact B)
    (hE : Euclid P φ) (hA : AffineDyn P φ) (hQ : QuadGrad P φ) (hC : QuadCost P φ) (hG : AffineCon P φ) (hJ : ConstCon P)
    (hp : Spec.SymProblem P) (hcv : ConvexProblem P) (hS : StrictControls P) {s : PyFull B} (hr : Reachable s) (htol : 0 < s.p.tol)
    {m : ℕ} (hm : 2 ≤ m) {xs : Option (Traj P)} {us : Option (Ctrls P)}
    (hline : s.p.useFilter = true ∨ (Feasible P (s.p.start xs us).xs (s.p.start xs us).us ∧ ConFeasible P (s.p.start xs us).xs (s.p.start xs us).us))
    (hans : ∀ i q, i ≤ 1 → Heads (s.begin_ xs us) i q → (B.run q.m (PyDense.inputs q.p.evaluate.data q.p.evaluate.gap)).1 ≠ none) :
    ∃ s', solve xs us m s = (some true, s') ∧
      ((s'.nQP = s.nQP + 1 ∧ s'.p.xs = (s.p.start xs us).xs ∧ s'.p.us = (s.p.start xs us).us ∧
          IsPKKT P s.p.tol s'.p.xs s'.p.us s'.p.lagMul s'.p.q.y) ∨
       (s'.nQP = s.nQP + 2 ∧ s'.p.KKT ≤ 0 ∧ OptimalCon P s'.p.xs s'.p.us)) := by
  have hint : ∀ x : P.X, P.integrate x 0 = x := fun x => hE.inj _ _ (by rw [hE.integrate, add_zero])
  have hx0 : (s.begin_ xs us).p.xs 0 = P.x0 := by simp only [begin_, PyCSQP.start, Function.update_self]
  have hgT : ∀ {i q}, Heads (s.begin_ xs us) i q → q.p.gap P.T = 0 := fun h => (keep_all h.keep).2.2.2.2.2.2.2.2.1.trans hr.clean.1
  have htolq : ∀ {i q q1}, Heads (s.begin_ xs us) i q → dirAt q = .ok q1 → q1.p.tol = s.p.tol := fun h hd =>
    (keep_all (keep_dirAt hd)).2.2.2.2.1.trans (keep_all h.keep).2.2.2.2.1
  have n0 : norm1 (0 : Vec K P.ndx) = 0 := by simp [norm1_exact]
  -- the solution is recognised
  have hrec : ∀ {i q q1}, Heads (s.begin_ xs us) i q → dirAt q = .ok q1 → OptimalCon P q.p.xs q.p.us → passes q1 = true ∧ q1.kktCheck.p.KKT ≤ 0 := by
    intro i q q1 h hd ho
    have hk := recognised hT hu hB hE hA hQ hC hG hJ hp hcv hS (h.x0 hint hx0) (hgT h) hd ho
    refine ⟨?_, hk⟩
    unfold passes
    rw [htolq h hd, ltb_exact, decide_eq_true_eq]
    exact lt_of_le_of_lt hk htol
  -- the first iteration takes the full step unless the guess is the solution
  have hfirst : ∀ {q1}, dirAt (s.begin_ xs us) = .ok q1 → passes q1 = false → Good q1.kktCheck.p.pushFilter 0 (halve 0) := by
    intro q1 hd hk
    have hopt := full_step hT hu hB hE hA hC hG hp hcv hS hx0 hd
    obtain ⟨ha, ex, eu⟩ := dirAt_atPoint hd
    have hb0 : keep (s.begin_ xs us).p = keep s.p := rfl
    have hkeep : keep q1.p = keep s.p := (keep_dirAt hd).trans hb0
    obtain ⟨-, k2, k3, k4, -, k6, k7, -, k9, k10⟩ := keep_all hkeep
    have hgt : q1.p.gapTry P.T = 0 := k10.trans hr.clean.2
    have t1 : trialGap q1.kktCheck.p.pushFilter (halve 0) = 0 := by
      change shootGapNorm P (stepX P q1.p.xs q1.p.q.dx (halve 0)) (stepU P q1.p.us q1.p.q.du (halve 0)) + norm1 (q1.p.gapTry P.T) = 0
      rw [halve_zero, ex, eu, gapNorm_of_feasible hE hopt.1, hgt, n0, add_zero]
    have t2 : trialCon q1.kktCheck.p.pushFilter (halve 0) = 0 := by
      change conViol P (stepX P q1.p.xs q1.p.q.dx (halve 0)) (stepU P q1.p.us q1.p.q.du (halve 0)) = 0
      rw [conViol_exact, halve_zero, ex, eu, violation_of_inBox hopt.2.1]
    have t3 : trialCost q1.kktCheck.p.pushFilter (halve 0) = trajCost P (stepX P (s.begin_ xs us).p.xs q1.p.q.dx 1) (stepU P (s.begin_ xs us).p.us q1.p.q.du 1) := by
      change trajCost P (stepX P q1.p.xs q1.p.q.dx (halve 0)) (stepU P q1.p.us q1.p.q.du (halve 0)) = _
      rw [halve_zero, ex, eu]
    cases hf : s.p.useFilter with
    | true =>
      unfold Good
      rw [if_pos (show q1.kktCheck.p.pushFilter.useFilter = true from k6.trans hf), t1]
      intro hdom
      have hpos : 0 < s.p.filterSize := by
        obtain ⟨j, hj, -⟩ := hdom
        have : q1.kktCheck.p.pushFilter.filterSize = s.p.filterSize := k7
        omega
      obtain ⟨j, qj, -, -, -, -, h4⟩ := (C87_dense_filter hpos hr.clean.1 .zero hd _ _).1 hdom
      rw [show (zeroV K P.ndx) = 0 from rfl, n0, add_zero, ltb_exact, decide_eq_true_eq] at h4
      have : 0 ≤ shootGapNorm P qj.p.xs qj.p.us := by
        unfold shootGapNorm
        rw [sumUp_exact]
        exact Finset.sum_nonneg fun t _ => by rw [norm1_exact]; exact Finset.sum_nonneg fun _ _ => abs_nonneg _
      exact absurd h4 (not_lt.mpr this)
    | false =>
      rcases hline with e | ⟨hf1, hf2⟩
      · rw [hf] at e; cases e
      unfold Good
      rw [if_neg (by rw [show q1.kktCheck.p.pushFilter.useFilter = false from k6.trans hf]; exact Bool.false_ne_true), t1, t2, t3]
      have hg0 : q1.p.gapNorm = 0 := by
        rw [ha.gapNorm, k9, hr.clean.1, show (zeroV K P.ndx) = 0 from rfl, n0, add_zero, ex, eu]
        exact gapNorm_of_feasible hE hf1
      have hv0 : q1.p.con = 0 := by
        rw [ha.con, conViol_exact, ex, eu]
        exact violation_of_inBox hf2
      have hc0 : q1.p.cost = trajCost P (s.begin_ xs us).p.xs (s.begin_ xs us).p.us := by rw [ha.cost, ex, eu]
      have hme : ∀ c : K, q1.p.meritOf c 0 0 = c := by
        intro c
        rw [meritOf_eq]
        split <;> simp
      have h1 : q1.kktCheck.p.pushFilter.meritOf (trajCost P (stepX P (s.begin_ xs us).p.xs q1.p.q.dx 1) (stepU P (s.begin_ xs us).p.us q1.p.q.du 1)) 0 0 =
        trajCost P (stepX P (s.begin_ xs us).p.xs q1.p.q.dx 1) (stepU P (s.begin_ xs us).p.us q1.p.q.du 1) := hme _
      have h2 : q1.kktCheck.p.pushFilter.merit = trajCost P (s.begin_ xs us).p.xs (s.begin_ xs us).p.us := by
        change q1.p.merit = _
        rw [ha.merit, hg0, hv0, hme, hc0]
      rw [h1, h2, ltb_exact, decide_eq_true_eq]
      by_contra hle
      obtain ⟨c1, c2⟩ := hopt.2.2 _ _ hf1 hf2
      obtain ⟨e1, e2⟩ := c2 (le_antisymm (not_lt.mp hle) c1)
      have hopt0 : OptimalCon P (s.begin_ xs us).p.xs (s.begin_ xs us).p.us := optimalCon_congr e1 e2 hopt
      rw [(hrec .zero hd hopt0).1] at hk
      cases hk
  -- so the second iteration starts at the solution
  have hsecond : ∀ {q}, Heads (s.begin_ xs us) 1 q → OptimalCon P q.p.xs q.p.us := by
    intro q hq
    cases hq with
    | @succ _ q0 _ h0 hs =>
      cases h0
      obtain ⟨q1, hd, hk, r, x, hse, hne, rfl⟩ := hs.run
      have hgood := hfirst hd hk
      have hopt := full_step hT hu hB hE hA hC hG hp hcv hS hx0 hd
      obtain ⟨-, ex, eu⟩ := dirAt_atPoint hd
      rcases search_spec 0 10 (Trials.refl q1.kktCheck.p.pushFilter) 0 hse with ⟨-, k, -, -, -, -, hmin, e⟩ | ⟨-, -, e, -⟩ | ⟨e, -⟩
      · have hk0 : k = 0 := by
          by_contra h
          exact hmin 0 le_rfl (by omega) hgood
        subst hk0
        refine optimalCon_congr (fun t ht => ?_) (fun t ht => ?_) hopt
        · change x.xs t = _
          rw [e.xs t ht]
          change stepX P q1.p.xs q1.p.q.dx (halve 0) t = _
          rw [halve_zero, ex]
        · change x.us t = _
          rw [e.us t ht]
          change stepU P q1.p.us q1.p.q.du (halve 0) t = _
          rw [halve_zero, eu]
      · exact absurd hgood (e 0 le_rfl (by omega))
      · exact absurd e hne
  have hnomore : ∀ {j q}, Heads (s.begin_ xs us) j q → j ≤ 1 := by
    intro j q h
    induction h with
    | zero => omega
    | @succ i q q' h hs ih =>
      by_contra hgt
      obtain rfl : i = 1 := by omega
      obtain ⟨q1, hd, hk, -⟩ := hs.run
      rw [(hrec h hd (hsecond h)).1] at hk
      cases hk
  generalize h : solve xs us m s = res
  obtain ⟨o, s'⟩ := res
  rcases solve_cases h with ⟨j, q, hj, hq, he⟩ | ⟨q, hq, -⟩
  · have hj1 := hnomore hq
    have hnq := hq.nQP
    have hb : (s.begin_ xs us).nQP = s.nQP := rfl
    have hne := he.nQP
    cases he with
    | raised hd => exact absurd (dirAt_exn hd).1 (hans j q hj1 hq)
    | @conv q1 hd hk =>
      refine ⟨_, rfl, ?_⟩
      rcases Nat.eq_zero_or_pos j with rfl | hpos
      · left
        cases hq
        obtain ⟨c1, -, c3, -⟩ := C87_dense_certificate hr hint h
        obtain ⟨-, ex, eu⟩ := dirAt_atPoint hd
        exact ⟨by rw [hne, hb], ex, eu, c3⟩
      · right
        obtain rfl : j = 1 := by omega
        have ho := hsecond hq
        obtain ⟨-, ex, eu⟩ := dirAt_atPoint hd
        refine ⟨by rw [hne, hnq, hb], (hrec hq hd ho).2, ?_⟩
        change OptimalCon P q1.p.xs q1.p.us
        rw [ex, eu]
        exact ho
    | @gaveUp q1 x hd hk hse =>
      exfalso
      rcases Nat.eq_zero_or_pos j with rfl | hpos
      · cases hq
        have hgood := hfirst hd hk
        rcases search_spec 0 10 (Trials.refl q1.kktCheck.p.pushFilter) 0 hse with ⟨e, -⟩ | ⟨e, -⟩ | ⟨-, -, -, e, -⟩
        · cases e
        · cases e
        · exact e 0 le_rfl (by omega) hgood
      · obtain rfl : j = 1 := by omega
        rw [(hrec hq hd (hsecond hq)).1] at hk
        cases hk
  · exact absurd (hnomore hq) (by omega)

end
end
end PyFull
end Mim
