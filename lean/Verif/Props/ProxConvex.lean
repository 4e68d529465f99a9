import Verif.Lemmas.ConstrainedLQ
import Verif.Props.ProxRecognise
import Verif.Props.ProxFilter
import Verif.Props.Suboptimal

/-!
# C71: CSQPProxQP solves strictly convex constrained linear-quadratic problems
-/
set_option linter.unusedSectionVars false
set_option linter.unusedSimpArgs false

namespace Mim
open Matrix Spec QP
variable {K : Type} [Field K] [LinearOrder K] [IsStrictOrderedRing K] {P : Problem K}

theorem optimalCon_congr {X X' : Traj P} {U U' : Ctrls P} (hx : ∀ t, t ≤ P.T → X' t = X t) (hu : ∀ t, t < P.T → U' t = U t)
    (h : OptimalCon P X U) : OptimalCon P X' U' := by
  obtain ⟨⟨a1, a2⟩, ⟨b1, b2⟩, c⟩ := h
  have hc : trajCost P X' U' = trajCost P X U := trajCost_congr P hx hu
  refine ⟨⟨by rw [hx 0 (Nat.zero_le _)]; exact a1, fun t ht => by rw [hx _ ht, hx _ ht.le, hu _ ht]; exact a2 t ht⟩,
    ⟨fun t ht => by rw [hx _ ht.le, hu _ ht]; exact b1 t ht, by rw [hx _ le_rfl]; exact b2⟩, fun X'' U'' h1 h2 => ?_⟩
  obtain ⟨c1, c2⟩ := c X'' U'' h1 h2
  rw [hc]
  refine ⟨c1, fun e => ?_⟩
  obtain ⟨d1, d2⟩ := c2 e
  exact ⟨fun t ht => by rw [d1 t ht, hx t ht], fun t ht => by rw [d2 t ht, hu t ht]⟩

theorem gapNorm_zero {X : Traj P} {U : Ctrls P} (h : shootGapNorm P X U ≤ 0) : ∀ t, t < P.T → shootGap P X U t = 0 := by
  have hnn : ∀ t ∈ Finset.range P.T, 0 ≤ norm1 (shootGap P X U t) := fun t _ => by
    rw [norm1_exact]; exact Finset.sum_nonneg fun _ _ => abs_nonneg _
  unfold shootGapNorm at h
  rw [sumUp_exact] at h
  have h0 := le_antisymm h (Finset.sum_nonneg hnn)
  intro t ht
  have := (Finset.sum_eq_zero_iff_of_nonneg hnn).mp h0 t (Finset.mem_range.mpr ht)
  rw [norm1_exact, Finset.sum_eq_zero_iff_of_nonneg (fun _ _ => abs_nonneg _)] at this
  exact funext fun i => abs_eq_zero.mp (this i (Finset.mem_univ i))

theorem gapNorm_of_feasible {φ : P.X → Vec K P.ndx} (hE : Euclid P φ) {X : Traj P} {U : Ctrls P} (h : Feasible P X U) : shootGapNorm P X U = 0 := by
  unfold shootGapNorm
  rw [sumUp_exact]
  refine Finset.sum_eq_zero fun t ht => ?_
  rw [norm1_exact]
  refine Finset.sum_eq_zero fun i _ => ?_
  unfold shootGap
  rw [hE.diff, h.2 t (Finset.mem_range.mp ht), sub_self]
  simp

namespace PROX
variable {qp : PSolve K} {fuel : ℕ} {m : ℕ} {ri : K} {s0 : PROX P}

theorem isPKKT_of_residual {s : PROX P} {lam : ℕ → Vec K P.ndx} {y : (t : ℕ) → Vec K (P.ng t)} {tol : K} (he : Evald s) (h0 : 0 ≤ tol) :
    residual s.data s.e.fs lam y s.e.con ≤ tol ↔ IsPKKT P tol s.xs s.us lam y := by
  rw [C05_prox_residual_meaning _ _ _ _ _ _ h0]
  letI : SqrtOps K := ⟨id⟩
  constructor
  · rintro ⟨m2, m3, m4, m5, m6⟩
    refine ⟨fun t hp ht i => ?_, fun t ht i => ?_, fun i => ?_, fun t ht i => ?_, ?_⟩
    · rw [← he.diff.run t ht]; exact m2 t hp ht i
    · rw [← he.diff.run t ht]; exact m3 t ht i
    · rw [← he.diff.ter]; exact m4 i
    · rw [← he.fs t ht]; exact m5 t ht i
    · rw [← conViol_exact, ← he.con]; exact m6
  · rintro ⟨m2, m3, m4, m5, m6⟩
    refine ⟨fun t hp ht i => ?_, fun t ht i => ?_, fun i => ?_, fun t ht i => ?_, ?_⟩
    · rw [he.diff.run t ht]; exact m2 t hp ht i
    · rw [he.diff.run t ht]; exact m3 t ht i
    · rw [he.diff.ter]; exact m4 i
    · rw [he.fs t ht]; exact m5 t ht i
    · rw [he.con, conViol_exact]; exact m6

theorem isPKKT_congr {X X' : Traj P} {U U' : Ctrls P} {lam : ℕ → Vec K P.ndx} {y : (t : ℕ) → Vec K (P.ng t)} {tol : K}
    (hx : ∀ t, t ≤ P.T → X' t = X t) (hu : ∀ t, t < P.T → U' t = U t) (h : IsPKKT P tol X U lam y) : IsPKKT P tol X' U' lam y := by
  letI : SqrtOps K := ⟨id⟩
  refine ⟨fun t hp ht i => ?_, fun t ht i => ?_, fun i => ?_, fun t ht i => ?_, ?_⟩
  · rw [hx t ht.le, hu t ht]; exact h.stat_x t hp ht i
  · rw [hx t ht.le, hu t ht]; exact h.stat_u t ht i
  · rw [hx _ le_rfl]; exact h.stat_T i
  · have := h.gaps t ht i
    unfold shootGap at this ⊢
    rw [hx t ht.le, hx (t + 1) ht, hu t ht]; exact this
  · rw [← conViol_exact, (CSQP.eval_congr hx hu).2.2.2.1, conViol_exact]; exact h.feas

/-- **C71.**  Strictly convex linear-quadratic problem with affine constraints, exact arithmetic, an exact QP solver that answers the QPs of
the first two iterations; first step length `1`, and the filter line search, or the merit line search from a feasible guess.  From every state
the solver can be in and every initial guess `solve` returns true after at most two iterations.  Either the first convergence test, which
uses the multipliers of the previous solve, accepts the guess; or the returned trajectory is the unique solution of the constrained
optimal control problem among all trajectories that satisfy the dynamics and the bounds. -/
theorem C71_prox_constrained_lq (hr : Reachable s0) (hT : 0 < P.T) (hcols : ColsOK P) (hqp : QPExact P.nVars P.nEq P.nIn qp)
    {φ : P.X → Vec K P.ndx} (hE : Euclid P φ) (hA : AffineDyn P φ) (hQ : QuadGrad P φ) (hC : QuadCost P φ) (hG : AffineCon P φ) (hJ : ConstCon P)
    (hp : Spec.SymProblem P) (hcv : ConvexProblem P) (hS : StrictControls P)
    (hreg : RegOK s0.c.par) (hri : 0 ≤ ri) (hmax : max s0.c.par.regMin ri * s0.c.par.regInc < s0.c.par.regMax)
    (htol : 0 ≤ s0.c.tol) (hal : s0.c.par.alphas.head? = some 1) (hm : 2 ≤ m) (hf : 0 < fuel) {xs : Option (Traj P)} {us : Option (Ctrls P)}
    (hline : (s0.c.useFilter = true ∧ FilterWF s0) ∨ (s0.c.useFilter = false ∧ Feasible P (s0.start xs us ri).xs (s0.start xs us ri).us ∧
      ConFeasible P (s0.start xs us ri).xs (s0.start xs us ri).us))
    (hbig : ∀ X U, OptimalCon P X U → ¬ CostBlowsUp P X U)
    (hans : ∀ s, AtHead qp fuel xs us m ri s0 s → s.iter ≤ 1 → ∃ a, qp s.nQP (head s).m = some a) :
    ∃ s', solve qp fuel xs us m ri s0 = some (true, s') ∧
      ((s'.iter = 0 ∧ s'.xs = (s0.start xs us ri).xs ∧ s'.us = (s0.start xs us ri).us ∧ IsPKKT P s0.c.tol s'.xs s'.us s0.lam s0.y) ∨
       (s'.iter = 1 ∧ s'.KKT ≤ 0 ∧ OptimalCon P s'.xs s'.us)) := by
  have hinc : (0 : K) ≤ s0.c.par.regInc := by have := hreg.inc; linarith
  have hfar1 : ri * s0.c.par.regInc < s0.c.par.regMax := lt_of_le_of_lt (mul_le_mul_of_nonneg_right (le_max_right _ _) hinc) hmax
  have hfar2 : s0.c.par.regMin * s0.c.par.regInc < s0.c.par.regMax :=
    lt_of_le_of_lt (mul_le_mul_of_nonneg_right (le_max_left _ _) hinc) hmax
  obtain ⟨m, rfl⟩ : ∃ k, m = k + 2 := ⟨m - 2, by omega⟩
  set s1 := s0.start xs us ri with hs1
  have hx0 : s1.xs 0 = P.x0 := by
    rw [hs1]
    simp [start]
  have hhead : AtHead qp fuel xs us (m + 2) ri s0 s1 := .start
  obtain ⟨a, ha⟩ := hans s1 hhead (Nat.zero_le 1)
  have hret := retry_first hf ha
  obtain ⟨_, hdiff, hkk⟩ := C40_prox_direction_kkt hr hT hcols hqp hhead hret
  obtain ⟨k1, k2, k3, k4, k5, k6, k7⟩ := retry_keeps hret
  set s2 := readAnswer a (asked (head s1) 0) with hs2
  have hx2 : s2.xs 0 = P.x0 := by rw [k3]; exact hx0
  have hopt := optimalCon_of_qp hE hA hC hG k5.fresh k5.diff k5.fs hx2 hp hcv hS hkk
  obtain ⟨hpk, hcomp⟩ := pkkt_of_qp hE hA hQ hG k5.fresh k5.diff k5.fs hx2 hJ hT hkk
  have hc2 : s2.c = s0.c := by simp only [fpart, Prod.mk.injEq] at k1; exact k1.1
  -- either the full step passes or the step is zero
  have hstep : Acceptable s2.pushFilter 1 ∨ ((∀ t, t ≤ P.T → s2.xs t = stepX P s2.xs s2.dx 1 t) ∧ ∀ t, t < P.T → s2.us t = stepU P s2.us s2.du 1 t) := by
    have hsame : Feasible P s2.xs s2.us → ConFeasible P s2.xs s2.us → trajCost P s2.xs s2.us ≤ trajCost P (stepX P s2.xs s2.dx 1) (stepU P s2.us s2.du 1) →
        (∀ t, t ≤ P.T → s2.xs t = stepX P s2.xs s2.dx 1 t) ∧ ∀ t, t < P.T → s2.us t = stepU P s2.us s2.du 1 t := by
      intro h1 h2 h3
      obtain ⟨c1, c2⟩ := hopt.2.2 _ _ h1 h2
      exact c2 (le_antisymm h3 c1)
    have hg1 := gapNorm_of_feasible hE hopt.1
    have hv1 : conViol P (stepX P s2.xs s2.dx 1) (stepU P s2.us s2.du 1) = 0 := by
      letI : SqrtOps K := ⟨id⟩
      rw [conViol_exact]; exact violation_of_inBox hopt.2.1
    rcases hline with ⟨huf, hwf⟩ | ⟨huf, hf1, hf2⟩
    · by_cases hacc : Acceptable s2.pushFilter 1
      · exact .inl hacc
      · right
        obtain ⟨_, hh, _, hiff⟩ := C11_prox_filter hwf huf hhead hret
        rw [hiff 1] at hacc
        by_contra hne
        apply hacc
        refine ⟨by simp, by simp, ?_, ?_⟩
        · rw [← k3, ← k4]; exact hbig _ _ hopt
        · rintro ⟨e, he, h1, h2, h3⟩
          have he := List.mem_of_mem_drop he
          rw [hh] at he
          have he : e ∈ [(trajCost P s1.xs s1.us, shootGapNorm P s1.xs s1.us, conViol P s1.xs s1.us)] := he
          rw [List.mem_singleton] at he
          subst he
          rw [leb_exact, decide_eq_true_eq] at h1 h2 h3
          simp only [] at h1 h2 h3
          rw [← k3, ← k4] at h1 h2 h3
          rw [hg1] at h2
          rw [hv1] at h3
          have hgz := gapNorm_zero h2
          letI : SqrtOps K := ⟨id⟩
          rw [conViol_exact] at h3
          refine hne (hsame ⟨hx2, fun t ht => ?_⟩ (inBox_of_violation h3) h1)
          have := hgz t ht
          unfold shootGap at this
          rw [hE.diff, sub_eq_zero] at this
          exact (hE.inj _ _ this).symm
    · rw [← k3, ← k4] at hf1 hf2
      by_cases hle : trajCost P s2.xs s2.us ≤ trajCost P (stepX P s2.xs s2.dx 1) (stepU P s2.us s2.du 1)
      · exact .inr (hsame hf1 hf2 hle)
      · left
        refine ⟨by simp, by simp, hbig _ _ hopt, ?_⟩
        have hu2 : s2.pushFilter.c.useFilter = false := by
          change s2.c.useFilter = false
          rw [hc2]; exact huf
        rw [if_neg (by rw [hu2]; simp)]
        change ltb (trajCost P (stepX P s2.xs s2.dx 1) (stepU P s2.us s2.du 1) + s2.c.muDyn * shootGapNorm P (stepX P s2.xs s2.dx 1)
          (stepU P s2.us s2.du 1) + s2.c.muCon * conViol P (stepX P s2.xs s2.dx 1) (stepU P s2.us s2.du 1)) s2.merit = true
        letI : SqrtOps K := ⟨id⟩
        rw [hg1, hv1, k5.merit]
        unfold pmerit
        rw [gapNorm_of_feasible hE hf1, conViol_exact, violation_of_inBox hf2]
        simp only [mul_zero, add_zero, ltb_exact, decide_eq_true_eq]
        exact not_le.mp hle
  -- the first iteration
  unfold solve
  rw [← hs1]
  have hbody : body qp fuel s1 = if leb s2.KKT s2.c.tol then some (some true, s2.callbacks)
      else some (none, s2.pushFilter.search.updateReg.2.callbacks) := by
    unfold body
    rw [hret]
    simp only []
    have hu : s2.pushFilter.search.updateReg.1 = false := by
      obtain ⟨d, w, iw, n, r, xs, us, fe, ac, sl, _, _, e⟩ := search_set s2.pushFilter
      have hp2 : s2.pushFilter.search.preg = ri := by
        rw [e]
        change initReg s0.c.par ri = ri
        exact initReg_exact _ _
      have hc3 : s2.pushFilter.search.c = s0.c := by rw [e]; exact hc2
      refine updateReg_far ?_ ?_ ?_ ?_
      · rw [hc3]; exact hreg
      · rw [hp2]; exact hri
      · rw [hp2, hc3]; exact hfar1
      · rw [hc3]; exact hfar2
    rw [hu]
    rfl
  unfold iterate
  rw [hbody]
  by_cases hkt : leb s2.KKT s2.c.tol = true
  · rw [if_pos hkt]
    refine ⟨_, rfl, .inl ⟨?_, ?_, ?_, ?_⟩⟩
    · change s2.iter = 0; rw [k2]; rfl
    · exact k3
    · exact k4
    · have h1 : residual (head s1).data (head s1).e.fs s0.lam s0.y (head s1).e.con ≤ s0.c.tol := by
        rw [hc2] at hkt
        have : leb (residual (head s1).data (head s1).e.fs s0.lam s0.y (head s1).e.con) s0.c.tol = true := hkt
        simpa using this
      exact (isPKKT_of_residual (head_evald s1) htol).mp h1
  · rw [if_neg hkt]
    simp only []
    -- the second iteration
    set s3 : PROX P := { s2.pushFilter.search.updateReg.2.callbacks with iter := s2.pushFilter.search.updateReg.2.callbacks.iter + 1 } with hs3
    have hhead3 : AtHead qp fuel xs us (m + 2) ri s0 s3 := by
      refine .next hhead ?_ (by rw [hbody, if_neg hkt])
      change 0 < m + 2
      omega
    obtain ⟨p, dr, e2⟩ := updateReg_set s2.pushFilter.search
    have e3 : s3.xs = s2.pushFilter.search.xs ∧ s3.us = s2.pushFilter.search.us ∧ s3.lam = s2.pushFilter.search.lam ∧
        s3.y = s2.pushFilter.search.y ∧ s3.iter = s2.pushFilter.search.iter + 1 ∧ s3.c = s2.pushFilter.search.c := by
      rw [hs3, e2]; exact ⟨rfl, rfl, rfl, rfl, rfl, rfl⟩
    obtain ⟨d, w, iw, n, r, xs', us', fe, ac, sl, _, _, e⟩ := search_set s2.pushFilter
    have e4 : s3.lam = s2.lam ∧ s3.y = s2.y ∧ s3.iter = 1 ∧ s3.c = s0.c := by
      obtain ⟨_, _, a1, a2, a3, a4⟩ := e3
      rw [a1, a2, a3, a4, e]
      refine ⟨rfl, rfl, ?_, hc2⟩
      change s2.iter + 1 = 1
      rw [k2]; rfl
    have hx3 : (∀ t, t ≤ P.T → s3.xs t = stepX P s2.xs s2.dx 1 t) ∧ ∀ t, t < P.T → s3.us t = stepU P s2.us s2.du 1 t := by
      rw [e3.1, e3.2.1]
      rcases hstep with hacc | ⟨zx, zu⟩
      · obtain ⟨as, has⟩ : ∃ as, s0.c.par.alphas = 1 :: as := by
          cases h : s0.c.par.alphas with
          | nil => rw [h] at hal; cases hal
          | cons a as => rw [h] at hal; cases hal; exact ⟨as, rfl⟩
        have hpar' : s2.pushFilter.c.par.alphas = 1 :: as := by
          change s2.c.par.alphas = _
          rw [hc2]; exact has
        rcases C16_prox_first_acceptable s2.pushFilter with ⟨pre, b, post, q1, q2, _, q4, q5, _⟩ | ⟨q2, _⟩
        · have hb : b = 1 := by
            cases pre with
            | nil =>
              rw [hpar'] at q1
              simp only [List.nil_append, List.cons.injEq] at q1
              exact q1.1.symm
            | cons c pre =>
              rw [hpar'] at q1
              simp only [List.cons_append, List.cons.injEq] at q1
              exact absurd hacc (q1.1 ▸ q2 c List.mem_cons_self)
          subst hb
          exact ⟨q4, q5⟩
        · exact absurd hacc (q2 1 (by rw [hpar']; exact List.mem_cons_self))
      · have zx' : ∀ t, t ≤ P.T → s2.dx t = 0 := by
          intro t ht
          have := congrArg φ (zx t ht)
          unfold stepX at this
          rw [hE.integrate, sv_exact, one_smul] at this
          exact left_eq_add.mp this
        have zu' : ∀ t, t < P.T → s2.du t = 0 := by
          intro t ht
          have := zu t ht
          unfold stepU at this
          rw [sv_exact, one_smul] at this
          exact left_eq_add.mp this
        have hint : ∀ x : P.X, P.integrate x 0 = x := fun x => hE.inj _ _ (by rw [hE.integrate, add_zero])
        rcases C16_prox_first_acceptable s2.pushFilter with ⟨pre, b, post, _, _, _, q4, q5, _⟩ | ⟨_, q3, q4, _⟩
        · refine ⟨fun t ht => ?_, fun t ht => ?_⟩
          · rw [q4 t ht, ← zx t ht]
            change P.integrate (s2.xs t) (sv b (s2.dx t)) = _
            rw [zx' t ht, sv_exact, smul_zero, hint]
          · rw [q5 t ht, ← zu t ht]
            change s2.us t + sv b (s2.du t) = _
            rw [zu' t ht, sv_exact, smul_zero, add_zero]
        · rw [q3, q4]
          exact ⟨zx, zu⟩
    obtain ⟨a', ha'⟩ := hans s3 hhead3 e4.2.2.1.le
    have hret3 := retry_first hf ha'
    have he3 := head_evald s3
    have hK : residual (head s3).data (head s3).e.fs s3.lam s3.y (head s3).e.con ≤ 0 := by
      refine (isPKKT_of_residual he3 le_rfl).mpr ?_
      rw [e4.1, e4.2.1]
      exact isPKKT_congr hx3.1 hx3.2 hpk
    have hbody3 : body qp fuel s3 = some (some true, (readAnswer a' (asked (head s3) 0)).callbacks) := by
      unfold body
      rw [hret3]
      simp only []
      rw [if_pos]
      change leb (residual (head s3).data (head s3).e.fs s3.lam s3.y (head s3).e.con) s3.c.tol = true
      rw [e4.2.2.2]
      simpa using hK.trans htol
    unfold iterate
    rw [hbody3]
    refine ⟨_, rfl, .inr ⟨?_, ?_, ?_⟩⟩
    · change s3.iter = 1; exact e4.2.2.1
    · exact hK
    · exact optimalCon_congr hx3.1 hx3.2 hopt

end PROX

namespace Ex
open PROX

/-- `x_1 = x_0 + u_0`, `x_0 = -10`, `u_0 ≤ 1`, cost `(x_0² + u_0² + x_1²) / 2`; without the bound `u_0 = 5` is optimal. -/
abbrev pushed : Problem ℚ := clq 1 1 1 1 (-10)

/-- An exact QP solver for this layout: the solution without inequalities if it satisfies the KKT conditions, otherwise the point on the
upper bound of the first row if that does, otherwise an exception. -/
def qpA : PSolve ℚ := fun _ m =>
  let dx := (m.P 1 1 * m.b 0 - m.q 0 - m.q 1) / (m.P 0 0 + m.P 1 1)
  let x : FVec ℚ := fun i => if i = 0 then dx else dx - m.b 0
  let y : FVec ℚ := fun _ => -(m.P 0 0 * dx + m.q 0)
  let du := (m.u 0).getD 0
  let x' : FVec ℚ := fun i => if i = 0 then du + m.b 0 else du
  let y' : FVec ℚ := fun _ => -(m.P 0 0 * (du + m.b 0) + m.q 0)
  let z' : FVec ℚ := fun i => if i = 0 then y' 0 - m.P 1 1 * du - m.q 1 else 0
  if denseCheck 2 1 2 m x y (fun _ => 0) then some ⟨x, y, fun _ => 0, 1, 0, 0⟩
  else if denseCheck 2 1 2 m x' y' z' then some ⟨x', y', z', 1, 0, 0⟩ else none

theorem qpA_exact : QPExact 2 1 2 qpA := by
  intro n m a h
  unfold qpA at h
  simp only [] at h
  split at h
  · rename_i hc
    cases h
    exact denseCheck_sound hc
  · split at h
    · rename_i hc
      cases h
      exact denseCheck_sound hc
    · cases h

def pushNew : PROX pushed := PROX.new (Data.zero _)

theorem pushed_sym : Spec.SymProblem pushed :=
  ⟨fun _ _ _ _ => by change (m1 1)ᵀ = m1 1; ext i j; rfl, fun _ _ _ _ => by change (m1 1)ᵀ = m1 1; ext i j; rfl,
   fun _ => by change (m1 1)ᵀ = m1 1; ext i j; rfl⟩

theorem pushed_convex : ConvexProblem pushed := by
  refine ⟨fun t ht (x : ℚ) (u : Vec ℚ 1) (ξ : Vec ℚ 1) (υ : Vec ℚ 1) => ?_, fun (x : ℚ) (ξ : Vec ℚ 1) => ?_⟩
  · change 0 ≤ ξ ⬝ᵥ (m1 1 *ᵥ ξ) + 2 * (ξ ⬝ᵥ (m1 0 *ᵥ υ)) + υ ⬝ᵥ (m1 1 *ᵥ υ)
    rw [dot1, dot1, dot1, mul1, mul1, mul1]
    have := mul_self_nonneg (ξ 0)
    have := mul_self_nonneg (υ 0)
    linarith
  · change 0 ≤ ξ ⬝ᵥ (m1 1 *ᵥ ξ)
    rw [dot1, mul1]
    have := mul_self_nonneg (ξ 0)
    linarith

theorem pushed_strict : StrictControls pushed := by
  intro t ht (x : ℚ) (u : Vec ℚ 1) (υ : Vec ℚ 1) hυ
  change 0 < υ ⬝ᵥ (m1 1 *ᵥ υ)
  rw [dot1, mul1, one_mul]
  refine mul_self_pos.mpr fun h => hυ ?_
  funext i
  obtain rfl := fin1 i
  exact h

theorem clq_quadGrad (T : ℕ) (q r qT x0 : ℚ) : QuadGrad (clq T q r qT x0) (fun x _ => x) := by
  refine ⟨fun _ _ _ _ _ _ => rfl, fun _ _ _ _ _ _ => rfl, fun t ht (x : ℚ) (u : Vec ℚ 1) (x' : ℚ) (u' : Vec ℚ 1) => ?_,
    fun t ht (x : ℚ) (u : Vec ℚ 1) (x' : ℚ) (u' : Vec ℚ 1) => ?_, fun (x : ℚ) (x' : ℚ) => ?_⟩
  · funext (i : Fin 1)
    change q * x' = q * x + (m1 q *ᵥ (fun _ => x' - x : Vec ℚ 1)) i + (m1 0 *ᵥ (u' - u : Vec ℚ 1)) i
    rw [mul1, mul1]; ring
  · funext (i : Fin 1)
    change r * u' 0 = r * u 0 + (m1 0 *ᵥ (fun _ => x' - x : Vec ℚ 1)) i + (m1 r *ᵥ (u' - u : Vec ℚ 1)) i
    rw [mul1, mul1, Pi.sub_apply]; ring
  · funext (i : Fin 1)
    change qT * x' = qT * x + (m1 qT *ᵥ (fun _ => x' - x : Vec ℚ 1)) i
    rw [mul1]; ring

theorem clq_quadCost (T : ℕ) (q r qT x0 : ℚ) : QuadCost (clq T q r qT x0) (fun x _ => x) := by
  refine ⟨fun t ht (x : ℚ) (u : Vec ℚ 1) (x' : ℚ) (u' : Vec ℚ 1) => ?_, fun (x : ℚ) (x' : ℚ) => ?_⟩
  · change (q * x' * x' + r * u' 0 * u' 0) / 2 = (q * x * x + r * u 0 * u 0) / 2 + (fun _ => q * x : Vec ℚ 1) ⬝ᵥ (fun _ => x' - x : Vec ℚ 1) +
      (fun _ => r * u 0 : Vec ℚ 1) ⬝ᵥ (u' - u : Vec ℚ 1) + ((fun _ => x' - x : Vec ℚ 1) ⬝ᵥ (m1 q *ᵥ (fun _ => x' - x : Vec ℚ 1))) / 2 +
      (fun _ => x' - x : Vec ℚ 1) ⬝ᵥ (m1 0 *ᵥ (u' - u : Vec ℚ 1)) + ((u' - u : Vec ℚ 1) ⬝ᵥ (m1 r *ᵥ (u' - u : Vec ℚ 1))) / 2
    rw [dot1, dot1, dot1, dot1, dot1, mul1, mul1, mul1, Pi.sub_apply]; ring
  · change qT * x' * x' / 2 = qT * x * x / 2 + (fun _ => qT * x : Vec ℚ 1) ⬝ᵥ (fun _ => x' - x : Vec ℚ 1) +
      ((fun _ => x' - x : Vec ℚ 1) ⬝ᵥ (m1 qT *ᵥ (fun _ => x' - x : Vec ℚ 1))) / 2
    rw [dot1, dot1, mul1]; ring

theorem clq_constCon (T : ℕ) (q r qT x0 : ℚ) : ConstCon (clq T q r qT x0) :=
  ⟨fun _ _ _ _ _ _ => rfl, fun _ _ _ _ _ _ => rfl, fun _ _ => rfl⟩

/-- a solution costs at most as much as `u_0 = 1`. -/
theorem pushed_small (X : Traj pushed) (U : Ctrls pushed) (h : OptimalCon pushed X U) : ¬ CostBlowsUp pushed X U := by
  have hr := (h.2.2 (fun t => if t = 0 then (-10 : ℚ) else (-9 : ℚ)) (fun _ _ => (1 : ℚ)) ⟨rfl, fun t ht => ?_⟩ ⟨fun t ht => ?_, ?_⟩).1
  · have hc : trajCost pushed (fun t => if t = 0 then (-10 : ℚ) else (-9 : ℚ)) (fun _ _ => (1 : ℚ)) = (91 : ℚ) := by decide +kernel
    rw [hc] at hr
    let x1 : ℚ := X 1
    have e : trajCost pushed X U = sumUp 1 (nodeCost pushed X U) + (1 : ℚ) * x1 * x1 / 2 := rfl
    have h0 : (0 : ℚ) ≤ (1 : ℚ) * x1 * x1 / 2 := by
      rw [one_mul]; exact div_nonneg (mul_self_nonneg _) (by norm_num)
    have hlim : ∀ v : ℚ, v ≤ 91 → ¬ bad v = true := by
      intro v hv
      have e : bad v = decide ((10 : ℚ) ^ 30 ≤ v) := rfl
      rw [e, decide_eq_true_eq, not_le]
      exact lt_of_le_of_lt hv (by norm_num)
    rintro (⟨t, ht, hb⟩ | hb)
    · obtain rfl : t = 0 := by have : t < 1 := ht; omega
      exact hlim _ (by rw [e] at hr; linarith) hb
    · exact hlim _ hr hb
  · obtain rfl : t = 0 := by have : t < 1 := ht; omega
    change (-9 : ℚ) = -10 + 1
    norm_num
  · obtain rfl : t = 0 := by have : t < 1 := ht; omega
    intro (i : Fin 1)
    obtain rfl := fin1 i
    exact ⟨fun l hl => (by cases hl), fun u hu => by
      have : some (1 : ℚ) = some u := hu
      cases this; exact le_rfl⟩
  · intro (i : Fin 1)
    obtain rfl := fin1 i
    exact ⟨fun l hl => (by cases hl), fun u hu => by
      have : (none : Option ℚ) = some u := hu
      cases this⟩

/-- the QPs of the first two iterations are answered. -/
theorem pushed_answered : ∀ s, AtHead qpA 5 none none 10 0 pushNew s → s.iter ≤ 1 → ∃ a, qpA s.nQP (head s).m = some a := by
  have h0 : (qpA (pushNew.start none none 0).nQP (head (pushNew.start none none 0)).m).isSome = true := by
    decide +kernel
  have h1 : (body qpA 5 (pushNew.start none none 0)).map (fun r => (qpA r.2.nQP (head { r.2 with iter := r.2.iter + 1 }).m).isSome) =
      some true := by decide +kernel
  intro s hs hi
  cases hs with
  | start => exact Option.isSome_iff_exists.mp h0
  | @next s s' h hi' hb =>
    cases h with
    | start =>
      rw [hb] at h1
      simp only [Option.map_some, Option.some.injEq] at h1
      exact Option.isSome_iff_exists.mp h1
    | @next s2 s3 h2 _ hb2 =>
      have e := (body_iter hb).1
      change s'.iter + 1 ≤ 1 at hi
      change s'.iter = s3.iter + 1 at e
      omega

/-- **the theorem applied**: default solver, default guess, bound active at the solution. -/
theorem C71_prox_example : ∃ s', PROX.solve qpA 5 none none 10 0 pushNew = some (true, s') ∧ s'.iter = 1 ∧ OptimalCon pushed s'.xs s'.us ∧
    s'.us 0 (0 : Fin 1) = (1 : ℚ) ∧ s'.y 0 (0 : Fin 1) ≠ (0 : ℚ) := by
  obtain ⟨s', h, h2⟩ := C71_prox_constrained_lq (s0 := pushNew) (.new _) Nat.zero_lt_one (ColsOK.of_const (n := 1) fun _ => rfl) qpA_exact
    (clq_euclid _ _ _ _ _) (clq_affine _ _ _ _ _) (clq_quadGrad _ _ _ _ _) (clq_quadCost _ _ _ _ _) (clq_affineCon _ _ _ _ _)
    (clq_constCon _ _ _ _ _) pushed_sym pushed_convex pushed_strict RegOK.default le_rfl (by decide +kernel) (by decide +kernel)
    (by decide +kernel) (by decide) (by decide) (.inl ⟨rfl, PROX.FilterWF.new _⟩) pushed_small pushed_answered
  have e : (PROX.solve qpA 5 none none 10 0 pushNew).map (fun r => (r.2.iter, decide (r.2.us 0 (0 : Fin 1) = (1 : ℚ)), decide (r.2.y 0 (0 : Fin 1) = (0 : ℚ)))) =
      some (1, true, false) := by decide +kernel
  rw [h] at e
  simp only [Option.map_some, Option.some.injEq, Prod.mk.injEq, decide_eq_true_eq, decide_eq_false_iff_not] at e
  refine ⟨s', h, e.1, ?_, e.2.1, e.2.2⟩
  rcases h2 with ⟨h3, _⟩ | ⟨_, _, h4⟩
  · omega
  · exact h4

end Ex
end Mim
