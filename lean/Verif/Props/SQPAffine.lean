import Verif.Props.SQPDirection
import Verif.Spec.Affine

/-!
# Fixed points, affine dynamics and linear-quadratic problems (C20, C44, C51)
-/
set_option linter.unusedSectionVars false
set_option linter.unusedSimpArgs false

namespace Mim
open Spec SQP Matrix

variable {K : Type} [Field K] [LinearOrder K] [IsStrictOrderedRing K] {P : Problem K}
variable {llt : LLT K} {fuel : ℕ} {xs : Option (Traj P)} {us : Option (Ctrls P)} {m : ℕ} {ri : K} {s s' s1 s2 : SQP P}

/-- two solutions of the KKT system with the same first state coincide. -/
theorem Riccati.kkt_eq {T n : ℕ} {m : ℕ → ℕ} {Q : LQ K T n m} {V : ℕ → Mat K n n} {v : ℕ → Vec K n}
    {G : (t : ℕ) → Mat K (m t) n} {k : (t : ℕ) → Vec K (m t)} {Quu : (t : ℕ) → Mat K (m t) (m t)}
    (h : Riccati Q V v G k Quu) (hpd : ∀ t, t < T → PosDef (Quu t)) {x x' : ℕ → Vec K n}
    {u u' : (t : ℕ) → Vec K (m t)} {lam lam' : ℕ → Vec K n} (h1 : Q.KKT x u lam) (h2 : Q.KKT x' u' lam') (h0 : x' 0 = x 0) :
    (∀ t, t ≤ T → x' t = x t) ∧ (∀ t, t < T → u' t = u t) ∧ ∀ t, t ≤ T → lam' t = lam t := by
  obtain ⟨a1, a2⟩ := h.kkt_unique hpd h1
  obtain ⟨b1, b2⟩ := h.kkt_unique hpd h2
  have hx : ∀ t, t ≤ T → x' t = x t := by
    intro t
    induction t with
    | zero => intro _; exact h0
    | succ t ih =>
      intro ht
      rw [h1.dyn t ht, h2.dyn t ht, a1 t ht, b1 t ht, ih (by omega)]
  exact ⟨hx, fun t ht => by rw [a1 t ht, b1 t ht, hx t ht.le], fun t ht => by rw [a2 t ht, b2 t ht, hx t ht]⟩

/-- at the head of every iteration of a solve the candidate is marked infeasible. -/
theorem iterate_feas (n : ℕ) (h : iterate llt fuel n (s.start xs us ri) = some (none, s1)) : s1.feas = false := by
  have hs : ∀ s : SQP P, s.feas = false → (search s).feas = false := by
    intro s hf
    have hl : ∀ as (s : SQP P), s.feas = false → (lineSearch as s).2.feas = false := by
      intro as
      induction as with
      | nil => intro s h; exact h
      | cons a as ih =>
        intro s h
        have ht := tryStep_frame (P := P) feas (fun _ _ _ _ _ _ _ _ _ => rfl) a { s with steplength := a }
        unfold lineSearch
        split
        · rename_i s2 hs2
          rw [hs2] at ht
          exact ih _ (ht.trans h)
        · rename_i s2 hs2
          rw [hs2] at ht
          simp only []
          split
          · split
            · exact ih _ (ht.trans h)
            · rfl
          · split
            · rfl
            · exact ih _ (ht.trans h)
    unfold search
    simp only []
    split
    · exact hl _ _ hf
    · exact (hl _ _ hf :)
  have hr : ∀ {b} {s s1 : SQP P}, retry llt fuel true s = some (b, s1) → s1.feas = s.feas := fun h =>
    retry_frame feas (fun _ _ _ _ _ _ _ _ _ _ _ _ => rfl) (fun _ _ _ => rfl) _ _ _ _ _ _ h
  rcases iterate_inv llt fuel (fun _ s1 => s1.feas = false) (fun _ _ => True) (fun n s1 s2 hI h => by
    change s2.feas = false
    cases body_cases h with
    | gaveUp h1 hb => cases hb
    | converged s3 h1 hk hs' hb => cases hb
    | searched s3 h1 hk hs' hb =>
      rw [hs', updateReg_frame feas (fun _ _ _ => rfl)]
      exact hs _ ((hr h1).trans hI)) (fun _ _ _ _ _ _ => trivial) n (s.start xs us ri) rfl none s1 h with ⟨_, h⟩ | ⟨_, h, _⟩
  · exact h
  · cases h

/-- **C18 at every iteration of a solve.**  No assumption on the state of the solver other than that it is reachable. -/
theorem C18_sqp_every_iteration (hllt : LLTExact llt) (hs : Reachable s) (n : ℕ)
    (h1 : iterate llt fuel n (s.start xs us ri) = some (none, s1)) (h2 : retry llt fuel true s1 = some (true, s2))
    (hsym : SymHess s2.data) :
    (lqOf s2.data s2.fs s2.preg s2.dreg).KKT s2.dx s2.du s2.lagMul ∧ s2.dx 0 = 0 := by
  refine ⟨(C18_sqp_direction_kkt hllt (iterate_feas n h1) h2 hsym).1, ?_⟩
  rw [retry_dx0 h2]
  have hb : ∀ (s s1 : SQP P) r, body llt fuel s = some (r, s1) → s1.dx 0 = s.dx 0 := by
    intro s s1 r h
    cases body_cases h with
    | gaveUp hr hb => exact retry_dx0 hr
    | converged s2 hr hk hs hb => rw [hs]; exact (retry_dx0 hr :)
    | searched s2 hr hk hs hb => rw [hs, (updateReg_xs _).2.2.1, search_dx]; exact (retry_dx0 hr :)
  rcases iterate_inv llt fuel (fun _ s1 => s1.dx 0 = s.dx 0) (fun _ _ => True)
    (fun n s1 s2 hI h => (hb _ _ _ h).trans hI) (fun _ _ _ _ _ _ => trivial) n (s.start xs us ri) rfl none s1 h1 with
    ⟨_, h⟩ | ⟨_, h, _⟩
  · exact h.trans hs.dx0
  · cases h

theorem symHess_of_fresh (hP : SymProblem P) {d : Data P} {xs : Traj P} {us : Ctrls P} (h : FreshDiff P d xs us) :
    SymHess d :=
  ⟨fun t ht => by rw [h.run t ht]; exact hP.xx t ht _ _, fun t ht => by rw [h.run t ht]; exact hP.uu t ht _ _,
   by rw [h.ter]; exact hP.T _⟩

/-- the direction computed at an exact KKT point vanishes and the residual is zero. -/
theorem fixed_point (hllt : LLTExact llt) (hP : SymProblem P) {r : Bool} {lam : ℕ → Vec K P.ndx}
    (hf : s.feas = false) (hdx : s.dx 0 = 0) (h : retry llt fuel r s = some (true, s1))
    (f1 : FreshCalc P s1.data s1.xs s1.us) (f2 : FreshDiff P s1.data s1.xs s1.us) (f3 : s1.fs = gapsOf s1.data s1.xs)
    (hk : IsKKT P 0 s1.xs s1.us lam) :
    (∀ t, t ≤ P.T → s1.dx t = 0) ∧ (∀ t, t < P.T → s1.du t = 0) ∧ (∀ t, t ≤ P.T → s1.lagMul t = lam t) ∧
    kktResidual s1.data s1.fs s1.lagMul = 0 := by
  obtain ⟨s0, r0, h1, h2⟩ := retry_true_feas h
  obtain ⟨b, hr, hpd, hd, hu, hl⟩ := computeDirection_riccati hllt (h2.trans hf) h1 (symHess_of_fresh hP f2)
  have hz : ∀ {n : ℕ} {v : Vec K n}, (∀ i, |v i| ≤ 0) → v = 0 := fun h => funext fun i => abs_nonpos_iff.mp (h i)
  obtain ⟨g1, g2⟩ := gapsOf_fresh f1
  have hfs : ∀ t, t ≤ P.T → s1.fs t = 0 := by
    intro t ht
    rw [f3]
    cases t with
    | zero => rw [g1]; exact hz hk.init
    | succ t => rw [g2 t ht]; exact hz (hk.gaps t ht)
  have hk0 : (lqOf s1.data s1.fs s1.preg s1.dreg).KKT (fun _ => 0) (fun _ => 0) lam := by
    refine ⟨?_, ?_, ?_, ?_⟩
    · intro t ht
      have := hz (hk.stat_x t ht)
      simp only [lqOf, Matrix.mulVec_zero, zero_add, f2.run t ht]
      exact sub_eq_zero.mp this
    · intro t ht
      simp only [lqOf, Matrix.mulVec_zero, zero_add, f2.run t ht]
      exact hz (hk.stat_u t ht)
    · simp only [lqOf, Matrix.mulVec_zero, zero_add, f2.ter]
      exact sub_eq_zero.mp (hz hk.stat_T)
    · intro t ht
      simp only [lqOf, Matrix.mulVec_zero, zero_add, hfs (t + 1) ht]
  obtain ⟨e1, e2, e3⟩ := hr.kkt_eq hpd hk0 (hr.kkt hd hu hl) ((retry_dx0 h).trans hdx)
  refine ⟨e1, e2, e3, le_antisymm ?_ ?_⟩
  · rw [C02_sqp_residual_meaning _ _ _ _ le_rfl]
    refine ⟨?_, ?_, ?_, ?_⟩
    · intro t ht i
      rw [e3 t ht.le, e3 (t + 1) ht, f2.run t ht]; exact hk.stat_x t ht i
    · intro t ht i
      rw [e3 (t + 1) ht, f2.run t ht]; exact hk.stat_u t ht i
    · intro i
      rw [e3 P.T le_rfl, f2.ter]; exact hk.stat_T i
    · intro t ht i
      rw [hfs t ht]; simp
  · unfold kktResidual
    simp only [cppMax_exact, normInf_exact]
    exact le_max_of_le_left (le_max_of_le_right (exactNormInf_nonneg _))

/-- a body whose direction computation ends with residual zero returns true. -/
theorem body_true_of_zero (htol : 0 ≤ s.tol) (h : retry llt fuel true s = some (true, s1))
    (hk : kktResidual s1.data s1.fs s1.lagMul = 0) : body llt fuel s = some (some true, checked s1) := by
  have e : s1.tol = s.tol := retry_frame tol (fun _ _ _ _ _ _ _ _ _ _ _ _ => rfl) (fun _ _ _ => rfl) _ _ _ _ _ _ h
  unfold body
  rw [h]
  simp only []
  rw [if_pos]
  change leb (kktResidual s1.data s1.fs s1.lagMul) s1.tol = true
  rw [hk, e, leb_exact, decide_eq_true_eq]; exact htol

/-- **C51 (SQP).**  An exact KKT point of the (nonlinear) problem is a fixed point: `solve` started there, with any
regularization and any maximal number of iterations `>= 1`, returns true at the first tolerance test without moving, provided
the first direction computation succeeds; no line search is made. -/
theorem C51_sqp_fixed_point (hllt : LLTExact llt) (hP : SymProblem P) (hs : Reachable s) (htol : 0 ≤ s.tol)
    {X : Traj P} {U : Ctrls P} {lam : ℕ → Vec K P.ndx} (hX : X 0 = P.x0) (hk : IsKKT P 0 X U lam) (hm : 0 < m)
    (h : retry llt fuel true (s.start (some X) (some U) ri) = some (true, s1)) :
    ∃ s', solve llt fuel (some X) (some U) m ri s = some (true, s') ∧ (∀ t, s'.xs t = X t) ∧ s'.us = U ∧
      s'.KKT = 0 ∧ s'.nTry = s.nTry ∧ s'.iter = 0 ∧ ∀ t, t ≤ P.T → s'.lagMul t = lam t := by
  obtain ⟨x1, x2, _⟩ := retry_xs h
  obtain ⟨d1, d2, d3, _⟩ := retry_eval h
  simp only [if_true] at d1 d2 d3
  obtain ⟨f1, f2, f3, f4⟩ := calcDiff_fresh (s.start (some X) (some U) ri) (.inl rfl)
  have hX' : (s.start (some X) (some U) ri).xs = X := by
    change Function.update X 0 P.x0 = X
    rw [← hX, Function.update_eq_self]
  have hU' : (s.start (some X) (some U) ri).us = U := rfl
  have hfix := fixed_point (s := s.start (some X) (some U) ri) hllt hP (lam := lam) rfl hs.dx0 h (by rw [d1, x1, x2]; exact f1)
    (by rw [d1, x1, x2]; exact f2) (by rw [d1, d3, x1]; exact f3) (by rw [x1, x2, hX', hU']; exact hk)
  have hb := body_true_of_zero (s := s.start (some X) (some U) ri) htol h hfix.2.2.2
  obtain ⟨m, rfl⟩ : ∃ k, m = k + 1 := ⟨m - 1, by omega⟩
  refine ⟨checked s1, ?_, ?_, ?_, ?_, ?_, ?_, hfix.2.2.1⟩
  · unfold solve iterate
    rw [hb]
  · intro t; change s1.xs t = _; rw [x1, hX']
  · change s1.us = _; rw [x2, hU']
  · exact hfix.2.2.2
  · change s1.nTry = (s.start (some X) (some U) ri).nTry
    exact retry_frame nTry (fun _ _ _ _ _ _ _ _ _ _ _ _ => rfl) (fun _ _ _ => rfl) _ _ _ _ _ _ h
  · change s1.iter = (s.start (some X) (some U) ri).iter
    exact retry_frame iter (fun _ _ _ _ _ _ _ _ _ _ _ _ => rfl) (fun _ _ _ => rfl) _ _ _ _ _ _ h

/-! ## Gap contraction -/

/-- moving along a direction that satisfies the linearised dynamics scales the gaps by `1 - a`. -/
theorem gap_contraction {φ : P.X → Vec K P.ndx} (hE : Euclid P φ) (hA : AffineDyn P φ) (X : Traj P) (U : Ctrls P)
    (dx : ℕ → Vec K P.ndx) (du : (t : ℕ) → Vec K (P.nu t))
    (hd : ∀ t, t < P.T → dx (t + 1) = (P.calcDiffR t (X t) (U t)).Fx *ᵥ dx t + (P.calcDiffR t (X t) (U t)).Fu *ᵥ du t +
      shootGap P X U t) (a : K) (t : ℕ) (ht : t < P.T) :
    shootGap P (stepX P X dx a) (stepU P U du a) t = (1 - a) • shootGap P X U t := by
  have hg : ∀ (X : Traj P) (U : Ctrls P), shootGap P X U t = φ (P.calcR t (X t) (U t)).xnext - φ (X (t + 1)) :=
    fun X U => by unfold shootGap; rw [hE.diff]
  have h1 := hA t ht (X t) (U t) (stepX P X dx a t) (stepU P U du a t)
  have h2 : φ (stepX P X dx a t) - φ (X t) = a • dx t := by
    unfold stepX; rw [hE.integrate, sv_exact]; abel
  have h3 : stepU P U du a t - U t = a • du t := by
    unfold stepU; rw [sv_exact]; abel
  have h4 : φ (stepX P X dx a (t + 1)) = φ (X (t + 1)) + a • dx (t + 1) := by
    unfold stepX; rw [hE.integrate, sv_exact]
  rw [h2, h3, Matrix.mulVec_smul, Matrix.mulVec_smul] at h1
  rw [hg (stepX P X dx a), h1, h4, hd t ht, hg X U]
  funext i
  simp only [Pi.add_apply, Pi.sub_apply, Pi.smul_apply, smul_eq_mul]
  ring

/-- **C20 (SQP).**  Affine dynamics: at every iteration before which no line search failed, the trial with step length `a`
has exactly `(1 - a)` times the current shooting gaps; in particular the full step closes all gaps. -/
theorem C20_sqp_gap_contraction (hT : 0 < P.T) {φ : P.X → Vec K P.ndx} (hE : Euclid P φ) (hA : AffineDyn P φ)
    (n : ℕ) (h1 : iterate llt fuel n (s.start xs us ri) = some (none, s1)) (hacc : s1.nRej = s.nRej)
    (h2 : retry llt fuel true s1 = some (true, s2)) (a : K) :
    (∀ t, t < P.T → shootGap P (stepX P s2.xs s2.dx a) (stepU P s2.us s2.du a) t = (1 - a) • shootGap P s2.xs s2.us t) ∧
    (a = 1 → shootGapNorm P (stepX P s2.xs s2.dx a) (stepU P s2.us s2.du a) = 0) := by
  obtain ⟨f1, f2, _, f0, f3⟩ := C17_sqp_directions_fresh hT n h1 hacc h2
  obtain ⟨s0, r0, g1, g2⟩ := retry_true_feas h2
  obtain ⟨s3, b0, e, hb, hd, hfs, hdx⟩ := computeDirection_ok g1
  obtain ⟨_, _, k3, _, _⟩ := forwardPass_eqs s3
  rw [← e] at k3
  simp only [mv_exact, hd, hfs] at k3
  have key := gap_contraction hE hA s2.xs s2.us s2.dx s2.du (fun t ht => by
    rw [k3 t ht, f2.run t ht, f3 t ht]; abel) a
  refine ⟨key, fun ha => ?_⟩
  unfold shootGapNorm
  apply sumUp_zero_of
  intro t ht
  rw [key t ht, ha, sub_self, zero_smul]
  simp

/-! ## Linear-quadratic problems -/

/-- the full step from a fresh point with an unregularized direction reaches an exact KKT point. -/
theorem full_step_kkt {φ : P.X → Vec K P.ndx} (hE : Euclid P φ) (hA : AffineDyn P φ) (hQ : QuadGrad P φ)
    {d : Data P} {fs : ℕ → Vec K P.ndx} {X : Traj P} {U : Ctrls P} {dx : ℕ → Vec K P.ndx} {du : (t : ℕ) → Vec K (P.nu t)}
    {lam : ℕ → Vec K P.ndx} (f2 : FreshDiff P d X U) (f3 : ∀ t, t < P.T → fs (t + 1) = shootGap P X U t)
    (hk : (lqOf d fs 0 0).KKT dx du lam) (hx0 : X 0 = P.x0) (hd0 : dx 0 = 0) :
    IsKKT P 0 (stepX P X dx 1) (stepU P U du 1) lam := by
  have h2 : ∀ t, φ (stepX P X dx 1 t) - φ (X t) = dx t := fun t => by
    unfold stepX; rw [hE.integrate, sv_exact, one_smul]; abel
  have h3 : ∀ t, stepU P U du 1 t - U t = du t := fun t => by
    unfold stepU; rw [sv_exact, one_smul]; abel
  have hz : ∀ {n : ℕ} {v : Vec K n}, v = 0 → ∀ i, |v i| ≤ 0 := fun h i => by rw [h]; simp
  refine ⟨fun t ht => hz ?_, fun t ht => hz ?_, hz ?_, hz ?_, fun t ht => hz ?_⟩
  · have := hk.stat_x t ht
    simp only [lqOf, zero_smul, add_zero, f2.run t ht] at this
    rw [hQ.Lx t ht (X t) (U t), hQ.Fx t ht (X t) (U t), h2, h3, ← this]
    abel
  · have := hk.stat_u t ht
    simp only [lqOf, zero_smul, add_zero, f2.run t ht] at this
    rw [hQ.Lu t ht (X t) (U t), hQ.Fu t ht (X t) (U t), h2, h3, ← this]
    abel
  · have := hk.stat_T
    simp only [lqOf, zero_smul, add_zero, f2.ter] at this
    rw [hQ.LT (X P.T), h2, ← this]
    abel
  · have : stepX P X dx 1 0 = X 0 := hE.inj _ _ (by rw [← sub_eq_zero, h2 0, hd0])
    rw [this, hx0, hE.diff, sub_self]
  · rw [gap_contraction hE hA X U dx du _ 1 t ht, sub_self, zero_smul]
    intro t ht
    have := hk.dyn t ht
    simp only [lqOf, f2.run t ht, f3 t ht] at this
    exact this

/-- a direction found starting from zero regularization was computed with zero regularization. -/
theorem retry_zero_reg {r : Bool} (hm : 0 ≤ s.par.regMax) (h0 : s.preg = 0 ∧ s.dreg = 0)
    (h : retry llt fuel r s = some (true, s1)) : s1.preg = 0 ∧ s1.dreg = 0 := by
  induction fuel generalizing s r with
  | zero => cases h
  | succ fuel ih =>
    have hp := fun {P : Problem K} (r : Bool) (s : SQP P) => computeDirection_frame (P := P) preg (fun _ _ _ _ _ _ _ _ _ _ _ _ => rfl) llt r s
    have hd := fun {P : Problem K} (r : Bool) (s : SQP P) => computeDirection_frame (P := P) dreg (fun _ _ _ _ _ _ _ _ _ _ _ _ => rfl) llt r s
    have hq := fun {P : Problem K} (r : Bool) (s : SQP P) => computeDirection_frame (P := P) par (fun _ _ _ _ _ _ _ _ _ _ _ _ => rfl) llt r s
    have hp := hp r s
    have hd := hd r s
    have hq := hq r s
    unfold retry at h
    split at h
    · rename_i s2 e
      rw [e] at hp hd
      cases h
      exact ⟨hp.trans h0.1, hd.trans h0.2⟩
    · rename_i s2 e
      rw [e] at hp hd hq
      have h3 : incReg s2.par s2.preg = 0 := by
        have e1 : s2.preg = 0 := hp.trans h0.1
        have e2 : s2.par = s.par := hq
        unfold incReg
        simp only [e1, e2, zero_mul, ltb_exact, decide_eq_true_eq, not_lt.mpr hm, if_false]
      simp only [] at h
      split at h
      · cases h
      · refine ih ?_ ⟨h3, h3⟩ h
        change 0 ≤ s2.par.regMax
        rw [show s2.par = s.par from hq]; exact hm

/-- **C44 (SQP).**  Linear-quadratic problem (affine dynamics, affine gradients, symmetric Hessians), exact arithmetic,
`reginit = 0`: if the first iteration accepts the full step, the second iteration's direction computation succeeds (with
whatever regularization it uses by then) and at least two iterations are allowed, `solve` returns true; the returned
trajectory is an exact KKT point with the returned multipliers and the residual is zero. -/
theorem C44_sqp_lq_one_step (hllt : LLTExact llt) (hT : 0 < P.T) {φ : P.X → Vec K P.ndx} (hE : Euclid P φ)
    (hA : AffineDyn P φ) (hQ : QuadGrad P φ) (hP : SymProblem P) (hs : Reachable s) (htol : 0 ≤ s.tol)
    (hmax : 0 ≤ s.par.regMax) (h1 : body llt fuel (s.start xs us 0) = some (none, s1)) (hacc : s1.nRej = s.nRej)
    (hfull : s1.steplength = 1) (h2 : retry llt fuel true { s1 with iter := s1.iter + 1 } = some (true, s2)) (m : ℕ) :
    ∃ s', solve llt fuel xs us (m + 2) 0 s = some (true, s') ∧ s'.KKT = 0 ∧ s'.iter = 1 ∧
      IsKKT P 0 s'.xs s'.us s'.lagMul := by
  have hit1 : iterate llt fuel 1 (s.start xs us 0) = some (none, { s1 with iter := s1.iter + 1 }) := by
    unfold iterate; rw [h1]; rfl
  cases body_cases h1 with
  | gaveUp hr hb => cases hb
  | converged s3 hr hk hs' hb => cases hb
  | searched s3 hr hk hs' hb =>
    obtain ⟨k3, kd3⟩ := C18_sqp_every_iteration (n := 0) (s1 := s.start xs us 0) hllt hs rfl hr (symHess_of_fresh hP
      (C17_sqp_directions_fresh hT 0 (s1 := s.start xs us 0) rfl rfl hr).2.1)
    obtain ⟨f1, f2, f3, f4, f5⟩ := C17_sqp_directions_fresh hT 0 (s1 := s.start xs us 0) rfl rfl hr
    obtain ⟨p3, d3⟩ := retry_zero_reg (s := s.start xs us 0) hmax ⟨rfl, rfl⟩ hr
    rw [p3, d3] at k3
    have hx0 : s3.xs 0 = P.x0 := by
      rw [(retry_xs hr).1]
      simp [start, setCandidate]
    have hkkt := full_step_kkt hE hA hQ f2 f5 k3 hx0 kd3
    have e1 : s1.xs = (checked s3).pushFilter.search.xs ∧ s1.us = (checked s3).pushFilter.search.us ∧
        s1.steplength = (checked s3).pushFilter.search.steplength ∧ s1.nRej = (checked s3).pushFilter.search.nRej := by
      rw [hs']
      exact ⟨updateReg_frame SQP.xs (fun _ _ _ => rfl) _, updateReg_frame SQP.us (fun _ _ _ => rfl) _,
        updateReg_frame steplength (fun _ _ _ => rfl) _, updateReg_frame nRej (fun _ _ _ => rfl) _⟩
    have hn3 : s3.nRej = (s.start xs us 0).nRej :=
      retry_frame nRej (fun _ _ _ _ _ _ _ _ _ _ _ _ => rfl) (fun _ _ _ => rfl) _ _ _ _ _ _ hr
    rcases C16_sqp_first_acceptable hT (checked s3).pushFilter with ⟨pre, a, post, _, _, _, g4, g5, _, g7, _⟩ | ⟨_, _, _, h, _⟩
    swap
    · rw [← e1.2.2.2, hacc] at h
      change s.nRej = s3.nRej + 1 at h
      have : s3.nRej = s.nRej := hn3
      omega
    have ha : a = 1 := by rw [← g7, ← e1.2.2.1, hfull]
    subst ha
    obtain ⟨x1, x2, _⟩ := retry_xs h2
    obtain ⟨q1, q2, _, q4, q5⟩ := C17_sqp_directions_fresh hT 1 hit1 hacc h2
    have hxs : ∀ t, t ≤ P.T → s2.xs t = stepX P s3.xs s3.dx 1 t := by
      intro t ht; rw [x1]; exact (congrFun e1.1 t).trans (g4 t ht)
    have hus : ∀ t, t < P.T → s2.us t = stepU P s3.us s3.du 1 t := by
      intro t ht; rw [x2]; exact (congrFun e1.2.1 t).trans (g5 t ht)
    have hkkt2 : IsKKT P 0 s2.xs s2.us s3.lagMul := by
      refine ⟨?_, ?_, ?_, ?_, ?_⟩
      · intro t ht; rw [hxs t ht.le, hus t ht]; exact hkkt.stat_x t ht
      · intro t ht; rw [hxs t ht.le, hus t ht]; exact hkkt.stat_u t ht
      · rw [hxs P.T le_rfl]; exact hkkt.stat_T
      · rw [hxs 0 (Nat.zero_le _)]; exact hkkt.init
      · intro t ht
        have := hkkt.gaps t ht
        unfold shootGap at this ⊢
        rw [hxs (t + 1) ht, hxs t ht.le, hus t ht]; exact this
    have hf1 : ({ s1 with iter := s1.iter + 1 } : SQP P).feas = false := iterate_feas 1 hit1
    have hd1 : ({ s1 with iter := s1.iter + 1 } : SQP P).dx 0 = 0 := by
      change s1.dx 0 = 0
      rw [hs', (updateReg_xs _).2.2.1, search_dx]
      exact kd3
    have fs2 : s2.fs = gapsOf s2.data s2.xs := by
      obtain ⟨b1, _, b3, _⟩ := retry_eval h2
      simp only [if_true] at b1 b3
      rw [b1, b3, x1]; rfl
    obtain ⟨z1, z2, z3, z4⟩ := fixed_point hllt hP hf1 hd1 h2 q1 q2 fs2 hkkt2
    have htol1 : ({ s1 with iter := s1.iter + 1 } : SQP P).tol = s.tol := by
      exact (body_frame tol (fun _ _ _ _ _ _ _ _ _ _ _ _ => rfl) (fun _ _ _ => rfl) (fun _ _ _ _ _ _ _ _ _ => rfl)
        (fun _ _ _ _ _ _ => rfl) (fun _ _ _ _ => rfl) (fun _ _ _ _ => rfl) (fun _ _ => rfl) h1 :
          s1.tol = (s.start xs us 0).tol)
    have hb2 := body_true_of_zero (by rw [htol1]; exact htol) h2 z4
    refine ⟨checked s2, ?_, z4, ?_, ?_⟩
    · unfold solve iterate
      rw [h1]
      simp only []
      unfold iterate
      rw [hb2]
    · have ei : s2.iter = ({ s1 with iter := s1.iter + 1 } : SQP P).iter :=
        retry_frame iter (fun _ _ _ _ _ _ _ _ _ _ _ _ => rfl) (fun _ _ _ => rfl) _ _ _ _ _ _ h2
      have e0 : s1.iter = (s.start xs us 0).iter :=
        body_frame iter (fun _ _ _ _ _ _ _ _ _ _ _ _ => rfl) (fun _ _ _ => rfl) (fun _ _ _ _ _ _ _ _ _ => rfl)
          (fun _ _ _ _ _ _ => rfl) (fun _ _ _ _ => rfl) (fun _ _ _ _ => rfl) (fun _ _ => rfl) h1
      change s2.iter = 1
      rw [ei]; change s1.iter + 1 = 1; rw [e0]; rfl
    · refine ⟨?_, ?_, ?_, hkkt2.init, hkkt2.gaps⟩
      · intro t ht
        have := hkkt2.stat_x t ht
        rw [← z3 t ht.le, ← z3 (t + 1) ht] at this
        exact this
      · intro t ht
        have := hkkt2.stat_u t ht
        rw [← z3 (t + 1) ht] at this
        exact this
      · have := hkkt2.stat_T
        rw [← z3 P.T le_rfl] at this
        exact this


/-! ## The hypotheses are met by `Ex.lq` -/
namespace Ex

/-- the identity chart of the scalar problems. -/
def chart : lq.X → Vec ℚ lq.ndx := fun x _ => x

theorem lq_euclid : Euclid lq chart where
  inj a b h := congrFun h (0 : Fin 1)
  integrate x d := by funext i; rw [Fin.fin_one_eq_zero i]; rfl
  diff a b := rfl

/-- `1×1` algebra. -/
theorem aff1 (a b : ℚ) (x x' u u' : ℚ) (r r' : ℚ) (h : r' = r + a * (x' - x) + b * (u' - u)) :
    (fun _ : Fin 1 => r') = (fun _ => r) + m1 a *ᵥ ((fun _ => x') - fun _ => x) + m1 b *ᵥ ((fun _ => u') - fun _ => u) := by
  funext i
  simp [m1, mulVec, dotProduct, h]

theorem one_fun (u : Vec ℚ 1) : u = fun _ => u 0 := funext fun i => by rw [Fin.fin_one_eq_zero i]

theorem lq_affine : AffineDyn lq chart := by
  intro t ht x u x' u'
  have h := aff1 1 1 x x' (u (0 : Fin 1)) (u' (0 : Fin 1)) _ _
    ((by intros; ring : ∀ x x' v v' : ℚ, x' + v' = x + v + 1 * (x' - x) + 1 * (v' - v)) x x' _ _)
  rw [← one_fun u, ← one_fun u'] at h
  exact h

theorem lq_quad : QuadGrad lq chart where
  Fx _ _ _ _ _ _ := rfl
  Fu _ _ _ _ _ _ := rfl
  Lx t ht x u x' u' := by
    have h := aff1 1 0 x x' (u (0 : Fin 1)) (u' (0 : Fin 1)) _ _
      ((by intros; ring : ∀ x x' v v' : ℚ, 1 * x' = 1 * x + 1 * (x' - x) + 0 * (v' - v)) x x' _ _)
    rw [← one_fun u, ← one_fun u'] at h
    exact h
  Lu t ht x u x' u' := by
    have h := aff1 0 1 x x' (u (0 : Fin 1)) (u' (0 : Fin 1)) _ _
      ((by intros; ring : ∀ x x' v v' : ℚ, 1 * v' = 1 * v + 0 * (x' - x) + 1 * (v' - v)) x x' _ _)
    rw [← one_fun u, ← one_fun u'] at h
    exact h
  LT x x' := by
    have h := aff1 1 0 x x' 0 0 _ _
      ((by intros; ring : ∀ x x' : ℚ, 1 * x' = 1 * x + 1 * (x' - x) + 0 * (0 - 0)) x x')
    rw [sub_self, mulVec_zero, add_zero] at h
    exact h

theorem lq_sym : SymProblem lq :=
  ⟨fun _ _ _ _ => rfl, fun _ _ _ _ => rfl, fun _ => rfl⟩

/-- first and second iteration of a run on `lq` from the zero guess with `reginit = 0`. -/
noncomputable def lqBody : Option (Option Bool × SQP lq) := body llt1 20 (lqSolver.start none none 0)

/-- C44's hypotheses are met: the first iteration takes the full step from an infeasible guess with residual above the
tolerance, and the second direction is computed. -/
theorem C44_nonvacuous : ∃ s1 s2 : SQP lq, body llt1 20 (lqSolver.start none none 0) = some (none, s1) ∧
    s1.nRej = lqSolver.nRej ∧ s1.steplength = 1 ∧ 0 < s1.KKT ∧
    retry llt1 20 true { s1 with iter := s1.iter + 1 } = some (true, s2) := by
  have h1 : (match lqBody with
      | some (none, s1) => decide (s1.nRej = 0 ∧ s1.steplength = 1 ∧ 0 < s1.KKT) &&
        (match retry llt1 20 true { s1 with iter := s1.iter + 1 } with | some (true, _) => true | _ => false)
      | _ => false) = true := by decide +kernel
  change ∃ s1 s2, lqBody = _ ∧ _
  revert h1
  cases lqBody with
  | none => intro h; cases h
  | some r =>
    obtain ⟨b, s1⟩ := r
    cases b with
    | some b => intro h; cases h
    | none =>
      intro h
      simp only [Bool.and_eq_true, decide_eq_true_eq] at h
      obtain ⟨⟨h1, h2, h3⟩, h4⟩ := h
      cases h : retry llt1 20 true { s1 with iter := s1.iter + 1 } with
      | none => rw [h] at h4; cases h4
      | some r =>
        obtain ⟨b, s2⟩ := r
        rw [h] at h4
        cases b with
        | false => cases h4
        | true => exact ⟨s1, s2, rfl, h1, h2, h3, h⟩

/-- the theorem applied: three iterations are enough to certify an exact optimum of `lq`. -/
example : ∃ s', SQP.solve llt1 20 none none 3 0 lqSolver = some (true, s') ∧ s'.KKT = 0 ∧ s'.iter = 1 ∧
    IsKKT lq 0 s'.xs s'.us s'.lagMul := by
  obtain ⟨s1, s2, h1, h2, h3, _, h4⟩ := C44_nonvacuous
  exact C44_sqp_lq_one_step llt1_exact (by decide) lq_euclid lq_affine lq_quad lq_sym (.new _) (by decide +kernel)
    (by decide +kernel) h1 h2 h3 h4 1

/-- C18, C19 and C20 apply to the first iteration on `lq`. -/
example : ∃ s2 : SQP lq, retry llt1 20 true (lqSolver.start none none 0) = some (true, s2) ∧
    (lqOf s2.data s2.fs s2.preg s2.dreg).KKT s2.dx s2.du s2.lagMul ∧
    shootGapNorm lq (stepX lq s2.xs s2.dx 1) (stepU lq s2.us s2.du 1) = 0 := by
  obtain ⟨s1, _, h1, _⟩ := C44_nonvacuous
  cases body_cases h1 with
  | gaveUp hr hb => cases hb
  | converged s3 hr hk hs' hb => cases hb
  | searched s3 hr hk hs' hb =>
    exact ⟨s3, hr, (C18_sqp_every_iteration (n := 0) (s1 := lqSolver.start none none 0) llt1_exact (.new _) rfl hr
      (symHess_of_fresh lq_sym (C17_sqp_directions_fresh (by decide) 0 (s1 := lqSolver.start none none 0) rfl rfl hr).2.1)).1,
      (C20_sqp_gap_contraction (by decide) lq_euclid lq_affine 0 (s1 := lqSolver.start none none 0) rfl rfl hr 1).2 rfl⟩

/-- the optimum of `lq`. -/
def optX : Traj lq := fun t => if t = 0 then (1 : ℚ) else if t = 1 then (2 / 5 : ℚ) else (1 / 5 : ℚ)
def optU : Ctrls lq := fun t _ => if t = 0 then (-3 / 5 : ℚ) else (-1 / 5 : ℚ)
def optLam : ℕ → Vec ℚ lq.ndx := fun t _ => if t = 0 then (8 / 5 : ℚ) else if t = 1 then (3 / 5 : ℚ) else (1 / 5 : ℚ)

theorem opt_kkt : IsKKT lq 0 optX optU optLam := by
  refine ⟨?_, ?_, ?_, ?_, ?_⟩ <;> decide +kernel

/-- C51 applied: `solve` started at the optimum of `lq` returns true at once, without a trial. -/
example : ∃ s', SQP.solve llt1 20 (some optX) (some optU) 5 1 lqSolver = some (true, s') ∧ (∀ t, s'.xs t = optX t) ∧
    s'.us = optU ∧ s'.KKT = 0 ∧ s'.nTry = lqSolver.nTry ∧ s'.iter = 0 ∧ ∀ t, t ≤ 2 → s'.lagMul t = optLam t := by
  have h : (match retry llt1 20 true (lqSolver.start (some optX) (some optU) 1) with
    | some (true, _) => true | _ => false) = true := by decide +kernel
  split at h
  · rename_i s1 hs1
    exact C51_sqp_fixed_point llt1_exact lq_sym (.new _) (by decide +kernel) rfl opt_kkt (by decide) hs1
  · cases h

end Ex
end Mim
