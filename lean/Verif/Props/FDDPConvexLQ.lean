import Verif.Props.FDDPConvex

/-!
# FDDP without the filter on strictly convex linear-quadratic problems (C63)

On such a problem the improvement FDDP predicts for the full step is exactly the improvement.
-/
set_option linter.unusedSectionVars false
set_option linter.unusedSimpArgs false

namespace Mim
open Matrix Spec DDP
variable {K : Type} [Field K] [LinearOrder K] [IsStrictOrderedRing K] {P : Problem K}
variable {llt : LLT K} {fuel : ℕ} {xs : Option (Traj P)} {us : Option (Ctrls P)} {m : ℕ} {s : DDP P}

namespace DDP

/-- the gaps FDDP works with. -/
def openGap (s : DDP P) (t : ℕ) : Vec K P.ndx := if s.feas then 0 else s.e.fs t

theorem improveFDDP_exact (hllt : LLTExact llt) {s2 : DDP P} (hsym : SymHess s2.y.data) {b0 : BP P}
    (hb : backwardPass llt s2.y.data s2.e.fs s2.feas s2.preg s2.dreg b0 = .ok s2.e.bp) :
    (checked (fddp P) s2).m.dg = ∑ t ∈ Finset.range P.T, s2.e.bp.Qu t ⬝ᵥ s2.e.bp.k t -
      ∑ t ∈ Finset.range (P.T + 1), s2.e.bp.Vx t ⬝ᵥ s2.openGap t ∧
    (checked (fddp P) s2).m.dq = ∑ t ∈ Finset.range (P.T + 1), s2.openGap t ⬝ᵥ (s2.e.bp.Vxx t *ᵥ s2.openGap t) -
      ∑ t ∈ Finset.range P.T, s2.e.bp.Qu t ⬝ᵥ s2.e.bp.k t := by
  have hg := gain_pos hllt hsym hb
  have key : ∀ n, n ≤ P.T → forUp n (fun t (d : K × K) =>
      let d := if P.nu t ≠ 0 then (d.1 + dot (s2.e.bp.Qu t) (s2.e.bp.k t), d.2 - dot (s2.e.bp.k t) (s2.e.bp.Quuk t)) else d
      if s2.feas then d else (d.1 - dot (s2.e.bp.Vx t) (s2.e.fs t), d.2 + dot (s2.e.fs t) (mv (s2.e.bp.Vxx t) (s2.e.fs t))))
      (if s2.feas then ((0 : K), (0 : K)) else (0 - dot (s2.e.bp.Vx P.T) (s2.e.fs P.T),
      0 + dot (s2.e.fs P.T) (mv (s2.e.bp.Vxx P.T) (s2.e.fs P.T)))) =
      (∑ t ∈ Finset.range n, s2.e.bp.Qu t ⬝ᵥ s2.e.bp.k t -
        (∑ t ∈ Finset.range n, s2.e.bp.Vx t ⬝ᵥ s2.openGap t + s2.e.bp.Vx P.T ⬝ᵥ s2.openGap P.T),
       (∑ t ∈ Finset.range n, s2.openGap t ⬝ᵥ (s2.e.bp.Vxx t *ᵥ s2.openGap t) + s2.openGap P.T ⬝ᵥ (s2.e.bp.Vxx P.T *ᵥ s2.openGap P.T)) -
        ∑ t ∈ Finset.range n, s2.e.bp.Qu t ⬝ᵥ s2.e.bp.k t) := by
    intro n hn
    induction n with
    | zero => cases hf : s2.feas <;> simp [openGap, hf]
    | succ n ih =>
      rw [forUp_succ, ih (by omega), Finset.sum_range_succ, Finset.sum_range_succ, Finset.sum_range_succ]
      have hz : P.nu n = 0 → s2.e.bp.Qu n ⬝ᵥ s2.e.bp.k n = 0 := fun h0 => by
        rw [vec_eq_of_zero h0 (s2.e.bp.k n) 0, dotProduct_zero]
      by_cases h0 : P.nu n = 0
      · cases hf : s2.feas
        · simp only [h0, ne_eq, not_true_eq_false, if_false, Bool.false_eq_true, hz h0, openGap, hf, dot_exact, mv_exact, Prod.mk.injEq]
          constructor <;> ring
        · simp [h0, hz h0, openGap, hf]
      · cases hf : s2.feas
        · simp only [h0, ne_eq, not_false_eq_true, if_true, if_false, Bool.false_eq_true, openGap, hf, dot_exact, mv_exact, Prod.mk.injEq,
            (hg n (by omega)).2 h0]
          constructor <;> ring
        · simp only [h0, ne_eq, not_false_eq_true, if_true, openGap, hf, dot_exact, mv_exact, Prod.mk.injEq, dotProduct_zero,
            Matrix.mulVec_zero, zero_dotProduct, (hg n (by omega)).2 h0]
          constructor <;> ring
  have e := key P.T le_rfl
  rw [Finset.sum_range_succ (fun t => s2.e.bp.Vx t ⬝ᵥ s2.openGap t), Finset.sum_range_succ (fun t => s2.openGap t ⬝ᵥ _)]
  exact ⟨congrArg Prod.fst e, congrArg Prod.snd e⟩

theorem predictedFDDP_one (z : DDP P) : z.predictedFDDP 1 = z.m.dg + z.m.dq / 2 := by
  unfold predictedFDDP predicted
  simp only [lit_exact]
  push_cast
  ring

/-- on a linear-quadratic problem the full step of FDDP improves the cost by exactly the predicted amount. -/
theorem full_step_exact (hllt : LLTExact llt) {φ : P.X → Vec K P.ndx} (hE : Euclid P φ) (hA : AffineDyn P φ) (hQ : QuadGrad P φ)
    (hC : QuadCost P φ) (hP : SymProblem P) {s2 : DDP P} {b0 : BP P} (hEv : EvalFresh s2) (hp : s2.preg = 0) (hq : s2.dreg = 0)
    (hb : backwardPass llt s2.y.data s2.e.fs s2.feas s2.preg s2.dreg b0 = .ok s2.e.bp)
    (hfe : s2.feas = true → ∀ t, t ≤ P.T → s2.e.fs t = 0) :
    s2.e.cost - trajCost P (s2.policy.X true 1) (s2.policy.U true 1) =
      (checked (fddp P) s2).m.dg + (checked (fddp P) s2).m.dq / 2 := by
  obtain ⟨i1, i2⟩ := improveFDDP_exact hllt (symHess_of_fresh hP hEv.diff) hb
  rw [hp, hq] at hb
  obtain ⟨hR, hdyn, hu, _⟩ := full_rollout_kkt hllt hE hA hQ hP hEv hb hfe
  have hcost := trajCost_model (fs := fun t => if s2.feas = true then 0 else s2.e.fs t) hC hEv.diff (s2.policy.X true 1) (s2.policy.U true 1)
  rw [hR.cost_sq hdyn] at hcost
  have hg : ∀ t, t ≤ P.T → s2.openGap t = s2.e.fs t := fun t ht => by
    unfold openGap
    split
    · rename_i h; exact (hfe h t ht).symm
    · rfl
  have h0 : φ (s2.policy.X true 1 0) - φ (s2.xs 0) = s2.openGap 0 := by
    rw [hg 0 (Nat.zero_le _), hEv.gap0, hE.diff]; rfl
  have hz1 : ∑ t ∈ Finset.range P.T, ((s2.policy.U true 1 t - s2.us t + s2.e.bp.K t *ᵥ (φ (s2.policy.X true 1 t) - φ (s2.xs t)) +
      s2.e.bp.k t) ⬝ᵥ (s2.e.bp.Quu t *ᵥ (s2.policy.U true 1 t - s2.us t + s2.e.bp.K t *ᵥ
      (φ (s2.policy.X true 1 t) - φ (s2.xs t)) + s2.e.bp.k t))) / 2 = 0 :=
    Finset.sum_eq_zero fun t ht => by
      rw [hu t (Finset.mem_range.mp ht)]
      have e : ∀ a b : Vec K (P.nu t), -a - b + a + b = 0 := fun a b => by abel
      rw [e]; simp
  have hoff : ∑ t ∈ Finset.range P.T, Riccati.offset (lqOf s2.y.data (fun t => if s2.feas = true then 0 else s2.e.fs t) 0 0) s2.e.bp.Vxx
      (fun t => s2.e.bp.Vx t - s2.e.bp.Vxx t *ᵥ (if s2.feas = true then 0 else s2.e.fs t)) s2.e.bp.k s2.e.bp.Quu t =
      ∑ t ∈ Finset.range P.T, (s2.e.bp.Vx (t + 1) ⬝ᵥ s2.openGap (t + 1) -
        s2.openGap (t + 1) ⬝ᵥ (s2.e.bp.Vxx (t + 1) *ᵥ s2.openGap (t + 1)) / 2 - s2.e.bp.Qu t ⬝ᵥ s2.e.bp.k t / 2) := by
    refine Finset.sum_congr rfl fun t ht => ?_
    have ht := Finset.mem_range.mp ht
    have hq := gain_quu hllt (symHess_of_fresh hP hEv.diff) hb t ht
    unfold Riccati.offset
    rw [hq]
    change (s2.openGap (t + 1) ⬝ᵥ (s2.e.bp.Vxx (t + 1) *ᵥ s2.openGap (t + 1))) / 2 +
      (s2.e.bp.Vx (t + 1) - s2.e.bp.Vxx (t + 1) *ᵥ s2.openGap (t + 1)) ⬝ᵥ s2.openGap (t + 1) - _ = _
    rw [sub_dotProduct, dotProduct_comm (s2.e.bp.Vxx (t + 1) *ᵥ s2.openGap (t + 1))]
    ring
  rw [hz1, hoff, h0] at hcost
  have hv0 : (s2.e.bp.Vx 0 - s2.e.bp.Vxx 0 *ᵥ (if s2.feas = true then 0 else s2.e.fs 0)) ⬝ᵥ s2.openGap 0 =
      s2.e.bp.Vx 0 ⬝ᵥ s2.openGap 0 - s2.openGap 0 ⬝ᵥ (s2.e.bp.Vxx 0 *ᵥ s2.openGap 0) := by
    change (s2.e.bp.Vx 0 - s2.e.bp.Vxx 0 *ᵥ s2.openGap 0) ⬝ᵥ s2.openGap 0 = _
    rw [sub_dotProduct, dotProduct_comm (s2.e.bp.Vxx 0 *ᵥ s2.openGap 0)]
  rw [hv0] at hcost
  rw [i1, i2, hcost, hEv.cost, Finset.sum_range_succ' (fun t => s2.e.bp.Vx t ⬝ᵥ s2.openGap t),
    Finset.sum_range_succ' (fun t => s2.openGap t ⬝ᵥ _), Finset.sum_sub_distrib, Finset.sum_sub_distrib, ← Finset.sum_div, ← Finset.sum_div]
  ring

/-- an iteration of FDDP without the filter that accepts the full step. -/
theorem full_stepF {s1 s2 : DDP P} (hI : HeadInv s1)
    (hr : retry (fddp P) llt fuel s1 = some (true, s2)) (hpq : s2.dreg = s2.preg)
    (hc : ¬ kktResidual s2.y.data s2.e.fs s2.y.lagMul ≤ s1.c.tol) (hal : s1.c.par.alphas.head? = some 1) (hinc : s1.c.par.thStepInc < 1)
    (huf : s1.c.useFilter = false) (hacc : AcceptFDDP ((fddp P).push (checked (fddp P) s2)) 1) :
    ∃ s3, body (fddp P) llt fuel s1 = some (none, s3) ∧ s3.iter = s1.iter ∧
      StandingF s1.c (s2.policy.X true 1) (s2.policy.U true 1) (s1.c.par.regStep 1 s2.preg) { s3 with iter := s3.iter + 1 } := by
  obtain ⟨k1, k2, k3, k4, k5, k6, k7, k8, k9⟩ := retry_keeps fddp_laws hr
  obtain ⟨_, _, _, _, _, _, _, _, _, e2, _⟩ := pushed_frame fddp_laws s2
  obtain ⟨z, hzdef⟩ : ∃ z, (fddp P).push (checked (fddp P) s2) = z := ⟨_, rfl⟩
  rw [hzdef] at e2 hacc
  have hzc : z.c = s1.c := by rw [e2]; exact k4
  have hpol : z.policy = s2.policy := by rw [e2]; rfl
  have hzp : z.preg = s2.preg ∧ z.dreg = s2.preg := by rw [e2]; exact ⟨rfl, hpq⟩
  have hzi : z.iter = s1.iter := by rw [e2]; exact k5
  obtain ⟨as, has⟩ : ∃ as, z.c.par.alphas = 1 :: as := by
    rw [← hzc] at hal
    cases hl : z.c.par.alphas with
    | nil => rw [hl] at hal; cases hal
    | cons a as => rw [hl] at hal; cases hal; exact ⟨as, rfl⟩
  have hcl : z.closes 1 = true := by simp [closes]
  have hq : (∀ t, t ≤ P.T → (search (fddp P) z).xs t = s2.policy.X true 1 t) ∧
      (∀ t, t < P.T → (search (fddp P) z).us t = s2.policy.U true 1 t) ∧ (search (fddp P) z).steplength = 1 := by
    rcases C16_fddp_first_acceptable z with ⟨pre, a, post, h1, h2, h3, h4, h5, _, h6, _⟩ | ⟨h1, _⟩
    · have ha : a = 1 := by
        cases pre with
        | nil => rw [has] at h1; exact (List.cons.inj h1).1.symm
        | cons b pre =>
          rw [has] at h1
          have : b = 1 := (List.cons.inj h1).1.symm
          exact absurd hacc (by rw [← this]; exact h2 b (by simp))
      subst ha
      rw [hcl, hpol] at h4 h5
      exact ⟨h4, h5, h6⟩
    · exact absurd hacc (h1 1 (by rw [has]; simp))
  obtain ⟨_, _, _, _, _, _, _, _, _, _, _, _, _, _, _, e3, _⟩ := search_frame fddp_laws z
  obtain ⟨_, _, e4⟩ := updateReg_frame (search (fddp P) z)
  have hsc : (search (fddp P) z).c = s1.c := by rw [e3]; exact hzc
  have hsp : (search (fddp P) z).preg = s2.preg := by rw [e3]; exact hzp.1
  have hsq : (search (fddp P) z).dreg = s2.preg := by rw [e3]; exact hzp.2
  obtain ⟨u1, u2, u3⟩ := updateReg_step (hsq.trans hsp.symm)
  rw [hq.2.2, hsp, hsc] at u1 u2 u3
  have hu0 : ¬ (search (fddp P) z).updateReg.1 = true := by
    rw [u3]
    exact fun h => absurd h.1 (not_le.mpr hinc)
  have hbody : body (fddp P) llt fuel s1 = some (none, (search (fddp P) z).updateReg.2.stopping.callbacks) := by
    obtain ⟨d0, d1, dg, dq, hch⟩ := checked_frame fddp_laws s2
    unfold body
    rw [hr]
    have e1 : ((fddp P).improve s2).checkKKT = checked (fddp P) s2 := rfl
    simp only [e1]
    rw [if_neg, hzdef, if_neg hu0]
    rw [hch]
    change ¬ leb (kktResidual s2.y.data s2.e.fs s2.y.lagMul) s2.c.tol = true
    rw [leb_exact, decide_eq_true_eq, k4]
    exact hc
  refine ⟨_, hbody, ?_, ⟨body_headInv fddp_laws hbody hI, ?_, ?_, ?_, u1, u2, fun h => ?_⟩⟩
  · change (search (fddp P) z).updateReg.2.iter = _
    rw [e4]
    change (search (fddp P) z).iter = _
    rw [e3]; exact hzi
  · change (search (fddp P) z).updateReg.2.c = _
    rw [e4]; exact hsc
  · intro t ht
    change (search (fddp P) z).updateReg.2.xs t = _
    rw [e4]; exact hq.1 t ht
  · intro t ht
    change (search (fddp P) z).updateReg.2.us t = _
    rw [e4]; exact hq.2.1 t ht
  · have h : (search (fddp P) z).updateReg.2.c.useFilter = true := h
    rw [e4] at h
    have h : (search (fddp P) z).c.useFilter = true := h
    rw [hsc, huf] at h; cases h

end DDP

/-- **C63.**  Strictly convex linear-quadratic problem, exact arithmetic, `reginit = 0`, first step length `1`, FDDP with the Goldstein
test (`use_filter_line_search = false`): from every state of the solver and every guess (feasible, or marked infeasible and not exactly as
good as the optimum) FDDP returns true within four iterations.  Either the guess is a KKT point up to the tolerance and is returned, or
the returned trajectory is the unique minimiser of the problem over all feasible trajectories.  (With the filter this is false: C61.) -/
theorem C63_fddp_convex_lq (hllt : LLTExact llt) (hT : 0 < P.T) {φ : P.X → Vec K P.ndx} (hE : Euclid P φ)
    (hA : AffineDyn P φ) (hQ : QuadGrad P φ) (hC : QuadCost P φ) (hint : ∀ x, P.integrate x 0 = x) (hP : SymProblem P)
    (hcv : ConvexProblem P) (hst : StrictControls P)
    (hc : DDP.SaneF s.c) (huf : s.c.useFilter = false) (hreg : RegOK s.c.par) (hinc : s.c.par.thStepInc < 1)
    (hta : s.c.par.thAccept < 1) (htn : 1 < s.c.thNeg) (fe : Bool)
    (hfe : Feasible P (s.start xs us fe 0).xs (s.start xs us fe 0).us ∨ (fe = false ∧ ∀ X U lam, IsKKT P 0 X U lam →
      trajCost P X U ≠ trajCost P (s.start xs us fe 0).xs (s.start xs us fe 0).us))
    (hr0 : (lqOf (s.start xs us fe 0).calcDiff.y.data (fun t => if fe then 0 else (s.start xs us fe 0).calcDiff.e.fs t) 0 0).InRange)
    (hr : ∀ X U lam, IsKKT P 0 X U lam → TrajInRange P X U ∧ ∀ q ∈ [s.c.par.regStep 1 0, s.c.par.regStep 1 (s.c.par.regStep 1 0),
      s.c.par.regStep 1 (s.c.par.regStep 1 (s.c.par.regStep 1 0))], ValueInRange P X U q) (fuel m : ℕ) :
    ∃ s', solve (fddp P) llt (fuel + 1) xs us (m + 4) fe 0 s = some (true, s') ∧ s'.iter ≤ 3 ∧
      IsKKT P s.c.tol s'.xs s'.us s'.y.lagMul ∧
      ((s'.iter = 0 ∧ s'.xs = (s.start xs us fe 0).xs ∧ s'.us = (s.start xs us fe 0).us) ∨ OptimalTraj P s'.xs s'.us) := by
  have hI := start_headInv s xs us fe (0 : K)
  have hc1 : (s.start xs us fe 0).c = s.c := rfl
  have hf1 : (s.start xs us fe 0).feas = fe := rfl
  have hi1 : (s.start xs us fe 0).iter = 0 := rfl
  have hre : (s.start xs us fe 0).recalc = true := rfl
  have hp1 : (s.start xs us fe 0).preg = 0 := DDP.start_preg s xs us fe 0
  have hq1 : (s.start xs us fe 0).dreg = 0 := DDP.start_preg s xs us fe 0
  have hls : lastStep s.c = 1 := by unfold lastStep; rw [huf]; rfl
  have key : ∃ s', iterate (fddp P) llt (fuel + 1) (m + 4) (s.start xs us fe 0) = some (some true, s') ∧ s'.iter ≤ 3 ∧
      ((s'.iter = 0 ∧ s'.xs = (s.start xs us fe 0).xs ∧ s'.us = (s.start xs us fe 0).us) ∨ OptimalTraj P s'.xs s'.us) := by
    generalize hs1 : s.start xs us fe 0 = s1 at *
    obtain ⟨s2, h2, hp2, hq2⟩ := C57_ddp_convex (k := fddp P) (.inr rfl) hllt hP hcv hre hp1.ge hq1.ge (.inl hst)
      (by rw [hp1, hq1, hf1]; exact hr0) fuel
    obtain ⟨k1, k2, k3, k4, k5, k6, k7, k8, k9⟩ := retry_keeps fddp_laws h2
    have hEv := retry_evalFresh fddp_laws h2 hI
    obtain ⟨_, hb, _⟩ := retry_spec fddp_laws h2
    obtain ⟨_, b0, hb⟩ := hb rfl
    rw [hp1] at hp2
    rw [hq1] at hq2
    obtain ⟨d0, d1, dg, dq, hch⟩ := checked_frame fddp_laws s2
    by_cases hconv : kktResidual s2.y.data s2.e.fs s2.y.lagMul ≤ s1.c.tol
    · refine ⟨checked (fddp P) s2, ?_, by rw [hch]; change s2.iter ≤ 3; omega,
        .inl ⟨by rw [hch]; change s2.iter = 0; omega, by rw [hch]; exact k1, by rw [hch]; exact k2⟩⟩
      have hbody : body (fddp P) llt (fuel + 1) s1 = some (some true, checked (fddp P) s2) := by
        unfold body
        rw [h2]
        have e1 : ((fddp P).improve s2).checkKKT = checked (fddp P) s2 := rfl
        simp only [e1]
        rw [if_pos]
        rw [hch]
        change leb (kktResidual s2.y.data s2.e.fs s2.y.lagMul) s2.c.tol = true
        rw [k4]
        simpa using hconv
      unfold iterate
      rw [hbody]
    have hfz0 : Feasible P s1.xs s1.us → ∀ t, t ≤ P.T → s2.e.fs t = 0 := by
      intro hff t ht
      cases t with
      | zero => rw [hEv.gap0, k1]; exact (hE.separates _ _).mpr hff.1
      | succ t => rw [hEv.gaps t ht, k1, k2]; exact (hE.separates _ _).mpr (hff.2 t ht)
    have hfz : s2.feas = true → ∀ t, t ≤ P.T → s2.e.fs t = 0 := by
      intro h
      rcases hfe with hff | ⟨hff, _⟩
      · exact hfz0 hff
      · rw [k3, hf1, hff] at h; cases h
    have hEx := DDP.full_step_exact hllt hE hA hQ hC hP hEv hp2 hq2 hb hfz
    obtain ⟨i1, i2⟩ := DDP.improveFDDP_exact hllt (symHess_of_fresh hP hEv.diff) hb
    have hgp := gain_pos hllt (symHess_of_fresh hP hEv.diff) hb
    rw [hp2, hq2] at hb
    obtain ⟨hR, hdyn, hu, lam, hkkt⟩ := DDP.full_rollout_kkt hllt hE hA hQ hP hEv hb hfz
    obtain ⟨r1, r2⟩ := hr _ _ _ hkkt
    obtain ⟨_, _, _, _, _, _, _, _, _, e2, _⟩ := pushed_frame fddp_laws s2
    obtain ⟨z, hzdef⟩ : ∃ z, (fddp P).push (checked (fddp P) s2) = z := ⟨_, rfl⟩
    have hgz : z.m.dg = (checked (fddp P) s2).m.dg ∧ z.m.dq = (checked (fddp P) s2).m.dq := by rw [← hzdef]; exact ⟨rfl, rfl⟩
    rw [hzdef] at e2
    have hpol : z.policy = s2.policy := by rw [e2]; rfl
    have hzc : z.c = s.c := by rw [e2]; exact k4.trans hc1
    have hze : z.e = s2.e := by rw [e2]
    have hcl : z.closes 1 = true := by simp [DDP.closes]
    have hacc : AcceptFDDP z 1 := by
      refine ⟨by simp, by simp, by rw [hpol, hcl]; exact DDP.policy_blowsUp (fun _ _ => rfl) (fun _ _ => rfl) r1, ?_⟩
      rw [hzc, huf]
      simp only [Bool.false_eq_true, if_false]
      rw [DDP.predictedFDDP_one, hgz.1, hgz.2, hcl, hpol, hze, hEx]
      generalize hG : (checked (fddp P) s2).m.dg + (checked (fddp P) s2).m.dq / 2 = G at hEx ⊢
      rcases lt_trichotomy G 0 with hn | h0 | hpos
      · right
        refine ⟨by simpa using hn, ?_⟩
        rw [ltb_exact, decide_eq_true_eq]
        nlinarith
      · left
        refine ⟨by simp [h0], .inl ?_⟩
        rcases hfe with hff | ⟨_, hne⟩
        · have hz := hfz0 hff
          have hog : ∀ t, t ≤ P.T → s2.openGap t = 0 := fun t ht => by
            unfold DDP.openGap; rw [hz t ht, ite_self]
          have s1z : ∑ t ∈ Finset.range (P.T + 1), s2.e.bp.Vx t ⬝ᵥ s2.openGap t = 0 :=
            Finset.sum_eq_zero fun t ht => by rw [hog t (by have := Finset.mem_range.mp ht; omega), dotProduct_zero]
          have s2z : ∑ t ∈ Finset.range (P.T + 1), s2.openGap t ⬝ᵥ (s2.e.bp.Vxx t *ᵥ s2.openGap t) = 0 :=
            Finset.sum_eq_zero fun t ht => by rw [hog t (by have := Finset.mem_range.mp ht; omega), zero_dotProduct]
          rw [s1z] at i1
          rw [s2z] at i2
          have hg0 : (checked (fddp P) s2).m.dg = 0 := by linarith
          rw [DDP.dvAt_zero (by rw [hze]; exact hz), hg0, ltb_exact, decide_eq_true_eq, add_zero]
          exact hc.grad huf
        · exfalso
          refine hne _ _ _ hkkt ?_
          rw [h0, hEv.cost, k1, k2] at hEx
          linarith
      · left
        refine ⟨by simpa using hpos.le, .inr ?_⟩
        rw [ltb_exact, decide_eq_true_eq]
        nlinarith
    obtain ⟨s3, hb3, hi3, hS⟩ := DDP.full_stepF hI h2 (by rw [hp2, hq2]) hconv (by rw [hc1]; exact hc.alphas) (by rw [hc1]; exact hinc)
      (by rw [hc1]; exact huf) (by rw [hzdef]; exact hacc)
    rw [hp2, hc1] at hS
    have hM := hreg.min_pos.trans_le hreg.min_le
    obtain ⟨s', g1, g2, g3, g4⟩ := hS.settles hT hllt hE.separates hint hP hcv hc hkkt
      (DDP.regStep_nonneg (zero_le_one.trans hreg.dec.le) (zero_le_one.trans hreg.inc.le) hM.le _ le_rfl) hreg (.inl hst) r1
      (by rw [hls]; exact r2) (fun q _ => .inl (by rw [hls]; exact hinc)) fuel m
    have g4 : s'.iter ≤ s3.iter + 1 + 2 := g4
    refine ⟨s', ?_, by omega, .inr ?_⟩
    · unfold iterate
      rw [hb3]
      exact g1
    · have hk' := DDP.isKKT_congr g2 g3 hkkt
      exact ⟨kkt_feasible hE hk', fun X' U' hf => kkt_global_min hE hA hC hP hcv hst s.y.data hk' hf⟩
  obtain ⟨s', h1, h2, h3⟩ := key
  have hsol : solve (fddp P) llt (fuel + 1) xs us (m + 4) fe 0 s = some (true, s') := by
    unfold solve; rw [h1]
  exact ⟨s', hsol, h2, C04_ddp_true_is_kkt (.inr rfl) hsol, h3⟩

end Mim

/-! ## The hypotheses are met by `Ex.lq` -/
namespace Mim.Ex
open Spec Matrix DDP

theorem lqFDDP_steps : (lqFDDP false).c.par.regStep 1 0 = 1 / 10 ^ 9 ∧ (lqFDDP false).c.par.regStep 1 (1 / 10 ^ 9) = 1 / 10 ^ 9 := by
  decide +kernel

/-- **C63 is met**: the default solver without the filter on `lq`, started from nothing. -/
theorem C63_example : ∃ s', solve (fddp lq) llt1 20 none none 4 false 0 (lqFDDP false) = some (true, s') ∧ OptimalTraj lq s'.xs s'.us := by
  obtain ⟨s', h1, h2, _, h3⟩ := C63_fddp_convex_lq (xs := none) (us := none) (s := lqFDDP false) llt1_exact (by decide) lq_euclid lq_affine
    lq_quad lq_quadCost lq_integrate lq_sym lq_convex lq_strict (lqFDDP_sane false) rfl
    ⟨(by decide +kernel), (by decide +kernel), (by decide +kernel), (by decide +kernel)⟩ (by decide +kernel) (by decide +kernel)
    (by decide +kernel) false
    (.inr ⟨rfl, fun X U lam h => by
      obtain ⟨g1, g2⟩ := lq_kkt_unique h
      rw [← trajCost_congr lq g1 g2]
      have : decide ((trajCost lq lqX lqU : ℚ) = trajCost lq ((lqFDDP false).start none none false 0).xs ((lqFDDP false).start none none false 0).us)
        = false := by decide +kernel
      exact of_decide_eq_false this⟩)
    ((C57_ddp_direction_iff (k := fddp lq) (.inr rfl) llt1_exact lq_sym (s := (lqFDDP false).start none none false 0)).mp (by
      cases e : (fddp lq).dir llt1 true ((lqFDDP false).start none none false 0) with
      | ok s1 => exact ⟨s1, rfl⟩
      | exn s1 =>
        have : ((fddp lq).dir llt1 true ((lqFDDP false).start none none false 0)).isOk = true := by decide +kernel
        rw [e] at this; cases this)).2
    (fun X U lam h => ⟨lq_trajInRange h, by
      intro q hq
      rw [lqFDDP_steps.1, lqFDDP_steps.2] at hq
      rw [lqFDDP_steps.2] at hq
      simp only [List.mem_cons, List.not_mem_nil, or_false] at hq
      rcases hq with rfl | rfl | rfl <;> exact lq_valueInRange (by decide +kernel) h⟩) 19 0
  refine ⟨s', h1, ?_⟩
  rcases h3 with ⟨h3, _⟩ | h3
  · exfalso
    have : (solve (fddp lq) llt1 20 none none 4 false 0 (lqFDDP false)).map (fun r => decide (r.2.iter = 0)) = some false := by decide +kernel
    have h1 : solve (fddp lq) llt1 20 none none 4 false 0 (lqFDDP false) = some (true, s') := h1
    rw [h1] at this
    have := Option.some.inj this
    simp only [h3, decide_true] at this
    cases this
  · exact h3

/-- the guess of C61 with the Goldstein test instead of the filter: solved. -/
theorem C63_instead_of_the_filter : (solve (fddp one) llt1 20 (some oneX) (some oneU) 4 false 0
    { DDP.new (Data.zero one) with c := { (DDP.new (Data.zero one)).c with useFilter := false } }).map (·.1) = some true := by
  decide +kernel

end Mim.Ex
