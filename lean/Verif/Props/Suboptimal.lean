import Verif.Lemmas.Suboptimal
import Verif.Props.DDPReturn
import Verif.Props.SQPConvex
import Verif.Props.CSQPWarm
import Verif.Props.CSQPReturn
import Verif.Props.QPStop
import Verif.Props.ProxQP

/-!
# C64, C65: what a true return says about the cost of the result

Convex costs, affine dynamics (and affine constraints).  The cost of the returned trajectory exceeds that of *any* feasible
trajectory by at most the tolerance times (distance to that trajectory + size of the multipliers); with inequality constraints
the complementarity gap, which the solvers do not check, comes on top.
-/
set_option linter.unusedSectionVars false
set_option linter.unusedSimpArgs false

namespace Mim
open Spec Matrix

section
variable {K : Type} [Field K] [LinearOrder K] [IsStrictOrderedRing K] {P : Problem K} {φ : P.X → Vec K P.ndx}

/-- **C64, the meaning of the KKT test.** -/
theorem C64_kkt_suboptimality (hE : Euclid P φ) (hA : AffineDyn P φ) (hC : ConvexCost P φ) {tol : K} {X : Traj P} {U : Ctrls P}
    {lam : ℕ → Vec K P.ndx} (hk : IsKKT P tol X U lam) {X' : Traj P} {U' : Ctrls P} (hf : Feasible P X' U') :
    trajCost P X U ≤ trajCost P X' U' + tol * (trajDist P φ X U X' U' + (sumAbs (lam 0) + multNorm P lam)) := by
  have h := subopt_core (tol := tol) (tol0 := tol) hE hA hC (fun _ => 0) (fun _ => 0) 0 (fun t ht i => by rw [add_zero]; exact hk.stat_x t ht i)
    (fun t ht i => by rw [add_zero]; exact hk.stat_u t ht i) (fun i => by rw [add_zero]; exact hk.stat_T i) hk.init hk.gaps hf
  simp only [zero_dotProduct, add_zero, Finset.sum_const_zero] at h
  linarith

/-- **C64 (SQP).**  If `SolverSQP::solve` returns true and no trial was rejected since the last evaluation became stale (C17), the
returned trajectory costs at most `tol * (distance + multipliers)` more than any feasible trajectory. -/
theorem C64_sqp_suboptimality (hE : Euclid P φ) (hA : AffineDyn P φ) (hC : ConvexCost P φ) (hT : 0 < P.T) {llt : LLT K} {fuel m : ℕ}
    {xs : Option (Traj P)} {us : Option (Ctrls P)} {ri : K} {s s' : SQP P} (h : SQP.solve llt fuel xs us m ri s = some (true, s'))
    (hacc : s'.nRej = s.nRej) {X' : Traj P} {U' : Ctrls P} (hf : Feasible P X' U') :
    trajCost P s'.xs s'.us ≤ trajCost P X' U' +
      s.tol * (trajDist P φ s'.xs s'.us X' U' + (sumAbs (s'.lagMul 0) + multNorm P s'.lagMul)) :=
  C64_kkt_suboptimality hE hA hC (C17_sqp_true_is_kkt hT h hacc) hf

/-- **C64 (DDP, FDDP).** -/
theorem C64_ddp_suboptimality (hE : Euclid P φ) (hA : AffineDyn P φ) (hC : ConvexCost P φ) {k : DDP.Kind P} (hk : DDP.IsSolver k)
    {llt : LLT K} {fuel m : ℕ} {xs : Option (Traj P)} {us : Option (Ctrls P)} {fe : Bool} {ri : K} {s s' : DDP P}
    (h : DDP.solve k llt fuel xs us m fe ri s = some (true, s')) {X' : Traj P} {U' : Ctrls P} (hf : Feasible P X' U') :
    trajCost P s'.xs s'.us ≤ trajCost P X' U' +
      s.c.tol * (trajDist P φ s'.xs s'.us X' U' + (sumAbs (s'.y.lagMul 0) + multNorm P s'.y.lagMul)) :=
  C64_kkt_suboptimality hE hA hC (C04_ddp_true_is_kkt hk h) hf

/-- **C65, the meaning of the constrained KKT tests.**  `y` may be any multipliers with the right signs. -/
theorem C65_ckkt_suboptimality (hE : Euclid P φ) (hA : AffineDyn P φ) (hC : ConvexCost P φ) (hG : AffineCon P φ) (hT : 0 < P.T) {tol : K}
    (htol : 0 ≤ tol) {X : Traj P} {U : Ctrls P} {lam : ℕ → Vec K P.ndx} {y : (t : ℕ) → Vec K (P.ng t)} (hk : IsPKKT P tol X U lam y)
    (h0 : X 0 = P.x0) (hs : SignsOK P y) {X' : Traj P} {U' : Ctrls P} (hf : Feasible P X' U') (hc : ConFeasible P X' U') :
    trajCost P X U ≤ trajCost P X' U' + tol * (trajDist P φ X U X' U' + multNorm P lam) + complGap P X U y :=
  subopt_con hE hA hC hG htol hT hk h0 hs hf hc

end

namespace CSQP
section
variable {F : Type} [Add F] [Sub F] [Mul F] [Div F] [Neg F] [Zero F] [One F] [FloatOps F] [SqrtOps F] {P : Problem F}
variable {W : World F} {fuel : ℕ} {xs : Option (Traj P)} {us : Option (Ctrls P)} {m : ℕ} {ri : F} {s0 s s' : CSQP P}

theorem retry_reached {n : ℕ} {s s' : CSQP P} (h : retry W true n s = some (true, s')) (hr : s.q.reached = true) : s' = s := by
  cases n with
  | zero => cases h
  | succ n =>
    unfold retry at h
    rw [hr] at h
    simp only [Bool.and_self, if_true, Option.some.injEq, Prod.mk.injEq, true_and] at h
    exact h.symm

/-- A true return within the time limit: the state is that of a check right after a call of `computeDirection`. -/
theorem solve_true_call (h : solve W fuel xs us m ri s0 = some (.ret true, s')) (hr : s'.q.reached = false) :
    ∃ sc s1, Calls W fuel xs us m ri s0 sc ∧ sc.dir W = .ok s1 ∧ s' = checked s1 := by
  have key := solve_heads (W := W) (fuel := fuel) (xs := xs) (us := us) (m := m) (ri := ri) (s0 := s0)
    (fun o s' => o = .ret true → s'.q.reached = false → ∃ sc s1, Calls W fuel xs us m ri s0 sc ∧ sc.dir W = .ok s1 ∧ s' = checked s1)
    ?_ ?_ h
  · exact key rfl hr
  · rintro s o s' hh hi hb rfl hr
    cases body_cases hb with
    | timeUp hu hs hr => cases hr
    | ended hu o h1 hr =>
      cases hr
      cases direction_cases h1 with
      | escaped _ _ ho => cases ho
      | plain _ _ ho => cases ho
      | found _ _ ho => cases ho
      | gaveUp _ _ ho => cases ho
    | noQP hu h1 hq hr => cases hr
    | searched hu s3 h1 hq hk ha =>
      cases ha with
      | rejected s2 h3 hs hr => cases hr
      | accepted s2 h3 hs hr => split at hr <;> simp at hr
    | converged hu s3 hd hq hk hs hr' =>
      have hr3 : s3.q.reached = false := by rw [hs] at hr; exact hr
      cases hre : s.q.reached with
      | false =>
        obtain ⟨sc, c1, c2⟩ := head_call hh hi hu hre hd
        exact ⟨sc, s3, c1, c2, hs⟩
      | true =>
        cases direction_cases hd with
        | escaped _ h1 ho => cases ho
        | gaveUp _ h1 ho => cases ho
        | plain hrm h1 ho =>
          have hrm' : s.c.removeReg = true := by rw [← (entry_conf s).1]; exact hrm
          exact ⟨_, s3, .head hh hi hu (.inl hrm'), h1, hs⟩
        | found hrm h1 ho =>
          exfalso
          have he : (entry s).q.reached = true := by rw [(entry_q s).2.2]; exact hre
          rw [retry_reached h1 he, he] at hr3
          cases hr3
  · rintro s o s' hl hx rfl hr
    cases extra_cases hx with
    | off he ho hs => cases ho
    | ended he hr hd =>
      cases direction_cases hd with
      | escaped _ _ ho => cases ho
      | plain _ _ ho => cases ho
      | found _ _ ho => cases ho
      | gaveUp _ _ ho => cases ho
    | checked he hre s3 hd hs ho =>
      obtain ⟨sc, c1, c2⟩ := extra_call hl he hre hd
      exact ⟨sc, s3, c1, c2, hs⟩

end

section
variable {K : Type} [Field K] [LinearOrder K] [IsStrictOrderedRing K] [SqrtOps K] {P : Problem K}
variable {W : World K} {fuel : ℕ} {xs : Option (Traj P)} {us : Option (Ctrls P)} {m : ℕ} {ri : K} {s s' : CSQP P}

/-- what a true return within the time limit says about `y` and `z`. -/
theorem true_clamped (hb : BoundsOK P) (hc : PenaltyConf s.c) (hq : 0 < s.c.maxQP)
    (h : solve W fuel xs us m ri s = some (.ret true, s')) (hr : s'.q.reached = false) :
    (∀ t, t < P.T → NormalCone (P.lb t) (P.ub t) ((P.calcR t (s'.xs t) (s'.us t)).g + s'.q.v.z t) (s'.q.v.y t)) ∧
    NormalCone (P.lb P.T) (P.ub P.T) ((P.calcT (s'.xs P.T)).g + s'.q.v.z P.T) (s'.q.v.y P.T) := by
  obtain ⟨sc, s1, c1, c2, rfl⟩ := solve_true_call h hr
  obtain ⟨q', hq', rfl⟩ := dir_ok c2
  have hcf := c1.conf
  have hf := c1.evald.fresh
  have hpos : ∀ q, AtIter W.llt (sc.env W) sc.q q → ∀ t, t ≤ P.T → ∀ i, 0 < q.v.rho t i ∧ q.v.inv t i = 1 / q.v.rho t i :=
    fun q hq => calls_penalty_pos hc hb.not_crossed c1 hq
  have hfin : ∀ v : CVars P, v = q'.v → Clamped (sc.env W) v →
      (∀ t, t < P.T → NormalCone (P.lb t) (P.ub t) ((P.calcR t (sc.xs t) (sc.us t)).g + q'.v.z t) (q'.v.y t)) ∧
      NormalCone (P.lb P.T) (P.ub P.T) ((P.calcT (sc.xs P.T)).g + q'.v.z P.T) (q'.v.y P.T) := by
    rintro v rfl hcl
    refine ⟨fun t ht => ?_, ?_⟩
    · rw [← hf.1 t ht]; exact (hcl.run t ht).2
    · rw [← hf.2]; exact hcl.ter.2
  have hr' : q'.reached = false := hr
  cases direction_end hq' with
  | limit ha he => exact hfin _ rfl (ha.clamped hb (by rw [he]; change sc.c.maxQP ≠ 0; rw [hcf]; omega) hpos)
  | time ha he ht => cases hr'
  | @tol q1 _ ha he ht hs hi hcv =>
    obtain ⟨a, b, c⟩ := C27_csqp_iteration hb (q := { q1 with tick := q1.tick + 1 }) (hpos q1 ha) hs
    exact hfin _ (setTol_v _ _).1.symm ⟨a, b, c⟩

/-- **C65 (CSQP).**  Convex costs, affine dynamics and constraints, consistent bounds, sane penalties, at least one QP iteration
allowed.  If `SolverCSQP::solve` returns true within the time limit, the cost of the returned trajectory exceeds that of any feasible
trajectory by at most `tol * (distance + multipliers)` plus the complementarity gap; that gap is `Σ y·z`, where `z` is the
auxiliary variable of the last QP. -/
theorem C65_csqp_suboptimality {φ : P.X → Vec K P.ndx} (hE : Euclid P φ) (hA : AffineDyn P φ) (hC : ConvexCost P φ) (hG : AffineCon P φ)
    (hT : 0 < P.T) (hb : BoundsOK P) (hc : PenaltyConf s.c) (hq : 0 < s.c.maxQP) (hs : Reachable s) (htol : 0 ≤ s.c.tol)
    (h : solve W fuel xs us m ri s = some (.ret true, s')) (hr : s'.q.reached = false) :
    (∀ X' U', Feasible P X' U' → ConFeasible P X' U' →
      trajCost P s'.xs s'.us ≤ trajCost P X' U' + s.c.tol * (trajDist P φ s'.xs s'.us X' U' + multNorm P s'.lagMul) +
        complGap P s'.xs s'.us s'.q.v.y) ∧
    complGap P s'.xs s'.us s'.q.v.y = (∑ t ∈ Finset.range P.T, s'.q.v.y t ⬝ᵥ s'.q.v.z t) + s'.q.v.y P.T ⬝ᵥ s'.q.v.z P.T := by
  obtain ⟨n1, n2⟩ := true_clamped hb hc hq h hr
  have h0 : s'.xs 0 = P.x0 := C07_csqp_initial_state hs (fun a _ => hE.inj _ _ (by rw [hE.integrate]; simp [zeroV])) h
  have hk := IsCKKT.toP (C03_csqp_true_is_ckkt htol hT h)
  have hm : multNorm P (Function.update s'.lagMul 0
      (s'.lagMul 0 + (P.calcDiffR 0 (s'.xs 0) (s'.us 0)).Gxᵀ *ᵥ s'.q.v.y 0)) = multNorm P s'.lagMul := by
    unfold multNorm
    refine Finset.sum_congr rfl fun t _ => ?_
    rw [Function.update_of_ne (Nat.succ_ne_zero t)]
  have hsg : SignsOK P s'.q.v.y := by
    intro t ht i
    rcases ht.lt_or_eq with h1 | rfl
    · exact ⟨fun hp => by rw [(n1 t h1 i).1 hp]; simp, fun hp => by rw [(n1 t h1 i).2 hp]; simp⟩
    · exact ⟨fun hp => by rw [(n2 i).1 hp]; simp, fun hp => by rw [(n2 i).2 hp]; simp⟩
  refine ⟨fun X' U' hf hcf => ?_, ?_⟩
  · rw [← hm]
    exact C65_ckkt_suboptimality hE hA hC hG hT htol hk h0 hsg hf hcf
  · unfold complGap
    refine congrArg₂ (· + ·) (Finset.sum_congr rfl fun t ht => Finset.sum_congr rfl fun i _ => ?_) (Finset.sum_congr rfl fun i _ => ?_)
    · exact rowGap_cone (n1 t (Finset.mem_range.mp ht) i)
    · exact rowGap_cone (n2 i)

end
end CSQP

namespace PROX
section
variable {K : Type} [Field K] [LinearOrder K] [IsStrictOrderedRing K] {P : Problem K}
variable {qp : PSolve K} {fuel : ℕ} {xs : Option (Traj P)} {us : Option (Ctrls P)} {m : ℕ} {ri : K} {s s' : PROX P}

/-- with an exact QP solver the signs of the multipliers are right at the head of every iteration. -/
theorem AtHead.signs (hr : Reachable s) (hT : 0 < P.T) (hc : ColsOK P) (hqp : QPExact P.nVars P.nEq P.nIn qp) (h0 : SignsOK P s.y)
    {s1 : PROX P} (h : AtHead qp fuel xs us m ri s s1) : SignsOK P s1.y := by
  have key : ∀ {s1 s2 : PROX P}, AtHead qp fuel xs us m ri s s1 → retry qp fuel true { s1 with wasFeas := false } = some (true, s2) →
      SignsOK P s2.y := by
    intro s1 s2 h hd t ht i
    obtain ⟨_, _, hk⟩ := C40_prox_direction_kkt hr hT hc hqp h hd
    rcases ht.lt_or_eq with h1 | rfl
    · exact ⟨fun hp => by rw [(hk.compl t h1 i).1 hp]; simp, fun hp => by rw [(hk.compl t h1 i).2 hp]; simp⟩
    · exact ⟨fun hp => by rw [(hk.complT i).1 hp]; simp, fun hp => by rw [(hk.complT i).2 hp]; simp⟩
  cases h with
  | start => exact h0
  | @next s2 s3 h hi hb =>
    change SignsOK P s3.y
    cases body_cases hb with
    | gaveUp hr hb => cases hb
    | converged s4 hr hk hs hb => cases hb
    | searched s4 hr hk hs hb =>
      have := key h hr
      obtain ⟨d, w, iw, n, r', xs, us, fe, ac, sl, cl, gl, kl, hi, p, dr, lg, _, e⟩ := after_set s4 s4.pushFilter.search.updateReg.1
      rw [hs, e]
      exact this

/-- **C65 (PROXQP).**  With an exact QP solver and right signs of the multipliers the solver starts with (a new solver: zero). -/
theorem C65_prox_suboptimality {φ : P.X → Vec K P.ndx} (hE : Euclid P φ) (hA : AffineDyn P φ) (hC : ConvexCost P φ) (hG : AffineCon P φ)
    (hT : 0 < P.T) (hc : ColsOK P) (hqp : QPExact P.nVars P.nEq P.nIn qp) (hr : Reachable s) (hy : SignsOK P s.y) (htol : 0 ≤ s.c.tol)
    (h : solve qp fuel xs us m ri s = some (true, s')) :
    ∃ old a, s'.ans = s.ans ++ (old ++ [a]) ∧ ∀ X' U', Feasible P X' U' → ConFeasible P X' U' →
      trajCost P s'.xs s'.us ≤ trajCost P X' U' + s.c.tol * (trajDist P φ s'.xs s'.us X' U' + multNorm P (lamLast P s.lam old)) +
        complGap P s'.xs s'.us (yLast P s.y old) := by
  obtain ⟨old, a, h1, hk⟩ := C05_prox_true_is_pkkt htol h
  refine ⟨old, a, h1, fun X' U' hf hcf => C65_ckkt_suboptimality hE hA hC hG hT htol hk ?_ ?_ hf hcf⟩
  · exact C07_prox_initial_state hr (fun a _ => hE.inj _ _ (by rw [hE.integrate]; simp [zeroV])) h
  · rcases solve_end h with ⟨h2, _⟩ | ⟨s1, h2, _, hb⟩
    · cases h2
    · obtain ⟨old', hm⟩ := h2.mults
      have hs := AtHead.signs hr hT hc hqp hy h2
      rw [hm.y] at hs
      have e : old' = old := by
        cases body_cases hb with
        | gaveUp hr hb => cases hb
        | searched s2 hr hk hs hb => split at hb <;> cases hb
        | converged s2 hr hk hs hb =>
          cases retry_post hr with
          | gaveUp j _ _ _ hb' hs' => cases hb'
          | found j a' _ _ _ _ hs' =>
            have h3 : Mults s old' (asked (head s1) j) := hm.congr rfl rfl rfl
            have h4 := (h3.read a').ans
            rw [← hs'] at h4
            have h5 : s'.ans = s2.ans := by rw [hs]; rfl
            rw [h5, h4] at h1
            exact (List.append_inj' (List.append_cancel_left h1) rfl).1
      rw [← e]; exact hs

end
end PROX

namespace Ex

theorem lq_convexCost : ConvexCost lq (fun x _ => x) := convexCost_of_quad lq_quadCost lq_convex

/-- C64: `lq` meets the hypotheses, with a run of SQP and one of DDP that return true. -/
example : Euclid lq (fun x _ => x) ∧ AffineDyn lq (fun x _ => x) ∧ ConvexCost lq (fun x _ => x) ∧ Feasible lq lqX lqU ∧
    (∃ s', SQP.solve llt1 20 none none 2 0 lqSolver = some (true, s')) :=
  ⟨lq_euclid, lq_affine, lq_convexCost, kkt_feasible lq_euclid lq_kkt, by
    obtain ⟨s', h, _⟩ := C58_example; exact ⟨s', h⟩⟩


/-! ### the constrained examples -/

theorem mul1 (a : ℚ) (v : Vec ℚ 1) (i : Fin 1) : (m1 a *ᵥ v) i = a * v 0 := by
  simp [m1, Matrix.mulVec, dotProduct]
theorem dot1 (v w : Vec ℚ 1) : v ⬝ᵥ w = v 0 * w 0 := by simp [dotProduct]
theorem fin1 (i : Fin 1) : i = 0 := Subsingleton.elim _ _

theorem lin_euclid : Euclid lin (fun x _ => x) :=
  ⟨fun a b h => congrFun h (0 : Fin 1), fun x d => by
    funext i; obtain rfl := fin1 i; rfl, fun a b => rfl⟩

theorem lin_affine : AffineDyn lin (fun x _ => x) := by
  intro t ht (x : ℚ) (u : Vec ℚ 1) (x' : ℚ) (u' : Vec ℚ 1)
  funext (i : Fin 1)
  change x' = x + (m1 1 *ᵥ (fun _ => x' - x : Vec ℚ 1)) i + (m1 0 *ᵥ (u' - u : Vec ℚ 1)) i
  rw [mul1, mul1]; ring

theorem lin_convexCost : ConvexCost lin (fun x _ => x) := by
  refine ⟨fun t ht (x : ℚ) (u : Vec ℚ 1) (x' : ℚ) (u' : Vec ℚ 1) => ?_, fun (x : ℚ) (x' : ℚ) => ?_⟩
  · change -(u 0) + (fun _ => 0 : Vec ℚ 1) ⬝ᵥ (fun _ => x' - x : Vec ℚ 1) + (fun _ => -1 : Vec ℚ 1) ⬝ᵥ (u' - u : Vec ℚ 1) ≤ -(u' 0)
    rw [dot1, dot1, Pi.sub_apply]; linarith
  · change (0 : ℚ) + (fun _ => 0 : Vec ℚ 1) ⬝ᵥ (fun _ => x' - x : Vec ℚ 1) ≤ 0
    rw [dot1]; linarith

theorem lin_affineCon : AffineCon lin (fun x _ => x) := by
  refine ⟨fun t ht (x : ℚ) (u : Vec ℚ 1) (x' : ℚ) (u' : Vec ℚ 1) => ?_, fun (x : ℚ) (x' : ℚ) => ?_⟩
  · funext (i : Fin 1)
    change u' 0 = u 0 + (m1 0 *ᵥ (fun _ => x' - x : Vec ℚ 1)) i + (m1 1 *ᵥ (u' - u : Vec ℚ 1)) i
    rw [mul1, mul1, Pi.sub_apply]; ring
  · funext (i : Fin 1)
    change (0 : ℚ) = 0 + (m1 0 *ᵥ (fun _ => x' - x : Vec ℚ 1)) i
    rw [mul1]; ring

/-- the run of `C03_csqp_no_complementarity`: no time limit reached, complementarity gap 1. -/
theorem lin_run_gap : (CSQP.solve world 20 none none 5 0 linSolver).map
    (fun r => (decide (r.1 = .ret true), r.2.q.reached, r.2.m.KKT, complGap lin r.2.xs r.2.us r.2.q.v.y, trajCost lin r.2.xs r.2.us)) =
    some (true, false, 0, 1, 0) := by decide +kernel

/-- **C65, the gap cannot be dropped.**  On `lin`, with the residual exactly zero, the theorem applies and its last term is needed and
exact: the certified result costs 0, the complementarity gap is 1, and the feasible trajectory `u = 1` costs -1. -/
theorem C65_gap_needed : ∃ s', CSQP.solve world 20 none none 5 0 linSolver = some (.ret true, s') ∧ s'.m.KKT = 0 ∧
    (∀ X' U', Feasible lin X' U' → ConFeasible lin X' U' → trajCost lin s'.xs s'.us ≤ trajCost lin X' U' +
      linSolver.c.tol * (trajDist lin (fun x _ => x) s'.xs s'.us X' U' + multNorm lin s'.lagMul) + complGap lin s'.xs s'.us s'.q.v.y) ∧
    complGap lin s'.xs s'.us s'.q.v.y = 1 ∧
    ∃ X' U', Feasible lin X' U' ∧ ConFeasible lin X' U' ∧ trajCost lin X' U' = trajCost lin s'.xs s'.us - 1 := by
  have h := lin_run_gap
  cases hr : CSQP.solve world 20 none none 5 0 linSolver with
  | none => rw [hr] at h; simp at h
  | some r =>
    obtain ⟨o, s'⟩ := r
    rw [hr] at h
    simp only [Option.map_some, Option.some.injEq, Prod.mk.injEq, decide_eq_true_eq] at h
    obtain ⟨rfl, h2, h3, h4, h5⟩ := h
    refine ⟨s', rfl, h3, (CSQP.C65_csqp_suboptimality lin_euclid lin_affine lin_convexCost lin_affineCon Nat.zero_lt_one lin_bounds
      lin_penalty (by decide) lin_reachable (by decide +kernel) hr h2).1, h4, fun _ => (0 : ℚ), fun _ _ => (1 : ℚ), ?_, ?_, ?_⟩
    · exact ⟨rfl, fun t ht => rfl⟩
    · refine ⟨fun t ht i => ⟨fun l hl => (by cases hl), fun u hu => ?_⟩, fun i => ⟨fun l hl => (by cases hl), fun u hu => ?_⟩⟩
      · have e : (if t = 0 then some (1 : ℚ) else none) = some u := hu
        split at e
        · cases e; exact le_rfl
        · cases e
      · have e : (if (1 : ℕ) = 0 then some (1 : ℚ) else none) = some u := hu
        cases e
    · rw [h5]; decide +kernel

theorem clq_euclid (T : ℕ) (q r qT x0 : ℚ) : Euclid (clq T q r qT x0) (fun x _ => x) :=
  ⟨fun a b h => congrFun h (0 : Fin 1), fun x d => by
    funext i; obtain rfl := fin1 i; rfl, fun a b => rfl⟩

theorem clq_affine (T : ℕ) (q r qT x0 : ℚ) : AffineDyn (clq T q r qT x0) (fun x _ => x) := by
  intro t ht (x : ℚ) (u : Vec ℚ 1) (x' : ℚ) (u' : Vec ℚ 1)
  funext (i : Fin 1)
  change x' + u' 0 = x + u 0 + (m1 1 *ᵥ (fun _ => x' - x : Vec ℚ 1)) i + (m1 1 *ᵥ (u' - u : Vec ℚ 1)) i
  rw [mul1, mul1, Pi.sub_apply]; ring

theorem clq_convexCost (T : ℕ) {q r qT : ℚ} (hq : 0 ≤ q) (hr : 0 ≤ r) (hT : 0 ≤ qT) (x0 : ℚ) :
    ConvexCost (clq T q r qT x0) (fun x _ => x) := by
  refine ⟨fun t ht (x : ℚ) (u : Vec ℚ 1) (x' : ℚ) (u' : Vec ℚ 1) => ?_, fun (x : ℚ) (x' : ℚ) => ?_⟩
  · change (q * x * x + r * u 0 * u 0) / 2 + (fun _ => q * x : Vec ℚ 1) ⬝ᵥ (fun _ => x' - x : Vec ℚ 1) +
      (fun _ => r * u 0 : Vec ℚ 1) ⬝ᵥ (u' - u : Vec ℚ 1) ≤ (q * x' * x' + r * u' 0 * u' 0) / 2
    rw [dot1, dot1, Pi.sub_apply]
    nlinarith [mul_nonneg hq (sq_nonneg (x' - x)), mul_nonneg hr (sq_nonneg (u' 0 - u 0))]
  · change qT * x * x / 2 + (fun _ => qT * x : Vec ℚ 1) ⬝ᵥ (fun _ => x' - x : Vec ℚ 1) ≤ qT * x' * x' / 2
    rw [dot1]
    nlinarith [mul_nonneg hT (sq_nonneg (x' - x))]

theorem clq_affineCon (T : ℕ) (q r qT x0 : ℚ) : AffineCon (clq T q r qT x0) (fun x _ => x) := by
  refine ⟨fun t ht (x : ℚ) (u : Vec ℚ 1) (x' : ℚ) (u' : Vec ℚ 1) => ?_, fun (x : ℚ) (x' : ℚ) => ?_⟩
  · funext (i : Fin 1)
    change u' 0 = u 0 + (m1 0 *ᵥ (fun _ => x' - x : Vec ℚ 1)) i + (m1 1 *ᵥ (u' - u : Vec ℚ 1)) i
    rw [mul1, mul1, Pi.sub_apply]; ring
  · funext (i : Fin 1)
    change (0 : ℚ) = 0 + (m1 0 *ᵥ (fun _ => x' - x : Vec ℚ 1)) i
    rw [mul1]; ring

/-- C65 (PROXQP): a run that returns true in its second iteration; the theorem applies. -/
theorem C65_prox_example : ∃ s', PROX.solve qp2 5 none none 10 0 (PROX.new (Data.zero (clq 1 1 1 1 1))) = some (true, s') ∧
    s'.iter = 1 ∧ ∃ old : List (PAns ℚ), ∀ X' U', Feasible (clq 1 1 1 1 1) X' U' → ConFeasible (clq 1 1 1 1 1) X' U' →
      trajCost (clq 1 1 1 1 1) s'.xs s'.us ≤ trajCost (clq 1 1 1 1 1) X' U' + (PROX.new (Data.zero (clq 1 1 1 1 1))).c.tol *
        (trajDist (clq 1 1 1 1 1) (fun x _ => x) s'.xs s'.us X' U' + multNorm (clq 1 1 1 1 1)
          (lamLast (clq 1 1 1 1 1) (PROX.new (Data.zero (clq 1 1 1 1 1))).lam old)) +
        complGap (clq 1 1 1 1 1) s'.xs s'.us (yLast (clq 1 1 1 1 1) (PROX.new (Data.zero (clq 1 1 1 1 1))).y old) := by
  have h := prox_two
  cases hr : PROX.solve qp2 5 none none 10 0 (PROX.new (Data.zero (clq 1 1 1 1 1))) with
  | none => rw [hr] at h; cases h
  | some r =>
    obtain ⟨b, s'⟩ := r
    rw [hr] at h
    simp only [Option.map_some, Option.some.injEq, Prod.mk.injEq] at h
    obtain ⟨rfl, h2, _⟩ := h
    obtain ⟨old, a, _, h3⟩ := PROX.C65_prox_suboptimality (clq_euclid _ _ _ _ _) (clq_affine _ _ _ _ _)
      (clq_convexCost 1 zero_le_one zero_le_one zero_le_one 1) (clq_affineCon _ _ _ _ _) (by decide) (PROX.ColsOK.of_const (n := 1) fun _ => rfl) qp2_exact (.new _)
      (fun t ht i => ⟨fun hp => absurd hp (lt_irrefl _), fun hp => absurd hp (lt_irrefl _)⟩) (by decide +kernel) hr
    exact ⟨s', rfl, h2, old, h3⟩

end Ex
end Mim
