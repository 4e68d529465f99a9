import Verif.Lemmas.Policy
import Verif.Props.SQPAffine
import Verif.Props.DDPConvex
import Verif.Props.QPStep
import Verif.Props.ProxRecognise

/-!
# C72: after a successful solve the feedback gains are the optimal policy of the quadratic model at the returned trajectory
-/
set_option linter.unusedSectionVars false
set_option linter.unusedSimpArgs false

namespace Mim
open Matrix Spec DDP
variable {K : Type} [Field K] [LinearOrder K] [IsStrictOrderedRing K] {P : Problem K}

/-- a main loop that returns in its body: the state at the head of that iteration. -/
theorem SQP.iterate_split {F : Type} [Add F] [Sub F] [Mul F] [Div F] [Neg F] [Zero F] [One F] [FloatOps F] {P : Problem F} {llt : LLT F}
    {fuel : ℕ} {b : Bool} {s' : SQP P} : ∀ {n : ℕ} {s : SQP P}, SQP.iterate llt fuel n s = some (some b, s') →
    ∃ j s1, SQP.iterate llt fuel j s = some (none, s1) ∧ SQP.body llt fuel s1 = some (some b, s') := by
  intro n
  induction n with
  | zero => intro s h; simp [SQP.iterate] at h
  | succ n ih =>
    intro s h
    unfold SQP.iterate at h
    split at h
    · cases h
    · rename_i b1 s1 hb
      simp only [Option.some.injEq, Prod.mk.injEq] at h
      obtain ⟨rfl, rfl⟩ := h
      exact ⟨0, s, rfl, hb⟩
    · rename_i s1 hb
      obtain ⟨j, s2, h1, h2⟩ := ih h
      refine ⟨j + 1, s2, ?_, h2⟩
      unfold SQP.iterate
      rw [hb]
      exact h1

section SQP
variable {llt : LLT K} {fuel : ℕ} {xs : Option (Traj P)} {us : Option (Ctrls P)} {m : ℕ} {ri : K} {s s' : SQP P}

/-- the final direction computation of a successful solve. -/
theorem SQP.solve_true_last (h : SQP.solve llt fuel xs us m ri s = some (true, s')) :
    ∃ n s1 s2, SQP.iterate llt fuel n (s.start xs us ri) = some (none, s1) ∧ SQP.retry llt fuel true s1 = some (true, s2) ∧
      s' = SQP.checked s2 := by
  rcases SQP.solve_cases h with h | ⟨s1, h1, h2⟩
  · obtain ⟨j, s1, h1, h2⟩ := SQP.iterate_split h
    cases SQP.body_cases h2 with
    | gaveUp hr hb => cases hb
    | converged s3 hr hk hs hb => exact ⟨j, s1, s3, h1, hr, hs⟩
    | searched s3 hr hk hs hb => split at hb <;> simp at hb
  · cases SQP.extra_cases h2 with
    | off he hb hs => cases hb
    | gaveUp he hr hb => cases hb
    | checked he s3 hr hs hb => exact ⟨m, s1, s3, h1, hr, hs⟩

/-- **C72 (SQP).**  In exact arithmetic, when `solve` returns true the stored gains `K_t`, `k_t` are the optimal policy of the quadratic
model (Hessians regularized as in the last direction) with the linearised dynamics: from every node and every state deviation there,
applying `du = -K dx - k` to the end is the unique cheapest way to continue.  The stored `Vxx`, `Vx` (the latter moved back by the gap) are
its cost to go.  If no line search of this call failed, that model is the one at the returned trajectory. -/
theorem C72_sqp_policy (hT : 0 < P.T) (hllt : LLTExact llt) (h : SQP.solve llt fuel xs us m ri s = some (true, s')) (hsym : SymHess s'.data) :
    (lqOf s'.data s'.fs s'.preg s'.dreg).OptimalPolicy s'.bp.K s'.bp.k ∧
    (lqOf s'.data s'.fs s'.preg s'.dreg).IsValue s'.bp.K s'.bp.k s'.bp.Vxx (fun t => s'.bp.Vx t - s'.bp.Vxx t *ᵥ s'.fs t) ∧
    (s'.nRej = s.nRej → FreshDiff P s'.data s'.xs s'.us ∧ s'.fs 0 = P.diff (s'.xs 0) P.x0 ∧
      ∀ t, t < P.T → s'.fs (t + 1) = shootGap P s'.xs s'.us t) := by
  obtain ⟨n, s1, s2, h1, h2, rfl⟩ := SQP.solve_true_last h
  obtain ⟨s0, r0, h3, h4⟩ := retry_true_feas h2
  obtain ⟨s5, b0, e, hb, hd, hfs, hdx⟩ := SQP.computeDirection_ok h3
  rw [h4.trans (iterate_feas n h1)] at hb
  obtain ⟨hR, hpd⟩ := backward_riccati hllt (d := s2.data) hsym hb
  simp only [Bool.false_eq_true, if_false] at hR
  have hbp : s2.bp = s5.bp := by
    rw [e]
    exact SQP.forwardPass_frame SQP.bp (fun _ _ _ _ _ _ => rfl) s5
  refine ⟨?_, ?_, fun hn => ?_⟩
  · change (lqOf s2.data s2.fs s2.preg s2.dreg).OptimalPolicy s2.bp.K s2.bp.k
    rw [hbp]; exact hR.optimalPolicy hpd
  · change (lqOf s2.data s2.fs s2.preg s2.dreg).IsValue s2.bp.K s2.bp.k s2.bp.Vxx (fun t => s2.bp.Vx t - s2.bp.Vxx t *ᵥ s2.fs t)
    rw [hbp]; exact hR.isValue
  · have hn1 : s1.nRej = s.nRej := by
      have e1 : s2.nRej = s1.nRej := SQP.retry_frame SQP.nRej (fun _ _ _ _ _ _ _ _ _ _ _ _ => rfl) (fun _ _ _ => rfl) _ _ _ _ _ _ h2
      exact e1.symm.trans hn
    obtain ⟨_, f2, _, f4, f5⟩ := C17_sqp_directions_fresh hT n h1 hn1 h2
    exact ⟨f2, f4, f5⟩

end SQP

section DDP
variable {k : DDP.Kind P} {llt : LLT K} {fuel : ℕ} {xs : Option (Traj P)} {us : Option (Ctrls P)} {m : ℕ} {fe : Bool} {ri : K} {s s' : DDP P}

/-- **C72 (DDP, FDDP).**  As for SQP; the model is always that of the returned trajectory, and the gaps count unless the trajectory is
marked feasible. -/
theorem C72_ddp_policy (hk : IsSolver k) (hllt : LLTExact llt) (hP : Spec.SymProblem P)
    (h : DDP.solve k llt fuel xs us m fe ri s = some (true, s')) :
    let c : ℕ → Vec K P.ndx := fun t => if s'.feas then 0 else s'.e.fs t
    (lqOf s'.y.data c s'.preg s'.dreg).OptimalPolicy s'.e.bp.K s'.e.bp.k ∧
    (lqOf s'.y.data c s'.preg s'.dreg).IsValue s'.e.bp.K s'.e.bp.k s'.e.bp.Vxx (fun t => s'.e.bp.Vx t - s'.e.bp.Vxx t *ᵥ c t) ∧
    FreshDiff P s'.y.data s'.xs s'.us ∧ ∀ t, t < P.T → s'.e.fs (t + 1) = shootGap P s'.xs s'.us t := by
  obtain ⟨_, _, _, _, hf, _, _, hg⟩ := C04_ddp_true_sound hk h
  have key := DDP.solve_inv (k := k) (llt := llt) (fuel := fuel) (fun _ _ => True)
    (fun b s1 => b = true → ∃ b0, backwardPass llt s1.y.data s1.e.fs s1.feas s1.preg s1.dreg b0 = .ok s1.e.bp)
    (fun n s1 s2 hI h => trivial)
    (fun n s1 b s2 hI h hb => by
      subst hb
      cases DDP.body_cases h with
      | gaveUp hr hb => cases hb
      | stuck s3 hr hk' hu hs hb => cases hb
      | next s3 hr hk' hu hs hb => cases hb
      | converged s3 hr hk' hs hb =>
        obtain ⟨_, hb, _⟩ := DDP.retry_spec hk.laws hr
        obtain ⟨_, b0, hb⟩ := hb rfl
        obtain ⟨d0, d1, dg, dq, e2⟩ := DDP.checked_frame hk.laws s3
        rw [hs, e2]
        exact ⟨b0, hb⟩)
    (fun s1 _ h => by cases h) trivial h rfl
  obtain ⟨b0, hb⟩ := key
  obtain ⟨hR, hpd⟩ := backward_riccati hllt (symHess_of_fresh hP hf) hb
  exact ⟨hR.optimalPolicy hpd, hR.isValue, hf, hg⟩

end DDP

section CSQP
open QP CSQP
variable [SqrtOps K] {llt : LLT K} {E : QEnv P}

/-- **C72 (CSQP).**  After every iteration of every QP solve the gains are the optimal policy, and `Vxx`, `Vx` the cost to go, of the
*augmented* model this iteration minimised: Hessians with `σ`, the regularization and `G' diag(ρ) G`, gradients with `y`, `z` and the previous
step. -/
theorem C72_csqp_policy (hllt : LLTExact llt) (hsym : SymHess E.d) (hs : ∀ l, E.sched = some l → SchedOK P l) {q0 q q' : CQP P}
    (h : AtIter llt E q0 q) (hst : ({ q with tick := q.tick + 1 } : CQP P).step llt E = .ok q') :
    (fullLQ E q.v).OptimalPolicy q'.b.bp.K q'.b.bp.k ∧ (fullLQ E q.v).IsValue q'.b.bp.K q'.b.bp.k q'.b.bp.Vxx q'.b.bp.Vx := by
  obtain ⟨E', e1, e2, e3, e4, e5, e6, h', hst'⟩ := seq_env hs h hst
  obtain ⟨B, h6, h3, _⟩ := step_seq e1 h' hst'
  obtain ⟨hR, hpd⟩ := full_riccati hllt (e2 ▸ hsym) h6
  have e : fullLQ E' q.v = fullLQ E q.v := by
    unfold fullLQ
    rw [e2, e3, e4, e5, e6]
  rw [e] at hR
  rw [h3]
  exact ⟨hR.optimalPolicy hpd, hR.isValue⟩

end CSQP

namespace Ex
open CSQP

/-- the optimal policy of the model of `clq 1 1 1 1 1` at its solution is `du = -dx / 2`. -/
theorem clq_policy {d : Data (clq 1 1 1 1 1)} {X : Traj (clq 1 1 1 1 1)} {U : Ctrls (clq 1 1 1 1 1)} (hf : FreshDiff _ d X U)
    (hu : U 0 (0 : Fin 1) = (-1 / 2 : ℚ)) (hx : X 1 = (1 / 2 : ℚ)) {G : (t : ℕ) → Mat ℚ 1 1} {k : (t : ℕ) → Vec ℚ 1}
    (h : (lqOf d (fun _ => 0) 0 0).OptimalPolicy G k) (ξ : ℚ) : G 0 0 0 * ξ + k 0 0 = ξ / 2 := by
  have hd := hf.run 0 Nat.zero_lt_one
  have ht := hf.ter
  let X0 : ℚ := X 0
  let X1 : ℚ := X 1
  replace hx : X1 = (1 / 2 : ℚ) := hx
  have cost : ∀ (x : ℕ → Vec ℚ 1) (u : (t : ℕ) → Vec ℚ 1), (lqOf d (fun _ => 0) 0 0).costFrom 0 x u =
      (x 0 0 * x 0 0) / 2 + (u 0 0 * u 0 0) / 2 + X0 * x 0 0 - u 0 0 / 2 + (x 1 0 * x 1 0) / 2 + x 1 0 / 2 := by
    intro x u
    have e : (lqOf d (fun _ => 0) 0 0).costFrom 0 x u = (lqOf d (fun _ => 0) 0 0).stageCost 0 (x 0) (u 0) +
        (x 1 ⬝ᵥ ((lqOf d (fun _ => 0) 0 0).HT *ᵥ x 1)) / 2 + (lqOf d (fun _ => 0) 0 0).gT ⬝ᵥ x 1 := by
      have e1 : ∀ f : ℕ → ℚ, ∑ t ∈ Finset.Ico 0 (clq 1 1 1 1 1).T, f t = f 0 := fun f => by
        change ∑ t ∈ Finset.Ico 0 1, f t = f 0
        simp
      unfold LQ.costFrom
      rw [e1]; rfl
    rw [e]
    unfold LQ.stageCost
    simp only [lqOf, zero_smul, add_zero]
    rw [hd, ht]
    change (x 0 ⬝ᵥ (m1 1 *ᵥ x 0)) / 2 + x 0 ⬝ᵥ (m1 0 *ᵥ u 0) + (u 0 ⬝ᵥ (m1 1 *ᵥ u 0)) / 2 + (fun _ => 1 * X0 : Vec ℚ 1) ⬝ᵥ x 0 +
      (fun _ => 1 * U 0 (0 : Fin 1) : Vec ℚ 1) ⬝ᵥ u 0 + (x 1 ⬝ᵥ (m1 1 *ᵥ x 1)) / 2 + (fun _ => 1 * X1 : Vec ℚ 1) ⬝ᵥ x 1 = _
    rw [dot1, dot1, dot1, dot1, dot1, dot1, dot1, mul1, mul1, mul1, mul1, hu, hx]
    ring
  have roll : ∀ υ : ℚ, ∃ (x : ℕ → Vec ℚ 1) (u : (t : ℕ) → Vec ℚ 1), (lqOf d (fun _ => 0) 0 0).DynFrom 0 x u ∧ x 0 0 = ξ ∧ u 0 0 = υ ∧ x 1 0 = ξ + υ := by
    intro υ
    refine ⟨fun t _ => if t = 0 then ξ else ξ + υ, fun _ _ => υ, fun t _ ht => ?_, rfl, rfl, rfl⟩
    obtain rfl : t = 0 := by have : t < 1 := ht; omega
    funext (i : Fin 1)
    change ξ + υ = ((d.rd 0).Fx *ᵥ (fun _ => ξ : Vec ℚ 1)) i + ((d.rd 0).Fu *ᵥ (fun _ => υ : Vec ℚ 1)) i + 0
    rw [hd, add_zero]
    change ξ + υ = (m1 1 *ᵥ (fun _ => ξ : Vec ℚ 1)) i + (m1 1 *ᵥ (fun _ => υ : Vec ℚ 1)) i
    rw [mul1, mul1]; ring
  obtain ⟨x, u, a1, a2, a3, a4⟩ := roll (-(G 0 0 0 * ξ) - k 0 0)
  obtain ⟨x', u', b1, b2, b3, b4⟩ := roll (-ξ / 2)
  have hfol : ∀ t, 0 ≤ t → t < 1 → u t = -(G t *ᵥ x t) - k t := by
    intro t _ ht
    obtain rfl : t = 0 := by omega
    funext (i : Fin 1)
    obtain rfl := fin1 i
    rw [a3, ← a2]
    simp [Matrix.mulVec, dotProduct]
  have hle := (h 0 (Nat.zero_le _) x u x' u' a1 b1 (by funext i; obtain rfl := fin1 i; rw [a2, b2]) hfol).1
  rw [cost, cost, a2, a3, a4, b2, b3, b4] at hle
  have hsq : (G 0 0 0 * ξ + k 0 0 - ξ / 2) ^ 2 ≤ 0 := by nlinarith
  have := pow_eq_zero_iff (two_ne_zero) |>.mp (le_antisymm hsq (sq_nonneg _))
  linarith

/-- the policies of a successful SQP solve. -/
theorem C72_sqp_example : ∃ s', SQP.solve llt1 20 none none 2 0 (SQP.new (Data.zero (clq 1 1 1 1 1))) = some (true, s') ∧
    (lqOf s'.data s'.fs s'.preg s'.dreg).OptimalPolicy s'.bp.K s'.bp.k ∧ s'.preg = 1 / 10 ^ 9 ∧ s'.bp.K 0 (0 : Fin 1) (0 : Fin 1) ≠ 0 := by
  have h : (SQP.solve llt1 20 none none 2 0 (SQP.new (Data.zero (clq 1 1 1 1 1)))).map (fun r => (r.1, decide (r.2.preg = 1 / 10 ^ 9),
      decide (r.2.bp.K 0 (0 : Fin 1) (0 : Fin 1) = (0 : ℚ)), r.2.nRej)) = some (true, true, false, 0) := by decide +kernel
  cases e : SQP.solve llt1 20 none none 2 0 (SQP.new (Data.zero (clq 1 1 1 1 1))) with
  | none => rw [e] at h; cases h
  | some r =>
    obtain ⟨b, s'⟩ := r
    rw [e] at h
    simp only [Option.map_some, Option.some.injEq, Prod.mk.injEq, decide_eq_true_eq, decide_eq_false_iff_not] at h
    obtain ⟨rfl, h1, h2, h3⟩ := h
    obtain ⟨n, s1, s2, i1, i2, i3⟩ := SQP.solve_true_last e
    refine ⟨s', rfl, ?_, h1, h2⟩
    have hs2 : SymHess s'.data := by
      subst i3
      have hn : s1.nRej = 0 := by
        have e1 : s2.nRej = s1.nRej := SQP.retry_frame SQP.nRej (fun _ _ _ _ _ _ _ _ _ _ _ _ => rfl) (fun _ _ _ => rfl) _ _ _ _ _ _ i2
        exact e1.symm.trans h3
      exact symHess_of_fresh clq1_sym (C17_sqp_directions_fresh Nat.zero_lt_one n i1 hn i2).2.1
    exact (C72_sqp_policy Nat.zero_lt_one llt1_exact e hs2).1

/-- the policy of a successful DDP solve. -/
theorem C72_ddp_example : ∃ s', DDP.solve (DDP.ddp _) llt1 20 none none 5 false 0 (DDP.new (Data.zero (clq 1 1 1 1 1))) = some (true, s') ∧
    (lqOf s'.y.data (fun t => if s'.feas then 0 else s'.e.fs t) s'.preg s'.dreg).OptimalPolicy s'.e.bp.K s'.e.bp.k := by
  have h : (DDP.solve (DDP.ddp _) llt1 20 none none 5 false 0 (DDP.new (Data.zero (clq 1 1 1 1 1)))).map (fun r => r.1) = some true := by
    decide +kernel
  cases e : DDP.solve (DDP.ddp _) llt1 20 none none 5 false 0 (DDP.new (Data.zero (clq 1 1 1 1 1))) with
  | none => rw [e] at h; cases h
  | some r =>
    obtain ⟨b, s'⟩ := r
    rw [e] at h
    simp only [Option.map_some, Option.some.injEq] at h
    subst h
    exact ⟨s', rfl, (C72_ddp_policy (.inl rfl) llt1_exact clq1_sym e).1⟩

/-- **C72, limits.**  (a) A solve that stops at the iteration limit leaves the gains of the previous iterate: on this problem SQP returns
the exact solution (and false), but its feed-forward gains are not those of the model at the returned trajectory.  (b) CSQP
returns true at a solution where no constraint is active, and its gains are not the optimal policy of the model there: they contain
the penalty of the inactive constraint. -/
theorem C72_limits :
    (∃ s', SQP.solve llt1 20 none none 1 0 (SQP.new (Data.zero (clq 1 1 1 1 1))) = some (false, s') ∧
      (s'.us 0 (0 : Fin 1) = (-1 / 2 : ℚ) ∧ s'.xs 1 = (1 / 2 : ℚ)) ∧
      ∀ d, FreshDiff _ d s'.xs s'.us → ¬ (lqOf d (fun _ => 0) 0 0).OptimalPolicy s'.bp.K s'.bp.k) ∧
    (∃ s', CSQP.solve world 20 (some solX) (some solU) 1 0 clqSolver = some (.ret true, s') ∧
      (s'.us 0 (0 : Fin 1) = (-1 / 2 : ℚ) ∧ s'.xs 1 = (1 / 2 : ℚ)) ∧ s'.q.v.y 0 (0 : Fin 1) = (0 : ℚ) ∧
      ∀ d, FreshDiff _ d s'.xs s'.us → ¬ (lqOf d (fun _ => 0) 0 0).OptimalPolicy s'.q.b.bp.K s'.q.b.bp.k) := by
  constructor
  · have h : (SQP.solve llt1 20 none none 1 0 (SQP.new (Data.zero (clq 1 1 1 1 1)))).map (fun r => (r.1,
        decide (r.2.us 0 (0 : Fin 1) = (-1 / 2 : ℚ)), decide ((r.2.xs 1 : ℚ) = (1 / 2 : ℚ)), decide (r.2.bp.k 0 (0 : Fin 1) = (1 / 2 : ℚ)))) =
        some (false, true, true, true) := by decide +kernel
    cases e : SQP.solve llt1 20 none none 1 0 (SQP.new (Data.zero (clq 1 1 1 1 1))) with
    | none => rw [e] at h; cases h
    | some r =>
      obtain ⟨b, s'⟩ := r
      rw [e] at h
      simp only [Option.map_some, Option.some.injEq, Prod.mk.injEq, decide_eq_true_eq, decide_eq_false_iff_not] at h
      obtain ⟨rfl, h1, h2, h3⟩ := h
      refine ⟨s', rfl, ⟨h1, h2⟩, fun d hd hp => ?_⟩
      have := clq_policy hd h1 h2 hp 0
      rw [h3] at this
      norm_num at this
  · have h : (CSQP.solve world 20 (some solX) (some solU) 1 0 clqSolver).map (fun r => (decide (r.1 = .ret true),
        decide (r.2.us 0 (0 : Fin 1) = (-1 / 2 : ℚ)), decide ((r.2.xs 1 : ℚ) = (1 / 2 : ℚ)), decide (r.2.q.v.y 0 (0 : Fin 1) = (0 : ℚ)),
        decide (r.2.q.b.bp.k 0 (0 : Fin 1) = (0 : ℚ)), decide (r.2.q.b.bp.K 0 (0 : Fin 1) (0 : Fin 1) = (1 / 2 : ℚ)))) =
        some (true, true, true, true, true, false) := by decide +kernel
    cases e : CSQP.solve world 20 (some solX) (some solU) 1 0 clqSolver with
    | none => rw [e] at h; cases h
    | some r =>
      obtain ⟨b, s'⟩ := r
      rw [e] at h
      simp only [Option.map_some, Option.some.injEq, Prod.mk.injEq, decide_eq_true_eq, decide_eq_false_iff_not] at h
      obtain ⟨rfl, h1, h2, h3, h4, h5⟩ := h
      refine ⟨s', rfl, ⟨h1, h2⟩, h3, fun d hd hp => h5 ?_⟩
      have := clq_policy hd h1 h2 hp 1
      rw [h4] at this
      linarith

end Ex
end Mim
