import Verif.Lemmas.DDPLoop
import Verif.Spec.Rollout

/-!
# The forward passes of DDP and FDDP are closed-loop rollouts
-/
set_option linter.unusedSectionVars false
set_option linter.unusedSimpArgs false

namespace Mim.DDP
open Spec
variable {F : Type} [Add F] [Sub F] [Mul F] [Div F] [Neg F] [Zero F] [One F] [FloatOps F] {P : Problem F}

/-- the affine policy a solver state holds. -/
def policy (s : DDP P) : Policy P := ⟨s.xs, s.us, s.e.bp.k, s.e.bp.K, s.e.fs⟩

theorem sumUp_succ (n : ℕ) (f : ℕ → F) : sumUp (n + 1) f = sumUp n f + f n := rfl

theorem vec_eq_of_zero {n : ℕ} (h : n = 0) (u v : Vec F n) : u = v := by
  subst h; funext i; exact i.elim0

/-- what a trial stage loop has established after `n` nodes; `xn` says where the predicted state is kept. -/
structure RollInv (s : DDP P) (close : Bool) (a : F) (n : ℕ) (s1 : DDP P) : Prop where
  frame : ∃ y, s1 = { s with y := y }
  xs : ∀ t, t < n → s1.y.xs t = s.policy.X close a t
  us : ∀ t, t < n → s1.y.us t = s.policy.U close a t
  cost : s1.y.cost = sumUp n (nodeCost P (s.policy.X close a) (s.policy.U close a))
  ok : ∀ t, t < n → bad (sumUp (t + 1) (nodeCost P (s.policy.X close a) (s.policy.U close a))) = false ∧
    P.badX (s.policy.pre close a (t + 1)) = false

theorem node_u (s : DDP P) (close : Bool) (a : F) (t : ℕ) (y : DTry P) (x : P.X) (hx : x = s.policy.X close a t) :
    (if P.nu t ≠ 0 then Function.update y.us t (s.us t - sv a (s.e.bp.k t) - mv (s.e.bp.K t) (P.diff (s.xs t) x)) else y.us) t
      = s.policy.U close a t := by
  split
  · rw [Function.update_self, hx]; rfl
  · rename_i h; exact vec_eq_of_zero (not_not.mp h) _ _

theorem node_u_ne (s : DDP P) (a : F) (t j : ℕ) (hj : j ≠ t) (y : DTry P) (x : P.X) :
    (if P.nu t ≠ 0 then Function.update y.us t (s.us t - sv a (s.e.bp.k t) - mv (s.e.bp.K t) (P.diff (s.xs t) x)) else y.us) j
      = y.us j := by
  split
  · rw [Function.update_of_ne hj]
  · rfl

/-! ### DDP -/

/-- DDP keeps the next state in the trial trajectory itself. -/
structure RollD (s : DDP P) (a : F) (n : ℕ) (s1 : DDP P) : Prop extends RollInv s true a n s1 where
  last : s1.y.xs n = s.policy.X true a n

theorem nodeDDP_roll {s s1 : DDP P} {a : F} {t : ℕ} (h : RollD s a t s1) :
    (nodeDDP a t s1).xs (t + 1) = s.policy.X true a (t + 1) ∧
    (nodeDDP a t s1).xs t = s.policy.X true a t ∧ (∀ j, j < t → (nodeDDP a t s1).xs j = s1.y.xs j) ∧
    (nodeDDP a t s1).us t = s.policy.U true a t ∧ (∀ j, j < t → (nodeDDP a t s1).us j = s1.y.us j) ∧
    (nodeDDP a t s1).cost = sumUp (t + 1) (nodeCost P (s.policy.X true a) (s.policy.U true a)) := by
  obtain ⟨y, hy⟩ := h.frame
  have hpol : s1.policy = s.policy := by rw [hy]; rfl
  have hu := node_u s1 true a t s1.y (s1.y.xs t) (by rw [hpol]; exact h.last)
  rw [hpol] at hu
  have hd : (s1.y.data.calcNode t (s1.y.xs t) (s.policy.U true a t)).run t =
      P.calcR t (s.policy.X true a t) (s.policy.U true a t) := by
    simp only [Data.calcNode, Function.update_self, h.last]
  refine ⟨?_, ?_, fun j hj => ?_, hu, fun j hj => ?_, ?_⟩
  · simp only [nodeDDP, Function.update_self]
    rw [hu, hd]; rfl
  · simp only [nodeDDP]
    rw [Function.update_of_ne (by omega)]; exact h.last
  · simp only [nodeDDP]
    rw [Function.update_of_ne (by omega)]
  · exact node_u_ne s1 a t j (by omega) s1.y _
  · simp only [nodeDDP]
    rw [hu, hd, sumUp_succ, h.cost]; rfl

theorem pre_succ_true (π : Policy P) (a : F) (t : ℕ) : π.pre true a (t + 1) = π.X true a (t + 1) := rfl

theorem stageDDP_roll {s s1 : DDP P} {a : F} {t : ℕ} (h : RollD s a t s1) :
    stageDDP a t s1 = .throwIf (bad (sumUp (t + 1) (nodeCost P (s.policy.X true a) (s.policy.U true a))) ||
      P.badX (s.policy.pre true a (t + 1))) { s1 with y := nodeDDP a t s1 } := by
  obtain ⟨h1, _, _, _, _, h6⟩ := nodeDDP_roll h
  unfold stageDDP
  simp only [h1, h6, pre_succ_true]

theorem stageDDP_rollD {s s1 s2 : DDP P} {a : F} {t : ℕ} (h : RollD s a t s1) (h2 : stageDDP a t s1 = .ok s2) :
    RollD s a (t + 1) s2 := by
  rw [stageDDP_roll h] at h2
  obtain ⟨hb, rfl⟩ := Res.throwIf_eq_ok h2
  obtain ⟨h1, h2, h3, h4, h5, h6⟩ := nodeDDP_roll h
  obtain ⟨y, hy⟩ := h.frame
  simp only [Bool.or_eq_false_iff] at hb
  refine ⟨⟨⟨nodeDDP a t s1, by rw [hy]⟩, fun j hj => ?_, fun j hj => ?_, h6, fun j hj => ?_⟩, h1⟩
  · rcases Nat.lt_succ_iff_lt_or_eq.mp hj with hj | rfl
    · exact (h3 j hj).trans (h.xs j hj)
    · exact h2
  · rcases Nat.lt_succ_iff_lt_or_eq.mp hj with hj | rfl
    · exact (h5 j hj).trans (h.us j hj)
    · exact h4
  · rcases Nat.lt_succ_iff_lt_or_eq.mp hj with hj | rfl
    · exact h.ok j hj
    · exact hb

/-- the stage loop of DDP. -/
theorem loopDDP (s : DDP P) (a : F) (h0 : s.y.xs 0 = P.x0) (n : ℕ) :
    (∃ s1, forUpR n (stageDDP a) { s with y := { s.y with cost := 0 } } = .ok s1 ∧ RollD s a n s1) ∨
    (∃ s1, forUpR n (stageDDP a) { s with y := { s.y with cost := 0 } } = .exn s1 ∧
      ∃ t, t < n ∧ (bad (sumUp (t + 1) (nodeCost P (s.policy.X true a) (s.policy.U true a))) = true ∨
        P.badX (s.policy.pre true a (t + 1)) = true)) := by
  induction n with
  | zero => exact .inl ⟨_, rfl, ⟨⟨⟨_, rfl⟩, fun t ht => by omega, fun t ht => by omega, rfl, fun t ht => by omega⟩, h0⟩⟩
  | succ n ih =>
    rw [forUpR_succ]
    rcases ih with ⟨s1, e, hI⟩ | ⟨s1, e, t, ht, hb⟩
    · rw [e, Res.bind_ok]
      cases hs : stageDDP a n s1 with
      | ok s2 => exact .inl ⟨s2, rfl, stageDDP_rollD hI hs⟩
      | exn s2 =>
        right
        refine ⟨s2, rfl, n, Nat.lt_succ_self n, ?_⟩
        rw [stageDDP_roll hI] at hs
        cases hb : (bad (sumUp (n + 1) (nodeCost P (s.policy.X true a) (s.policy.U true a))) ||
          P.badX (s.policy.pre true a (n + 1)))
        · rw [hb] at hs; cases hs
        · rwa [Bool.or_eq_true] at hb
    · right
      rw [e]
      exact ⟨s1, rfl, t, Nat.lt_succ_of_lt ht, hb⟩

/-- the result of a trial: success exactly if the step is in `[0,1]` and the rollout does not blow up. -/
structure TrialOK (s : DDP P) (close : Bool) (a : F) (s1 : DDP P) : Prop where
  lo : ltb 1 a = false
  hi : ltb a 0 = false
  good : ¬ s.policy.BlowsUp close a
  frame : ∃ y dV, s1 = { s with y := y, m := { s.m with dV := dV } }
  dV : s1.m.dV = s.e.cost - trajCost P (s.policy.X close a) (s.policy.U close a)
  xs : ∀ t, t ≤ P.T → s1.y.xs t = s.policy.X close a t
  us : ∀ t, t < P.T → s1.y.us t = s.policy.U close a t
  cost : s1.y.cost = trajCost P (s.policy.X close a) (s.policy.U close a)

theorem tryDDP_roll (a : F) (s : DDP P) (h0 : s.y.xs 0 = P.x0) :
    (∃ s1, tryDDP a s = .ok s1 ∧ TrialOK s true a s1) ∨
    (∃ s1, tryDDP a s = .exn s1 ∧ (ltb 1 a = true ∨ ltb a 0 = true ∨ s.policy.BlowsUp true a)) := by
  unfold tryDDP
  by_cases hr : (ltb 1 a || ltb a 0) = true
  · right
    rw [if_pos hr]
    rw [Bool.or_eq_true] at hr
    rcases hr with h | h
    · exact ⟨_, rfl, .inl h⟩
    · exact ⟨_, rfl, .inr (.inl h)⟩
  · rw [if_neg hr]
    simp only [Bool.or_eq_true, not_or, Bool.not_eq_true] at hr
    rcases loopDDP s a h0 P.T with ⟨s1, e, hI⟩ | ⟨s1, e, hb⟩
    · rw [e, Res.bind_ok]
      unfold finishDDP
      have hter : (s1.y.data.calcTer (s1.y.xs P.T)).ter = P.calcT (s.policy.X true a P.T) := by
        rw [hI.last]; rfl
      have hc : s1.y.cost + (s1.y.data.calcTer (s1.y.xs P.T)).ter.cost =
          trajCost P (s.policy.X true a) (s.policy.U true a) := by
        rw [hter, hI.cost]; rfl
      simp only [hc]
      cases hb : bad (trajCost P (s.policy.X true a) (s.policy.U true a))
      · left
        simp only [Res.throwIf, Bool.false_eq_true, if_false, Res.bind_ok]
        obtain ⟨y, hy⟩ := hI.frame
        refine ⟨_, rfl, hr.1, hr.2, ?_, ?_, ?_, fun t ht => ?_, fun t ht => ?_, ?_⟩
        · rintro (⟨t, ht, hb'⟩ | hb')
          · obtain ⟨h1, h2⟩ := hI.ok t ht
            rw [h1, h2] at hb'
            simp at hb'
          · rw [hb] at hb'; cases hb'
        · rw [hy]; exact ⟨_, _, rfl⟩
        · rw [hy]
        · rcases Nat.lt_or_eq_of_le ht with ht | rfl
          · exact hI.xs t ht
          · exact hI.last
        · exact hI.us t ht
        · rfl
      · right
        simp only [Res.throwIf, if_true, Res.bind_exn]
        exact ⟨_, rfl, .inr (.inr (.inr hb))⟩
    · right
      rw [e, Res.bind_exn, Res.bind_exn]
      exact ⟨s1, rfl, .inr (.inr (.inl hb))⟩

/-! ### FDDP -/

/-- FDDP keeps the predicted next state in `xnext_`, and accumulates the norm of `xnext - x`. -/
structure RollF (s : DDP P) (close : Bool) (a : F) (n : ℕ) (s1 : DDP P) : Prop extends RollInv s close a n s1 where
  next : s1.y.xnext = s.policy.pre close a n
  gap : s1.y.gap = sumUp n fun t => norm1 (P.diff (s.policy.X close a t) (s.policy.pre close a (t + 1)))

theorem nodeFDDP_roll {s s1 : DDP P} {close : Bool} {a : F} {t : ℕ} (h : RollF s close a t s1) :
    (nodeFDDP close a t s1).xnext = s.policy.pre close a (t + 1) ∧
    (nodeFDDP close a t s1).xs t = s.policy.X close a t ∧ (∀ j, j < t → (nodeFDDP close a t s1).xs j = s1.y.xs j) ∧
    (nodeFDDP close a t s1).us t = s.policy.U close a t ∧ (∀ j, j < t → (nodeFDDP close a t s1).us j = s1.y.us j) ∧
    (nodeFDDP close a t s1).cost = sumUp (t + 1) (nodeCost P (s.policy.X close a) (s.policy.U close a)) ∧
    (nodeFDDP close a t s1).gap =
      sumUp (t + 1) fun t => norm1 (P.diff (s.policy.X close a t) (s.policy.pre close a (t + 1))) := by
  obtain ⟨y, hy⟩ := h.frame
  have hpol : s1.policy = s.policy := by rw [hy]; rfl
  have hx : (if close = true then s1.y.xnext else P.integrate s1.y.xnext (sv (a - 1) (s1.e.fs t))) =
      s.policy.X close a t := by
    rw [Policy.X_eq, h.next, ← hpol]; rfl
  have hu := node_u s1 close a t s1.y (s.policy.X close a t) (by rw [hpol])
  rw [hpol] at hu
  have hd : (s1.y.data.calcNode t (s.policy.X close a t) (s.policy.U close a t)).run t =
      P.calcR t (s.policy.X close a t) (s.policy.U close a t) := by
    simp only [Data.calcNode, Function.update_self]
  refine ⟨?_, ?_, fun j hj => ?_, ?_, fun j hj => ?_, ?_, ?_⟩
  · simp only [nodeFDDP]
    rw [hx, hu, hd]; rfl
  · simp only [nodeFDDP, Function.update_self]
    exact hx
  · simp only [nodeFDDP]
    rw [Function.update_of_ne (by omega)]
  · simp only [nodeFDDP]
    rw [hx]; exact hu
  · simp only [nodeFDDP]
    exact node_u_ne s1 a t j (by omega) s1.y _
  · simp only [nodeFDDP]
    rw [hx, hu, hd, sumUp_succ, h.cost]; rfl
  · simp only [nodeFDDP]
    rw [hx, hu, hd, sumUp_succ, h.gap]; rfl

theorem stageFDDP_roll {s s1 : DDP P} {close : Bool} {a : F} {t : ℕ} (h : RollF s close a t s1) :
    stageFDDP close a t s1 = .throwIf (bad (sumUp (t + 1) (nodeCost P (s.policy.X close a) (s.policy.U close a))) ||
      P.badX (s.policy.pre close a (t + 1))) { s1 with y := nodeFDDP close a t s1 } := by
  obtain ⟨h1, _, _, _, _, h6, _⟩ := nodeFDDP_roll h
  unfold stageFDDP
  simp only [h1, h6]

theorem stageFDDP_rollF {s s1 s2 : DDP P} {close : Bool} {a : F} {t : ℕ} (h : RollF s close a t s1)
    (h2 : stageFDDP close a t s1 = .ok s2) : RollF s close a (t + 1) s2 := by
  rw [stageFDDP_roll h] at h2
  obtain ⟨hb, rfl⟩ := Res.throwIf_eq_ok h2
  obtain ⟨h1, h2, h3, h4, h5, h6, h7⟩ := nodeFDDP_roll h
  obtain ⟨y, hy⟩ := h.frame
  simp only [Bool.or_eq_false_iff] at hb
  refine ⟨⟨⟨nodeFDDP close a t s1, by rw [hy]⟩, fun j hj => ?_, fun j hj => ?_, h6, fun j hj => ?_⟩, h1, h7⟩
  · rcases Nat.lt_succ_iff_lt_or_eq.mp hj with hj | rfl
    · exact (h3 j hj).trans (h.xs j hj)
    · exact h2
  · rcases Nat.lt_succ_iff_lt_or_eq.mp hj with hj | rfl
    · exact (h5 j hj).trans (h.us j hj)
    · exact h4
  · rcases Nat.lt_succ_iff_lt_or_eq.mp hj with hj | rfl
    · exact h.ok j hj
    · exact hb

theorem loopFDDP (s : DDP P) (close : Bool) (a : F) (n : ℕ) :
    (∃ s1, forUpR n (stageFDDP close a) { s with y := { s.y with cost := 0, gap := 0, xnext := P.x0 } } = .ok s1 ∧
      RollF s close a n s1) ∨
    (∃ s1, forUpR n (stageFDDP close a) { s with y := { s.y with cost := 0, gap := 0, xnext := P.x0 } } = .exn s1 ∧
      ∃ t, t < n ∧ (bad (sumUp (t + 1) (nodeCost P (s.policy.X close a) (s.policy.U close a))) = true ∨
        P.badX (s.policy.pre close a (t + 1)) = true)) := by
  induction n with
  | zero =>
    exact .inl ⟨_, rfl, ⟨⟨⟨_, rfl⟩, fun t ht => by omega, fun t ht => by omega, rfl, fun t ht => by omega⟩, rfl, rfl⟩⟩
  | succ n ih =>
    rw [forUpR_succ]
    rcases ih with ⟨s1, e, hI⟩ | ⟨s1, e, t, ht, hb⟩
    · rw [e, Res.bind_ok]
      cases hs : stageFDDP close a n s1 with
      | ok s2 => exact .inl ⟨s2, rfl, stageFDDP_rollF hI hs⟩
      | exn s2 =>
        right
        refine ⟨s2, rfl, n, Nat.lt_succ_self n, ?_⟩
        rw [stageFDDP_roll hI] at hs
        cases hb : (bad (sumUp (n + 1) (nodeCost P (s.policy.X close a) (s.policy.U close a))) ||
          P.badX (s.policy.pre close a (n + 1)))
        · rw [hb] at hs; cases hs
        · rwa [Bool.or_eq_true] at hb
    · right
      rw [e]
      exact ⟨s1, rfl, t, Nat.lt_succ_of_lt ht, hb⟩

theorem tryFDDP_roll (a : F) (s : DDP P) :
    (∃ s1, tryFDDP a s = .ok s1 ∧ TrialOK s (s.feas || eqb a 1) a s1 ∧
      s1.y.gap = sumUp P.T fun t => norm1 (P.diff (s.policy.X (s.feas || eqb a 1) a t)
        (s.policy.pre (s.feas || eqb a 1) a (t + 1)))) ∨
    (∃ s1, tryFDDP a s = .exn s1 ∧ (ltb 1 a = true ∨ ltb a 0 = true ∨ s.policy.BlowsUp (s.feas || eqb a 1) a)) := by
  unfold tryFDDP
  by_cases hr : (ltb 1 a || ltb a 0) = true
  · right
    rw [if_pos hr]
    rw [Bool.or_eq_true] at hr
    rcases hr with h | h
    · exact ⟨_, rfl, .inl h⟩
    · exact ⟨_, rfl, .inr (.inl h)⟩
  · rw [if_neg hr]
    simp only []
    generalize (s.feas || eqb a 1) = close
    simp only [Bool.or_eq_true, not_or, Bool.not_eq_true] at hr
    rcases loopFDDP s close a P.T with ⟨s1, e, hI⟩ | ⟨s1, e, hb⟩
    · rw [e, Res.bind_ok]
      unfold finishFDDP
      obtain ⟨y, hy⟩ := hI.frame
      have hpol : s1.policy = s.policy := by rw [hy]; rfl
      have hx : (if close = true then s1.y.xnext else P.integrate s1.y.xnext (sv (a - 1) (s1.e.fs P.T))) =
          s.policy.X close a P.T := by
        rw [Policy.X_eq, hI.next, ← hpol]; rfl
      have hter : (s1.y.data.calcTer (s.policy.X close a P.T)).ter = P.calcT (s.policy.X close a P.T) := rfl
      have hc : s1.y.cost + (s1.y.data.calcTer (s.policy.X close a P.T)).ter.cost =
          trajCost P (s.policy.X close a) (s.policy.U close a) := by
        rw [hter, hI.cost]; rfl
      simp only [hx, hc]
      cases hb : bad (trajCost P (s.policy.X close a) (s.policy.U close a))
      · left
        simp only [Res.throwIf, Bool.false_eq_true, if_false, Res.bind_ok]
        refine ⟨_, rfl, ⟨hr.1, hr.2, ?_, ?_, ?_, fun t ht => ?_, fun t ht => ?_, ?_⟩, hI.gap⟩
        · rintro (⟨t, ht, hb'⟩ | hb')
          · obtain ⟨h1, h2⟩ := hI.ok t ht
            rw [h1, h2] at hb'
            simp at hb'
          · rw [hb] at hb'; cases hb'
        · rw [hy]; exact ⟨_, _, rfl⟩
        · rw [hy]
        · rcases Nat.lt_or_eq_of_le ht with ht | rfl
          · change Function.update s1.y.xs P.T _ t = _
            rw [Function.update_of_ne (by omega)]; exact hI.xs t ht
          · change Function.update s1.y.xs P.T _ P.T = _
            rw [Function.update_self]
        · exact hI.us t ht
        · rfl
      · right
        simp only [Res.throwIf, if_true, Res.bind_exn]
        exact ⟨_, rfl, .inr (.inr (.inr hb))⟩
    · right
      rw [e, Res.bind_exn, Res.bind_exn]
      exact ⟨s1, rfl, .inr (.inr (.inl hb))⟩

end Mim.DDP
