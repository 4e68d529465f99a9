import Verif.Lemmas.KKTStop
import Verif.Spec.Affine
import Verif.Props.SQPAffine

/-!
# SolverKKT: the Newton system (C41), its residual (C06)
-/
set_option linter.unusedSectionVars false
set_option linter.unusedSimpArgs false

namespace Mim
open Spec

section
variable {F : Type} [Add F] [Sub F] [Mul F] [Div F] [Neg F] [Zero F] [One F] [FloatOps F] {P : Problem F}

/-- Every state a `SolverKKT` can be in: construction, settings, candidates, and its public operations in any order
(`body` is one iteration of `solve`). -/
inductive KKT.Reach (lu : LU F) : KKT P → Prop
  | new (d : Data P) : KKT.Reach lu (KKT.new d)
  | config {s : KKT P} (c : KConf F) : KKT.Reach lu s → KKT.Reach lu { s with c := c }
  | candidate {s : KKT P} (xs : Traj P) (us : Ctrls P) (feas : Bool) (it : ℕ) : KKT.Reach lu s →
      KKT.Reach lu { s with xs := xs, us := us, feas := feas, iter := it }
  | direction {s : KKT P} : KKT.Reach lu s → KKT.Reach lu (s.direction lu)
  | trial {s : KKT P} (a : F) : KKT.Reach lu s → KKT.Reach lu (s.trial a)
  | body {s : KKT P} : KKT.Reach lu s → KKT.Reach lu (KKT.body lu s).2

theorem KKT.Reach.inv {lu : LU F} {s : KKT P} (h : KKT.Reach lu s) : KKT.Inv s := by
  induction h with
  | new d => exact KKT.inv_new d
  | config c _ ih => exact ⟨ih.pattern, ih.fs⟩
  | candidate xs us f it _ ih => exact ⟨ih.pattern, ih.fs⟩
  | direction _ ih => exact KKT.inv_direction lu ih
  | trial a _ ih => exact ⟨ih.pattern, ih.fs⟩
  | body _ ih => exact KKT.inv_body lu ih

theorem KKT.Reach.iterate {lu : LU F} (n : ℕ) {s : KKT P} (h : KKT.Reach lu s) : KKT.Reach lu (KKT.iterate lu n s).2 := by
  induction n generalizing s with
  | zero => exact h
  | succ n ih =>
    have hb := h.body
    rw [KKT.iterate]
    cases hr : KKT.body lu s with
    | mk o s1 =>
      rw [hr] at hb
      cases o with
      | some b => exact hb
      | none => exact ih (hb.candidate s1.xs s1.us s1.feas (s1.iter + 1))

/-- `solve` is made of these operations. -/
theorem KKT.Reach.solve {lu : LU F} (xs : Option (Traj P)) (us : Option (Ctrls P)) (n : ℕ) (feas : Bool) {s : KKT P}
    (h : KKT.Reach lu s) : KKT.Reach lu (KKT.solve lu xs us n feas s).2 := by
  have := (h.candidate (xs.getD fun _ => P.zeroX) (us.getD fun t => zeroV F (P.nu t)) feas 0).iterate n
  rw [KKT.solve]
  generalize KKT.iterate lu n _ = r at *
  obtain ⟨o, s1⟩ := r
  cases o <;> exact this

/-- the cases of one iteration. -/
theorem KKT.body_cases (lu : LU F) (s : KKT P) :
    (leb (s.direction lu).kktRes s.c.tol = true ∧ KKT.body lu s = (some true, (s.direction lu).improve)) ∨
    (leb (s.direction lu).kktRes s.c.tol = false ∧
      (KKT.body lu s).2 = ((KKT.search s.c.alphas (s.direction lu).improve).stopping).callbacks ∧
      (KKT.body lu s).1 = if (KKT.body lu s).2.wasFeas && ltb (KKT.body lu s).2.stop s.c.thStop then some true else none) := by
  rw [KKT.body]
  have hf := KKT.search_frame (s.direction lu).improve.c.alphas (s.direction lu).improve
  simp only
  have e : ((s.direction lu).improve).kktRes = (s.direction lu).kktRes := rfl
  have e2 : ((s.direction lu).improve).c = s.c := rfl
  rw [e, e2]
  cases h : leb (s.direction lu).kktRes s.c.tol with
  | true => exact Or.inl ⟨rfl, by simp⟩
  | false =>
    refine Or.inr ⟨rfl, ?_⟩
    rw [e2] at hf
    have e3 : ((KKT.search s.c.alphas (s.direction lu).improve).stopping.callbacks).c = s.c := hf.2.2.2.2.2.2.2.1
    simp only [Bool.false_eq_true, if_false]
    rw [e3]
    split <;> simp_all

theorem KKT.direction_c (lu : LU F) (s : KKT P) : (s.direction lu).c = s.c := rfl
theorem KKT.improve_c (s : KKT P) : s.improve.c = s.c := rfl
theorem KKT.improve_res (s : KKT P) : s.improve.kktRes = s.kktRes := rfl
theorem KKT.improve_xs (lu : LU F) (s : KKT P) : (s.direction lu).improve.xs = s.xs := rfl
theorem KKT.improve_us (lu : LU F) (s : KKT P) : (s.direction lu).improve.us = s.us := rfl
theorem KKT.improve_lam (s : KKT P) : s.improve.lam = s.lam := rfl
theorem KKT.improve_trial (s : KKT P) (a : F) : (s.improve.trial a).xsTry = (s.trial a).xsTry ∧ (s.improve.trial a).usTry = (s.trial a).usTry :=
  ⟨rfl, rfl⟩
theorem KKT.improve_feas (s : KKT P) : s.improve.feas = s.feas := rfl
theorem KKT.improve_d0 (s : KKT P) : s.improve.d0 = -dot (seg 0 P.nP s.ref) (seg 0 P.nP s.pd) := rfl
theorem KKT.direction_feas (lu : LU F) (s : KKT P) : (s.direction lu).feas = s.feas := rfl
theorem KKT.direction_parts (lu : LU F) (s : KKT P) :
    (∀ t, (s.direction lu).dxs t = seg (t * P.ndx) P.ndx (s.direction lu).pd) ∧
    ∀ t, (s.direction lu).dus t = seg (P.nX + offs P.nu t) (P.nu t) (s.direction lu).pd := ⟨fun _ => rfl, fun _ => rfl⟩
theorem KKT.post_frame (s : KKT P) : s.stopping.callbacks.xs = s.xs ∧ s.stopping.callbacks.us = s.us ∧
    s.stopping.callbacks.wasFeas = s.wasFeas ∧ s.stopping.callbacks.feas = s.feas ∧ s.stopping.callbacks.lam = s.lam :=
  ⟨rfl, rfl, rfl, rfl, rfl⟩
theorem KKT.post_c (s : KKT P) : s.stopping.callbacks.c = s.c := rfl

theorem KKT.body_c (lu : LU F) (s : KKT P) : (KKT.body lu s).2.c = s.c := by
  rcases KKT.body_cases lu s with h | h
  · rw [h.2, KKT.improve_c, KKT.direction_c]
  · rw [h.2.1]
    have hf := (KKT.search_frame s.c.alphas (s.direction lu).improve).2.2.2.2.2.2.2.1
    rw [KKT.post_c, hf, KKT.improve_c, KKT.direction_c]

/-- the state in which `solve` enters its loop. -/
abbrev KKT.startAt (xs : Traj P) (us : Ctrls P) (feas : Bool) (s : KKT P) : KKT P := { s with xs := xs, us := us, feas := feas, iter := 0 }

theorem KKT.solve_some (lu : LU F) (xs : Traj P) (us : Ctrls P) (n : ℕ) (feas : Bool) (s : KKT P) :
    KKT.solve lu (some xs) (some us) n feas s = match KKT.iterate lu n (s.startAt xs us feas) with
      | (some b, s) => (b, s)
      | (none, s) => (false, s) := rfl

/-- how `solve` ends: at the iteration limit, or in an iteration that returns. -/
theorem KKT.iterate_end (lu : LU F) (n : ℕ) {s : KKT P} (hs : KKT.Reach lu s) {b : Bool} {s' : KKT P}
    (h : KKT.iterate lu n s = (some b, s')) : ∃ s1, KKT.Reach lu s1 ∧ s1.c = s.c ∧ KKT.body lu s1 = (some b, s') := by
  induction n generalizing s with
  | zero => cases h
  | succ n ih =>
    rw [KKT.iterate] at h
    cases hr : KKT.body lu s with
    | mk o s1 =>
      have hb := hs.body
      rw [hr] at h hb
      cases o with
      | some b1 => cases h; exact ⟨s, hs, rfl, hr⟩
      | none =>
        obtain ⟨s2, h1, h2, h3⟩ := ih (hb.candidate s1.xs s1.us s1.feas (s1.iter + 1)) h
        refine ⟨s2, h1, ?_, h3⟩
        rw [h2]
        change s1.c = s.c
        have e : s1 = (KKT.body lu s).2 := by rw [hr]
        rw [e, KKT.body_c]

theorem KKT.body_nDir (lu : LU F) (s : KKT P) : (KKT.body lu s).2.nDir = s.nDir + 1 ∧ (KKT.body lu s).2.iter = s.iter := by
  have e1 : (s.direction lu).improve.nDir = s.nDir + 1 := rfl
  have e2 : (s.direction lu).improve.iter = s.iter := rfl
  have e3 : ∀ s1 : KKT P, s1.stopping.callbacks.nDir = s1.nDir ∧ s1.stopping.callbacks.iter = s1.iter := fun _ => ⟨rfl, rfl⟩
  rcases KKT.body_cases lu s with h | ⟨-, h, -⟩
  · rw [h.2]
    exact ⟨e1, e2⟩
  · have hf := KKT.search_frame s.c.alphas (s.direction lu).improve
    rw [h, (e3 _).1, (e3 _).2, hf.2.2.2.2.2.2.2.2.1, hf.2.2.2.2.2.2.2.2.2.1]
    exact ⟨e1, e2⟩

theorem KKT.body_some (lu : LU F) (s : KKT P) (b : Bool) (h : (KKT.body lu s).1 = some b) : b = true := by
  rcases KKT.body_cases lu s with h1 | ⟨-, -, h1⟩
  · rw [h1.2] at h
    exact (Option.some.inj h).symm
  · rw [h1] at h
    split at h
    · exact (Option.some.inj h).symm
    · cases h

theorem KKT.iterate_count (lu : LU F) (n : ℕ) (s : KKT P) :
    (KKT.iterate lu n s).2.nDir ≤ s.nDir + n ∧ (KKT.iterate lu n s).2.iter ≤ s.iter + n ∧
    ((KKT.iterate lu n s).1 ≠ some false) ∧
    ((KKT.iterate lu n s).1 = none → (KKT.iterate lu n s).2.nDir = s.nDir + n ∧ (KKT.iterate lu n s).2.iter = s.iter + n) := by
  induction n generalizing s with
  | zero => exact ⟨le_rfl, le_rfl, fun h => (by cases h), fun _ => ⟨rfl, rfl⟩⟩
  | succ n ih =>
    have hb := KKT.body_nDir lu s
    have hs := KKT.body_some lu s
    rw [KKT.iterate]
    cases hr : KKT.body lu s with
    | mk o s1 =>
      rw [hr] at hb hs
      obtain ⟨h1, h2⟩ := hb
      simp only at h1 h2 hs
      cases o with
      | some b =>
        have := hs b rfl
        subst this
        exact ⟨by simp only; omega, by simp only; omega, fun h => (by cases h), fun h => (by cases h)⟩
      | none =>
        have := ih { s1 with iter := s1.iter + 1 }
        simp only at this ⊢
        refine ⟨by omega, by omega, this.2.2.1, fun h => ?_⟩
        have := this.2.2.2 h
        omega

/-- **C08 for SolverKKT.** `solve` computes at most `maxiter` directions, `get_iter()` is at most `maxiter`, and it returns `false`
only after exactly `maxiter` iterations.  (It always returns: its loops are bounded.) -/
theorem C08_kkt_bounds (lu : LU F) (xs : Option (Traj P)) (us : Option (Ctrls P)) (n : ℕ) (feas : Bool) (s : KKT P) :
    (KKT.solve lu xs us n feas s).2.nDir ≤ s.nDir + n ∧ (KKT.solve lu xs us n feas s).2.iter ≤ n ∧
    ((KKT.solve lu xs us n feas s).1 = false →
      (KKT.solve lu xs us n feas s).2.nDir = s.nDir + n ∧ (KKT.solve lu xs us n feas s).2.iter = n) := by
  have h := KKT.iterate_count lu n { s with
    xs := xs.getD fun _ => P.zeroX, us := us.getD fun t => zeroV F (P.nu t), feas := feas, iter := 0 }
  rw [KKT.solve]
  generalize KKT.iterate lu n _ = r at *
  obtain ⟨o, s1⟩ := r
  simp only at h
  cases o with
  | none =>
    have h4 := h.2.2.2 rfl
    exact ⟨h.1, by simp only; omega, fun _ => ⟨h4.1, by simp only; omega⟩⟩
  | some b =>
    refine ⟨h.1, by simp only; omega, fun hb => ?_⟩
    simp only at hb
    subst hb
    exact absurd rfl h.2.2.1

end

section Exact
variable {K : Type} [Field K] [LinearOrder K] [IsStrictOrderedRing K] {P : Problem K}
open Matrix

/-- **C41.** Whenever the linear solver solved the system it was given, the computed direction is the Newton step for the
optimality conditions of the nonlinear problem at the current trajectory, for every horizon and all dimensions. -/
theorem C41_newton_of_solved (hT : 0 < P.T) {lu : LU K} {s : KKT P} (hs : KKT.Reach lu s)
    (hsol : Solves P.nS (s.direction lu).kkt (fun i => -((s.direction lu).ref i)) (s.direction lu).pd) :
    NewtonStep P s.xs s.us (s.direction lu).dxs (s.direction lu).dus (s.direction lu).lam :=
  KKT.newton_of_solves hT (KKT.entries_assemble hs.inv.pattern) (KKT.refEntries hT s.xs s.ref) hsol

/-- **C41.** With convex stage costs the system is nonsingular, so any exact linear solver yields the Newton step; it is the only
one, and its primal part minimises the quadratic model of the cost among all steps that satisfy the linearised initial condition
and dynamics. -/
theorem C41_newton (hT : 0 < P.T) {lu : LU K} (hlu : LUExact lu) {s : KKT P} (hs : KKT.Reach lu s) (hc : ConvexAt P s.xs s.us) :
    Nonsingular P.nS (s.direction lu).kkt ∧
    NewtonStep P s.xs s.us (s.direction lu).dxs (s.direction lu).dus (s.direction lu).lam ∧
    (∀ dx du lam, NewtonStep P s.xs s.us dx du lam → (∀ t, t ≤ P.T → dx t = (s.direction lu).dxs t) ∧
      (∀ t, t < P.T → du t = (s.direction lu).dus t) ∧ ∀ t, t ≤ P.T → lam t = (s.direction lu).lam t) ∧
    ∀ dx du, LinFeasible P s.xs s.us dx du →
      stepModel P s.xs s.us (s.direction lu).dxs (s.direction lu).dus ≤ stepModel P s.xs s.us dx du := by
  have hns : Nonsingular P.nS (s.direction lu).kkt := KKT.nonsingular_of_convex (KKT.entries_assemble hs.inv.pattern) hc
  have h := C41_newton_of_solved hT hs (hlu _ _ _ hns)
  exact ⟨hns, h, fun dx du lam h' => NewtonStep_unique hc h h', fun dx du h' => NewtonStep_minimal hc h h'⟩

/-- **C06.** What `SolverKKT`'s residual measures, for any exact linear solve: twice the cost gradient plus the Hessian terms of
the step.  Neither the shooting gaps nor the initial condition enter. -/
theorem C06_residual (hT : 0 < P.T) {lu : LU K} {s : KKT P} (hs : KKT.Reach lu s)
    (hsol : Solves P.nS (s.direction lu).kkt (fun i => -((s.direction lu).ref i)) (s.direction lu).pd) (c : K) :
    (s.direction lu).kktRes ≤ c ↔ 0 ≤ c ∧
    (∀ t, t < P.T →
      (∀ i, |(2 • (P.calcDiffR t (s.xs t) (s.us t)).Lx + (P.calcDiffR t (s.xs t) (s.us t)).Lxx *ᵥ (s.direction lu).dxs t +
        (P.calcDiffR t (s.xs t) (s.us t)).Lxu *ᵥ (s.direction lu).dus t) i| ≤ c) ∧
      ∀ i, |(2 • (P.calcDiffR t (s.xs t) (s.us t)).Lu + (P.calcDiffR t (s.xs t) (s.us t)).Lxuᵀ *ᵥ (s.direction lu).dxs t +
        (P.calcDiffR t (s.xs t) (s.us t)).Luu *ᵥ (s.direction lu).dus t) i| ≤ c) ∧
    ∀ i, |(2 • (P.calcDiffT (s.xs P.T)).Lx + (P.calcDiffT (s.xs P.T)).Lxx *ᵥ (s.direction lu).dxs P.T) i| ≤ c := by
  have hN := C41_newton_of_solved hT hs hsol
  have e : (s.direction lu).kktRes = KKT.residual ((s.data.calcAll s.xs s.us).calcDiffAll s.xs s.us) s.fs (s.direction lu).lam := rfl
  rw [e, KKT.residual_le]
  have e1 : ∀ t, t < P.T → (((s.data.calcAll s.xs s.us).calcDiffAll s.xs s.us).rd t).Lx +
      (((s.data.calcAll s.xs s.us).calcDiffAll s.xs s.us).rd t).Fxᵀ *ᵥ (s.direction lu).lam (t + 1) - (s.direction lu).lam t =
      2 • (P.calcDiffR t (s.xs t) (s.us t)).Lx + (P.calcDiffR t (s.xs t) (s.us t)).Lxx *ᵥ (s.direction lu).dxs t +
        (P.calcDiffR t (s.xs t) (s.us t)).Lxu *ᵥ (s.direction lu).dus t := by
    intro t ht
    rw [KKT.fresh_diff s.data s.xs s.us ht, two_smul]
    linear_combination (exp := 1) - hN.stat_x t ht
  have e2 : ∀ t, t < P.T → (((s.data.calcAll s.xs s.us).calcDiffAll s.xs s.us).rd t).Lu +
      (((s.data.calcAll s.xs s.us).calcDiffAll s.xs s.us).rd t).Fuᵀ *ᵥ (s.direction lu).lam (t + 1) =
      2 • (P.calcDiffR t (s.xs t) (s.us t)).Lu + (P.calcDiffR t (s.xs t) (s.us t)).Lxuᵀ *ᵥ (s.direction lu).dxs t +
        (P.calcDiffR t (s.xs t) (s.us t)).Luu *ᵥ (s.direction lu).dus t := by
    intro t ht
    rw [KKT.fresh_diff s.data s.xs s.us ht, two_smul]
    linear_combination (exp := 1) - hN.stat_u t ht
  have e3 : ((s.data.calcAll s.xs s.us).calcDiffAll s.xs s.us).td.Lx - (s.direction lu).lam P.T =
      2 • (P.calcDiffT (s.xs P.T)).Lx + (P.calcDiffT (s.xs P.T)).Lxx *ᵥ (s.direction lu).dxs P.T := by
    rw [two_smul]
    change (P.calcDiffT (s.xs P.T)).Lx - _ = _
    linear_combination (exp := 1) - hN.stat_T
  constructor
  · rintro ⟨h0, h1, h2, _⟩
    refine ⟨h0, fun t ht => ?_, ?_⟩
    · rw [← e1 t ht, ← e2 t ht]; exact h1 t ht
    · rw [← e3]; exact h2
  · rintro ⟨h0, h1, h2⟩
    refine ⟨h0, fun t ht => ?_, ?_, ?_⟩
    · rw [e1 t ht, e2 t ht]; exact h1 t ht
    · rw [e3]; exact h2
    · intro t _ i
      rw [hs.inv.fs t]
      change |(0 : K)| ≤ c
      rwa [abs_zero]

/-- an exact KKT point has the Newton step zero, with the multipliers negated. -/
theorem newton_zero_of_kkt {xs : Traj P} {us : Ctrls P} {lam : ℕ → Vec K P.ndx} (h : IsKKT P 0 xs us lam)
    (hd : ∀ a b, P.diff a b = 0 → P.diff b a = 0) :
    NewtonStep P xs us (fun _ => 0) (fun _ => 0) (fun t => -lam t) := by
  have z : ∀ {n : ℕ} {v : Vec K n}, (∀ i, |v i| ≤ 0) → v = 0 := fun h => funext fun i => abs_nonpos_iff.mp (h i)
  have h0 := hd _ _ (z h.init)
  refine ⟨?_, ?_, ?_, ?_, ?_⟩
  · simp only [h0, neg_zero]
  · intro t ht
    have := hd _ _ (z (h.gaps t ht))
    simp only [this, Matrix.mulVec_zero, add_zero, sub_zero]
  · intro t ht
    have := z (h.stat_x t ht)
    simp only [Matrix.mulVec_zero, Matrix.mulVec_neg]
    linear_combination (exp := 1) this
  · intro t ht
    have := z (h.stat_u t ht)
    simp only [Matrix.mulVec_zero, Matrix.mulVec_neg]
    linear_combination (exp := 1) this
  · have := z h.stat_T
    simp only [Matrix.mulVec_zero]
    linear_combination (exp := 1) this

/-- **C06.** At an exact KKT point of a convex problem the residual is the largest entry of twice the cost gradients: the
solution is certified exactly if those vanish up to half the tolerance. -/
theorem C06_residual_at_kkt (hT : 0 < P.T) {lu : LU K} (hlu : LUExact lu) {s : KKT P} (hs : KKT.Reach lu s)
    (hc : ConvexAt P s.xs s.us) {lam : ℕ → Vec K P.ndx} (hk : IsKKT P 0 s.xs s.us lam)
    (hd : ∀ a b, P.diff a b = 0 → P.diff b a = 0) (c : K) :
    (s.direction lu).kktRes ≤ c ↔ 0 ≤ c ∧
    (∀ t, t < P.T → (∀ i, 2 * |(P.calcDiffR t (s.xs t) (s.us t)).Lx i| ≤ c) ∧ ∀ i, 2 * |(P.calcDiffR t (s.xs t) (s.us t)).Lu i| ≤ c) ∧
    ∀ i, 2 * |(P.calcDiffT (s.xs P.T)).Lx i| ≤ c := by
  obtain ⟨hns, hN, hu, -⟩ := C41_newton hT hlu hs hc
  have := hu _ _ _ (newton_zero_of_kkt hk hd)
  rw [C06_residual hT hs (hlu _ _ _ hns) c]
  have two : ∀ a : K, |2 * a| = 2 * |a| := fun a => by rw [abs_mul, abs_two]
  have e1 : ∀ t, t < P.T → ∀ i, |(2 • (P.calcDiffR t (s.xs t) (s.us t)).Lx + (P.calcDiffR t (s.xs t) (s.us t)).Lxx *ᵥ (s.direction lu).dxs t +
        (P.calcDiffR t (s.xs t) (s.us t)).Lxu *ᵥ (s.direction lu).dus t) i| = 2 * |(P.calcDiffR t (s.xs t) (s.us t)).Lx i| := by
    intro t ht i
    rw [← this.1 t (by omega), ← this.2.1 t ht, Matrix.mulVec_zero, Matrix.mulVec_zero, add_zero, add_zero, Pi.smul_apply, ← two, two_smul, two_mul]
  have e2 : ∀ t, t < P.T → ∀ i, |(2 • (P.calcDiffR t (s.xs t) (s.us t)).Lu + (P.calcDiffR t (s.xs t) (s.us t)).Lxuᵀ *ᵥ (s.direction lu).dxs t +
        (P.calcDiffR t (s.xs t) (s.us t)).Luu *ᵥ (s.direction lu).dus t) i| = 2 * |(P.calcDiffR t (s.xs t) (s.us t)).Lu i| := by
    intro t ht i
    rw [← this.1 t (by omega), ← this.2.1 t ht, Matrix.mulVec_zero, Matrix.mulVec_zero, add_zero, add_zero, Pi.smul_apply, ← two, two_smul, two_mul]
  have e3 : ∀ i, |(2 • (P.calcDiffT (s.xs P.T)).Lx + (P.calcDiffT (s.xs P.T)).Lxx *ᵥ (s.direction lu).dxs P.T) i| =
      2 * |(P.calcDiffT (s.xs P.T)).Lx i| := by
    intro i
    rw [← this.1 P.T le_rfl, Matrix.mulVec_zero, add_zero, Pi.smul_apply, ← two, two_smul, two_mul]
  constructor
  · rintro ⟨h0, h1, h2⟩
    exact ⟨h0, fun t ht => ⟨fun i => by rw [← e1 t ht]; exact (h1 t ht).1 i, fun i => by rw [← e2 t ht]; exact (h1 t ht).2 i⟩,
      fun i => by rw [← e3]; exact h2 i⟩
  · rintro ⟨h0, h1, h2⟩
    exact ⟨h0, fun t ht => ⟨fun i => by rw [e1 t ht]; exact (h1 t ht).1 i, fun i => by rw [e2 t ht]; exact (h1 t ht).2 i⟩,
      fun i => by rw [e3]; exact h2 i⟩


/-- **C41.** The stopping value of an iteration is the squared violation of the optimality conditions (stationarity with the
multipliers of the linear system, initial condition, shooting gaps) at the trajectory *before* that iteration's step. -/
theorem C41_stop (hT : 0 < P.T) {lu : LU K} {s : KKT P} (h : ¬ (s.direction lu).kktRes ≤ s.c.tol) :
    (KKT.body lu s).2.stop = optError P s.xs s.us (KKT.body lu s).2.lam := by
  rcases KKT.body_cases lu s with h1 | ⟨-, h1, -⟩
  · exact absurd (by simpa using h1.1) h
  · have hf := KKT.search_frame s.c.alphas (s.direction lu).improve
    rw [h1]
    generalize hg : KKT.search s.c.alphas (s.direction lu).improve = s2 at hf ⊢
    have := KKT.stopping_eq s2 s.xs s.us
      (by
        have hr := KKT.refEntries (d := (s.data.calcAll s.xs s.us).calcDiffAll s.xs s.us) hT s.xs s.ref
        have e : s2.ref = KKT.assembleRef ((s.data.calcAll s.xs s.us).calcDiffAll s.xs s.us) s.xs s.ref := hf.2.2.1
        rw [e]
        refine ⟨fun t i ht => ?_, fun i => hr.xT i, fun t i ht => ?_, hr.l0, fun t i ht => ?_⟩
        · rw [hr.x t i ht, KKT.fresh_diff _ _ _ ht, KKT.fresh_diff _ _ _ ht]
        · rw [hr.u t i ht, KKT.fresh_diff _ _ _ ht, KKT.fresh_diff _ _ _ ht]
        · rw [hr.l t i ht, KKT.fresh_calc _ _ _ ht, KKT.fresh_calc _ _ _ ht])
      (fun t ht => by rw [hf.2.2.2.1]; exact KKT.fresh_diff s.data s.xs s.us ht)
    exact this

/-- **C06.** Every way `solve` returns `true`: in its last iteration, started at some trajectory, either the residual of
`C06_residual` was within the tolerance and that trajectory is returned unchanged, or the squared violation of the optimality
conditions at that trajectory, one step before the returned one, was below `th_stop`. -/
theorem C06_return (hT : 0 < P.T) {lu : LU K} {s : KKT P} (hs : KKT.Reach lu s) (xs : Option (Traj P)) (us : Option (Ctrls P))
    (n : ℕ) (feas : Bool) (h : (KKT.solve lu xs us n feas s).1 = true) :
    ∃ s1, KKT.Reach lu s1 ∧
      (((s1.direction lu).kktRes ≤ s.c.tol ∧ (KKT.solve lu xs us n feas s).2.kktRes = (s1.direction lu).kktRes ∧
          (KKT.solve lu xs us n feas s).2.xs = s1.xs ∧ (KKT.solve lu xs us n feas s).2.us = s1.us) ∨
        (optError P s1.xs s1.us (KKT.solve lu xs us n feas s).2.lam < s.c.thStop ∧
          (KKT.solve lu xs us n feas s).2.stop = optError P s1.xs s1.us (KKT.solve lu xs us n feas s).2.lam ∧
          (KKT.solve lu xs us n feas s).2.wasFeas = true)) := by
  have hr := hs.candidate (xs.getD fun _ => P.zeroX) (us.getD fun t => zeroV K (P.nu t)) feas 0
  have hc : KKT.solve lu xs us n feas s = ((KKT.iterate lu n { s with
      xs := xs.getD fun _ => P.zeroX, us := us.getD fun t => zeroV K (P.nu t), feas := feas, iter := 0 }).1.getD false,
      (KKT.iterate lu n { s with
      xs := xs.getD fun _ => P.zeroX, us := us.getD fun t => zeroV K (P.nu t), feas := feas, iter := 0 }).2) := by
    rw [KKT.solve]
    generalize KKT.iterate lu n _ = r
    obtain ⟨o, s1⟩ := r
    cases o <;> rfl
  rw [hc] at h ⊢
  cases hi : KKT.iterate lu n { s with
      xs := xs.getD fun _ => P.zeroX, us := us.getD fun t => zeroV K (P.nu t), feas := feas, iter := 0 } with
  | mk o s' =>
    rw [hi] at h
    cases o with
    | none => cases h
    | some b =>
      obtain ⟨s1, h1, h2, h3⟩ := KKT.iterate_end lu n hr hi
      change s1.c = s.c at h2
      refine ⟨s1, h1, ?_⟩
      rcases KKT.body_cases lu s1 with h4 | ⟨h4, h5, h6⟩
      · left
        have e : s' = (s1.direction lu).improve := by rw [h4.2] at h3; exact (Prod.mk.inj h3).2.symm
        rw [e, KKT.improve_res, KKT.improve_xs, KKT.improve_us]
        have h7 := h4.1
        rw [h2, leb_exact, decide_eq_true_eq] at h7
        exact ⟨h7, rfl, rfl, rfl⟩
      · right
        have hst := C41_stop hT (s := s1) (by simpa using h4)
        rw [h3] at h6 hst
        simp only at h6 hst
        cases hw : s'.wasFeas with
        | false => rw [hw] at h6; simp at h6
        | true =>
          rw [hw, h2] at h6
          have : s'.stop < s.c.thStop := by
            by_contra hn
            rw [Bool.true_and, ltb_exact, decide_eq_false hn] at h6
            simp at h6
          exact ⟨by rw [← hst]; exact this, hst, rfl⟩

/-- a full step of the Newton direction on a linear-quadratic problem. -/
theorem newton_full_step {xs : Traj P} {us : Ctrls P} {dx : ℕ → Vec K P.ndx} {du : (t : ℕ) → Vec K (P.nu t)} {lam : ℕ → Vec K P.ndx}
    {φ : P.X → Vec K P.ndx} (hE : Euclid P φ) (hA : AffineDyn P φ) (hQ : QuadGrad P φ) (h : NewtonStep P xs us dx du lam)
    {xs' : Traj P} {us' : Ctrls P} (hx : ∀ t, t ≤ P.T → φ (xs' t) = φ (xs t) + dx t) (hu : ∀ t, t < P.T → us' t = us t + du t) :
    IsKKT P 0 xs' us' (fun t => -lam t) := by
  have z : ∀ {n : ℕ} {v : Vec K n}, v = 0 → ∀ i, |v i| ≤ 0 := fun h i => by rw [h]; simp
  have dxe : ∀ t, t ≤ P.T → φ (xs' t) - φ (xs t) = dx t := fun t ht => by rw [hx t ht]; abel
  have due : ∀ t, t < P.T → us' t - us t = du t := fun t ht => by rw [hu t ht]; abel
  refine ⟨fun t ht => z ?_, fun t ht => z ?_, z ?_, z ?_, fun t ht => z ?_⟩
  · rw [hQ.Fx t ht (xs t) (us t), hQ.Lx t ht (xs t) (us t), dxe t ht.le, due t ht]
    simp only [Matrix.mulVec_neg]
    linear_combination (exp := 1) h.stat_x t ht
  · rw [hQ.Fu t ht (xs t) (us t), hQ.Lu t ht (xs t) (us t), dxe t ht.le, due t ht]
    simp only [Matrix.mulVec_neg]
    linear_combination (exp := 1) h.stat_u t ht
  · rw [hQ.LT (xs P.T), dxe _ le_rfl]
    linear_combination (exp := 1) h.stat_T
  · have := h.start
    rw [hE.diff] at this ⊢
    rw [hx 0 (by omega), this]
    abel
  · rw [show shootGap P xs' us' t = P.diff (xs' (t + 1)) (P.calcR t (xs' t) (us' t)).xnext from rfl, hE.diff]
    rw [hA t ht (xs t) (us t), hx (t + 1) ht, dxe t ht.le, due t ht]
    have := h.dyn t ht
    rw [hE.diff] at this
    rw [this]
    abel

/-- **C41.** On a linear-quadratic problem the full step `tryStep(1)` along the computed direction is an exact KKT point, with the
negated multipliers of the linear system. -/
theorem C41_lq_step (hT : 0 < P.T) {lu : LU K} (hlu : LUExact lu) {s : KKT P} (hs : KKT.Reach lu s) (hc : ConvexAt P s.xs s.us)
    {φ : P.X → Vec K P.ndx} (hE : Euclid P φ) (hA : AffineDyn P φ) (hQ : QuadGrad P φ) :
    IsKKT P 0 ((s.direction lu).trial 1).xsTry ((s.direction lu).trial 1).usTry (fun t => -(s.direction lu).lam t) := by
  refine newton_full_step hE hA hQ (C41_newton hT hlu hs hc).2.1 ?_ ?_
  · intro t _
    change φ (P.integrate (s.xs t) (sv 1 ((s.direction lu).dxs t))) = _
    rw [hE.integrate, sv_exact, one_smul]
  · intro t _
    change (if P.nu t ≠ 0 then s.us t + sv 1 ((s.direction lu).dus t) else _) = _
    rw [sv_exact, one_smul]
    split_ifs with hn
    · rfl
    · have hz : P.nu t = 0 := not_not.mp hn
      funext i
      exact (Fin.cast hz i).elim0

/-- a zero Newton step means that the optimality conditions hold. -/
theorem optError_zero {xs : Traj P} {us : Ctrls P} {dx : ℕ → Vec K P.ndx} {du : (t : ℕ) → Vec K (P.nu t)} {lam : ℕ → Vec K P.ndx}
    (h : NewtonStep P xs us dx du lam) (hx : ∀ t, t ≤ P.T → dx t = 0) (hu : ∀ t, t < P.T → du t = 0) : optError P xs us lam = 0 := by
  have z : ∀ {n : ℕ} {v : Vec K n}, v = 0 → ∑ i, (v i) ^ 2 = 0 := fun h => by rw [h]; simp
  rw [optError]
  have h1 : ∀ t ∈ Finset.range P.T, ((∑ i, (((P.calcDiffR t (xs t) (us t)).Lx + lam t - (P.calcDiffR t (xs t) (us t)).Fxᵀ *ᵥ lam (t + 1)) i) ^ 2) +
      (∑ i, (((P.calcDiffR t (xs t) (us t)).Lu - (P.calcDiffR t (xs t) (us t)).Fuᵀ *ᵥ lam (t + 1)) i) ^ 2) +
      ∑ i, (P.diff (P.calcR t (xs t) (us t)).xnext (xs (t + 1)) i) ^ 2) = 0 := by
    intro t ht
    have ht := Finset.mem_range.mp ht
    have a1 := h.stat_x t ht
    have a2 := h.stat_u t ht
    have a3 := h.dyn t ht
    rw [hx t ht.le, hu t ht, Matrix.mulVec_zero, Matrix.mulVec_zero] at a1 a2 a3
    rw [hx (t + 1) ht] at a3
    rw [z (by linear_combination (exp := 1) a1), z (by linear_combination (exp := 1) a2), z (by linear_combination (exp := 1) a3)]
    simp
  rw [Finset.sum_eq_zero h1]
  have a4 := h.stat_T
  rw [hx P.T le_rfl, Matrix.mulVec_zero] at a4
  have a5 := h.start
  rw [hx 0 (by omega)] at a5
  rw [z (by linear_combination (exp := 1) a4), z (by linear_combination (exp := 1) a5)]
  simp

/-- the first trial is taken when the expected decrease vanishes or the trajectory is not known to be feasible. -/
theorem KKT.search_first (a : K) (as : List K) (s : KKT P) (h : s.d0 < s.c.thGrad ∨ s.feas = false) :
    (KKT.search (a :: as) s).xs = (s.trial a).xsTry ∧ (KKT.search (a :: as) s).us = (s.trial a).usTry ∧
    (KKT.search (a :: as) s).wasFeas = s.feas ∧ (KKT.search (a :: as) s).feas = true := by
  rw [KKT.search]
  simp only
  rw [if_pos]
  · exact ⟨rfl, rfl, rfl, rfl⟩
  · rw [Bool.or_eq_true, Bool.or_eq_true]
    left
    rcases h with h | h
    · left; rw [ltb_exact, decide_eq_true_eq]; exact h
    · right; rw [Bool.not_eq_true']; exact h

/-- one iteration that takes the first step length. -/
theorem KKT.body_first {lu : LU K} {s : KKT P} {a : K} {as : List K} (ha : s.c.alphas = a :: as)
    (hr : ¬ (s.direction lu).kktRes ≤ s.c.tol) (h : (s.direction lu).improve.d0 < s.c.thGrad ∨ s.feas = false) :
    (KKT.body lu s).2.xs = ((s.direction lu).trial a).xsTry ∧ (KKT.body lu s).2.us = ((s.direction lu).trial a).usTry ∧
    (KKT.body lu s).2.wasFeas = s.feas ∧ (KKT.body lu s).2.feas = true ∧ (KKT.body lu s).2.lam = (s.direction lu).lam ∧
    (KKT.body lu s).1 = if s.feas && ltb (KKT.body lu s).2.stop s.c.thStop then some true else none := by
  rcases KKT.body_cases lu s with h1 | ⟨-, h1, h2⟩
  · exact absurd (by simpa using h1.1) hr
  · have hf := KKT.search_first a as (s.direction lu).improve (by
      rw [KKT.improve_c, KKT.direction_c, KKT.improve_feas, KKT.direction_feas]; exact h)
    have hl := (KKT.search_frame (a :: as) (s.direction lu).improve).2.2.2.2.2.1
    rw [ha] at h1
    have hp := KKT.post_frame (KKT.search (a :: as) (s.direction lu).improve)
    rw [← h1] at hp
    have ht := KKT.improve_trial (s.direction lu) a
    have hw : (KKT.body lu s).2.wasFeas = s.feas := by
      rw [hp.2.2.1, hf.2.2.1, KKT.improve_feas, KKT.direction_feas]
    rw [hw] at h2
    refine ⟨?_, ?_, hw, ?_, ?_, h2⟩
    · rw [hp.1, hf.1, ht.1]
    · rw [hp.2.1, hf.2.1, ht.2]
    · rw [hp.2.2.2.1, hf.2.2.2]
    · rw [hp.2.2.2.2, hl, KKT.improve_lam]

/-- an iteration of a reachable state at an exact KKT point of a convex linear-quadratic problem, known to be feasible, returns
`true` and an exact KKT point. -/
theorem KKT.body_at_kkt (hT : 0 < P.T) {lu : LU K} (hlu : LUExact lu) {s : KKT P} (hs : KKT.Reach lu s)
    (hc : ConvexAt P s.xs s.us) {φ : P.X → Vec K P.ndx} (hE : Euclid P φ) (hA : AffineDyn P φ) (hQ : QuadGrad P φ)
    {as : List K} (ha : s.c.alphas = 1 :: as) (hg : 0 < s.c.thGrad) (hst : 0 < s.c.thStop) (hf : s.feas = true)
    {lam : ℕ → Vec K P.ndx} (hk : IsKKT P 0 s.xs s.us lam) :
    (KKT.body lu s).1 = some true ∧ IsKKT P 0 (KKT.body lu s).2.xs (KKT.body lu s).2.us (fun t => -(KKT.body lu s).2.lam t) := by
  have hd : ∀ a b, P.diff a b = 0 → P.diff b a = 0 := by
    intro a b h
    rw [hE.diff] at h ⊢
    rw [← neg_sub, h, neg_zero]
  obtain ⟨-, hN, hu, -⟩ := C41_newton hT hlu hs hc
  have hz := hu _ _ _ (newton_zero_of_kkt hk hd)
  by_cases h3 : (s.direction lu).kktRes ≤ s.c.tol
  · rcases KKT.body_cases lu s with h4 | ⟨h4, -, -⟩
    · rw [h4.2]
      refine ⟨rfl, ?_⟩
      rw [KKT.improve_xs, KKT.improve_us, KKT.improve_lam]
      have hl : ∀ t, t ≤ P.T → -(s.direction lu).lam t = lam t := by
        intro t ht
        rw [← hz.2.2 t ht, neg_neg]
      refine ⟨fun t ht i => ?_, fun t ht i => ?_, fun i => ?_, hk.init, hk.gaps⟩
      · rw [hl t ht.le, hl (t + 1) ht]; exact hk.stat_x t ht i
      · rw [hl (t + 1) ht]; exact hk.stat_u t ht i
      · rw [hl P.T le_rfl]; exact hk.stat_T i
    · exact absurd h3 (by simpa using h4)
  · have hd0 : (s.direction lu).improve.d0 = 0 := by
      have hp : seg 0 P.nP (s.direction lu).pd = 0 := by
        funext i
        change (s.direction lu).pd (0 + i) = 0
        rw [Nat.zero_add]
        rcases KKT.nS_cover (P := P) (i := i) (by have := i.isLt; rw [Problem.nS]; omega) with ⟨t, ht, j, hj⟩ | ⟨t, ht, j, hj⟩ | ⟨t, ht, j, hj⟩
        · have := congrFun (hz.1 t ht) j
          rw [(KKT.direction_parts lu s).1] at this
          rw [hj]; exact this.symm
        · have := congrFun (hz.2.1 t ht) j
          rw [(KKT.direction_parts lu s).2] at this
          rw [hj]; exact this.symm
        · have := i.isLt; omega
      rw [KKT.improve_d0, hp, dot_exact, dotProduct_zero, neg_zero]
    have hb := KKT.body_first (lu := lu) (s := s) (a := 1) (as := as) ha h3 (Or.inl (by rw [hd0]; exact hg))
    have hstop := C41_stop hT (lu := lu) (s := s) h3
    obtain ⟨b1, b2, b3, b4, b5, b6⟩ := hb
    rw [b5, optError_zero hN (fun t ht => (hz.1 t ht).symm) (fun t ht => (hz.2.1 t ht).symm)] at hstop
    rw [hstop, hf, ltb_exact, decide_eq_true hst, Bool.true_and, if_pos rfl] at b6
    refine ⟨b6, ?_⟩
    rw [b1, b2, b5]
    exact C41_lq_step hT hlu hs hc hE hA hQ

/-- **C41.** On a convex linear-quadratic problem, from any guess not declared feasible and in any reachable state, `solve` with
at least two iterations and `1` as first step length returns `true`; and unless the residual test already passes for the guess
itself, the returned trajectory is an exact KKT point with the negated returned multipliers. -/
theorem C41_lq_solve (hT : 0 < P.T) {lu : LU K} (hlu : LUExact lu) {s : KKT P} (hs : KKT.Reach lu s)
    (hc : ∀ xs us, ConvexAt P xs us) {φ : P.X → Vec K P.ndx} (hE : Euclid P φ) (hA : AffineDyn P φ) (hQ : QuadGrad P φ)
    {as : List K} (ha : s.c.alphas = 1 :: as) (hg : 0 < s.c.thGrad) (hst : 0 < s.c.thStop) (xs : Traj P) (us : Ctrls P) (n : ℕ) :
    (KKT.solve lu (some xs) (some us) (n + 2) false s).1 = true ∧
    ((KKT.direction lu { s with xs := xs, us := us, feas := false, iter := 0 }).kktRes ≤ s.c.tol ∨
      IsKKT P 0 (KKT.solve lu (some xs) (some us) (n + 2) false s).2.xs (KKT.solve lu (some xs) (some us) (n + 2) false s).2.us
        (fun t => -(KKT.solve lu (some xs) (some us) (n + 2) false s).2.lam t)) := by
  have hr := hs.candidate xs us false 0
  have hsolve : KKT.solve lu (some xs) (some us) (n + 2) false s =
      match KKT.iterate lu (n + 2) { s with xs := xs, us := us, feas := false, iter := 0 } with
      | (some b, s) => (b, s)
      | (none, s) => (false, s) := rfl
  generalize hs0 : ({ s with xs := xs, us := us, feas := false, iter := 0 } : KKT P) = s0 at *
  have hf0 : s0.feas = false := by rw [← hs0]
  have hc0 : s0.c = s.c := by rw [← hs0]
  rw [hsolve, KKT.iterate]
  by_cases h1 : (s0.direction lu).kktRes ≤ s.c.tol
  · refine ⟨?_, Or.inl h1⟩
    rcases KKT.body_cases lu s0 with h2 | ⟨h2, -, -⟩
    · rw [h2.2]
    · rw [hc0] at h2; exact absurd h1 (by simpa using h2)
  · have hb := KKT.body_first (lu := lu) (s := s0) (a := 1) (as := as) (by rw [hc0, ha]) (by rw [hc0]; exact h1) (Or.inr hf0)
    rw [hf0] at hb
    obtain ⟨b1, b2, b3, b4, b5, b6⟩ := hb
    have hr1 := hr.body
    have hcb := KKT.body_c lu s0
    have hk1 := C41_lq_step hT hlu hr (hc _ _) hE hA hQ
    rw [← b1, ← b2] at hk1
    cases hbo : KKT.body lu s0 with
    | mk o s1 =>
      rw [hbo] at b1 b2 b3 b4 b5 b6 hr1 hcb hk1
      simp only [Bool.false_and, Bool.false_eq_true, if_false] at b6
      subst b6
      simp only
      have hr2 := hr1.candidate s1.xs s1.us s1.feas (s1.iter + 1)
      have hk2 : IsKKT P 0 ({ s1 with iter := s1.iter + 1 } : KKT P).xs ({ s1 with iter := s1.iter + 1 } : KKT P).us
        (fun t => -(s0.direction lu).lam t) := hk1
      have hf2 : ({ s1 with iter := s1.iter + 1 } : KKT P).feas = true := b4
      have hc2 : ({ s1 with iter := s1.iter + 1 } : KKT P).c = s.c := hcb.trans hc0
      change KKT.Reach lu { s1 with iter := s1.iter + 1 } at hr2
      generalize ({ s1 with iter := s1.iter + 1 } : KKT P) = s2 at *
      have hb := KKT.body_at_kkt hT hlu hr2 (hc _ _) hE hA hQ (by rw [hc2, ha]) (by rw [hc2]; exact hg) (by rw [hc2]; exact hst) hf2 hk2
      rw [KKT.iterate]
      cases hbo2 : KKT.body lu s2 with
      | mk o2 s3 =>
        rw [hbo2] at hb
        obtain ⟨b1, b2⟩ := hb
        simp only at b1 b2
        subst b1
        exact ⟨rfl, Or.inr b2⟩

end Exact

/-! ### Concrete cases -/
namespace Ex
open Matrix

theorem m1_quad (a : ℚ) (x y : Vec ℚ 1) : x ⬝ᵥ (m1 a *ᵥ y) = a * (x 0 * y 0) := by
  simp only [dotProduct, Matrix.mulVec, m1, Fin.sum_univ_one, Matrix.of_apply]
  ring

theorem scalar_convex {T : ℕ} {q r qT x0 : ℚ} (hq : 0 ≤ q) (hr : 0 < r) (hT : 0 ≤ qT) (xs : Traj (scalar T q r qT x0))
    (us : Ctrls (scalar T q r qT x0)) : ConvexAt (scalar T q r qT x0) xs us where
  sym_x _ _ := rfl
  sym_u _ _ := rfl
  sym_T := rfl
  psd t _ x u := by
    have h : ∀ x u : Vec ℚ 1, 0 ≤ x ⬝ᵥ (m1 q *ᵥ x) + 2 * (x ⬝ᵥ (m1 0 *ᵥ u)) + u ⬝ᵥ (m1 r *ᵥ u) := by
      intro x u
      rw [m1_quad, m1_quad, m1_quad]
      nlinarith [mul_nonneg hq (mul_self_nonneg (x 0)), mul_nonneg hr.le (mul_self_nonneg (u 0))]
    exact h x u
  pd t _ u hu := by
    have h : ∀ u : Vec ℚ 1, u ≠ 0 → 0 < u ⬝ᵥ (m1 r *ᵥ u) := by
      intro u hu
      rw [m1_quad]
      have h0 : u 0 ≠ 0 := fun h => hu (funext fun i => by rw [Fin.fin_one_eq_zero i]; exact h)
      exact mul_pos hr (mul_self_pos.mpr h0)
    exact h u hu
  psdT x := by
    have h : ∀ x : Vec ℚ 1, 0 ≤ x ⬝ᵥ (m1 qT *ᵥ x) := by
      intro x
      rw [m1_quad]
      exact mul_nonneg hT (mul_self_nonneg (x 0))
    exact h x

/-- C41 applies to `lq` from the zero guess: one step reaches an exact KKT point. -/
example (xs : Traj lq) (us : Ctrls lq) : (KKT.solve exactLU (some xs) (some us) 5 false (KKT.new (Data.zero lq))).1 = true ∧
    ((KKT.direction exactLU { KKT.new (Data.zero lq) with xs := xs, us := us, feas := false, iter := 0 }).kktRes ≤
        (KKT.new (Data.zero lq)).c.tol ∨
      IsKKT lq 0 (KKT.solve exactLU (some xs) (some us) 5 false (KKT.new (Data.zero lq))).2.xs
        (KKT.solve exactLU (some xs) (some us) 5 false (KKT.new (Data.zero lq))).2.us
        (fun t => -(KKT.solve exactLU (some xs) (some us) 5 false (KKT.new (Data.zero lq))).2.lam t)) :=
  C41_lq_solve (by decide) exactLU_exact (.new _) (fun xs us => scalar_convex (by norm_num) (by norm_num) (by norm_num) xs us)
    lq_euclid lq_affine lq_quad (as := defaultAlphas.tail) (by decide +kernel) (by decide +kernel) (by decide +kernel) xs us 3

/-- the quadratic model at the zero trajectory of `lq` and a step that satisfies the linearised dynamics but is not the Newton step. -/
example : ∃ dx du, LinFeasible lq (fun _ => (0 : ℚ)) (fun _ _ => 0) dx du ∧ dx 0 ≠ 0 :=
  ⟨fun _ _ => 1, fun _ _ => 0, ⟨by decide +kernel, by decide +kernel⟩, fun h => by
    have := congrFun h (0 : Fin 1)
    exact absurd this (by decide)⟩

/-- one node, cost `u²/2`, `x⁺ = x + u`, from `0`. -/
def flat : Problem ℚ := scalar 1 0 1 0 0
/-- states `0, 5`, so the shooting gap with the control `0` is `-5`. -/
def flatX : Traj flat := fun t => if t = 0 then (0 : ℚ) else (5 : ℚ)
def flatU : Ctrls flat := fun _ _ => 0

/-- the Newton step of `flat` there closes the gap. -/
theorem flat_newton : NewtonStep flat flatX flatU (fun t _ => if t = 0 then 0 else -5) (fun _ _ => 0) (fun _ _ => 0) := by
  refine ⟨?_, ?_, ?_, ?_, ?_⟩ <;> decide +kernel

end Ex

/-- **C06.** A trajectory that violates the dynamics is certified: with any exact linear solver a default-constructed `SolverKKT`
returns `true` at its first test, with the trajectory it was given and its shooting gap of `-5`. -/
theorem C06_certifies_infeasible (lu : LU ℚ) (hlu : LUExact lu) :
    ∃ s', KKT.solve lu (some Ex.flatX) (some Ex.flatU) 10 false (KKT.new (Data.zero Ex.flat)) = (true, s') ∧
      s'.xs = Ex.flatX ∧ s'.us = Ex.flatU ∧ ∀ i, shootGap Ex.flat s'.xs s'.us 0 i = -5 := by
  have hr : KKT.Reach lu ((KKT.new (Data.zero Ex.flat)).startAt Ex.flatX Ex.flatU false) :=
    (KKT.Reach.new _).candidate _ _ _ _
  have hsolve := KKT.solve_some lu Ex.flatX Ex.flatU 10 false (KKT.new (Data.zero Ex.flat))
  have hc := Ex.scalar_convex (T := 1) (q := 0) (r := 1) (qT := 0) (x0 := 0) (by norm_num) (by norm_num) (by norm_num) Ex.flatX Ex.flatU
  have htol : ((KKT.new (Data.zero Ex.flat)).startAt Ex.flatX Ex.flatU false).c.tol =
    1 / 10 ^ 6 := by decide +kernel
  have hx0 : ((KKT.new (Data.zero Ex.flat)).startAt Ex.flatX Ex.flatU false).xs = Ex.flatX := rfl
  have hu0 : ((KKT.new (Data.zero Ex.flat)).startAt Ex.flatX Ex.flatU false).us = Ex.flatU := rfl
  generalize ((KKT.new (Data.zero Ex.flat)).startAt Ex.flatX Ex.flatU false) = s0 at *
  obtain ⟨hns, hN, hu, -⟩ := C41_newton (by decide) hlu hr (by rw [hx0, hu0]; exact hc)
  have hz := hu _ _ _ (by rw [hx0, hu0]; exact Ex.flat_newton)
  have hres : (s0.direction lu).kktRes ≤ s0.c.tol := by
    rw [C06_residual (by decide) hr (hlu _ _ _ hns), htol, hx0, hu0]
    refine ⟨by norm_num, fun t ht => ?_, ?_⟩
    · rw [← hz.1 t ht.le, ← hz.2.1 t ht]
      have ht0 : t = 0 := by have : t < 1 := ht; omega
      subst ht0
      refine ⟨?_, ?_⟩ <;> decide +kernel
    · rw [← hz.1 _ le_rfl]
      decide +kernel
  rcases KKT.body_cases lu s0 with h2 | ⟨h2, -, -⟩
  · refine ⟨(s0.direction lu).improve, ?_, ?_, ?_, ?_⟩
    · rw [hsolve, KKT.iterate, h2.2]
    · rw [KKT.improve_xs, hx0]
    · rw [KKT.improve_us, hu0]
    · rw [KKT.improve_xs, KKT.improve_us, hx0, hu0]; decide +kernel
  · exact absurd hres (by simpa using h2)

/-- **C06.** An exact optimum is refused: started at the optimum of a convex linear-quadratic problem, with any exact linear solver, a
default-constructed `SolverKKT` computes the residual `2`, takes a (zero) step and returns `false` after its only iteration. -/
theorem C06_refuses_optimum (lu : LU ℚ) (hlu : LUExact lu) :
    IsKKT Ex.lq 0 Ex.optX Ex.optU Ex.optLam ∧
    ∃ s', KKT.solve lu (some Ex.optX) (some Ex.optU) 1 false (KKT.new (Data.zero Ex.lq)) = (false, s') ∧ s'.kktRes = 2 := by
  refine ⟨Ex.opt_kkt, ?_⟩
  have hr : KKT.Reach lu ((KKT.new (Data.zero Ex.lq)).startAt Ex.optX Ex.optU false) :=
    (KKT.Reach.new _).candidate _ _ _ _
  have hsolve := KKT.solve_some lu Ex.optX Ex.optU 1 false (KKT.new (Data.zero Ex.lq))
  have hc := Ex.scalar_convex (T := 2) (q := 1) (r := 1) (qT := 1) (x0 := 1) (by norm_num) (by norm_num) (by norm_num) Ex.optX Ex.optU
  have htol : ((KKT.new (Data.zero Ex.lq)).startAt Ex.optX Ex.optU false).c.tol =
    1 / 10 ^ 6 := by decide +kernel
  have hal : ((KKT.new (Data.zero Ex.lq)).startAt Ex.optX Ex.optU false).c.alphas =
    1 :: defaultAlphas.tail := by decide +kernel
  have hx0 : ((KKT.new (Data.zero Ex.lq)).startAt Ex.optX Ex.optU false).xs = Ex.optX := rfl
  have hu0 : ((KKT.new (Data.zero Ex.lq)).startAt Ex.optX Ex.optU false).us = Ex.optU := rfl
  have hf0 : ((KKT.new (Data.zero Ex.lq)).startAt Ex.optX Ex.optU false).feas = false := rfl
  generalize ((KKT.new (Data.zero Ex.lq)).startAt Ex.optX Ex.optU false) = s0 at *
  have hres := C06_residual_at_kkt (by decide) hlu hr (by rw [hx0, hu0]; exact hc) (lam := Ex.optLam) (by rw [hx0, hu0]; exact Ex.opt_kkt)
    (by
      intro a b h
      rw [Ex.lq_euclid.diff] at h ⊢
      rw [← neg_sub, h, neg_zero])
  rw [hx0, hu0] at hres
  have hle : (s0.direction lu).kktRes ≤ 2 := (hres 2).mpr (by
    refine ⟨by norm_num, ?_, ?_⟩ <;> decide +kernel)
  have hge : ∀ c : ℚ, (s0.direction lu).kktRes ≤ c → 2 ≤ c := by
    intro c h
    have h1 : 2 * |(Ex.lq.calcDiffR 0 (Ex.optX 0) (Ex.optU 0)).Lx (0 : Fin 1)| ≤ c := (((hres c).mp h).2.1 0 (by decide)).1 (0 : Fin 1)
    have h2 : 2 * |(Ex.lq.calcDiffR 0 (Ex.optX 0) (Ex.optU 0)).Lx (0 : Fin 1)| = 2 := by decide +kernel
    rwa [h2] at h1
  have heq : (s0.direction lu).kktRes = 2 := le_antisymm hle (hge _ le_rfl)
  have hnot : ¬ (s0.direction lu).kktRes ≤ s0.c.tol := by rw [heq, htol]; norm_num
  have hb := KKT.body_first hal hnot (Or.inr hf0)
  obtain ⟨-, -, -, -, -, b6⟩ := hb
  rw [hf0, Bool.false_and, if_neg (by decide)] at b6
  have hkr : (KKT.body lu s0).2.kktRes = 2 := by
    rcases KKT.body_cases lu s0 with h1 | ⟨-, h1, -⟩
    · exact absurd (by simpa using h1.1) hnot
    · have hf := (KKT.search_frame s0.c.alphas (s0.direction lu).improve).2.2.2.2.2.2.1
      have hp : ∀ s1 : KKT Ex.lq, s1.stopping.callbacks.kktRes = s1.kktRes := fun _ => rfl
      rw [h1, hp, hf, KKT.improve_res, heq]
  cases hbo : KKT.body lu s0 with
  | mk o s1 =>
    rw [hbo] at b6 hkr
    simp only at b6 hkr
    subst b6
    refine ⟨{ s1 with iter := s1.iter + 1 }, ?_, hkr⟩
    rw [hsolve, KKT.iterate, hbo]
    rfl

/-- an exact linear solver exists. -/
example : LUExact (exactLU (K := ℚ)) := exactLU_exact

end Mim
