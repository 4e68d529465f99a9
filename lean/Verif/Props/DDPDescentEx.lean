import Verif.Props.DDPDescent
import Verif.Props.SQPDescent

/-!
# C95, C96: examples
-/
set_option linter.unusedSectionVars false
set_option linter.unusedSimpArgs false
set_option autoImplicit false

namespace Mim.Ex
open Spec DDP Matrix

/-- a state of `bent` as a number. -/
def bentQ (x : bent.X) : ℚ := x

theorem bent_euclid : Euclid bent (fun x _ => bentQ x) where
  inj a b h := congrFun h (0 : Fin 1)
  integrate x d := by
    funext i
    obtain rfl : i = (0 : Fin 1) := Subsingleton.elim (α := Fin 1) _ _
    rfl
  diff a b := rfl

theorem bent_along (xs : Traj bent) (us : Ctrls bent) : TrueDerivsAlong bent xs us where
  cost t _ d v e w hd he := by
    let x : ℚ := xs t
    let u : Vec ℚ 1 := us t
    have hd0 : Deriv0 (fun a => d a (0 : Fin 1)) (0 : ℚ) (v (0 : Fin 1)) := hd (0 : Fin 1)
    have he0 : Deriv0 (fun a => e a (0 : Fin 1)) (0 : ℚ) (w (0 : Fin 1)) := he (0 : Fin 1)
    have hx := (Deriv0.const x).add hd0
    have hu := (Deriv0.const (u 0)).add he0
    have := ((hx.mul hx).add (hu.mul hu)).smul (1 / 2)
    have e1 : (bent.calcR t (xs t) (us t)).cost = 1 / 2 * ((x + 0) * (x + 0) + (u 0 + 0) * (u 0 + 0)) := by
      change (x * x + u 0 * u 0) / 2 = _; ring
    have e2 : (bent.calcDiffR t (xs t) (us t)).Lx ⬝ᵥ v + (bent.calcDiffR t (xs t) (us t)).Lu ⬝ᵥ w =
        1 / 2 * ((0 + v (0 : Fin 1)) * (x + 0) + (x + 0) * (0 + v (0 : Fin 1)) + ((0 + w (0 : Fin 1)) * (u 0 + 0) + (u 0 + 0) * (0 + w (0 : Fin 1)))) := by
      have : (bent.calcDiffR t (xs t) (us t)).Lx ⬝ᵥ v + (bent.calcDiffR t (xs t) (us t)).Lu ⬝ᵥ w = x * v (0 : Fin 1) + u 0 * w (0 : Fin 1) := by
        change ∑ i : Fin 1, _ + ∑ i : Fin 1, _ = _
        simp only [Fin.sum_univ_one]
        rfl
      rw [this]; ring
    rw [e1, e2]
    refine this.congr (Small.triv.mono fun a _ _ => ?_)
    change ((x + d a (0 : Fin 1)) * (x + d a (0 : Fin 1)) + (u 0 + e a (0 : Fin 1)) * (u 0 + e a (0 : Fin 1))) / 2 = _
    ring
  term d v hd := by
    let x : ℚ := xs bent.T
    have hd0 : Deriv0 (fun a => d a (0 : Fin 1)) (0 : ℚ) (v (0 : Fin 1)) := hd (0 : Fin 1)
    have hx := (Deriv0.const x).add hd0
    have := (hx.mul hx).smul (1 / 2)
    have e1 : (bent.calcT (xs bent.T)).cost = 1 / 2 * ((x + 0) * (x + 0)) := by
      change x * x / 2 = _; ring
    have e2 : (bent.calcDiffT (xs bent.T)).Lx ⬝ᵥ v = 1 / 2 * ((0 + v (0 : Fin 1)) * (x + 0) + (x + 0) * (0 + v (0 : Fin 1))) := by
      have : (bent.calcDiffT (xs bent.T)).Lx ⬝ᵥ v = x * v (0 : Fin 1) := by
        change ∑ i : Fin 1, _ = _
        simp only [Fin.sum_univ_one]
        rfl
      rw [this]; ring
    rw [e1, e2]
    refine this.congr (Small.triv.mono fun a _ _ => ?_)
    change (x + d a (0 : Fin 1)) * (x + d a (0 : Fin 1)) / 2 = _
    ring
  next t _ d v e w hd he i := by
    let x : ℚ := xs t
    let u : Vec ℚ 1 := us t
    have hd0 : Deriv0 (fun a => d a (0 : Fin 1)) (0 : ℚ) (v (0 : Fin 1)) := hd (0 : Fin 1)
    have he0 : Deriv0 (fun a => e a (0 : Fin 1)) (0 : ℚ) (w (0 : Fin 1)) := he (0 : Fin 1)
    have hx := (Deriv0.const x).add hd0
    have hu := (Deriv0.const (u 0)).add he0
    have := (Deriv0.const (-(x + u 0 + x * u 0))).add ((hx.add hu).add (hx.mul hu))
    have e1 : (0 : ℚ) = -(x + u 0 + x * u 0) + (x + 0 + (u 0 + 0) + (x + 0) * (u 0 + 0)) := by ring
    have e2 : ((bent.calcDiffR t (xs t) (us t)).Fx *ᵥ v + (bent.calcDiffR t (xs t) (us t)).Fu *ᵥ w) i =
        0 + (0 + v (0 : Fin 1) + (0 + w (0 : Fin 1)) + ((0 + v (0 : Fin 1)) * (u 0 + 0) + (x + 0) * (0 + w (0 : Fin 1)))) := by
      have : ((bent.calcDiffR t (xs t) (us t)).Fx *ᵥ v + (bent.calcDiffR t (xs t) (us t)).Fu *ᵥ w) i = (1 + u 0) * v (0 : Fin 1) + (1 + x) * w (0 : Fin 1) := by
        obtain rfl : i = (0 : Fin 1) := Subsingleton.elim (α := Fin 1) _ _
        let v' : Vec ℚ 1 := v
        let w' : Vec ℚ 1 := w
        change (m1 (1 + u 0) *ᵥ v' + m1 (1 + x) *ᵥ w') 0 = (1 + u 0) * v' 0 + (1 + x) * w' 0
        simp [mulVec, dotProduct, m1]
      rw [this]; ring
    rw [e1, e2]
    refine this.congr (Small.triv.mono fun a _ _ => ?_)
    change (x + d a (0 : Fin 1)) + (u 0 + e a (0 : Fin 1)) + (x + d a (0 : Fin 1)) * (u 0 + e a (0 : Fin 1)) - (x + u 0 + x * u 0) = _
    ring
  fine t _ d v e w _ _ := Small.triv.mono fun _ _ _ => rfl

/-- a solver for `bent` without the filter. -/
def bentDDP : DDP bent := { DDP.new (Data.zero bent) with c := { (DDP.new (Data.zero bent)).c with useFilter := false } }

/-- the trajectory of `bent` with the control `0`; it satisfies the dynamics. -/
def bentX : Traj bent := fun _ => (1 : ℚ)

theorem bentDDP_ok : ((retry (ddp bent) llt1 20 (bentDDP.start (some bentX) none false 0)).map fun r =>
      (r.1, decide (bentQ (r.2.xs 0) = 1 ∧ bentQ (r.2.xs 1) = bentQ (bent.calcR 0 (r.2.xs 0) (r.2.us 0)).xnext),
        decide (bad (sumUp 1 (nodeCost bent r.2.xs r.2.us)) = true ∨ bad (trajCost bent r.2.xs r.2.us) = true))) = some (true, true, false) ∧
    ((retry (fddp bent) llt1 20 (bentDDP.start (some bentX) none true 0)).map fun r =>
      (r.1, decide (bentQ (r.2.xs 0) = 1 ∧ bentQ (r.2.xs 1) = bentQ (bent.calcR 0 (r.2.xs 0) (r.2.us 0)).xnext),
        decide (bad (sumUp 1 (nodeCost bent r.2.xs r.2.us)) = true ∨ bad (trajCost bent r.2.xs r.2.us) = true), r.2.feas)) =
      some (true, true, false, true) := by
  decide +kernel

theorem bent_noBlowUp {X : Traj bent} {U : Ctrls bent} (h : ¬ (bad (sumUp 1 (nodeCost bent X U)) = true ∨ bad (trajCost bent X U) = true)) :
    ¬ CostBlowsUp bent X U := by
  rintro (⟨t, ht, h'⟩ | h')
  · obtain rfl : t = 0 := Nat.lt_one_iff.mp ht
    exact h (.inl h')
  · exact h (.inr h')

theorem bent_feasible {X : Traj bent} {U : Ctrls bent} (h : bentQ (X 0) = 1 ∧ bentQ (X 1) = bentQ (bent.calcR 0 (X 0) (U 0)).xnext) : Feasible bent X U :=
  ⟨h.1, fun t ht => by obtain rfl : t = 0 := Nat.lt_one_iff.mp ht; exact h.2⟩

/-- **C95 is met** by DDP and by FDDP on the nonlinear problem `bent`. -/
theorem C95_example :
    (∃ s2, retry (ddp bent) llt1 20 (bentDDP.start (some bentX) none false 0) = some (true, s2) ∧
      Small (AcceptDDP ((ddp bent).push (checked (ddp bent) s2)))) ∧
    (∃ s2, retry (fddp bent) llt1 20 (bentDDP.start (some bentX) none true 0) = some (true, s2) ∧
      Small (AcceptFDDP ((fddp bent).push (checked (fddp bent) s2)))) := by
  obtain ⟨h1, h2⟩ := bentDDP_ok
  constructor
  · cases e : retry (ddp bent) llt1 20 (bentDDP.start (some bentX) none false 0) with
    | none => rw [e] at h1; cases h1
    | some r =>
      obtain ⟨b, s2⟩ := r
      rw [e] at h1
      simp only [Option.map_some, Option.some.injEq, Prod.mk.injEq, decide_eq_false_iff_not, decide_eq_true_eq] at h1
      obtain ⟨rfl, hf, hb⟩ := h1
      exact ⟨s2, rfl, C95_ddp_small_steps llt1_exact bent_sym
        (fun x y => bent_euclid.inj _ _ (by rw [bent_euclid.integrate, bent_euclid.diff, add_sub_cancel])) (fun x => by rw [bent_euclid.diff, sub_self])
        (by decide +kernel) (by decide +kernel) 0 rfl e (bent_feasible hf) (bent_along _ _) (bent_noBlowUp hb)⟩
  · cases e : retry (fddp bent) llt1 20 (bentDDP.start (some bentX) none true 0) with
    | none => rw [e] at h2; cases h2
    | some r =>
      obtain ⟨b, s2⟩ := r
      rw [e] at h2
      simp only [Option.map_some, Option.some.injEq, Prod.mk.injEq, decide_eq_false_iff_not, decide_eq_true_eq] at h2
      obtain ⟨rfl, hf, hb, hfe⟩ := h2
      exact ⟨s2, rfl, C95_fddp_small_steps llt1_exact bent_sym bent_euclid
        (by decide +kernel) (by decide +kernel) 0 rfl e rfl hfe (bent_feasible hf) (bent_along _ _) (bent_noBlowUp hb)⟩

/-- a guess for `bent` with a gap of `99/1000`. -/
def bentGap : Traj bent := fun t => if t = 0 then (1 : ℚ) else (301 / 1000 : ℚ)

/-- its control. -/
def bentU : Ctrls bent := fun _ _ => -3 / 10

/-- the second number is `dg`, the third `missed`. -/
theorem bentGap_ok : (retry (fddp bent) llt1 20 (bentDDP.start (some bentGap) (some bentU) false 0)).map (fun r =>
      (r.1, r.2.feas, ((fddp bent).push (checked (fddp bent) r.2)).m.dg, ((fddp bent).push (checked (fddp bent) r.2)).missed)) =
      some (true, false, 104 / 10000, -9999 / 1000000) := by
  decide +kernel

/-- **C96, witness.**  FDDP without the filter, default thresholds, on `bent` from a guess with a gap: every sufficiently small step decreases the
cost (and the gap, C20), and every sufficiently small step is refused. -/
theorem C96_fddp_refuses : ∃ s2, retry (fddp bent) llt1 20 (bentDDP.start (some bentGap) (some bentU) false 0) = some (true, s2) ∧
    let z := (fddp bent).push (checked (fddp bent) s2)
    (Small fun a => trajCost bent (z.policy.X (z.closes a) a) (z.policy.U (z.closes a) a) < z.e.cost) ∧ Small fun a => ¬ AcceptFDDP z a := by
  have h := bentGap_ok
  cases e : retry (fddp bent) llt1 20 (bentDDP.start (some bentGap) (some bentU) false 0) with
  | none => rw [e] at h; cases h
  | some r =>
    obtain ⟨b, s2⟩ := r
    rw [e] at h
    simp only [Option.map_some, Option.some.injEq, Prod.mk.injEq] at h
    obtain ⟨rfl, hf, hdg, hm⟩ := h
    have hf' : s2.feas = true → Feasible bent s2.xs s2.us := fun h => by rw [hf] at h; cases h
    refine ⟨s2, rfl, ?_, ?_⟩
    · have := (C96_fddp_first_order llt1_exact bent_sym bent_euclid 0 rfl e hf' (bent_along _ _)).1.asc (by rw [hdg, hm]; norm_num)
      exact this.mono fun a _ k => by linarith
    · refine C96_fddp_small_refused llt1_exact bent_sym bent_euclid 0 rfl e rfl hf' (bent_along _ _) (.inl ?_)
      rw [hdg, hm]
      have e1 : bentDDP.c.par.thAccept = 1 / 10 := by decide +kernel
      have e2 : bentDDP.c.par.thGrad < 1 / 1000 := by decide +kernel
      rw [e1]
      exact ⟨by norm_num, e2.trans (by norm_num), by norm_num⟩

end Mim.Ex
