import Verif.Props.ProxDescent

/-!
# C97: a nonlinear constrained problem
-/
set_option linter.unusedSectionVars false
set_option linter.unusedSimpArgs false
set_option autoImplicit false

namespace Mim.Ex
open Spec Matrix

/-- A nonlinear constrained problem: `x⁺ = x + u + x u`, unit quadratic costs, one step from `x = 1`, constraint `u + x u + u² ≥ b`. -/
def bentB (b : ℚ) : Problem ℚ where
  T := 1
  ndx := 1
  nu _ := 1
  ng _ := 1
  X := ℚ
  integrate x d := x + d 0
  diff a b := fun _ => b - a
  zeroX := 0
  x0 := 1
  calcR _ x u := ⟨(x * x + u 0 * u 0) / 2, x + u 0 + x * u 0, fun _ => u 0 + x * u 0 + u 0 * u 0⟩
  calcDiffR _ x u := ⟨fun _ => x, fun _ => u 0, m1 1, m1 0, m1 1, m1 (1 + u 0), m1 (1 + x), m1 (u 0), m1 (1 + x + 2 * u 0)⟩
  calcT x := ⟨x * x / 2, fun _ => 0⟩
  calcDiffT x := ⟨fun _ => x, m1 1, m1 0⟩
  badX _ := false
  lb t _ := if t < 1 then some b else none
  ub _ _ := none

/-- the same with `b = 1/2`: active at the solution. -/
abbrev bentC : Problem ℚ := bentB (1 / 2)

theorem bentC_derivs (b : ℚ) (xs : Traj (bentB b)) (us : Ctrls (bentB b)) : TrueDerivs (bentB b) xs us where
  cost t ht d e := (bent_derivs (fun t => (xs t : ℚ)) us).cost t ht d e
  term d := (bent_derivs (fun t => (xs t : ℚ)) us).term d
  gap t ht d d' e i := (bent_derivs (fun t => (xs t : ℚ)) us).gap t ht d d' e i

theorem bentC_conDerivs (b : ℚ) (xs : Traj (bentB b)) (us : Ctrls (bentB b)) : TrueConDerivs (bentB b) xs us where
  run t _ d e i := by
    let x : ℚ := xs t
    let u : Vec ℚ 1 := us t
    let d' : Vec ℚ 1 := d
    let e' : Vec ℚ 1 := e
    refine Deriv0.of_sq |d' 0 * e' 0 + e' 0 * e' 0| fun a _ _ => ?_
    have h : ((bentB b).calcR t ((bentB b).integrate (xs t) (sv a d)) (us t + sv a e)).g i =
      (u 0 + a * e' 0) + (x + a * d' 0) * (u 0 + a * e' 0) + (u 0 + a * e' 0) * (u 0 + a * e' 0) := rfl
    have h' : ((bentB b).calcR t (xs t) (us t)).g i = u 0 + x * u 0 + u 0 * u 0 := rfl
    have h'' : (((bentB b).calcDiffR t (xs t) (us t)).Gx *ᵥ d + ((bentB b).calcDiffR t (xs t) (us t)).Gu *ᵥ e) i = u 0 * d' 0 + (1 + x + 2 * u 0) * e' 0 := by
      obtain rfl : i = (0 : Fin 1) := Subsingleton.elim (α := Fin 1) _ _
      change (m1 (u 0) *ᵥ d' + m1 (1 + x + 2 * u 0) *ᵥ e') 0 = _
      simp [mulVec, dotProduct, m1]
    rw [h, h', h'', show (u 0 + a * e' 0) + (x + a * d' 0) * (u 0 + a * e' 0) + (u 0 + a * e' 0) * (u 0 + a * e' 0) - (u 0 + x * u 0 + u 0 * u 0) -
      a * (u 0 * d' 0 + (1 + x + 2 * u 0) * e' 0) = (d' 0 * e' 0 + e' 0 * e' 0) * (a * a) by ring, abs_mul, abs_of_nonneg (mul_self_nonneg a)]
  term d i := by
    let d' : Vec ℚ 1 := d
    refine Deriv0.of_sq 0 fun a _ _ => ?_
    have h : ((bentB b).calcT ((bentB b).integrate (xs (bentB b).T) (sv a d))).g i = 0 := rfl
    have h' : ((bentB b).calcT (xs (bentB b).T)).g i = 0 := rfl
    have h'' : (((bentB b).calcDiffT (xs (bentB b).T)).Gx *ᵥ d) i = 0 := by
      obtain rfl : i = (0 : Fin 1) := Subsingleton.elim (α := Fin 1) _ _
      change (m1 0 *ᵥ d') 0 = _
      simp [mulVec, dotProduct, m1]
    rw [h, h', h'']
    simp

theorem bentQuad (x u w : Vec ℚ 1) : (x ⬝ᵥ (m1 1 *ᵥ x) + 2 * (x ⬝ᵥ (m1 0 *ᵥ u)) + u ⬝ᵥ (m1 1 *ᵥ u)) + w ⬝ᵥ (m1 1 *ᵥ w) =
    x 0 * x 0 + u 0 * u 0 + w 0 * w 0 := by
  rw [dot1, dot1, dot1, dot1, mul1, mul1, mul1, mul1]
  ring

theorem bentC_curv (b : ℚ) (xs : Traj (bentB b)) (us : Ctrls (bentB b)) (dx : ℕ → Vec ℚ (bentB b).ndx) (du : (t : ℕ) → Vec ℚ ((bentB b).nu t)) :
    curv (bentB b) xs us dx du = (dx 0 : Vec ℚ 1) (0 : Fin 1) * (dx 0 : Vec ℚ 1) (0 : Fin 1) + (du 0 : Vec ℚ 1) (0 : Fin 1) * (du 0 : Vec ℚ 1) (0 : Fin 1) + (dx 1 : Vec ℚ 1) (0 : Fin 1) * (dx 1 : Vec ℚ 1) (0 : Fin 1) := by
  have e : Finset.range (bentB b).T = Finset.range 1 := rfl
  unfold curv
  rw [e, Finset.sum_range_one]
  exact bentQuad (dx 0) (du 0) (dx 1)

theorem bentC_pos (b : ℚ) (xs : Traj (bentB b)) (us : Ctrls (bentB b)) : ReducedPos (bentB b) xs us := by
  intro dx du _ _ hu
  obtain ⟨t, ht, hn⟩ := hu
  obtain rfl : t = 0 := Nat.lt_one_iff.mp ht
  rw [bentC_curv]
  have h0 : (du 0 : Vec ℚ 1) (0 : Fin 1) ≠ 0 := fun h => hn (funext fun i => by
    obtain rfl : i = (0 : Fin 1) := Subsingleton.elim (α := Fin 1) _ _
    exact h)
  have := mul_self_pos.mpr h0
  have := mul_self_nonneg ((dx 0 : Vec ℚ 1) (0 : Fin 1))
  have := mul_self_nonneg ((dx 1 : Vec ℚ 1) (0 : Fin 1))
  nlinarith

/-- an exact QP solver that solves one QP: it answers only if its answer satisfies the KKT conditions. -/
def qpBent : PSolve ℚ := fun _ m =>
  let x : FVec ℚ := fun i => if i = 0 then -3 / 2 else 1 / 4
  let y : FVec ℚ := fun _ => -3 / 2
  let z : FVec ℚ := fun i => if i = 0 then -13 / 8 else 0
  if denseCheck 2 1 2 m x y z then some ⟨x, y, z, 1, 0, 0⟩ else none

theorem qpBent_exact : QPExact 2 1 2 qpBent := by
  intro n m a h
  unfold qpBent at h
  simp only [] at h
  split at h
  · rename_i hc
    cases h
    exact denseCheck_sound hc
  · cases h

/-- a guess for `bentC` with a gap and a violated constraint. -/
def bentCGuess : Traj bentC := fun t => if t = 0 then (1 : ℚ) else (3 : ℚ)

/-- a new solver for `bentC` with the filter (size 4), or with the merit function and weights 10. -/
def bentCSolver (f : Bool) : PROX bentC :=
  if f then (PROX.new (Data.zero bentC)).setFilterSize 4
  else { PROX.new (Data.zero bentC) with c := { (PROX.new (Data.zero bentC)).c with useFilter := false, muDyn := 10, muCon := 10 } }

/-- first direction from that guess. -/
def bentCDir (f : Bool) : Option (Bool × PROX bentC) :=
  PROX.retry qpBent 5 true { (bentCSolver f).start (some bentCGuess) none 0 with wasFeas := false }

def bentCStart (f : Bool) : PROX bentC := (bentCSolver f).start (some bentCGuess) none 0

theorem bentCDir_ok (f : Bool) : (bentCDir f).map (fun r => (r.1, (r.2.dx 1 (0 : Fin 1) : ℚ), (r.2.du 0 (0 : Fin 1) : ℚ), (r.2.lam 1 (0 : Fin 1) : ℚ),
    (r.2.y 0 (0 : Fin 1) : ℚ), (r.2.y 1 (0 : Fin 1) : ℚ))) =
    some (true, -3 / 2, 1 / 4, 3 / 2, -13 / 8, 0) := by cases f <;> decide +kernel

theorem bentCStart_ok (f : Bool) : (decide (bad (sumUp 1 (nodeCost bentC (bentCStart f).xs (bentCStart f).us)) = true ∨
      bad (trajCost bentC (bentCStart f).xs (bentCStart f).us) = true),
    shootGapNorm bentC (bentCStart f).xs (bentCStart f).us, conViol bentC (bentCStart f).xs (bentCStart f).us) = (false, 2, 1 / 2) := by
  cases f <;> decide +kernel

/-- **C97 is met**: the first line search on `bentC` from a guess with a gap and a violated constraint that is active at the solution of the QP,
with the filter (size 4) and with the merit function. -/
theorem C97_example (f : Bool) : ∃ s1, PROX.retry qpBent 5 true { bentCStart f with wasFeas := false } = some (true, s1) ∧
    (s1.y 0 (0 : Fin 1) : ℚ) = -13 / 8 ∧ Small (PROX.Acceptable s1.pushFilter) := by
  have h := bentCDir_ok f
  have h' := bentCStart_ok f
  cases e : bentCDir f with
  | none => rw [e] at h; cases h
  | some r =>
    obtain ⟨b, s1⟩ := r
    rw [e] at h
    simp only [Option.map_some, Option.some.injEq, Prod.mk.injEq, decide_eq_false_iff_not] at h h'
    obtain ⟨rfl, hx, hu, hl, hy0, hy1⟩ := h
    obtain ⟨hb, hg, -⟩ := h'
    refine ⟨s1, e, hy0, ?_⟩
    have hb : ¬ CostBlowsUp bentC (bentCStart f).xs (bentCStart f).us := by
      rintro (⟨t, ht, h⟩ | h)
      · obtain rfl : t = 0 := Nat.lt_one_iff.mp ht
        exact hb (.inl h)
      · exact hb (.inr h)
    have hk : ¬ (IsPKKT bentC 0 (bentCStart f).xs (bentCStart f).us s1.lam s1.y ∧ Complementary bentC (bentCStart f).xs (bentCStart f).us s1.y) := by
      rintro ⟨hk, -⟩
      have h0 : shootGapNorm bentC (bentCStart f).xs (bentCStart f).us = 0 := by
        unfold shootGapNorm
        rw [sumUp_exact]
        refine Finset.sum_eq_zero fun t ht => ?_
        rw [norm1_exact]
        exact Finset.sum_eq_zero fun i _ => le_antisymm (hk.gaps t (Finset.mem_range.mp ht) i) (abs_nonneg _)
      rw [h0] at hg
      norm_num at hg
    cases f with
    | true =>
      exact (PROX.C97_prox_filter_small_steps (P := bentC) (s0 := bentCSolver true) (m := 1) (.setFilterSize _ _ (.new _)) (by decide) (PROX.ColsOK.of_const (n := 1) fun _ => rfl)
        (qpBent_exact : QPExact bentC.nVars bentC.nEq bentC.nIn qpBent) ((PROX.FilterWF.new _).grow 4 (by decide)) rfl PROX.AtHead.start e
        (bentC_derivs _ _ _) (bentC_conDerivs _ _ _) (bentC_pos _ _ _) hb).resolve_left hk
    | false =>
      refine (PROX.C97_prox_merit_small_steps (P := bentC) (s0 := bentCSolver false) (m := 1) (.setParams _ _ rfl (.new _)) (by decide) (PROX.ColsOK.of_const (n := 1) fun _ => rfl)
        (qpBent_exact : QPExact bentC.nVars bentC.nEq bentC.nIn qpBent) rfl PROX.AtHead.start e
        (bentC_derivs _ _ _) (bentC_conDerivs _ _ _) (bentC_pos _ _ _) hb (by decide +kernel) (by decide +kernel) (.inr ⟨fun t ht i => ?_, fun t ht i => ?_, ?_⟩)).resolve_left hk
      · obtain rfl : t = 0 := Nat.lt_one_iff.mp ht
        obtain rfl : i = (0 : Fin 1) := Subsingleton.elim (α := Fin 1) _ _
        change |(s1.lam 1 (0 : Fin 1) : ℚ)| < 10
        rw [hl]; norm_num
      · obtain rfl : i = (0 : Fin 1) := Subsingleton.elim (α := Fin 1) _ _
        change |(s1.y t (0 : Fin 1) : ℚ)| < 10
        rcases Nat.le_one_iff_eq_zero_or_eq_one.mp ht with rfl | rfl
        · rw [hy0]; norm_num
        · rw [hy1]; norm_num
      · rw [bentC_curv]
        have := mul_self_nonneg ((s1.dx 0 : Vec ℚ 1) (0 : Fin 1))
        have := mul_self_nonneg ((s1.du 0 : Vec ℚ 1) (0 : Fin 1))
        have := mul_self_nonneg ((s1.dx 1 : Vec ℚ 1) (0 : Fin 1))
        nlinarith

end Mim.Ex
