import Verif.Props.CSQPDescent
import Verif.Props.ProxDescentEx
import Verif.Props.QPResidual

/-!
# C98: nonlinear constrained problems
-/
set_option linter.unusedSectionVars false
set_option linter.unusedSimpArgs false
set_option autoImplicit false

namespace Mim.Ex
open Spec Matrix QP CSQP

/-- a default-constructed solver (time limit 1, two ADMM iterations). -/
def bentA : CSQP bentC :=
  let s := CSQP.new (Data.zero _) (fun _ _ => 0) (fun _ _ => 0) 0
  { s with c := { s.c with maxQP := 2, maxTime := 1 } }

/-- the beginning of a solve from a guess with a gap and a violated constraint. -/
noncomputable def bentAStart : CSQP bentC := bentA.start world (some bentCGuess) none 1 (1 / 10 ^ 9)

theorem bentA_dir : (direction world 20 true (entry bentAStart)).map (fun r => r.1.isNone) = some true := by decide +kernel

theorem bentAStart_ok : (decide (bad (sumUp 1 (nodeCost bentC bentAStart.xs bentAStart.us)) = true ∨
      bad (trajCost bentC bentAStart.xs bentAStart.us) = true),
    shootGapNorm bentC bentAStart.xs bentAStart.us, conViol bentC bentAStart.xs bentAStart.us) = (false, 2, 1 / 2) := by decide +kernel

/-- **C98 (a) is met**: the first line search of a default-constructed solver whose ADMM loop stops after two iterations. -/
theorem C98_example_gaps : ∃ s1, direction world 20 true (entry bentAStart) = some (none, s1) ∧
    Small (CSQP.Acceptable (checked s1).pushFilter.setMerit) := by
  have h := bentA_dir
  have h' := bentAStart_ok
  cases e : direction world 20 true (entry bentAStart) with
  | none => rw [e] at h; cases h
  | some r =>
    obtain ⟨o, s1⟩ := r
    rw [e] at h
    cases o with
    | some o => cases h
    | none =>
      refine ⟨s1, rfl, ?_⟩
      simp only [Prod.mk.injEq, decide_eq_false_iff_not] at h'
      obtain ⟨hb, hg, -⟩ := h'
      refine C98_csqp_gaps_small_steps (s0 := bentA) (CSQP.FilterWF.new (P := bentC) (Data.zero _) (fun _ _ => 0) (fun _ _ => 0) 0) rfl CSQP.AtHead.start (by decide +kernel) (by decide +kernel)
        (by decide +kernel) e (.inr rfl) (bentC_derivs _ _ _) (bentC_conDerivs _ _ _) ?_ ?_
      · rintro (⟨t, ht, h⟩ | h)
        · obtain rfl : t = 0 := Nat.lt_one_iff.mp ht
          exact hb (.inl h)
        · exact hb (.inr h)
      · exact fun h => absurd (hg.symm.trans h) (by norm_num)

/-- a solver for the problem with the inactive bound `-10`: filter, or merit function with weights 10; no regularization, one ADMM iteration. -/
def bentF (f : Bool) : CSQP (bentB (-10)) :=
  let s := CSQP.new (Data.zero _) (fun _ _ => 0) (fun _ _ => 0) 0
  { s with c := { s.c with maxQP := 2, maxTime := 1, removeReg := true, useFilter := f, muDyn := 10, muCon := 10 } }

/-- the beginning of a solve from `x = (1, -1)`, `u = -1`: no gap, no violation. -/
noncomputable def bentFStart (f : Bool) : CSQP (bentB (-10)) := (bentF f).start world (some fun t => if t = 0 then (1 : ℚ) else (-1 : ℚ)) (some fun _ _ => -1) 1 0

theorem bentF_dir (f : Bool) : (direction world 20 true (entry (bentFStart f))).map (fun r => (r.1.isNone,
    [(r.2.q.v.dx 0 (0 : Fin 1) : ℚ), (r.2.q.v.dx 1 (0 : Fin 1) : ℚ), (r.2.q.v.du 0 (0 : Fin 1) : ℚ), (r.2.q.v.y 0 (0 : Fin 1) : ℚ),
    (r.2.q.v.y 1 (0 : Fin 1) : ℚ), r.2.preg, r.2.dreg])) =
    some (true, [0, 6 / 5, 3 / 5, 0, 0, 0, 0]) := by cases f <;> decide +kernel

theorem bentFStart_ok (f : Bool) : decide (bad (sumUp 1 (nodeCost (bentB (-10)) (bentFStart f).xs (bentFStart f).us)) = true ∨
      bad (trajCost (bentB (-10)) (bentFStart f).xs (bentFStart f).us) = true) = false := by
  cases f <;> decide +kernel

theorem bentFStart_feas (f : Bool) : shootGapNorm (bentB (-10)) (bentFStart f).xs (bentFStart f).us = 0 ∧
    violation (bentB (-10)) (bentFStart f).xs (bentFStart f).us = 0 := by
  cases f <;> constructor <;> decide +kernel

theorem bentFStart_u (f : Bool) : (bentFStart f).us 0 = (fun _ => -1 : Vec ℚ 1) := by
  cases f <;> (funext i; rw [fin1 i]; decide +kernel)

theorem bentFStart_x (f : Bool) : (bentFStart f).xs 0 = (1 : ℚ) ∧ (bentFStart f).xs 1 = (-1 : ℚ) := by
  cases f <;> exact ⟨rfl, rfl⟩

theorem bentFStart_gap (f : Bool) : shootGap (bentB (-10)) (bentFStart f).xs (bentFStart f).us 0 = (fun _ => 0 : Vec ℚ 1) := by
  cases f <;> (funext i; rw [fin1 i]; decide +kernel)

/-- the two ADMM iterations end with the exact solution of the QP. -/
theorem bentF_kkt (f : Bool) {s1 : CSQP (bentB (-10))} (e : direction world 20 true (entry (bentFStart f)) = some (none, s1)) :
    QPKKT s1.data s1.e.fs s1.preg s1.dreg s1.q.v.dx s1.q.v.du (fun _ _ => 1 / 5) s1.q.v.y ∧ s1.preg = 0 ∧ s1.dreg = 0 ∧
    s1.q.v.y 0 = (fun _ => 0 : Vec ℚ 1) := by
  have h := bentF_dir f
  rw [e] at h
  simp only [Option.map_some, Option.some.injEq, Prod.mk.injEq, List.cons.injEq] at h
  obtain ⟨-, hx0, hx1, hu, hy0, hy1, hp, hdr, -⟩ := h
  obtain ⟨X0, X1⟩ := bentFStart_x f
  have U0 := bentFStart_u f
  obtain ⟨he, e1, e2, -⟩ := CSQP.direction_facts e
  have hrd : s1.data.rd 0 = (bentB (-10)).calcDiffR 0 ((1 : ℚ) : (bentB (-10)).X) (fun _ => -1 : Vec ℚ 1) := by
    rw [← U0, ← X0, ← e1, ← e2]; exact he.diff.run 0 Nat.one_pos
  have htd : s1.data.td = (bentB (-10)).calcDiffT ((-1 : ℚ) : (bentB (-10)).X) := by
    rw [← X1, ← e1]; exact he.diff.ter
  have hrc : s1.data.run 0 = (bentB (-10)).calcR 0 ((1 : ℚ) : (bentB (-10)).X) (fun _ => -1 : Vec ℚ 1) := by
    rw [← U0, ← X0, ← e1, ← e2]; exact he.fresh.run 0 Nat.one_pos
  have hfs : s1.e.fs 1 = (fun _ => 0 : Vec ℚ 1) := by
    rw [← bentFStart_gap f, ← e1, ← e2]; exact he.fs 0 Nat.one_pos
  have fx : (s1.data.rd 0).Fx = m1 0 := by
    rw [hrd]; change m1 _ = m1 _; congr 1; decide +kernel
  have fu : (s1.data.rd 0).Fu = m1 2 := by
    rw [hrd]; change m1 _ = m1 _; congr 1; decide +kernel
  have gx : (s1.data.rd 0).Gx = m1 (-1) := by
    rw [hrd]; rfl
  have gu : (s1.data.rd 0).Gu = m1 0 := by
    rw [hrd]; change m1 _ = m1 _; congr 1; decide +kernel
  have g : (s1.data.run 0).g = (fun _ => -1 : Vec ℚ 1) := by
    rw [hrc]; funext i; exact (by decide +kernel : (-1 + 1 * (-1) + (-1) * (-1) : ℚ) = -1)
  have lu : (s1.data.rd 0).Lu = (fun _ => -1 : Vec ℚ 1) := by rw [hrd]; rfl
  have ltx : s1.data.td.Lx = (fun _ => -1 : Vec ℚ 1) := by rw [htd]; rfl
  have lux : (s1.data.rd 0).Lxu = m1 0 := by rw [hrd]; rfl
  have luu : (s1.data.rd 0).Luu = m1 1 := by rw [hrd]; rfl
  have txx : s1.data.td.Lxx = m1 1 := by rw [htd]; rfl
  have tgx : s1.data.td.Gx = m1 0 := by rw [htd]; rfl
  have z0 : s1.q.v.y 0 = (fun _ => 0 : Vec ℚ 1) := funext fun i => by rw [fin1 i]; exact hy0
  have z1 : s1.q.v.y 1 = (fun _ => 0 : Vec ℚ 1) := funext fun i => by rw [fin1 i]; exact hy1
  have a0 : s1.q.v.dx 0 = (fun _ => 0 : Vec ℚ 1) := funext fun i => by rw [fin1 i]; exact hx0
  have a1 : s1.q.v.dx 1 = (fun _ => 6 / 5 : Vec ℚ 1) := funext fun i => by rw [fin1 i]; exact hx1
  have b0 : s1.q.v.du 0 = (fun _ => 3 / 5 : Vec ℚ 1) := funext fun i => by rw [fin1 i]; exact hu
  have t0 : ∀ t, t < (bentB (-10)).T → t = 0 := fun t ht => Nat.lt_one_iff.mp ht
  have cone : ∀ (t : ℕ) (c : Vec ℚ 1), t ≤ 1 → NormalCone ((bentB (-10)).lb t) ((bentB (-10)).ub t) c (fun _ => 0) := fun t c _ i =>
    ⟨fun h => absurd h (lt_irrefl _), fun h => absurd h (lt_irrefl _)⟩
  have k1 : (fun _ => 6 / 5 : Vec ℚ 1) = m1 0 *ᵥ (fun _ => 0 : Vec ℚ 1) + m1 2 *ᵥ (fun _ => 3 / 5 : Vec ℚ 1) + (fun _ => 0 : Vec ℚ 1) := by
    decide +kernel
  have k2 : ∀ i, (-10 : ℚ) ≤ ((fun _ => -1 : Vec ℚ 1) + (m1 (-1) *ᵥ (fun _ => 0 : Vec ℚ 1) + m1 0 *ᵥ (fun _ => 3 / 5 : Vec ℚ 1))) i := by
    decide +kernel
  have k3 : (m1 0)ᵀ *ᵥ (fun _ => 0 : Vec ℚ 1) + m1 1 *ᵥ (fun _ => 3 / 5 : Vec ℚ 1) + (0 : ℚ) • (fun _ => 3 / 5 : Vec ℚ 1) +
      (fun _ => -1 : Vec ℚ 1) + (m1 2)ᵀ *ᵥ (fun _ => 1 / 5 : Vec ℚ 1) + (m1 0)ᵀ *ᵥ (fun _ => 0 : Vec ℚ 1) = 0 := by decide +kernel
  have k4 : m1 1 *ᵥ (fun _ => 6 / 5 : Vec ℚ 1) + (0 : ℚ) • (fun _ => 6 / 5 : Vec ℚ 1) + (fun _ => -1 : Vec ℚ 1) +
      (m1 0)ᵀ *ᵥ (fun _ => 0 : Vec ℚ 1) = (fun _ => 1 / 5 : Vec ℚ 1) := by decide +kernel
  refine ⟨⟨⟨a0, fun t ht => ?_, fun t ht => ?_, ?_⟩, fun t h0 ht => ?_, fun t ht => ?_, ?_, fun t ht => ?_, ?_⟩, hp, hdr, z0⟩
  · obtain rfl := t0 t ht
    rw [hfs, fx, fu, a0, a1, b0]
    exact k1
  · obtain rfl := t0 t ht
    intro i
    refine ⟨fun l hl => ?_, fun u hu => (by cases hu)⟩
    cases hl
    change (-10 : ℚ) ≤ ((s1.data.run 0).g + ((s1.data.rd 0).Gx *ᵥ s1.q.v.dx 0 + (s1.data.rd 0).Gu *ᵥ s1.q.v.du 0)) i
    rw [g, gx, gu, a0, b0]
    exact k2 i
  · intro i
    exact ⟨fun l hl => (by cases hl), fun u hu => (by cases hu)⟩
  · obtain rfl := t0 t ht
    exact absurd h0 (lt_irrefl _)
  · obtain rfl := t0 t ht
    rw [luu, lux, fu, gu, a0, b0, z0, hdr, lu]
    exact k3
  · change s1.data.td.Lxx *ᵥ s1.q.v.dx 1 + s1.preg • s1.q.v.dx 1 + s1.data.td.Lx + s1.data.td.Gxᵀ *ᵥ s1.q.v.y 1 = _
    rw [txx, tgx, a1, z1, hp, ltx]
    exact k4
  · obtain rfl := t0 t ht
    rw [z0]; exact cone 0 _ (by omega)
  · change NormalCone _ _ _ (s1.q.v.y 1)
    rw [z1]; exact cone 1 _ le_rfl

/-- **C98 (b), (c) are met**: the iterate is feasible, the QP is solved exactly and the multipliers do not make the iterate stationary. -/
theorem C98_example (f : Bool) : ∃ s1, direction world 20 true (entry (bentFStart f)) = some (none, s1) ∧
    Small (CSQP.Acceptable (checked s1).pushFilter.setMerit) := by
  have h := bentF_dir f
  have hb := of_decide_eq_false (bentFStart_ok f)
  obtain ⟨hg, hv⟩ := bentFStart_feas f
  cases e : direction world 20 true (entry (bentFStart f)) with
  | none => rw [e] at h; cases h
  | some r =>
    obtain ⟨o, s1⟩ := r
    rw [e] at h
    cases o with
    | some o => cases h
    | none =>
      refine ⟨s1, rfl, ?_⟩
      obtain ⟨hq, hp, hdr, hy⟩ := bentF_kkt f e
      have hb : ¬ CostBlowsUp (bentB (-10)) (bentFStart f).xs (bentFStart f).us := by
        rintro (⟨t, ht, h⟩ | h)
        · obtain rfl : t = 0 := Nat.lt_one_iff.mp ht
          exact hb (.inl h)
        · exact hb (.inr h)
      have hk : ¬ (IsPKKT (bentB (-10)) 0 (bentFStart f).xs (bentFStart f).us (fun _ _ => 1 / 5) s1.q.v.y ∧
          Complementary (bentB (-10)) (bentFStart f).xs (bentFStart f).us s1.q.v.y) := by
        rintro ⟨hk, -⟩
        have := hk.stat_u 0 Nat.one_pos (0 : Fin 1)
        rw [(bentFStart_x f).1, bentFStart_u f, hy] at this
        exact absurd this (by decide +kernel)
      cases f with
      | true =>
        exact (C98_csqp_filter_small_steps (s0 := bentF true) (CSQP.FilterWF.new (P := bentB (-10)) (Data.zero _) (fun _ _ => 0) (fun _ _ => 0) 0) rfl
          CSQP.AtHead.start e hq hp.ge hdr.ge (bentC_derivs _ _ _) (bentC_conDerivs _ _ _) (bentC_pos _ _ _) hb).resolve_left hk
      | false =>
        refine (C98_csqp_merit_small_steps (s0 := bentF false) rfl CSQP.AtHead.start e hq hp.ge hdr.ge (bentC_derivs _ _ _) (bentC_conDerivs _ _ _)
          (bentC_pos _ _ _) hb ?_ ?_ (.inl ⟨hg, hv⟩)).resolve_left hk
        · change (0 : ℚ) ≤ if _ then _ else 10
          rw [if_neg (by decide +kernel)]; norm_num
        · change (0 : ℚ) ≤ if _ then _ else 10
          rw [if_neg (by decide +kernel)]; norm_num

end Mim.Ex
