import Verif.Spec.DescentCon
import Verif.Lemmas.Descent
import Verif.Lemmas.DescentAlong
import Verif.Props.CSQPReturn
import Verif.Props.CSQPRecognise
import Verif.Props.CSQPFilter

/-!
# First-order behaviour of the constraint violation, and the slope of the cost along the solution of the QP
-/
set_option linter.unusedSectionVars false
set_option linter.unusedSimpArgs false
set_option autoImplicit false

namespace Mim
open Spec Matrix
variable {K : Type} [Field K] [LinearOrder K] [IsStrictOrderedRing K] {P : Problem K}

theorem conViol_ex (xs : Traj P) (us : Ctrls P) : conViol P xs us = violation P xs us := by
  letI : SqrtOps K := ⟨fun x => x⟩
  exact conViol_exact xs us

namespace Spec

/-- `rowViol` is `2`-Lipschitz. -/
theorem rowViol_lip (lb ub : Option K) (g h : K) : rowViol lb ub g ≤ rowViol lb ub h + 2 * |g - h| := by
  have h1 := le_abs_self (g - h)
  have h2 := neg_abs_le (g - h)
  have h0 := abs_nonneg (g - h)
  have hl : ∀ l : K, max (l - g) 0 ≤ max (l - h) 0 + |g - h| := fun l =>
    max_le (by have := le_max_left (l - h) 0; linarith) (by have := le_max_right (l - h) 0; linarith)
  have hu : ∀ w : K, max (g - w) 0 ≤ max (h - w) 0 + |g - h| := fun w =>
    max_le (by have := le_max_left (h - w) 0; linarith) (by have := le_max_right (h - w) 0; linarith)
  unfold rowViol
  cases lb with
  | none =>
    cases ub with
    | none => simp only [Option.elim]; linarith
    | some w => simp only [Option.elim]; have := hu w; linarith
  | some l =>
    cases ub with
    | none => simp only [Option.elim]; have := hl l; linarith
    | some w => simp only [Option.elim]; have := hl l; have := hu w; linarith

/-- `rowViol` is convex; seen from a point without violation. -/
theorem rowViol_toward (lb ub : Option K) {g c a : K} (ha : 0 ≤ a) (ha1 : a ≤ 1) (hb : (∀ l, lb = some l → l ≤ g + c) ∧ ∀ u, ub = some u → g + c ≤ u) :
    rowViol lb ub (g + a * c) ≤ (1 - a) * rowViol lb ub g := by
  have h1 : 0 ≤ 1 - a := by linarith
  have hl : ∀ l : K, l ≤ g + c → max (l - (g + a * c)) 0 ≤ (1 - a) * max (l - g) 0 := fun l hlc =>
    max_le (by have := mul_le_mul_of_nonneg_left (le_max_left (l - g) 0) h1; nlinarith) (mul_nonneg h1 (le_max_right _ _))
  have hu : ∀ w : K, g + c ≤ w → max (g + a * c - w) 0 ≤ (1 - a) * max (g - w) 0 := fun w hwc =>
    max_le (by have := mul_le_mul_of_nonneg_left (le_max_left (g - w) 0) h1; nlinarith) (mul_nonneg h1 (le_max_right _ _))
  unfold rowViol
  cases lb with
  | none =>
    cases ub with
    | none => simp
    | some w => simp only [Option.elim]; have := hu w (hb.2 w rfl); linarith
  | some l =>
    cases ub with
    | none => simp only [Option.elim]; have := hl l (hb.1 l rfl); linarith
    | some w => simp only [Option.elim]; have := hl l (hb.1 l rfl); have := hu w (hb.2 w rfl); linarith

/-- one row along a step whose linearisation ends within the bounds. -/
theorem rowViol_small {lb ub : Option K} {f : K → K} {f0 c : K} (h : Deriv0 f f0 c) (hb : (∀ l, lb = some l → l ≤ f0 + c) ∧ ∀ u, ub = some u → f0 + c ≤ u)
    {ε : K} (hε : 0 < ε) : Small fun a => rowViol lb ub (f a) ≤ (1 - a) * rowViol lb ub f0 + ε * a := by
  refine ((h (ε / 2) (by linarith)).and (Small.le (c := (1 : K)) one_pos)).mono fun a ha k => ?_
  have k1 := rowViol_lip lb ub (f a) (f0 + a * c)
  have k2 := rowViol_toward lb ub ha.le k.2 hb
  have k3 := k.1
  rw [show f a - f0 - a * c = f a - (f0 + a * c) by ring] at k3
  linarith

theorem violation_nonneg (P : Problem K) (xs : Traj P) (us : Ctrls P) : 0 ≤ violation P xs us :=
  add_nonneg (Finset.sum_nonneg fun _ _ => Finset.sum_nonneg fun _ _ => rowViol_nonneg _ _ _) (Finset.sum_nonneg fun _ _ => rowViol_nonneg _ _ _)

/-- a sum of quantities that contract to first order contracts to first order. -/
theorem Small.sumFin {n : ℕ} {f : Fin n → K → K} {f0 : Fin n → K} (h : ∀ i, ∀ ε : K, 0 < ε → Small fun a => f i a ≤ (1 - a) * f0 i + ε * a)
    {ε : K} (hε : 0 < ε) : Small fun a => ∑ i, f i a ≤ (1 - a) * ∑ i, f0 i + ε * a := by
  have hN : 0 < (n : K) + 1 := by positivity
  refine (Small.fin fun i => h i (ε / ((n : K) + 1)) (by positivity)).mono fun a ha k => ?_
  refine (Finset.sum_le_sum fun i _ => k i).trans ?_
  rw [Finset.sum_add_distrib, ← Finset.mul_sum, Finset.sum_const, Finset.card_univ, Fintype.card_fin, nsmul_eq_mul]
  have : (n : K) * (ε / ((n : K) + 1) * a) ≤ ε * a := by
    rw [show (n : K) * (ε / ((n : K) + 1) * a) = (n : K) / ((n : K) + 1) * (ε * a) by field_simp]
    exact mul_le_of_le_one_left (by positivity) ((div_le_one hN).mpr (by linarith))
  linarith

theorem Small.sumRange (n : ℕ) {f : ℕ → K → K} {f0 : ℕ → K} (h : ∀ t, t < n → ∀ ε : K, 0 < ε → Small fun a => f t a ≤ (1 - a) * f0 t + ε * a)
    {ε : K} (hε : 0 < ε) : Small fun a => ∑ t ∈ Finset.range n, f t a ≤ (1 - a) * ∑ t ∈ Finset.range n, f0 t + ε * a := by
  simp only [Finset.sum_range]
  exact Small.sumFin (fun i => h i i.2) hε

variable {xs : Traj P} {us : Ctrls P} {dx : ℕ → Vec K P.ndx} {du : (t : ℕ) → Vec K (P.nu t)}

/-- the step ends within the linearised bounds. -/
structure LinInBox (P : Problem K) (xs : Traj P) (us : Ctrls P) (dx : ℕ → Vec K P.ndx) (du : (t : ℕ) → Vec K (P.nu t)) : Prop where
  run : ∀ t, t < P.T → InBox (P.lb t) (P.ub t) ((P.calcR t (xs t) (us t)).g +
    ((P.calcDiffR t (xs t) (us t)).Gx *ᵥ dx t + (P.calcDiffR t (xs t) (us t)).Gu *ᵥ du t))
  ter : InBox (P.lb P.T) (P.ub P.T) ((P.calcT (xs P.T)).g + (P.calcDiffT (xs P.T)).Gx *ᵥ dx P.T)

/-- the violation contracts to first order. -/
theorem TrueConDerivs.viol (h : TrueConDerivs P xs us) (hb : LinInBox P xs us dx du) {ε : K} (hε : 0 < ε) :
    Small fun a => violation P (stepX P xs dx a) (stepU P us du a) ≤ (1 - a) * violation P xs us + ε * a := by
  have h1 := Small.sumRange P.T (f := fun t a => ∑ i, rowViol (P.lb t i) (P.ub t i) ((P.calcR t (stepX P xs dx a t) (stepU P us du a t)).g i))
    (f0 := fun t => ∑ i, rowViol (P.lb t i) (P.ub t i) ((P.calcR t (xs t) (us t)).g i)) (fun t ht ε hε =>
      Small.sumFin (fun i ε hε => rowViol_small (h.run t ht (dx t) (du t) i) (hb.run t ht i) hε) hε) (ε := ε / 2) (by linarith)
  have h2 := Small.sumFin (f := fun i a => rowViol (P.lb P.T i) (P.ub P.T i) ((P.calcT (stepX P xs dx a P.T)).g i))
    (f0 := fun i => rowViol (P.lb P.T i) (P.ub P.T i) ((P.calcT (xs P.T)).g i)) (fun i ε hε =>
      rowViol_small (h.term (dx P.T) i) (hb.ter i) hε) (ε := ε / 2) (by linarith)
  refine (h1.and h2).mono fun a _ k => ?_
  obtain ⟨k1, k2⟩ := k
  unfold violation
  rw [mul_add]
  linarith

/-- `f` is eventually at most `f0 + ε`. -/
def Upper (f : K → K) (f0 : K) : Prop := ∀ ε : K, 0 < ε → Small fun a => f a ≤ f0 + ε

theorem Upper.add {f g : K → K} {f0 g0 : K} (hf : Upper f f0) (hg : Upper g g0) : Upper (fun a => f a + g a) (f0 + g0) := fun ε hε =>
  ((hf (ε / 2) (by linarith)).and (hg (ε / 2) (by linarith))).mono fun a _ k => by linarith [k.1, k.2]

theorem Upper.sum {ι : Type} (s : Finset ι) {f : ι → K → K} {f0 : ι → K} (h : ∀ i ∈ s, Upper (f i) (f0 i)) :
    Upper (fun a => ∑ i ∈ s, f i a) (∑ i ∈ s, f0 i) := by
  classical
  induction s using Finset.induction_on with
  | empty => intro ε hε; exact Small.triv.mono fun a _ _ => by simpa using hε.le
  | insert i s hi ih =>
    simp only [Finset.sum_insert hi]
    exact (h i (by simp)).add (ih fun j hj => h j (by simp [hj]))

theorem rowViol_upper (lb ub : Option K) {f : K → K} {f0 c : K} (h : Deriv0 f f0 c) : Upper (fun a => rowViol lb ub (f a)) (rowViol lb ub f0) := by
  intro ε hε
  have hc : 0 < |c| + 1 := by positivity
  refine ((h 1 one_pos).and (Small.le (c := ε / (2 * (|c| + 1))) (by positivity))).mono fun a ha k => ?_
  have k1 := rowViol_lip lb ub (f a) f0
  have k2 : |f a - f0| ≤ (|c| + 1) * a := by
    have := abs_add_le (f a - f0 - a * c) (a * c)
    rw [sub_add_cancel, abs_mul, abs_of_pos ha] at this
    linarith [k.1]
  have k3 : a * (2 * (|c| + 1)) ≤ ε := (le_div_iff₀ (by positivity)).mp k.2
  linarith

/-- along any step the violation stays close. -/
theorem TrueConDerivs.violLim (h : TrueConDerivs P xs us) {b : K} (hv : violation P xs us < b) :
    Small fun a => violation P (stepX P xs dx a) (stepU P us du a) < b := by
  have h1 : Upper (fun a => violation P (stepX P xs dx a) (stepU P us du a)) (violation P xs us) :=
    (Upper.sum _ fun t ht => Upper.sum _ fun i _ => rowViol_upper _ _ (h.run t (Finset.mem_range.mp ht) (dx t) (du t) i)).add
      (Upper.sum _ fun i _ => rowViol_upper _ _ (h.term (dx P.T) i))
  exact (h1 ((b - violation P xs us) / 2) (by linarith)).mono fun a _ k => by linarith

theorem TrueConDerivs.violDesc (h : TrueConDerivs P xs us) (hb : LinInBox P xs us dx du) (hv : violation P xs us ≠ 0) :
    Small fun a => violation P (stepX P xs dx a) (stepU P us du a) < violation P xs us := by
  have hp : 0 < violation P xs us := lt_of_le_of_ne (violation_nonneg P xs us) (Ne.symm hv)
  refine (h.viol hb (ε := violation P xs us / 2) (by linarith)).mono fun a ha k => ?_
  nlinarith

/-- the multipliers of active constraints push back at most by the violation they remove. -/
theorem normalCone_le {n : ℕ} {lb ub : Fin n → Option K} {g c y : Vec K n} (h : NormalCone lb ub (g + c) y) :
    -(y ⬝ᵥ c) ≤ ∑ i, |y i| * rowViol (lb i) (ub i) (g i) := by
  unfold dotProduct
  rw [← Finset.sum_neg_distrib]
  refine Finset.sum_le_sum fun i _ => ?_
  rcases lt_trichotomy (y i) 0 with hy | hy | hy
  · have hl := (h i).2 hy
    have : lb i = some (g i + c i) := hl
    rw [this, abs_of_neg hy]
    have h1 : g i + c i - g i ≤ rowViol (some (g i + c i)) (ub i) (g i) := by
      unfold rowViol
      have : 0 ≤ (ub i).elim 0 fun u => max (g i - u) 0 := by cases ub i <;> simp
      have := le_max_left (g i + c i - g i) 0
      rw [Option.elim_some]
      linarith
    nlinarith
  · rw [hy]; simp
  · have hl := (h i).1 hy
    have : ub i = some (g i + c i) := hl
    rw [this, abs_of_pos hy]
    have h1 : g i - (g i + c i) ≤ rowViol (lb i) (some (g i + c i)) (g i) := by
      unfold rowViol
      have : 0 ≤ (lb i).elim 0 fun l => max (l - g i) 0 := by cases lb i <;> simp
      have := le_max_left (g i - (g i + c i)) 0
      rw [Option.elim_some]
      linarith
    nlinarith

end Spec

/-- What a line search along the solution of the QP of the current iterate relies on (`lam`, `y`: multipliers of the QP). -/
structure QPStep (P : Problem K) (preg dreg : K) (xs : Traj P) (us : Ctrls P) (dx : ℕ → Vec K P.ndx) (du : (t : ℕ) → Vec K (P.nu t))
    (lam : ℕ → Vec K P.ndx) (y : (t : ℕ) → Vec K (P.ng t)) (d : Data P) (fs : ℕ → Vec K P.ndx) : Prop where
  calc_ : FreshCalc P d xs us
  diff : FreshDiff P d xs us
  gaps : ∀ t, t < P.T → fs (t + 1) = shootGap P xs us t
  kkt : QPKKT d fs preg dreg dx du lam y

namespace QPStep
variable {preg dreg : K} {xs : Traj P} {us : Ctrls P} {dx : ℕ → Vec K P.ndx} {du : (t : ℕ) → Vec K (P.nu t)}
  {lam : ℕ → Vec K P.ndx} {y : (t : ℕ) → Vec K (P.ng t)} {d : Data P} {fs : ℕ → Vec K P.ndx}

theorem lin (h : QPStep P preg dreg xs us dx du lam y d fs) (t : ℕ) (ht : t < P.T) :
    dx (t + 1) = (P.calcDiffR t (xs t) (us t)).Fx *ᵥ dx t + (P.calcDiffR t (xs t) (us t)).Fu *ᵥ du t + shootGap P xs us t := by
  rw [h.kkt.feas.dyn t ht, h.diff.run t ht, h.gaps t ht]

theorem box (h : QPStep P preg dreg xs us dx du lam y d fs) : LinInBox P xs us dx du where
  run t ht := by
    have := h.kkt.feas.con t ht
    rw [h.calc_.run t ht] at this
    unfold conLin at this
    rwa [h.diff.run t ht] at this
  ter := by
    have := h.kkt.feas.conT
    rwa [h.calc_.ter, h.diff.ter] at this

/-- the slope of the cost, bounded by curvature, gaps and violations weighted by the multipliers. -/
theorem slope_le (h : QPStep P preg dreg xs us dx du lam y d fs) : slope P xs us dx du ≤ -(lqOf d fs preg dreg).curv dx du +
    ∑ t ∈ Finset.range P.T, lam (t + 1) ⬝ᵥ shootGap P xs us t +
    ((∑ t ∈ Finset.range P.T, ∑ i, |y t i| * rowViol (P.lb t i) (P.ub t i) ((P.calcR t (xs t) (us t)).g i)) +
      ∑ i, |y P.T i| * rowViol (P.lb P.T i) (P.ub P.T i) ((P.calcT (xs P.T)).g i)) := by
  by_cases hT0 : 0 < P.T
  swap
  · have hT : P.T = 0 := by omega
    unfold slope LQ.curv
    have hx : dx P.T = 0 := by rw [hT]; exact h.kkt.feas.start
    rw [hx]
    have : Finset.range P.T = ∅ := by rw [hT]; rfl
    rw [this]
    simp only [Finset.sum_empty, dotProduct_zero, mulVec_zero, add_zero, zero_add, neg_zero]
    exact Finset.sum_nonneg fun i _ => mul_nonneg (abs_nonneg _) (rowViol_nonneg _ _ _)
  -- the LQ problem whose gradients contain the multipliers of the constraints
  let Q : LQ K P.T P.ndx P.nu := { lqOf d fs preg dreg with
    gx := fun t => (d.rd t).Lx + (d.rd t).Gxᵀ *ᵥ y t
    gu := fun t => (d.rd t).Lu + (d.rd t).Guᵀ *ᵥ y t
    gT := d.td.Lx + d.td.Gxᵀ *ᵥ y P.T }
  let lam' : ℕ → Vec K P.ndx := fun t => if t = 0 then Q.Hxx 0 *ᵥ dx 0 + Q.Hxu 0 *ᵥ du 0 + Q.gx 0 + (Q.A 0)ᵀ *ᵥ lam 1 else lam t
  have hQ : Q.KKT dx du lam' := by
    refine ⟨fun t ht => ?_, fun t ht => ?_, ?_, fun t ht => h.kkt.feas.dyn t ht⟩
    · cases t with
      | zero => rfl
      | succ t =>
        have := h.kkt.stat_x (t + 1) (by omega) ht
        change ((d.rd (t+1)).Lxx + preg • (1 : Matrix _ _ K)) *ᵥ dx (t+1) + (d.rd (t+1)).Lxu *ᵥ du (t+1) +
          ((d.rd (t+1)).Lx + (d.rd (t+1)).Gxᵀ *ᵥ y (t+1)) + (d.rd (t+1)).Fxᵀ *ᵥ lam (t + 1 + 1) = lam (t + 1)
        rw [← this, add_mulVec, smul_mulVec, one_mulVec]
        abel
    · have := h.kkt.stat_u t ht
      change (d.rd t).Lxuᵀ *ᵥ dx t + ((d.rd t).Luu + dreg • (1 : Matrix _ _ K)) *ᵥ du t + ((d.rd t).Lu + (d.rd t).Guᵀ *ᵥ y t) +
        (d.rd t).Fuᵀ *ᵥ lam (t + 1) = 0
      rw [← this, add_mulVec, smul_mulVec, one_mulVec]
      abel
    · have := h.kkt.stat_T
      change (d.td.Lxx + preg • (1 : Matrix _ _ K)) *ᵥ dx P.T + (d.td.Lx + d.td.Gxᵀ *ᵥ y P.T) = if P.T = 0 then _ else lam P.T
      rw [if_neg (by omega), ← this, add_mulVec, smul_mulVec, one_mulVec]
      abel
  have key := hQ.linear h.kkt.feas.start
  have e1 : Q.curv dx du = (lqOf d fs preg dreg).curv dx du := rfl
  have e2 : ∑ t ∈ Finset.range P.T, lam' (t + 1) ⬝ᵥ Q.c (t + 1) = ∑ t ∈ Finset.range P.T, lam (t + 1) ⬝ᵥ shootGap P xs us t :=
    Finset.sum_congr rfl fun t ht => by rw [← h.gaps t (Finset.mem_range.mp ht)]; rfl
  rw [e1, e2] at key
  have e3 : ∑ t ∈ Finset.range P.T, (Q.gx t ⬝ᵥ dx t + Q.gu t ⬝ᵥ du t) + Q.gT ⬝ᵥ dx P.T = slope P xs us dx du +
      ((∑ t ∈ Finset.range P.T, y t ⬝ᵥ conLin d t (dx t) (du t)) + y P.T ⬝ᵥ (d.td.Gx *ᵥ dx P.T)) := by
    unfold slope
    have : ∀ t ∈ Finset.range P.T, Q.gx t ⬝ᵥ dx t + Q.gu t ⬝ᵥ du t =
        ((P.calcDiffR t (xs t) (us t)).Lx ⬝ᵥ dx t + (P.calcDiffR t (xs t) (us t)).Lu ⬝ᵥ du t) + y t ⬝ᵥ conLin d t (dx t) (du t) := by
      intro t ht
      change ((d.rd t).Lx + (d.rd t).Gxᵀ *ᵥ y t) ⬝ᵥ dx t + ((d.rd t).Lu + (d.rd t).Guᵀ *ᵥ y t) ⬝ᵥ du t = _
      rw [← h.diff.run t (Finset.mem_range.mp ht)]
      unfold conLin
      rw [add_dotProduct, add_dotProduct, dotProduct_add, mulVec_transpose, mulVec_transpose, ← dotProduct_mulVec, ← dotProduct_mulVec]
      ring
    rw [Finset.sum_congr rfl this, Finset.sum_add_distrib]
    change _ + (d.td.Lx + d.td.Gxᵀ *ᵥ y P.T) ⬝ᵥ dx P.T = _
    rw [← h.diff.ter, add_dotProduct, mulVec_transpose, ← dotProduct_mulVec]
    ring
  rw [e3] at key
  have c1 : ∀ t ∈ Finset.range P.T, -(y t ⬝ᵥ conLin d t (dx t) (du t)) ≤
      ∑ i, |y t i| * rowViol (P.lb t i) (P.ub t i) ((P.calcR t (xs t) (us t)).g i) := by
    intro t ht
    rw [← h.calc_.run t (Finset.mem_range.mp ht)]
    exact normalCone_le (h.kkt.compl t (Finset.mem_range.mp ht))
  have c2 : -(y P.T ⬝ᵥ (d.td.Gx *ᵥ dx P.T)) ≤ ∑ i, |y P.T i| * rowViol (P.lb P.T i) (P.ub P.T i) ((P.calcT (xs P.T)).g i) := by
    rw [← h.calc_.ter]
    exact normalCone_le h.kkt.complT
  have c3 := Finset.sum_le_sum c1
  rw [Finset.sum_neg_distrib] at c3
  linarith

/-- at a feasible trajectory a zero step means that the multipliers satisfy the first-order conditions of the problem. -/
theorem stationary (h : QPStep P preg dreg xs us dx du lam y d fs) (hg : shootGapNorm P xs us = 0) (hv : violation P xs us = 0)
    (hu : ∀ t, t < P.T → du t = 0) : IsPKKT P 0 xs us lam y ∧ Complementary P xs us y := by
  have hgap := shootGap_of_norm hg
  have hx : ∀ t, t ≤ P.T → dx t = 0 := by
    intro t
    induction t with
    | zero => intro _; exact h.kkt.feas.start
    | succ t ih => intro ht; rw [h.lin t ht, ih (by omega), hu t ht, hgap t ht]; simp
  have z : ∀ {n : ℕ} {v : Vec K n}, v = 0 → ∀ i, |v i| ≤ 0 := fun h i => by rw [h]; simp
  refine ⟨⟨fun t h0 ht => z ?_, fun t ht => z ?_, z ?_, fun t ht => z (hgap t ht), hv.le⟩, fun t ht => ?_, ?_⟩
  · have := h.kkt.stat_x t h0 ht
    rw [hx t ht.le, hu t ht] at this
    simp only [mulVec_zero, smul_zero, add_zero, zero_add] at this
    rw [← h.diff.run t ht, ← this]; abel
  · have := h.kkt.stat_u t ht
    rw [hx t ht.le, hu t ht] at this
    simp only [mulVec_zero, smul_zero, add_zero, zero_add] at this
    rw [← h.diff.run t ht]; exact this
  · have := h.kkt.stat_T
    rw [hx _ le_rfl] at this
    simp only [mulVec_zero, smul_zero, add_zero, zero_add] at this
    rw [← h.diff.ter, ← this]; abel
  · have := h.kkt.compl t ht
    rw [hx t ht.le, hu t ht, h.calc_.run t ht] at this
    unfold conLin at this
    simp only [mulVec_zero, add_zero] at this
    exact this
  · have := h.kkt.complT
    rw [hx _ le_rfl, h.calc_.ter, mulVec_zero, add_zero] at this
    exact this

theorem curv_eq (h : QPStep P preg dreg xs us dx du lam y d fs) : (lqOf d fs preg dreg).curv dx du = curv P xs us dx du +
    ((∑ t ∈ Finset.range P.T, (preg * (dx t ⬝ᵥ dx t) + dreg * (du t ⬝ᵥ du t))) + preg * (dx P.T ⬝ᵥ dx P.T)) := by
  unfold LQ.curv curv lqOf
  simp only []
  rw [h.diff.ter, add_mulVec, smul_mulVec, one_mulVec, dotProduct_add, dotProduct_smul, smul_eq_mul]
  rw [Finset.sum_congr rfl fun t ht => show _ = (dx t ⬝ᵥ ((P.calcDiffR t (xs t) (us t)).Lxx *ᵥ dx t) + 2 * (dx t ⬝ᵥ ((P.calcDiffR t (xs t) (us t)).Lxu *ᵥ du t)) +
    du t ⬝ᵥ ((P.calcDiffR t (xs t) (us t)).Luu *ᵥ du t)) + (preg * (dx t ⬝ᵥ dx t) + dreg * (du t ⬝ᵥ du t)) from by
      rw [h.diff.run t (Finset.mem_range.mp ht), add_mulVec, add_mulVec, smul_mulVec, smul_mulVec, one_mulVec, one_mulVec, dotProduct_add,
        dotProduct_add, dotProduct_smul, dotProduct_smul, smul_eq_mul, smul_eq_mul]
      ring, Finset.sum_add_distrib]
  ring

/-- at a feasible trajectory that is not stationary the cost decreases. -/
theorem downhill (h : QPStep P preg dreg xs us dx du lam y d fs) (hp : 0 ≤ preg) (hd : 0 ≤ dreg) (hpos : ReducedPos P xs us)
    (hg : shootGapNorm P xs us = 0) (hv : violation P xs us = 0) (hk : ¬ (IsPKKT P 0 xs us lam y ∧ Complementary P xs us y)) :
    slope P xs us dx du < 0 := by
  have hu : ∃ t, t < P.T ∧ du t ≠ 0 := by
    by_contra hn
    push Not at hn
    exact hk (h.stationary hg hv hn)
  have hgap := shootGap_of_norm hg
  have hc := hpos dx du h.kkt.feas.start (fun t ht => by rw [h.lin t ht, hgap t ht, add_zero]) hu
  have hz : ∑ t ∈ Finset.range P.T, lam (t + 1) ⬝ᵥ shootGap P xs us t = 0 :=
    Finset.sum_eq_zero fun t ht => by rw [hgap t (Finset.mem_range.mp ht), dotProduct_zero]
  have hv1 : ∑ t ∈ Finset.range P.T, ∑ i, rowViol (P.lb t i) (P.ub t i) ((P.calcR t (xs t) (us t)).g i) = 0 ∧
      ∑ i, rowViol (P.lb P.T i) (P.ub P.T i) ((P.calcT (xs P.T)).g i) = 0 := by
    have a1 : 0 ≤ ∑ t ∈ Finset.range P.T, ∑ i, rowViol (P.lb t i) (P.ub t i) ((P.calcR t (xs t) (us t)).g i) :=
      Finset.sum_nonneg fun _ _ => Finset.sum_nonneg fun _ _ => rowViol_nonneg _ _ _
    have a2 : 0 ≤ ∑ i, rowViol (P.lb P.T i) (P.ub P.T i) ((P.calcT (xs P.T)).g i) := Finset.sum_nonneg fun _ _ => rowViol_nonneg _ _ _
    unfold violation at hv
    constructor <;> linarith
  have hw : (∑ t ∈ Finset.range P.T, ∑ i, |y t i| * rowViol (P.lb t i) (P.ub t i) ((P.calcR t (xs t) (us t)).g i)) +
      ∑ i, |y P.T i| * rowViol (P.lb P.T i) (P.ub P.T i) ((P.calcT (xs P.T)).g i) = 0 := by
    have b2 := (Finset.sum_eq_zero_iff_of_nonneg fun _ _ => rowViol_nonneg _ _ _).mp hv1.2
    have b1 := (Finset.sum_eq_zero_iff_of_nonneg fun _ _ => Finset.sum_nonneg fun _ _ => rowViol_nonneg _ _ _).mp hv1.1
    rw [Finset.sum_eq_zero fun t ht => Finset.sum_eq_zero fun i hi => by
      rw [(Finset.sum_eq_zero_iff_of_nonneg fun _ _ => rowViol_nonneg _ _ _).mp (b1 t ht) i hi, mul_zero],
      Finset.sum_eq_zero fun i hi => by rw [b2 i hi, mul_zero], add_zero]
  have hr : 0 ≤ (∑ t ∈ Finset.range P.T, (preg * (dx t ⬝ᵥ dx t) + dreg * (du t ⬝ᵥ du t))) + preg * (dx P.T ⬝ᵥ dx P.T) := by
    have sq : ∀ {n : ℕ} (v : Vec K n), 0 ≤ v ⬝ᵥ v := fun v => Finset.sum_nonneg fun i _ => mul_self_nonneg (v i)
    exact add_nonneg (Finset.sum_nonneg fun t _ => add_nonneg (mul_nonneg hp (sq _)) (mul_nonneg hd (sq _))) (mul_nonneg hp (sq _))
  have := h.slope_le
  rw [hz, hw, h.curv_eq] at this
  linarith

variable (h : QPStep P preg dreg xs us dx du lam y d fs)
include h

/-- all small steps improve cost, gap or violation. -/
theorem better (hp : 0 ≤ preg) (hd : 0 ≤ dreg) (hpos : ReducedPos P xs us) (hk : ¬ (IsPKKT P 0 xs us lam y ∧ Complementary P xs us y))
    (hD : TrueDerivs P xs us) (hC : TrueConDerivs P xs us) :
    Small fun a => trajCost P (stepX P xs dx a) (stepU P us du a) < trajCost P xs us ∨
      shootGapNorm P (stepX P xs dx a) (stepU P us du a) < shootGapNorm P xs us ∨
      conViol P (stepX P xs dx a) (stepU P us du a) < conViol P xs us := by
  by_cases hg : shootGapNorm P xs us = 0
  · by_cases hv : violation P xs us = 0
    · exact (hD.trajCost.desc (h.downhill hp hd hpos hg hv hk)).mono fun a _ k => .inl k
    · refine (hC.violDesc h.box hv).mono fun a _ k => .inr (.inr ?_)
      rw [conViol_ex, conViol_ex]; exact k
  · exact (hD.gapDesc h.lin hg).mono fun a _ k => .inr (.inl k)

end QPStep

section
variable {xs : Traj P} {us : Ctrls P} {dx : ℕ → Vec K P.ndx} {du : (t : ℕ) → Vec K (P.nu t)}

/-- all small steps stay better in a component in which the current iterate is strictly better. -/
theorem near_triple (hD : TrueDerivs P xs us) (hC : TrueConDerivs P xs us)
    (hlin : ∀ t, t < P.T → dx (t + 1) = (P.calcDiffR t (xs t) (us t)).Fx *ᵥ dx t + (P.calcDiffR t (xs t) (us t)).Fu *ᵥ du t + shootGap P xs us t)
    {e : K × K × K}
    (he : ¬ (e.1 ≤ trajCost P xs us ∧ e.2.1 ≤ shootGapNorm P xs us ∧ e.2.2 ≤ conViol P xs us)) :
    Small fun a => trajCost P (stepX P xs dx a) (stepU P us du a) < e.1 ∨
      shootGapNorm P (stepX P xs dx a) (stepU P us du a) < e.2.1 ∨ conViol P (stepX P xs dx a) (stepU P us du a) < e.2.2 := by
  by_cases h1 : trajCost P xs us < e.1
  · exact (hD.trajCost.lim h1).mono fun a _ h => .inl h
  by_cases h2 : shootGapNorm P xs us < e.2.1
  · exact (hD.gapLim hlin h2).mono fun a _ h => .inr (.inl h)
  have h3 : conViol P xs us < e.2.2 := by
    by_contra h3
    exact he ⟨not_lt.mp h1, not_lt.mp h2, not_lt.mp h3⟩
  refine (hC.violLim (dx := dx) (du := du) (by rw [← conViol_ex]; exact h3)).mono fun a _ h => .inr (.inr ?_)
  rw [conViol_ex]; exact h

/-- the filter: entries that equal the current triple, or do not dominate it, dominate no small step. -/
theorem filter_small (hD : TrueDerivs P xs us) (hC : TrueConDerivs P xs us)
    (hlin : ∀ t, t < P.T → dx (t + 1) = (P.calcDiffR t (xs t) (us t)).Fx *ᵥ dx t + (P.calcDiffR t (xs t) (us t)).Fu *ᵥ du t + shootGap P xs us t)
    (hb : Small fun a => trajCost P (stepX P xs dx a) (stepU P us du a) < trajCost P xs us ∨
      shootGapNorm P (stepX P xs dx a) (stepU P us du a) < shootGapNorm P xs us ∨
      conViol P (stepX P xs dx a) (stepU P us du a) < conViol P xs us)
    (mem : List (K × K × K)) (hm : ∀ e ∈ mem, e = (trajCost P xs us, shootGapNorm P xs us, conViol P xs us) ∨
      ¬ (e.1 ≤ trajCost P xs us ∧ e.2.1 ≤ shootGapNorm P xs us ∧ e.2.2 ≤ conViol P xs us)) :
    Small fun a => ¬ Dominated3 mem (trajCost P (stepX P xs dx a) (stepU P us du a))
      (shootGapNorm P (stepX P xs dx a) (stepU P us du a)) (conViol P (stepX P xs dx a) (stepU P us du a)) := by
  have key : Small fun a => ∀ e ∈ mem, trajCost P (stepX P xs dx a) (stepU P us du a) < e.1 ∨
      shootGapNorm P (stepX P xs dx a) (stepU P us du a) < e.2.1 ∨ conViol P (stepX P xs dx a) (stepU P us du a) < e.2.2 := by
    refine Small.list _ fun e he => ?_
    rcases hm e he with rfl | hn
    · exact hb
    · exact near_triple hD hC hlin hn
  refine key.mono fun a _ k => ?_
  rintro ⟨e, he, c1, c2, c3⟩
  rw [leb_exact, decide_eq_true_eq] at c1 c2 c3
  rcases k e he with k | k | k
  · exact absurd c1 (not_le.mpr k)
  · exact absurd c2 (not_le.mpr k)
  · exact absurd c3 (not_le.mpr k)

end

/-- `a ≤ c r`, strictly unless `r = 0`. -/
structure Below (c a r : K) : Prop where
  nonneg : 0 ≤ r
  le : a ≤ c * r
  lt : r ≠ 0 → a < c * r

theorem Below.add {c a r a' r' : K} (h : Below c a r) (h' : Below c a' r') : Below c (a + a') (r + r') := by
  refine ⟨add_nonneg h.nonneg h'.nonneg, by have := h.le; have := h'.le; rw [mul_add]; linarith, fun hn => ?_⟩
  have : r ≠ 0 ∨ r' ≠ 0 := by
    by_contra hc
    push Not at hc
    exact hn (by rw [hc.1, hc.2, add_zero])
  rw [mul_add]
  rcases this with k | k
  · have := h.lt k; have := h'.le; linarith
  · have := h'.lt k; have := h.le; linarith

theorem Below.zero (c : K) : Below c 0 0 := ⟨le_rfl, by simp, fun h => absurd rfl h⟩

theorem Below.sum {ι : Type} (s : Finset ι) {c : K} {a r : ι → K} (h : ∀ i ∈ s, Below c (a i) (r i)) : Below c (∑ i ∈ s, a i) (∑ i ∈ s, r i) := by
  classical
  induction s using Finset.induction_on with
  | empty => simpa using Below.zero c
  | insert i s hi ih =>
    rw [Finset.sum_insert hi, Finset.sum_insert hi]
    exact (h i (by simp)).add (ih fun j hj => h j (by simp [hj]))

theorem Below.mk' {c w r : K} (hw : w < c) (hr : 0 ≤ r) : Below c (w * r) r :=
  ⟨hr, mul_le_mul_of_nonneg_right hw.le hr, fun hn => mul_lt_mul_of_pos_right hw (lt_of_le_of_ne hr (Ne.symm hn))⟩

namespace QPStep
variable {preg dreg : K} {xs : Traj P} {us : Ctrls P} {dx : ℕ → Vec K P.ndx} {du : (t : ℕ) → Vec K (P.nu t)}
  {lam : ℕ → Vec K P.ndx} {y : (t : ℕ) → Vec K (P.ng t)} {d : Data P} {fs : ℕ → Vec K P.ndx}

/-- all small steps decrease cost plus weighted gaps plus weighted violation. -/
theorem meritDesc (h : QPStep P preg dreg xs us dx du lam y d fs) (hp : 0 ≤ preg) (hd : 0 ≤ dreg)
    (hk : ¬ (IsPKKT P 0 xs us lam y ∧ Complementary P xs us y)) (hpos : ReducedPos P xs us)
    (hD : TrueDerivs P xs us) (hC : TrueConDerivs P xs us) {wd wc : K} (hwd : 0 ≤ wd) (hwc : 0 ≤ wc)
    (hw : (shootGapNorm P xs us = 0 ∧ violation P xs us = 0) ∨ ((∀ t, t < P.T → ∀ i, |lam (t + 1) i| < wd) ∧
      (∀ t, t ≤ P.T → ∀ i, |y t i| < wc) ∧ 0 ≤ (lqOf d fs preg dreg).curv dx du)) :
    Small fun a => trajCost P (stepX P xs dx a) (stepU P us du a) + wd * shootGapNorm P (stepX P xs dx a) (stepU P us du a) +
      wc * conViol P (stepX P xs dx a) (stepU P us du a) < trajCost P xs us + wd * shootGapNorm P xs us + wc * conViol P xs us := by
  simp only [conViol_ex]
  -- the derivative of the merit function
  have hsl : slope P xs us dx du - wd * shootGapNorm P xs us - wc * violation P xs us < 0 := by
    by_cases hf : shootGapNorm P xs us = 0 ∧ violation P xs us = 0
    · have := h.downhill hp hd hpos hf.1 hf.2 hk
      rw [hf.1, hf.2]; linarith
    · obtain ⟨hl, hy, hcv⟩ := hw.resolve_left hf
      have b1 : Below wd (∑ t ∈ Finset.range P.T, lam (t + 1) ⬝ᵥ shootGap P xs us t) (shootGapNorm P xs us) := by
        unfold shootGapNorm
        rw [sumUp_exact]
        refine Below.sum _ fun t ht => ?_
        rw [norm1_exact]
        refine Below.sum _ fun i _ => ?_
        have e := Below.mk' (hl t (Finset.mem_range.mp ht) i) (abs_nonneg (shootGap P xs us t i))
        have le : lam (t + 1) i * shootGap P xs us t i ≤ |lam (t + 1) i| * |shootGap P xs us t i| := by rw [← abs_mul]; exact le_abs_self _
        exact ⟨e.nonneg, le.trans e.le, fun hn => lt_of_le_of_lt le (e.lt hn)⟩
      have b2 : Below wc ((∑ t ∈ Finset.range P.T, ∑ i, |y t i| * rowViol (P.lb t i) (P.ub t i) ((P.calcR t (xs t) (us t)).g i)) +
          ∑ i, |y P.T i| * rowViol (P.lb P.T i) (P.ub P.T i) ((P.calcT (xs P.T)).g i)) (violation P xs us) :=
        (Below.sum _ fun t ht => Below.sum _ fun i _ => Below.mk' (hy t (Finset.mem_range.mp ht).le i) (rowViol_nonneg _ _ _)).add
          (Below.sum _ fun i _ => Below.mk' (hy P.T le_rfl i) (rowViol_nonneg _ _ _))
      have := h.slope_le
      rw [not_and_or] at hf
      rcases hf with k | k
      · have := b1.lt k; have := b2.le; linarith
      · have := b2.lt k; have := b1.le; linarith
  set D := -(slope P xs us dx du - wd * shootGapNorm P xs us - wc * violation P xs us) with hDD
  have hDp : 0 < D := by linarith
  have hwe : ∀ w : K, 0 ≤ w → ∀ a : K, 0 < a → w * (D / (4 * (w + 1)) * a) ≤ D / 4 * a := by
    intro w hw a ha
    have hw1 : 0 < w + 1 := by linarith
    have e : w * (D / (4 * (w + 1)) * a) = w / (w + 1) * (D / 4 * a) := by field_simp
    rw [e]
    exact mul_le_of_le_one_left (by positivity) ((div_le_one hw1).mpr (by linarith))
  refine (((hD.trajCost (dx := dx) (du := du) (D / 4) (by linarith)).and (hD.gapNorm h.lin
    (ε := D / (4 * (wd + 1))) (div_pos hDp (by positivity)))).and (hC.viol h.box (ε := D / (4 * (wc + 1))) (div_pos hDp (by positivity)))).mono fun a ha k => ?_
  obtain ⟨⟨k1, k2⟩, k3⟩ := k
  have k4 := (abs_le.mp k1).2
  have k5 := mul_le_mul_of_nonneg_left k2 hwd
  have k6 := mul_le_mul_of_nonneg_left k3 hwc
  have k7 := hwe wd hwd a ha
  have k8 := hwe wc hwc a ha
  nlinarith

end QPStep
end Mim
