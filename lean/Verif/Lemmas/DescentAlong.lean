import Verif.Lemmas.Descent
import Verif.Lemmas.Riccati
import Verif.Spec.Rollout

/-!
# First-order behaviour of closed-loop rollouts
-/
set_option linter.unusedSectionVars false
set_option linter.unusedSimpArgs false
set_option autoImplicit false

namespace Mim
open Spec Matrix
variable {K : Type} [Field K] [LinearOrder K] [IsStrictOrderedRing K] {P : Problem K}

namespace Spec

theorem Deriv0.smul {f : K → K} {f0 c : K} (h : Deriv0 f f0 c) (k : K) : Deriv0 (fun a => k * f a) (k * f0) (k * c) := by
  intro ε hε
  have hk : 0 < |k| + 1 := by positivity
  refine (h (ε / (|k| + 1)) (by positivity)).mono fun a ha h' => ?_
  rw [show k * f a - k * f0 - a * (k * c) = k * (f a - f0 - a * c) by ring, abs_mul]
  calc |k| * |f a - f0 - a * c| ≤ (|k| + 1) * (ε / (|k| + 1) * a) := mul_le_mul (by linarith) h' (abs_nonneg _) hk.le
    _ = ε * a := by field_simp

theorem Deriv0.lin (c : K) : Deriv0 (fun a => a * c) 0 c := fun ε hε => Small.triv.mono fun a ha _ => by
  simp only [sub_zero, sub_self, abs_zero]
  exact (mul_pos hε ha).le

theorem Deriv0.congr {f g : K → K} {f0 c : K} (h : Deriv0 f f0 c) (hg : Small fun a => g a = f a) : Deriv0 g f0 c := by
  intro ε hε
  exact ((h ε hε).and hg).mono fun a _ k => by rw [k.2]; exact k.1

theorem Deriv0.lim' {f : K → K} {f0 c : K} (h : Deriv0 f f0 c) {b : K} (hb : b < f0) : Small fun a => b < f a := by
  have := (h.smul (-1)).lim (b := -b) (by linarith)
  exact this.mono fun a _ k => by linarith

theorem Deriv0.asc {f : K → K} {f0 c : K} (h : Deriv0 f f0 c) (hc : 0 < c) : Small fun a => f0 < f a := by
  have := (h.smul (-1)).desc (by linarith)
  exact this.mono fun a _ k => by linarith

/-- a curve times the step length. -/
theorem Deriv0.mulSelf {f : K → K} {f0 c : K} (h : Deriv0 f f0 c) : Deriv0 (fun a => a * f a) 0 f0 := by
  intro ε hε
  have h1 := h.lim (b := f0 + ε) (by linarith)
  have h2 := h.lim' (b := f0 - ε) (by linarith)
  refine (h1.and h2).mono fun a ha k => ?_
  rw [show a * f a - 0 - a * f0 = (f a - f0) * a by ring, abs_mul, abs_of_pos ha]
  exact mul_le_mul_of_nonneg_right (abs_le.mpr ⟨by linarith [k.2], by linarith [k.1]⟩) ha.le

theorem Deriv0.mul {f g : K → K} {f0 g0 c d : K} (hf : Deriv0 f f0 c) (hg : Deriv0 g g0 d) :
    Deriv0 (fun a => f a * g a) (f0 * g0) (c * g0 + f0 * d) := by
  intro ε hε
  have hG : 0 < |g0| + 1 := by positivity
  have hF : 0 < |f0| + 1 := by positivity
  have hC : 0 < |c| + 1 := by positivity
  have g1 := hg.lim (b := g0 + min 1 (ε / (3 * (|c| + 1)))) (by have : 0 < min 1 (ε / (3 * (|c| + 1))) := lt_min one_pos (by positivity); linarith)
  have g2 := hg.lim' (b := g0 - min 1 (ε / (3 * (|c| + 1)))) (by have : 0 < min 1 (ε / (3 * (|c| + 1))) := lt_min one_pos (by positivity); linarith)
  refine (((hf (ε / (3 * (|g0| + 1))) (by positivity)).and (hg (ε / (3 * (|f0| + 1))) (by positivity))).and (g1.and g2)).mono fun a ha k => ?_
  obtain ⟨⟨k1, k2⟩, k3, k4⟩ := k
  have hd : |g a - g0| ≤ min 1 (ε / (3 * (|c| + 1))) := abs_le.mpr ⟨by linarith, by linarith⟩
  have hg' : |g a| ≤ |g0| + 1 := by
    have := abs_add_le g0 (g a - g0)
    rw [add_sub_cancel] at this
    linarith [hd.trans (min_le_left _ _)]
  have e : f a * g a - f0 * g0 - a * (c * g0 + f0 * d) = (f a - f0 - a * c) * g a + f0 * (g a - g0 - a * d) + a * c * (g a - g0) := by ring
  rw [e]
  have t1 : |(f a - f0 - a * c) * g a| ≤ ε / 3 * a := by
    rw [abs_mul]
    calc _ ≤ ε / (3 * (|g0| + 1)) * a * (|g0| + 1) := mul_le_mul k1 hg' (abs_nonneg _) (by positivity)
      _ = ε / 3 * a := by field_simp
  have t2 : |f0 * (g a - g0 - a * d)| ≤ ε / 3 * a := by
    rw [abs_mul]
    calc _ ≤ (|f0| + 1) * (ε / (3 * (|f0| + 1)) * a) := mul_le_mul (by linarith) k2 (abs_nonneg _) hF.le
      _ = ε / 3 * a := by field_simp
  have t3 : |a * c * (g a - g0)| ≤ ε / 3 * a := by
    rw [abs_mul, abs_mul, abs_of_pos ha]
    calc a * |c| * |g a - g0| ≤ a * (|c| + 1) * (ε / (3 * (|c| + 1))) :=
          mul_le_mul (mul_le_mul_of_nonneg_left (by linarith) ha.le) (hd.trans (min_le_right _ _)) (abs_nonneg _) (by positivity)
      _ = ε / 3 * a := by field_simp
  have := abs_add_le ((f a - f0 - a * c) * g a + f0 * (g a - g0 - a * d)) (a * c * (g a - g0))
  have := abs_add_le ((f a - f0 - a * c) * g a) (f0 * (g a - g0 - a * d))
  linarith

theorem Deriv0.finSum {n : ℕ} {f : Fin n → K → K} {f0 c : Fin n → K} (h : ∀ i, Deriv0 (f i) (f0 i) (c i)) :
    Deriv0 (fun a => ∑ i, f i a) (∑ i, f0 i) (∑ i, c i) := by
  classical
  have : ∀ s : Finset (Fin n), Deriv0 (fun a => ∑ i ∈ s, f i a) (∑ i ∈ s, f0 i) (∑ i ∈ s, c i) := by
    intro s
    induction s using Finset.induction_on with
    | empty => simpa using Deriv0.const (0 : K)
    | insert i s hi ih =>
      simp only [Finset.sum_insert hi]
      exact (h i).add ih
  exact this Finset.univ

theorem CurveTo.mulVec {n m : ℕ} {d : K → Vec K n} {v : Vec K n} (h : CurveTo d v) (M : Mat K m n) : CurveTo (fun a => M *ᵥ d a) (M *ᵥ v) := by
  intro i
  have := Deriv0.finSum fun j => (h j).smul (M i j)
  simp only [mul_zero, Finset.sum_const_zero] at this
  exact this

theorem CurveTo.dot {n : ℕ} {d : K → Vec K n} {v : Vec K n} (h : CurveTo d v) (w : Vec K n) : Deriv0 (fun a => w ⬝ᵥ d a) 0 (w ⬝ᵥ v) := by
  have := Deriv0.finSum fun j => (h j).smul (w j)
  simp only [mul_zero, Finset.sum_const_zero] at this
  exact this

theorem CurveTo.add {n : ℕ} {d e : K → Vec K n} {v w : Vec K n} (h : CurveTo d v) (h' : CurveTo e w) : CurveTo (fun a => d a + e a) (v + w) := by
  intro i
  have := (h i).add (h' i)
  simp only [add_zero] at this
  exact this

theorem CurveTo.neg {n : ℕ} {d : K → Vec K n} {v : Vec K n} (h : CurveTo d v) : CurveTo (fun a => -d a) (-v) := by
  intro i
  have := (h i).smul (-1)
  simp only [mul_zero, neg_one_mul] at this
  exact this

theorem CurveTo.lin {n : ℕ} (v : Vec K n) : CurveTo (fun a => a • v) v := fun i => Deriv0.lin (v i)

variable {π : Policy P} {close : Bool} {c : ℕ → Vec K P.ndx}

/-- first-order motion of the states of a rollout; `c` is the rate at which the gaps close. -/
def Policy.dX (π : Policy P) (c : ℕ → Vec K P.ndx) : ℕ → Vec K P.ndx
  | 0 => c 0
  | t + 1 => (P.calcDiffR t (π.xs t) (π.us t)).Fx *ᵥ Policy.dX π c t +
      (P.calcDiffR t (π.xs t) (π.us t)).Fu *ᵥ (-(π.k t) - π.K t *ᵥ Policy.dX π c t) + c (t + 1)

/-- first-order motion of the controls. -/
def Policy.dU (π : Policy P) (c : ℕ → Vec K P.ndx) (t : ℕ) : Vec K (P.nu t) := -(π.k t) - π.K t *ᵥ π.dX c t

/-- what the lemmas below need of a rollout: near the trajectory the gaps close at the rate `c`. -/
structure Policy.Near (π : Policy P) (close : Bool) (c : ℕ → Vec K P.ndx) : Prop where
  ret : ∀ t x, P.integrate (π.xs t) (P.diff (π.xs t) x) = x
  zero : ∀ a : K, P.diff (π.xs 0) (π.X close a 0) = a • c 0
  succ : ∀ t, t < P.T → ∀ (a : K) (x : P.X), P.diff (π.xs (t + 1)) (π.shift close a (t + 1) x) =
    a • c (t + 1) + P.diff (P.calcR t (π.xs t) (π.us t)).xnext x

theorem Policy.U_eq (π : Policy P) (close : Bool) (a : K) (t : ℕ) :
    π.U close a t = π.us t + (-(a • π.k t) + -(π.K t *ᵥ P.diff (π.xs t) (π.X close a t))) := by
  change π.us t - a • π.k t - mv (π.K t) _ = _
  rw [mv_exact]
  abel

theorem Policy.Near.curve (h : π.Near close c) (hD : TrueDerivsAlong P π.xs π.us) (t : ℕ) (ht : t ≤ P.T) :
    CurveTo (fun a => P.diff (π.xs t) (π.X close a t)) (π.dX c t) := by
  induction t with
  | zero =>
    simp only [h.zero]
    exact CurveTo.lin _
  | succ t ih =>
    have h1 := ih (by omega)
    have hu : CurveTo (fun a => -(a • π.k t) + -(π.K t *ᵥ P.diff (π.xs t) (π.X close a t))) (-(π.k t) + -(π.K t *ᵥ π.dX c t)) :=
      (CurveTo.lin _).neg.add (h1.mulVec _).neg
    have h2 := hD.next t (by omega) _ _ _ _ h1 hu
    have e : ∀ a, P.diff (π.xs (t + 1)) (π.X close a (t + 1)) = a • c (t + 1) + P.diff (P.calcR t (π.xs t) (π.us t)).xnext
        (P.calcR t (P.integrate (π.xs t) (P.diff (π.xs t) (π.X close a t))) (π.us t + (-(a • π.k t) + -(π.K t *ᵥ P.diff (π.xs t) (π.X close a t))))).xnext := by
      intro a
      rw [h.ret, ← π.U_eq]
      exact h.succ t (by omega) a _
    simp only [e]
    have := (CurveTo.lin (c (t + 1))).add h2
    rw [show π.dX c (t + 1) = c (t + 1) + ((P.calcDiffR t (π.xs t) (π.us t)).Fx *ᵥ π.dX c t +
      (P.calcDiffR t (π.xs t) (π.us t)).Fu *ᵥ (-(π.k t) + -(π.K t *ᵥ π.dX c t))) by
        rw [Policy.dX, sub_eq_add_neg]; abel]
    exact this

theorem Policy.Near.ctrl (h : π.Near close c) (hD : TrueDerivsAlong P π.xs π.us) (t : ℕ) (ht : t ≤ P.T) :
    CurveTo (fun a => -(a • π.k t) + -(π.K t *ᵥ P.diff (π.xs t) (π.X close a t))) (π.dU c t) := by
  have := (CurveTo.lin (π.k t)).neg.add ((h.curve hD t ht).mulVec (π.K t)).neg
  rw [show π.dU c t = -(π.k t) + -(π.K t *ᵥ π.dX c t) from sub_eq_add_neg _ _]
  exact this

theorem Policy.Near.partialCost (h : π.Near close c) (hD : TrueDerivsAlong P π.xs π.us) {n : ℕ} (hn : n ≤ P.T) :
    Deriv0 (fun a => sumUp n (nodeCost P (π.X close a) (π.U close a))) (sumUp n (nodeCost P π.xs π.us))
      (∑ t ∈ Finset.range n, ((P.calcDiffR t (π.xs t) (π.us t)).Lx ⬝ᵥ π.dX c t + (P.calcDiffR t (π.xs t) (π.us t)).Lu ⬝ᵥ π.dU c t)) := by
  simp only [sumUp_exact]
  refine Deriv0.sum n fun t ht => ?_
  have := hD.cost t (by omega) _ _ _ _ (h.curve hD t (by omega)) (h.ctrl hD t (by omega))
  simp only [h.ret, ← π.U_eq] at this
  exact this

theorem Policy.Near.trajCost (h : π.Near close c) (hD : TrueDerivsAlong P π.xs π.us) :
    Deriv0 (fun a => trajCost P (π.X close a) (π.U close a)) (Spec.trajCost P π.xs π.us) (slope P π.xs π.us (π.dX c) (π.dU c)) := by
  have := hD.term _ _ (h.curve hD P.T le_rfl)
  simp only [h.ret] at this
  exact (h.partialCost hD le_rfl).add this

theorem Policy.Near.noBlowUp (h : π.Near close c) (hD : TrueDerivsAlong P π.xs π.us) (hb : ¬ CostBlowsUp P π.xs π.us) :
    Small fun a => ¬ π.BlowsUp close a := by
  have hbad : ∀ x : K, bad x = true ↔ (10 : K) ^ 30 ≤ x := by intro x; simp [bad, exactOps]
  unfold CostBlowsUp at hb
  simp only [hbad, not_or, not_exists, not_and, not_le] at hb
  have hx : ∀ t, t < P.T → Small fun a => P.badX (π.pre close a (t + 1)) = false := fun t ht => by
    have := hD.fine t ht _ _ _ _ (h.curve hD t ht.le) (h.ctrl hD t ht.le)
    simp only [h.ret, ← π.U_eq] at this
    exact this
  refine (((Small.range P.T fun t ht => (h.partialCost hD (n := t + 1) ht).lim (hb.1 t ht)).and
    ((h.trajCost hD).lim hb.2)).and (Small.range P.T hx)).mono fun a _ k => ?_
  unfold Policy.BlowsUp
  simp only [hbad, not_or, not_exists, not_and, not_le]
  exact ⟨fun t ht => ⟨k.1.1 t ht, by rw [k.2 t ht]; simp⟩, k.1.2⟩

end Spec

/-- slope of the cost along the rollout of the policy of a Riccati recursion. -/
theorem Riccati.slope {T n : ℕ} {m : ℕ → ℕ} {Q : LQ K T n m} {V : ℕ → Mat K n n} {v : ℕ → Vec K n} {G : (t : ℕ) → Mat K (m t) n}
    {k : (t : ℕ) → Vec K (m t)} {Quu : (t : ℕ) → Mat K (m t) (m t)} (h : Riccati Q V v G k Quu) {x : ℕ → Vec K n} {u : (t : ℕ) → Vec K (m t)}
    (h0 : x 0 = Q.c 0) (hd : Q.Dyn x u) (hu : ∀ t, t < T → u t = -(k t) - G t *ᵥ x t) :
    ∑ t ∈ Finset.range T, (Q.gx t ⬝ᵥ x t + Q.gu t ⬝ᵥ u t) + Q.gT ⬝ᵥ x T =
      ∑ t ∈ Finset.range (T + 1), ((v t + V t *ᵥ Q.c t) ⬝ᵥ Q.c t - Q.c t ⬝ᵥ (V t *ᵥ x t)) -
        ∑ t ∈ Finset.range T, (Quu t *ᵥ k t) ⬝ᵥ k t := by
  have key : ∀ j, j ≤ T → ∑ t ∈ Finset.range j, (Q.gx t ⬝ᵥ x t + Q.gu t ⬝ᵥ u t) + v j ⬝ᵥ x j =
      ∑ t ∈ Finset.range (j + 1), ((v t + V t *ᵥ Q.c t) ⬝ᵥ Q.c t - Q.c t ⬝ᵥ (V t *ᵥ x t)) - ∑ t ∈ Finset.range j, (Quu t *ᵥ k t) ⬝ᵥ k t := by
    intro j
    induction j with
    | zero =>
      intro _
      simp only [Finset.range_zero, Finset.sum_empty, zero_add, Finset.sum_range_one, sub_zero]
      rw [h0, add_dotProduct, dotProduct_comm (V 0 *ᵥ Q.c 0)]
      ring
    | succ j ih =>
      intro hj
      have hj' : j < T := by omega
      have i1 := ih (by omega)
      rw [Finset.sum_range_succ, Finset.sum_range_succ _ (j + 1), Finset.sum_range_succ (fun t => (Quu t *ᵥ k t) ⬝ᵥ k t) j]
      have hg := congrArg (· ⬝ᵥ x j) (h.grad j hj')
      have hf := h.ff j hj'
      have e2 : ∀ w : Vec K n, ((Q.A j)ᵀ *ᵥ w) ⬝ᵥ x j = w ⬝ᵥ (Q.A j *ᵥ x j) := fun w => (dot_mulVec_comm _ _ _).symm
      have e3 : ∀ w : Vec K n, ((Q.B j)ᵀ *ᵥ w) ⬝ᵥ u j = w ⬝ᵥ (Q.B j *ᵥ u j) := fun w => (dot_mulVec_comm _ _ _).symm
      have e4 : ((G j)ᵀ *ᵥ (Quu j *ᵥ k j)) ⬝ᵥ x j = (Quu j *ᵥ k j) ⬝ᵥ (G j *ᵥ x j) := (dot_mulVec_comm _ _ _).symm
      set w := v (j + 1) + V (j + 1) *ᵥ Q.c (j + 1) with hw
      rw [← hf] at hg
      simp only [sub_dotProduct, add_dotProduct, e2, e4] at hg
      have hq := congrArg (· ⬝ᵥ u j) hf
      simp only [add_dotProduct, e3] at hq
      have hx : w ⬝ᵥ x (j + 1) = w ⬝ᵥ (Q.A j *ᵥ x j) + w ⬝ᵥ (Q.B j *ᵥ u j) + w ⬝ᵥ Q.c (j + 1) := by
        rw [hd j hj', dotProduct_add, dotProduct_add]
      have hq2 : (Quu j *ᵥ k j) ⬝ᵥ u j = -((Quu j *ᵥ k j) ⬝ᵥ k j) - (Quu j *ᵥ k j) ⬝ᵥ (G j *ᵥ x j) := by
        rw [hu j hj', dotProduct_sub, dotProduct_neg]
      have hv : v (j + 1) ⬝ᵥ x (j + 1) = w ⬝ᵥ x (j + 1) - Q.c (j + 1) ⬝ᵥ (V (j + 1) *ᵥ x (j + 1)) := by
        rw [hw, add_dotProduct, dot_mulVec_comm (Q.c (j + 1)), h.sym (j + 1) hj]
        ring
      linarith
  have := key T le_rfl
  rw [← h.vT]
  exact this

end Mim
