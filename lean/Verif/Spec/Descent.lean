import Verif.Spec.Affine
import Verif.Spec.LQ

/-!
# Specification: derivatives of a problem, and what holds for all small step lengths

Derivatives are one-sided and written out with inequalities, so that they make sense in every ordered field.
-/
set_option linter.unusedSectionVars false
set_option linter.unusedSimpArgs false
set_option autoImplicit false

namespace Mim.Spec
open Matrix
variable {K : Type} [Field K] [LinearOrder K] [IsStrictOrderedRing K]

/-- `p` holds for all sufficiently small positive step lengths. -/
def Small (p : K → Prop) : Prop := ∃ δ : K, 0 < δ ∧ ∀ a, 0 < a → a ≤ δ → p a

/-- `f` tends to `f0` at `0⁺`, with one-sided derivative `c`. -/
def Deriv0 (f : K → K) (f0 c : K) : Prop := ∀ ε : K, 0 < ε → Small fun a => |f a - f0 - a * c| ≤ ε * a

variable (P : Problem K)

/-- derivative of the cost along a step. -/
def slope (xs : Traj P) (us : Ctrls P) (dx : ℕ → Vec K P.ndx) (du : (t : ℕ) → Vec K (P.nu t)) : K :=
  (∑ t ∈ Finset.range P.T, ((P.calcDiffR t (xs t) (us t)).Lx ⬝ᵥ dx t + (P.calcDiffR t (xs t) (us t)).Lu ⬝ᵥ du t)) +
  (P.calcDiffT (xs P.T)).Lx ⬝ᵥ dx P.T

/-- second derivative of the cost along a step. -/
def curv (xs : Traj P) (us : Ctrls P) (dx : ℕ → Vec K P.ndx) (du : (t : ℕ) → Vec K (P.nu t)) : K :=
  (∑ t ∈ Finset.range P.T, (dx t ⬝ᵥ ((P.calcDiffR t (xs t) (us t)).Lxx *ᵥ dx t) + 2 * (dx t ⬝ᵥ ((P.calcDiffR t (xs t) (us t)).Lxu *ᵥ du t)) +
    du t ⬝ᵥ ((P.calcDiffR t (xs t) (us t)).Luu *ᵥ du t))) + dx P.T ⬝ᵥ ((P.calcDiffT (xs P.T)).Lxx *ᵥ dx P.T)

/-- At the trajectory `xs, us` the derivatives reported by `calcDiff` are the directional derivatives of the costs and of the shooting gaps.
Nothing is asked of the second derivatives. -/
structure TrueDerivs (xs : Traj P) (us : Ctrls P) : Prop where
  cost : ∀ t, t < P.T → ∀ (d : Vec K P.ndx) (e : Vec K (P.nu t)),
    Deriv0 (fun a => (P.calcR t (P.integrate (xs t) (sv a d)) (us t + sv a e)).cost) (P.calcR t (xs t) (us t)).cost
      ((P.calcDiffR t (xs t) (us t)).Lx ⬝ᵥ d + (P.calcDiffR t (xs t) (us t)).Lu ⬝ᵥ e)
  term : ∀ d : Vec K P.ndx, Deriv0 (fun a => (P.calcT (P.integrate (xs P.T) (sv a d))).cost) (P.calcT (xs P.T)).cost
      ((P.calcDiffT (xs P.T)).Lx ⬝ᵥ d)
  gap : ∀ t, t < P.T → ∀ (d d' : Vec K P.ndx) (e : Vec K (P.nu t)) (i : Fin P.ndx),
    Deriv0 (fun a => P.diff (P.integrate (xs (t + 1)) (sv a d')) (P.calcR t (P.integrate (xs t) (sv a d)) (us t + sv a e)).xnext i)
      (P.diff (xs (t + 1)) (P.calcR t (xs t) (us t)).xnext i)
      (((P.calcDiffR t (xs t) (us t)).Fx *ᵥ d + (P.calcDiffR t (xs t) (us t)).Fu *ᵥ e - d') i)

/-- The curve `d` starts in `0` with velocity `v`. -/
def CurveTo {n : ℕ} (d : K → Vec K n) (v : Vec K n) : Prop := ∀ i, Deriv0 (fun a => d a i) 0 (v i)

/-- The same along curves (the chain rule), for rollouts: the derivatives reported by `calcDiff` at `xs, us` are those of the costs and of the
next states along all differentiable curves of perturbations, and no next state close by is declared bad. -/
structure TrueDerivsAlong (xs : Traj P) (us : Ctrls P) : Prop where
  cost : ∀ t, t < P.T → ∀ (d : K → Vec K P.ndx) (v : Vec K P.ndx) (e : K → Vec K (P.nu t)) (w : Vec K (P.nu t)), CurveTo d v → CurveTo e w →
    Deriv0 (fun a => (P.calcR t (P.integrate (xs t) (d a)) (us t + e a)).cost) (P.calcR t (xs t) (us t)).cost
      ((P.calcDiffR t (xs t) (us t)).Lx ⬝ᵥ v + (P.calcDiffR t (xs t) (us t)).Lu ⬝ᵥ w)
  term : ∀ (d : K → Vec K P.ndx) (v : Vec K P.ndx), CurveTo d v →
    Deriv0 (fun a => (P.calcT (P.integrate (xs P.T) (d a))).cost) (P.calcT (xs P.T)).cost ((P.calcDiffT (xs P.T)).Lx ⬝ᵥ v)
  next : ∀ t, t < P.T → ∀ (d : K → Vec K P.ndx) (v : Vec K P.ndx) (e : K → Vec K (P.nu t)) (w : Vec K (P.nu t)), CurveTo d v → CurveTo e w →
    CurveTo (fun a => P.diff (P.calcR t (xs t) (us t)).xnext (P.calcR t (P.integrate (xs t) (d a)) (us t + e a)).xnext)
      ((P.calcDiffR t (xs t) (us t)).Fx *ᵥ v + (P.calcDiffR t (xs t) (us t)).Fu *ᵥ w)
  fine : ∀ t, t < P.T → ∀ (d : K → Vec K P.ndx) (v : Vec K P.ndx) (e : K → Vec K (P.nu t)) (w : Vec K (P.nu t)), CurveTo d v → CurveTo e w →
    Small fun a => P.badX (P.calcR t (P.integrate (xs t) (d a)) (us t + e a)).xnext = false

end Mim.Spec
