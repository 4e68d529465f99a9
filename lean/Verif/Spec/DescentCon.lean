import Verif.Spec.Descent
import Verif.Spec.Constrained
import Verif.Spec.QP

/-!
# Specification: derivatives of the constraints
-/
set_option linter.unusedSectionVars false
set_option linter.unusedSimpArgs false
set_option autoImplicit false

namespace Mim.Spec
open Matrix
variable {K : Type} [Field K] [LinearOrder K] [IsStrictOrderedRing K] (P : Problem K)

/-- At the trajectory `xs, us` the derivatives of the constraints reported by `calcDiff` are their directional derivatives. -/
structure TrueConDerivs (xs : Traj P) (us : Ctrls P) : Prop where
  run : ∀ t, t < P.T → ∀ (d : Vec K P.ndx) (e : Vec K (P.nu t)) (i : Fin (P.ng t)),
    Deriv0 (fun a => (P.calcR t (P.integrate (xs t) (sv a d)) (us t + sv a e)).g i) ((P.calcR t (xs t) (us t)).g i)
      (((P.calcDiffR t (xs t) (us t)).Gx *ᵥ d + (P.calcDiffR t (xs t) (us t)).Gu *ᵥ e) i)
  term : ∀ (d : Vec K P.ndx) (i : Fin (P.ng P.T)),
    Deriv0 (fun a => (P.calcT (P.integrate (xs P.T) (sv a d))).g i) ((P.calcT (xs P.T)).g i) (((P.calcDiffT (xs P.T)).Gx *ᵥ d) i)

/-- the cost has positive curvature along every direction of the linearised dynamics at `xs, us` (second-order sufficiency; implied by
costs that are convex, and strictly convex in the controls). -/
def ReducedPos (xs : Traj P) (us : Ctrls P) : Prop :=
  ∀ (dx : ℕ → Vec K P.ndx) (du : (t : ℕ) → Vec K (P.nu t)), dx 0 = 0 →
    (∀ t, t < P.T → dx (t + 1) = (P.calcDiffR t (xs t) (us t)).Fx *ᵥ dx t + (P.calcDiffR t (xs t) (us t)).Fu *ᵥ du t) →
    (∃ t, t < P.T ∧ du t ≠ 0) → 0 < curv P xs us dx du

end Mim.Spec
