import Verif.Spec.QP
import Verif.Lemmas.Curvature

/-!
# Specification: curvature of the function an ADMM step minimises

The quadratic form of `augCost`: the curvature of the regularized quadratic model, plus `σ` times the squared norm of the step, plus
the penalties times the squared change of the linearised constraints.
-/
set_option linter.unusedSectionVars false
set_option linter.unusedSimpArgs false

namespace Mim.Spec
open Matrix
variable {K : Type} [Field K] [LinearOrder K] [IsStrictOrderedRing K] {P : Problem K}

/-- `Σ_i ρ_i c_i²`. -/
def penCurv {m : ℕ} (rho c : Vec K m) : K := ∑ i, rho i * c i ^ 2

/-- the quadratic form of `augCost`. -/
def augCurv (d : Data P) (preg dreg sigma : K) (rho : (t : ℕ) → Vec K (P.ng t)) (x : ℕ → Vec K P.ndx)
    (u : (t : ℕ) → Vec K (P.nu t)) : K :=
  (lqOf d 0 preg dreg).curv x u + sigma * (sqX P.T x + sqU P.T u) +
    (∑ t ∈ Finset.range P.T, penCurv (rho t) (conLin d t (x t) (u t)) + penCurv (rho P.T) (d.td.Gx *ᵥ x P.T))

/-- positive curvature of the function of an ADMM step along every direction with a nonzero control. -/
def AugPos (d : Data P) (preg dreg sigma : K) (rho : (t : ℕ) → Vec K (P.ng t)) : Prop :=
  ∀ x u, (lqOf d 0 preg dreg).Direction x u → (∃ t, t < P.T ∧ u t ≠ 0) → 0 < augCurv d preg dreg sigma rho x u

end Mim.Spec
