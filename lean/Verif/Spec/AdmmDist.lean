import Verif.Spec.QP

/-!
# Distance of an ADMM iterate from a solution of the QP
-/
set_option linter.unusedSectionVars false

namespace Mim.Spec
open Matrix
variable {K : Type} [Field K] {P : Problem K}

/-- `Σ_i (ρ_i (z_i - c_i) + (y_i - w_i))² / ρ_i`: distance of `z + y/ρ` from `c + w/ρ` in the norm weighted with `ρ`. -/
def dualDist {m : ℕ} (rho z y c w : Vec K m) : K := ∑ i, (rho i * (z i - c i) + (y i - w i)) ^ 2 / rho i

/-- `Σ_i ρ_i (a_i - b_i)²`. -/
def wDist {m : ℕ} (rho a b : Vec K m) : K := ∑ i, rho i * (a i - b i) ^ 2

/-- distance of `(dx, du, z, y)` from a solution `(xs, us)` of the QP with the constraint multipliers `ys`. -/
def admmDist (d : Data P) (rho : (t : ℕ) → Vec K (P.ng t)) (sigma alpha : K) (dx : ℕ → Vec K P.ndx) (du : (t : ℕ) → Vec K (P.nu t))
    (z y : (t : ℕ) → Vec K (P.ng t)) (xs : ℕ → Vec K P.ndx) (us : (t : ℕ) → Vec K (P.nu t)) (ys : (t : ℕ) → Vec K (P.ng t)) : K :=
  (∑ t ∈ Finset.range P.T, (dualDist (rho t) (z t) (y t) (conLin d t (xs t) (us t)) (ys t) +
    alpha * sigma * (sqDist (dx t) (xs t) + sqDist (du t) (us t)))) +
  dualDist (rho P.T) (z P.T) (y P.T) (d.td.Gx *ᵥ xs P.T) (ys P.T) + alpha * sigma * sqDist (dx P.T) (xs P.T)

/-- how far the constraint values of the step `(dx, du)` are from `z`, weighted with `ρ`. -/
def splitGap (d : Data P) (rho : (t : ℕ) → Vec K (P.ng t)) (dx : ℕ → Vec K P.ndx) (du : (t : ℕ) → Vec K (P.nu t))
    (z : (t : ℕ) → Vec K (P.ng t)) : K :=
  (∑ t ∈ Finset.range P.T, wDist (rho t) (conLin d t (dx t) (du t)) (z t)) + wDist (rho P.T) (d.td.Gx *ᵥ dx P.T) (z P.T)

/-- squared distance of two steps. -/
def stepDist (P : Problem K) (dx dx' : ℕ → Vec K P.ndx) (du du' : (t : ℕ) → Vec K (P.nu t)) : K :=
  (∑ t ∈ Finset.range P.T, (sqDist (dx t) (dx' t) + sqDist (du t) (du' t))) + sqDist (dx P.T) (dx' P.T)

end Mim.Spec
