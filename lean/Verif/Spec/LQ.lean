import Verif.Base.Scalar

/-!
# Specification: linear-quadratic problems and their KKT conditions

`min Σ_t ½ x'Hxx x + x'Hxu u + ½ u'Huu u + gx·x + gu·u  + ½ x_T'HT x_T + gT·x_T`
subject to `x_{t+1} = A_t x_t + B_t u_t + c_{t+1}` with given `x_0`.
-/
set_option linter.unusedSectionVars false
set_option linter.unusedSimpArgs false

namespace Mim.Spec
open Matrix

/-- a linear-quadratic problem with horizon `T`, state dimension `n` and control dimensions `m t`. -/
structure LQ (K : Type) (T n : ℕ) (m : ℕ → ℕ) where
  Hxx : ℕ → Mat K n n
  Hxu : (t : ℕ) → Mat K n (m t)
  Huu : (t : ℕ) → Mat K (m t) (m t)
  gx : ℕ → Vec K n
  gu : (t : ℕ) → Vec K (m t)
  A : ℕ → Mat K n n
  B : (t : ℕ) → Mat K n (m t)
  c : ℕ → Vec K n
  HT : Mat K n n
  gT : Vec K n

section
variable {K : Type} [Field K] [LinearOrder K] [IsStrictOrderedRing K] {T n : ℕ} {m : ℕ → ℕ}

/-- positive definiteness (no square roots needed). -/
def PosDef {n : ℕ} (A : Mat K n n) : Prop := ∀ x : Vec K n, x ≠ 0 → 0 < x ⬝ᵥ (A *ᵥ x)

/-- what is assumed of Eigen's Cholesky factorisation in exact arithmetic: for symmetric matrices it succeeds exactly for
positive definite ones and then solves linear systems. -/
structure LLTExact (llt : (n : ℕ) → Mat K n n → Option (Vec K n → Vec K n)) : Prop where
  solves : ∀ n A s, Aᵀ = A → llt n A = some s → ∀ b, A *ᵥ s b = b
  posDef : ∀ n A s, Aᵀ = A → llt n A = some s → PosDef A
  complete : ∀ n A, Aᵀ = A → PosDef A → ∃ s, llt n A = some s

namespace LQ
variable (Q : LQ K T n m)

/-- the Hessian blocks are symmetric. -/
structure Sym : Prop where
  xx : ∀ t, t < T → (Q.Hxx t)ᵀ = Q.Hxx t
  uu : ∀ t, t < T → (Q.Huu t)ᵀ = Q.Huu t
  T : Q.HTᵀ = Q.HT

/-- the dynamics. -/
def Dyn (x : ℕ → Vec K n) (u : (t : ℕ) → Vec K (m t)) : Prop :=
  ∀ t, t < T → x (t + 1) = Q.A t *ᵥ x t + Q.B t *ᵥ u t + Q.c (t + 1)

/-- cost of stage `t`. -/
def stageCost (t : ℕ) (x : Vec K n) (u : Vec K (m t)) : K :=
  (x ⬝ᵥ (Q.Hxx t *ᵥ x)) / 2 + x ⬝ᵥ (Q.Hxu t *ᵥ u) + (u ⬝ᵥ (Q.Huu t *ᵥ u)) / 2 + Q.gx t ⬝ᵥ x + Q.gu t ⬝ᵥ u

/-- total cost. -/
def cost (x : ℕ → Vec K n) (u : (t : ℕ) → Vec K (m t)) : K :=
  ∑ t ∈ Finset.range T, Q.stageCost t (x t) (u t) + (x T ⬝ᵥ (Q.HT *ᵥ x T)) / 2 + Q.gT ⬝ᵥ x T

/-- first-order optimality conditions (with the given first state; `lam 0` is its multiplier). -/
structure KKT (x : ℕ → Vec K n) (u : (t : ℕ) → Vec K (m t)) (lam : ℕ → Vec K n) : Prop where
  stat_x : ∀ t, t < T → Q.Hxx t *ᵥ x t + Q.Hxu t *ᵥ u t + Q.gx t + (Q.A t)ᵀ *ᵥ lam (t + 1) = lam t
  stat_u : ∀ t, t < T → (Q.Hxu t)ᵀ *ᵥ x t + Q.Huu t *ᵥ u t + Q.gu t + (Q.B t)ᵀ *ᵥ lam (t + 1) = 0
  stat_T : Q.HT *ᵥ x T + Q.gT = lam T
  dyn : Q.Dyn x u

end LQ
end
end Mim.Spec
