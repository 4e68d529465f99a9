import Verif.Spec.LQ

/-!
# Feedback policies of linear-quadratic problems (specification for C72)
-/
namespace Mim.Spec
open Matrix
variable {K : Type} [Field K] [LinearOrder K] [IsStrictOrderedRing K] {T n : ℕ} {m : ℕ → ℕ}

namespace LQ
variable (Q : LQ K T n m)

/-- the dynamics from node `s` on. -/
def DynFrom (s : ℕ) (x : ℕ → Vec K n) (u : (t : ℕ) → Vec K (m t)) : Prop :=
  ∀ t, s ≤ t → t < T → x (t + 1) = Q.A t *ᵥ x t + Q.B t *ᵥ u t + Q.c (t + 1)

/-- the cost from node `s` on. -/
def costFrom (s : ℕ) (x : ℕ → Vec K n) (u : (t : ℕ) → Vec K (m t)) : K :=
  ∑ t ∈ Finset.Ico s T, Q.stageCost t (x t) (u t) + (x T ⬝ᵥ (Q.HT *ᵥ x T)) / 2 + Q.gT ⬝ᵥ x T

/-- `u = -G x - k` is the optimal policy: from every node `s` and every state there, following it costs at most as much as any other way
to continue, and every other way costs more. -/
def OptimalPolicy (G : (t : ℕ) → Mat K (m t) n) (k : (t : ℕ) → Vec K (m t)) : Prop :=
  ∀ s, s ≤ T → ∀ x u x' u', Q.DynFrom s x u → Q.DynFrom s x' u' → x' s = x s → (∀ t, s ≤ t → t < T → u t = -(G t *ᵥ x t) - k t) →
    Q.costFrom s x u ≤ Q.costFrom s x' u' ∧
    (Q.costFrom s x' u' = Q.costFrom s x u → (∀ t, s ≤ t → t < T → u' t = u t) ∧ ∀ t, s ≤ t → t ≤ T → x' t = x t)

/-- `½ x'V_s x + v_s'x` plus a constant of the node is the cost to go from node `s` when the policy is followed. -/
def IsValue (G : (t : ℕ) → Mat K (m t) n) (k : (t : ℕ) → Vec K (m t)) (V : ℕ → Mat K n n) (v : ℕ → Vec K n) : Prop :=
  ∀ s, s ≤ T → ∃ r : K, ∀ x u, Q.DynFrom s x u → (∀ t, s ≤ t → t < T → u t = -(G t *ᵥ x t) - k t) →
    Q.costFrom s x u = (x s ⬝ᵥ (V s *ᵥ x s)) / 2 + v s ⬝ᵥ x s + r

end LQ
end Mim.Spec
