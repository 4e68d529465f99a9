import Verif.Spec.OCP

/-!
# Specification: closed-loop rollouts

The trial trajectory of a DDP-type solver: apply the affine policy `u = us_t - a k_t - K_t (x ⊖ xs_t)` from `x0`.  With
`close = true` every state is the one the dynamics produce; with `close = false` every state, the initial one included, is
displaced by `(a - 1) fs_t`.
-/
set_option linter.unusedSectionVars false
set_option linter.unusedSimpArgs false

namespace Mim.Spec
section
variable {F : Type} [Add F] [Sub F] [Mul F] [Div F] [Neg F] [Zero F] [One F] [FloatOps F]

/-- an affine policy around a trajectory, and the gaps. -/
structure Policy (P : Problem F) where
  xs : Traj P
  us : Ctrls P
  k : (t : ℕ) → Vec F (P.nu t)
  K : (t : ℕ) → Mat F (P.nu t) P.ndx
  fs : ℕ → Vec F P.ndx

variable {P : Problem F} (π : Policy P) (close : Bool) (a : F)

/-- the control of the policy at state `x`. -/
def Policy.u (t : ℕ) (x : P.X) : Vec F (P.nu t) := π.us t - sv a (π.k t) - mv (π.K t) (P.diff (π.xs t) x)

/-- opening of a gap at node `t`. -/
def Policy.shift (t : ℕ) (x : P.X) : P.X := if close then x else P.integrate x (sv (a - 1) (π.fs t))

/-- the states of the rollout. -/
def Policy.X : ℕ → P.X
  | 0 => π.shift close a 0 P.x0
  | t + 1 => π.shift close a (t + 1) (P.calcR t (Policy.X t) (π.u a t (Policy.X t))).xnext

/-- the controls of the rollout. -/
def Policy.U : Ctrls P := fun t => π.u a t (π.X close a t)

/-- the state predicted at node `t` before a gap is opened. -/
def Policy.pre : ℕ → P.X
  | 0 => P.x0
  | t + 1 => (P.calcR t (π.X close a t) (π.U close a t)).xnext

theorem Policy.X_eq (t : ℕ) : π.X close a t = π.shift close a t (π.pre close a t) := by cases t <;> rfl

/-- a running cost, the total cost or a predicted state of the rollout is not a usable number. -/
def Policy.BlowsUp : Prop :=
  (∃ t, t < P.T ∧ (bad (sumUp (t + 1) (nodeCost P (π.X close a) (π.U close a))) = true ∨
    P.badX (π.pre close a (t + 1)) = true)) ∨ bad (trajCost P (π.X close a) (π.U close a)) = true

/-- a dynamically feasible trajectory starting at the initial state. -/
def Feasible (P : Problem F) (xs : Traj P) (us : Ctrls P) : Prop :=
  xs 0 = P.x0 ∧ ∀ t, t < P.T → xs (t + 1) = (P.calcR t (xs t) (us t)).xnext

end
end Mim.Spec
