import Verif.Model.PyDense
import Verif.Spec.QP
import Verif.Spec.Stacked

/-!
# Specification: the quadratic programs HPIPM solves

HPIPM's documentation: the stagewise QP has the variables `x_0, …, x_N, u_0, …, u_{N-1}` (`x_0` is free unless bounded), the dynamics
`x_{t+1} = A x + B u + b`, the cost `½ x'Qx + ½ u'Ru + u'Sx + q'x + r'u`, the rows `lg ≤ C x + D u ≤ ug`; a masked bound is absent.
Multipliers: `pi` of the dynamics, `lam_lg ≥ 0` and `lam_ug ≥ 0` of the two bounds.
-/
set_option linter.unusedSectionVars false
set_option linter.unusedSimpArgs false
set_option autoImplicit false

namespace Mim.Spec
open Matrix

section
variable {K : Type} [Field K] [LinearOrder K] [IsStrictOrderedRing K] {P : Problem K}

/-- `c` satisfies the bounds that are switched on. -/
def MaskedBox {n : ℕ} (lg : Vec K n) (lgOn : Fin n → Bool) (ug : Vec K n) (ugOn : Fin n → Bool) (c : Vec K n) : Prop :=
  ∀ i, (lgOn i = true → lg i ≤ c i) ∧ (ugOn i = true → c i ≤ ug i)

/-- nonnegative multipliers of the bounds, positive only at an active bound that is switched on. -/
def MaskedMult {n : ℕ} (lg : Vec K n) (lgOn : Fin n → Bool) (ug : Vec K n) (ugOn : Fin n → Bool) (c ll lu : Vec K n) : Prop :=
  ∀ i, 0 ≤ ll i ∧ 0 ≤ lu i ∧ (0 < ll i → lgOn i = true ∧ c i = lg i) ∧ (0 < lu i → ugOn i = true ∧ c i = ug i)

/-- a trajectory is feasible for the stagewise QP. -/
structure OcpFeasible (m : PyDense.OcpQP P) (x : ℕ → Vec K P.ndx) (u : (t : ℕ) → Vec K (P.nu t)) : Prop where
  dyn : ∀ t, t < P.T → x (t + 1) = m.A t *ᵥ x t + m.B t *ᵥ u t + m.b t
  con : ∀ t, t < P.T → MaskedBox (m.lg t) (m.lgOn t) (m.ug t) (m.ugOn t) (m.C t *ᵥ x t + m.D t *ᵥ u t)
  conT : MaskedBox (m.lg P.T) (m.lgOn P.T) (m.ug P.T) (m.ugOn P.T) (m.C P.T *ᵥ x P.T)

/-- the cost of the stagewise QP. -/
def ocpCost (m : PyDense.OcpQP P) (x : ℕ → Vec K P.ndx) (u : (t : ℕ) → Vec K (P.nu t)) : K :=
  (∑ t ∈ Finset.range P.T, ((x t ⬝ᵥ (m.Q t *ᵥ x t)) / 2 + (u t ⬝ᵥ (m.R t *ᵥ u t)) / 2 + u t ⬝ᵥ (m.S t *ᵥ x t) + m.q t ⬝ᵥ x t +
    m.r t ⬝ᵥ u t)) + (x P.T ⬝ᵥ (m.Q P.T *ᵥ x P.T)) / 2 + m.q P.T ⬝ᵥ x P.T

/-- the KKT conditions of the stagewise QP. -/
structure OcpKKT (m : PyDense.OcpQP P) (a : PyDense.HOSol P) : Prop where
  feas : OcpFeasible m a.x a.u
  stat_0 : m.Q 0 *ᵥ a.x 0 + (m.S 0)ᵀ *ᵥ a.u 0 + m.q 0 + (m.A 0)ᵀ *ᵥ a.pi 0 + (m.C 0)ᵀ *ᵥ (a.lamUg 0 - a.lamLg 0) = 0
  stat_x : ∀ t, 0 < t → t < P.T → m.Q t *ᵥ a.x t + (m.S t)ᵀ *ᵥ a.u t + m.q t + (m.A t)ᵀ *ᵥ a.pi t +
    (m.C t)ᵀ *ᵥ (a.lamUg t - a.lamLg t) = a.pi (t - 1)
  stat_u : ∀ t, t < P.T → m.S t *ᵥ a.x t + m.R t *ᵥ a.u t + m.r t + (m.B t)ᵀ *ᵥ a.pi t + (m.D t)ᵀ *ᵥ (a.lamUg t - a.lamLg t) = 0
  stat_T : m.Q P.T *ᵥ a.x P.T + m.q P.T + (m.C P.T)ᵀ *ᵥ (a.lamUg P.T - a.lamLg P.T) = a.pi (P.T - 1)
  mult : ∀ t, t < P.T → MaskedMult (m.lg t) (m.lgOn t) (m.ug t) (m.ugOn t) (m.C t *ᵥ a.x t + m.D t *ᵥ a.u t) (a.lamLg t) (a.lamUg t)
  multT : MaskedMult (m.lg P.T) (m.lgOn P.T) (m.ug P.T) (m.ugOn P.T) (m.C P.T *ᵥ a.x P.T) (a.lamLg P.T) (a.lamUg P.T)

/-- HPIPM (stagewise) answers, if it answers, with a solution of the KKT conditions. -/
def OcpExact (hp : ℕ → PyDense.OcpQP P → Option (PyDense.HOSol P)) : Prop := ∀ k m a, hp k m = some a → OcpKKT m a

/-- the KKT conditions of the dense QP, with HPIPM's signs: `H v + g - A' pi + C' (lam_ug - lam_lg) = 0`. -/
structure HDenseKKT (nv ne ni : ℕ) (m : PyDense.HDense K) (a : PyDense.HDSol K) : Prop where
  stat : ∀ i, i < nv → prod nv m.H a.v i + m.g i - prodT ne m.A a.pi i + prodT ni m.C (fun j => a.lamUg j - a.lamLg j) i = 0
  eq : ∀ i, i < ne → prod nv m.A a.v i = m.b i
  lo : ∀ i, i < ni → m.lgOn i = true → m.lg i ≤ prod nv m.C a.v i
  up : ∀ i, i < ni → m.ugOn i = true → prod nv m.C a.v i ≤ m.ug i
  pos : ∀ i, i < ni → 0 ≤ a.lamLg i ∧ 0 ≤ a.lamUg i
  lg : ∀ i, i < ni → 0 < a.lamLg i → m.lgOn i = true ∧ prod nv m.C a.v i = m.lg i
  ug : ∀ i, i < ni → 0 < a.lamUg i → m.ugOn i = true ∧ prod nv m.C a.v i = m.ug i

/-- HPIPM (dense) answers, if it answers, with a solution of the KKT conditions. -/
def HDenseExact (nv ne ni : ℕ) (hp : ℕ → PyDense.HDense K → Option (PyDense.HDSol K)) : Prop :=
  ∀ k m a, hp k m = some a → HDenseKKT nv ne ni m a

/-- the step with `dx_0 = 0` (HPIPM's `x_0` is not used). -/
def fix0 (x : ℕ → Vec K P.ndx) : ℕ → Vec K P.ndx
  | 0 => 0
  | t + 1 => x (t + 1)

/-- multipliers of the lower bounds: nonnegative, positive only where the linearised constraint of the step `(x, u)` is at its lower bound. -/
structure LowerMult (d : Data P) (x : ℕ → Vec K P.ndx) (u : (t : ℕ) → Vec K (P.nu t)) (lo : (t : ℕ) → Vec K (P.ng t)) : Prop where
  nonneg : ∀ t, t ≤ P.T → ∀ i, 0 ≤ lo t i
  active : ∀ t, t < P.T → ∀ i, 0 < lo t i → P.lb t i = some (((d.run t).g + conLin d t (x t) (u t)) i)
  activeT : ∀ i, 0 < lo P.T i → P.lb P.T i = some ((d.ter.g + d.td.Gx *ᵥ x P.T) i)

/-- no node has a finite lower bound. -/
def NoLower (P : Problem K) : Prop := ∀ t, t ≤ P.T → ∀ i, P.lb t i = none

theorem LowerMult.congr {d : Data P} {x x' : ℕ → Vec K P.ndx} {u u' : (t : ℕ) → Vec K (P.nu t)} {lo : (t : ℕ) → Vec K (P.ng t)}
    (h : LowerMult d x u lo) (hx : ∀ t, t ≤ P.T → x' t = x t) (hu : ∀ t, t < P.T → u' t = u t) : LowerMult d x' u' lo :=
  ⟨h.nonneg, fun t ht i hp => by rw [hx t ht.le, hu t ht]; exact h.active t ht i hp, fun i hp => by rw [hx _ le_rfl]; exact h.activeT i hp⟩

theorem LowerMult.zero {d : Data P} {x : ℕ → Vec K P.ndx} {u : (t : ℕ) → Vec K (P.nu t)} {lo : (t : ℕ) → Vec K (P.ng t)}
    (h : LowerMult d x u lo) (hn : NoLower P) (t : ℕ) (ht : t ≤ P.T) : lo t = 0 := by
  funext i
  refine le_antisymm (not_lt.mp fun hp => ?_) (h.nonneg t ht i)
  have hp : 0 < lo t i := hp
  rcases Nat.lt_or_eq_of_le ht with ht' | rfl
  · have := h.active t ht' i hp
    rw [hn t ht i] at this; cases this
  · have := h.activeT i hp
    rw [hn _ ht i] at this; cases this

end
end Mim.Spec
