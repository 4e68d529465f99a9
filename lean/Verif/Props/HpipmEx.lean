import Verif.Props.Hpipm
import Verif.Props.PyFullEx

/-!
# C92: `CSQP(problem, "HPIPM_…")` cannot recognise most solutions
-/
set_option linter.unusedSectionVars false
set_option linter.unusedSimpArgs false
set_option autoImplicit false

namespace Mim
open Spec Matrix

namespace PyFull
section
variable {K : Type} [Field K] [LinearOrder K] [IsStrictOrderedRing K] [SqrtOps K] {P : Problem K}

theorem _root_.Mim.PyDense.ocp_blind {hp : ℕ → PyDense.OcpQP P → Option (PyDense.HOSol P)} {k : ℕ} {mem : (PyDense.hpipmOcp P false hp).Mem}
    {d : Data P} {gap : ℕ → Vec K P.ndx} {a : PAns K} (hr : (PyDense.hpipmOcp P false hp).run k (PyDense.inputs d gap) = (some a, mem)) :
    a.y = (fun _ => 0) ∧ a.z = fun _ => 0 := by
  have hr' : (match hp k (PyDense.ocp d gap) with
    | none => (none, (k + 1 : ℕ))
    | some a => (some (PAns.mk (PyDense.ocpRes a) (fun _ => 0) (fun _ => 0) a.iters a.pri a.dua), k + 1)) = (some a, mem) := hr
  cases ho : hp k (PyDense.ocp d gap) with
  | none => rw [ho] at hr'; cases hr'
  | some b =>
    rw [ho] at hr'
    obtain ⟨e, -⟩ := Prod.mk.inj hr'
    obtain rfl := Option.some.inj e
    exact ⟨rfl, rfl⟩

/-- **C92 (a).**  `CSQP(problem, "HPIPM_OCP")` as constructed (`DEBUG` is false): whatever HPIPM answers, the stored multipliers are zero, so
when `solve` returns true, the gradient of the cost itself is at most `tolerance` in every state and control (the constraints and the
dynamics do not occur in it), besides the gaps and the violation. -/
theorem C92_hpipm_ocp_blind {hp : ℕ → PyDense.OcpQP P → Option (PyDense.HOSol P)} {xs : Option (Traj P)} {us : Option (Ctrls P)} {m : ℕ}
    {s s' : PyFull (PyDense.hpipmOcp P false hp)} (hr : Reachable s) (hint : ∀ x, P.integrate x 0 = x)
    (h : solve xs us m s = (some true, s')) :
    (∀ t, t ≤ P.T → s'.p.lagMul t = 0) ∧ (∀ t, t ≤ P.T → s'.p.q.y t = 0) ∧
    (∀ t, 0 < t → t < P.T → ∀ i, |(P.calcDiffR t (s'.p.xs t) (s'.p.us t)).Lx i| ≤ s.p.tol) ∧
    (∀ t, t < P.T → ∀ i, |(P.calcDiffR t (s'.p.xs t) (s'.p.us t)).Lu i| ≤ s.p.tol) ∧
    (∀ i, |(P.calcDiffT (s'.p.xs P.T)).Lx i| ≤ s.p.tol) ∧
    (∀ t, t < P.T → ∀ i, |shootGap P s'.p.xs s'.p.us t i| ≤ s.p.tol) ∧ violation P s'.p.xs s'.p.us ≤ s.p.tol := by
  have hz : (∀ t, t ≤ P.T → s'.p.lagMul t = 0) ∧ ∀ t, t ≤ P.T → s'.p.q.y t = 0 := by
    obtain ⟨i, q, q1, -, -, h1, -, rfl⟩ := solve_true h
    obtain ⟨a, mem, hrun, rfl⟩ := computeDirection_ok h1
    have hyz := PyDense.ocp_blind hrun
    refine ⟨fun t ht => ?_, fun t ht => ?_⟩
    · cases t with
      | zero => rfl
      | succ t =>
        change (if t < P.T then -seg (t * P.ndx) P.ndx a.y else _) = 0
        rw [if_pos (by omega), hyz.1]
        funext i
        exact neg_zero
    · change (if t ≤ P.T ∧ P.ng t ≠ 0 then seg (offs P.ng t) (P.ng t) a.z else _) = 0
      by_cases hg : P.ng t = 0
      · funext i
        exact absurd i.2 (by omega)
      · rw [if_pos ⟨ht, hg⟩, hyz.2]
        rfl
  obtain ⟨-, -, hk, -⟩ := C87_dense_certificate hr hint h
  refine ⟨hz.1, hz.2, fun t h0 ht i => ?_, fun t ht i => ?_, fun i => ?_, hk.gaps, hk.feas⟩
  · have := hk.stat_x t h0 ht i
    rwa [hz.1 (t + 1) ht, hz.1 t ht.le, hz.2 t ht.le, mulVec_zero, mulVec_zero, add_zero, sub_zero, add_zero] at this
  · have := hk.stat_u t ht i
    rwa [hz.1 (t + 1) ht, hz.2 t ht.le, mulVec_zero, mulVec_zero, add_zero, add_zero] at this
  · have := hk.stat_T i
    rwa [hz.1 P.T le_rfl, hz.2 P.T le_rfl, mulVec_zero, sub_zero, add_zero] at this

/-- **C92 (b).**  `CSQP(problem, "HPIPM_DENSE")` with an exact HPIPM: when `solve` returns true, the multipliers of the certificate are
nonnegative: no solution that needs a multiplier of a lower bound is recognised. -/
theorem C92_hpipm_dense_sign (hT : 0 < P.T) (hu : ∀ t, P.nu t = P.nu 0) {hp : ℕ → PyDense.HDense K → Option (PyDense.HDSol K)}
    (hh : HDenseExact P.nVars P.nEq P.nIn hp) {xs : Option (Traj P)} {us : Option (Ctrls P)} {m : ℕ}
    {s s' : PyFull (PyDense.hpipmDense P hp)} (hr : Reachable s) (hint : ∀ x, P.integrate x 0 = x) (h : solve xs us m s = (some true, s')) :
    (∀ t, t ≤ P.T → ∀ i, 0 ≤ s'.p.q.y t i) ∧ IsPKKT P s.p.tol s'.p.xs s'.p.us s'.p.lagMul s'.p.q.y := by
  refine ⟨?_, (C87_dense_certificate hr hint h).2.2.1⟩
  obtain ⟨i, q, q1, -, -, h1, -, rfl⟩ := solve_true h
  exact (C91_hpipm_dense_direction hT hu hh h1).1

end
end PyFull

namespace Ex
open PyFull

/-! ### An exact HPIPM: candidate solutions, checked -/

instance {n : ℕ} (lg : Vec ℚ n) (lgOn : Fin n → Bool) (ug : Vec ℚ n) (ugOn : Fin n → Bool) (c : Vec ℚ n) :
    Decidable (MaskedBox lg lgOn ug ugOn c) :=
  inferInstanceAs (Decidable (∀ i, (lgOn i = true → lg i ≤ c i) ∧ (ugOn i = true → c i ≤ ug i)))

instance {n : ℕ} (lg : Vec ℚ n) (lgOn : Fin n → Bool) (ug : Vec ℚ n) (ugOn : Fin n → Bool) (c ll lu : Vec ℚ n) :
    Decidable (MaskedMult lg lgOn ug ugOn c ll lu) :=
  inferInstanceAs (Decidable (∀ i, 0 ≤ ll i ∧ 0 ≤ lu i ∧ (0 < ll i → lgOn i = true ∧ c i = lg i) ∧ (0 < lu i → ugOn i = true ∧ c i = ug i)))

instance {P : Problem ℚ} (m : PyDense.OcpQP P) (x : ℕ → Vec ℚ P.ndx) (u : (t : ℕ) → Vec ℚ (P.nu t)) : Decidable (OcpFeasible m x u) :=
  decidable_of_iff ((∀ t, t < P.T → x (t + 1) = m.A t *ᵥ x t + m.B t *ᵥ u t + m.b t) ∧
    (∀ t, t < P.T → MaskedBox (m.lg t) (m.lgOn t) (m.ug t) (m.ugOn t) (m.C t *ᵥ x t + m.D t *ᵥ u t)) ∧
    MaskedBox (m.lg P.T) (m.lgOn P.T) (m.ug P.T) (m.ugOn P.T) (m.C P.T *ᵥ x P.T))
    ⟨fun h => ⟨h.1, h.2.1, h.2.2⟩, fun h => ⟨h.dyn, h.con, h.conT⟩⟩

instance {P : Problem ℚ} (m : PyDense.OcpQP P) (a : PyDense.HOSol P) : Decidable (OcpKKT m a) :=
  decidable_of_iff (OcpFeasible m a.x a.u ∧
    (m.Q 0 *ᵥ a.x 0 + (m.S 0)ᵀ *ᵥ a.u 0 + m.q 0 + (m.A 0)ᵀ *ᵥ a.pi 0 + (m.C 0)ᵀ *ᵥ (a.lamUg 0 - a.lamLg 0) = 0) ∧
    (∀ t, t < P.T → 0 < t → m.Q t *ᵥ a.x t + (m.S t)ᵀ *ᵥ a.u t + m.q t + (m.A t)ᵀ *ᵥ a.pi t +
      (m.C t)ᵀ *ᵥ (a.lamUg t - a.lamLg t) = a.pi (t - 1)) ∧
    (∀ t, t < P.T → m.S t *ᵥ a.x t + m.R t *ᵥ a.u t + m.r t + (m.B t)ᵀ *ᵥ a.pi t + (m.D t)ᵀ *ᵥ (a.lamUg t - a.lamLg t) = 0) ∧
    (m.Q P.T *ᵥ a.x P.T + m.q P.T + (m.C P.T)ᵀ *ᵥ (a.lamUg P.T - a.lamLg P.T) = a.pi (P.T - 1)) ∧
    (∀ t, t < P.T → MaskedMult (m.lg t) (m.lgOn t) (m.ug t) (m.ugOn t) (m.C t *ᵥ a.x t + m.D t *ᵥ a.u t) (a.lamLg t) (a.lamUg t)) ∧
    MaskedMult (m.lg P.T) (m.lgOn P.T) (m.ug P.T) (m.ugOn P.T) (m.C P.T *ᵥ a.x P.T) (a.lamLg P.T) (a.lamUg P.T))
    ⟨fun h => ⟨h.1, h.2.1, fun t h0 ht => h.2.2.1 t ht h0, h.2.2.2.1, h.2.2.2.2.1, h.2.2.2.2.2.1, h.2.2.2.2.2.2⟩,
     fun h => ⟨h.feas, h.stat_0, fun t ht h0 => h.stat_x t h0 ht, h.stat_u, h.stat_T, h.mult, h.multT⟩⟩

instance (nv ne ni : ℕ) (m : PyDense.HDense ℚ) (a : PyDense.HDSol ℚ) : Decidable (HDenseKKT nv ne ni m a) :=
  decidable_of_iff ((∀ i, i < nv → prod nv m.H a.v i + m.g i - prodT ne m.A a.pi i + prodT ni m.C (fun j => a.lamUg j - a.lamLg j) i = 0) ∧
    (∀ i, i < ne → prod nv m.A a.v i = m.b i) ∧ (∀ i, i < ni → m.lgOn i = true → m.lg i ≤ prod nv m.C a.v i) ∧
    (∀ i, i < ni → m.ugOn i = true → prod nv m.C a.v i ≤ m.ug i) ∧ (∀ i, i < ni → 0 ≤ a.lamLg i ∧ 0 ≤ a.lamUg i) ∧
    (∀ i, i < ni → 0 < a.lamLg i → m.lgOn i = true ∧ prod nv m.C a.v i = m.lg i) ∧
    (∀ i, i < ni → 0 < a.lamUg i → m.ugOn i = true ∧ prod nv m.C a.v i = m.ug i))
    ⟨fun h => ⟨h.1, h.2.1, h.2.2.1, h.2.2.2.1, h.2.2.2.2.1, h.2.2.2.2.2.1, h.2.2.2.2.2.2⟩,
     fun h => ⟨h.stat, h.eq, h.lo, h.up, h.pos, h.lg, h.ug⟩⟩

/-- HPIPM on the layout of `pushed`: the solution without the bound, or the one on the upper bound of the control, if it satisfies the KKT
conditions; otherwise an exception. -/
def ocpA : ℕ → PyDense.OcpQP pushed → Option (PyDense.HOSol pushed) := fun _ m =>
  let b := m.b 0 (0 : Fin 1)
  let Q := m.Q 1 (0 : Fin 1) (0 : Fin 1)
  let R := m.R 0 (0 : Fin 1) (0 : Fin 1)
  let q := m.q 1 (0 : Fin 1)
  let r := m.r 0 (0 : Fin 1)
  let u1 := -(Q * b + q + r) / (Q + R)
  let u2 := m.ug 0 (0 : Fin 1)
  let sol (u : ℚ) : PyDense.HOSol pushed :=
    ⟨fun t _ => if t = 1 then u + b else 0, fun _ _ => u, fun _ _ => Q * (u + b) + q, fun _ _ => 0,
     fun t _ => if t = 0 then -(R * u + r + Q * (u + b) + q) else 0, 1, 0, 0⟩
  [sol u1, sol u2].find? fun a => decide (OcpKKT m a)

theorem ocpA_exact : OcpExact ocpA := by
  intro k m a h
  have := List.find?_some h
  simpa using this

/-- the default solver with `HPIPM_OCP` on the problem with an active bound. -/
def pushOcp (debug : Bool) : PyFull (PyDense.hpipmOcp pushed debug ocpA) := PyFull.new true (Data.zero _) (0 : ℕ)

/-- the optimum of `pushed`. -/
theorem pushed_optimal {X : Traj pushed} {U : Ctrls pushed} (h0 : X 0 = (-10 : ℚ)) (h1 : X 1 = (-9 : ℚ)) (hu : U 0 (0 : Fin 1) = (1 : ℚ)) :
    OptimalCon pushed X U := by
  have hcost : ∀ (X : Traj pushed) (U : Ctrls pushed), trajCost pushed X U =
      (let x0 : ℚ := X 0; let u : ℚ := U 0 (0 : Fin 1); let x1 : ℚ := X 1; 0 + (1 * x0 * x0 + 1 * u * u) / 2 + 1 * x1 * x1 / 2) := fun _ _ => rfl
  refine ⟨⟨h0, fun t ht => ?_⟩, ⟨fun t ht => ?_, fun i => ⟨fun l hl => (by cases hl), fun u hu => (by cases hu)⟩⟩, fun X' U' hf hc => ?_⟩
  · obtain rfl : t = 0 := by change t < 1 at ht; omega
    let x0 : ℚ := X 0
    let x1 : ℚ := X 1
    let u : ℚ := U 0 (0 : Fin 1)
    have a0 : x0 = -10 := h0
    have a1 : x1 = -9 := h1
    have a2 : u = 1 := hu
    have : x1 = x0 + u := by rw [a0, a1, a2]; norm_num
    exact this
  · obtain rfl : t = 0 := by change t < 1 at ht; omega
    refine fun i => ⟨fun l hl => (by cases hl), fun u' hu' => ?_⟩
    have : (1 : ℚ) = u' := Option.some.inj hu'
    change (U 0 (0 : Fin 1) : ℚ) ≤ u'
    rw [hu, this]
  · obtain ⟨f0, f1⟩ := hf
    have hub := ((hc.1 0 Nat.zero_lt_one) (0 : Fin 1)).2 1 rfl
    have hx1 := f1 0 Nat.zero_lt_one
    rw [hcost, hcost]
    simp only []
    let x0' : ℚ := X' 0
    let x1' : ℚ := X' 1
    let u' : ℚ := U' 0 (0 : Fin 1)
    have e0 : x0' = -10 := f0
    have e1 : x1' = x0' + u' := hx1
    have hub' : u' ≤ 1 := hub
    let x0 : ℚ := X 0
    let x1 : ℚ := X 1
    let u : ℚ := U 0 (0 : Fin 1)
    have a0 : x0 = -10 := h0
    have a1 : x1 = -9 := h1
    have a2 : u = 1 := hu
    change 0 + (1 * x0 * x0 + 1 * u * u) / 2 + 1 * x1 * x1 / 2 ≤ 0 + (1 * x0' * x0' + 1 * u' * u') / 2 + 1 * x1' * x1' / 2 ∧
      (0 + (1 * x0' * x0' + 1 * u' * u') / 2 + 1 * x1' * x1' / 2 = 0 + (1 * x0 * x0 + 1 * u * u) / 2 + 1 * x1 * x1 / 2 → _)
    have hd : (0 + (1 * x0' * x0' + 1 * u' * u') / 2 + 1 * x1' * x1' / 2) - (0 + (1 * x0 * x0 + 1 * u * u) / 2 + 1 * x1 * x1 / 2) =
        (1 - u') * (9 - u') := by rw [a0, a1, a2, e1, e0]; ring
    have hp : 0 ≤ (1 - u') * (9 - u') := mul_nonneg (by linarith) (by linarith)
    refine ⟨by linarith, fun he => ?_⟩
    have hz : (1 - u') * (9 - u') = 0 := by linarith
    have hu1 : u' = 1 := by
      rcases mul_eq_zero.mp hz with h | h <;> linarith
    refine ⟨fun t ht => ?_, fun t ht => ?_⟩
    · have : t = 0 ∨ t = 1 := by change t ≤ 1 at ht; omega
      rcases this with rfl | rfl
      · exact e0.trans a0.symm
      · change x1' = x1
        rw [e1, e0, hu1, a1]; norm_num
    · obtain rfl : t = 0 := by change t < 1 at ht; omega
      funext (i : Fin 1)
      obtain rfl := fin1 i
      exact hu1.trans a2.symm

/-- **C92 (c).**  The constrained linear-quadratic problem of C88 with `HPIPM_OCP` as constructed: no HPIPM, guess, iteration limit, options or
history with a tolerance of at most 1 make `solve` return true. -/
theorem C92_hpipm_ocp_never (hp : ℕ → PyDense.OcpQP pushed → Option (PyDense.HOSol pushed)) (xs : Option (Traj pushed))
    (us : Option (Ctrls pushed)) (m : ℕ) (s s' : PyFull (PyDense.hpipmOcp pushed false hp)) (hr : Reachable s) (ht : s.p.tol ≤ 1) :
    solve xs us m s ≠ (some true, s') := by
  intro h
  have hint : ∀ x, pushed.integrate x 0 = x := fun (x : ℚ) => by change x + 0 = x; rw [add_zero]
  obtain ⟨-, -, -, hu, hT, hg, -⟩ := C92_hpipm_ocp_blind hr hint h
  have hx0 := (C87_dense_certificate hr hint h).2.2.2.1
  let x0 : ℚ := s'.p.xs 0
  let x1 : ℚ := s'.p.xs 1
  let u : ℚ := s'.p.us 0 (0 : Fin 1)
  have h1 : |1 * u| ≤ s.p.tol := hu 0 Nat.zero_lt_one (0 : Fin 1)
  have h2 : |1 * x1| ≤ s.p.tol := hT (0 : Fin 1)
  have h3 : |(x0 + u) - x1| ≤ s.p.tol := hg 0 Nat.zero_lt_one (0 : Fin 1)
  have h0 : x0 = -10 := hx0
  rw [one_mul] at h1 h2
  rw [abs_le] at h1 h2 h3
  rw [h0] at h3
  linarith [h1.2, h2.1, h3.1]

/-- **C92 (d).**  … although with an exact HPIPM it has the solution after the first iteration; with `DEBUG` it returns true. -/
theorem C92_hpipm_ocp_example :
    (∃ s', PyFull.solve none none 3 (pushOcp false) = (some false, s') ∧ OptimalCon pushed s'.p.xs s'.p.us ∧ s'.nQP = 3) ∧
    ∃ s', PyFull.solve none none 3 (pushOcp true) = (some true, s') ∧ OptimalCon pushed s'.p.xs s'.p.us ∧ s'.nQP = 2 := by
  have e : ∀ d, (fun r : Option Bool × PyFull (PyDense.hpipmOcp pushed d ocpA) => (r.1, r.2.nQP, (let x : ℚ := r.2.p.xs 0; decide (x = -10)),
      (let x : ℚ := r.2.p.xs 1; decide (x = -9)), (let u : ℚ := r.2.p.us 0 (0 : Fin 1); decide (u = 1)))) (PyFull.solve none none 3 (pushOcp d)) =
      (some d, (if d then 2 else 3), true, true, true) := by decide +kernel
  have key : ∀ d, ∃ s', PyFull.solve none none 3 (pushOcp d) = (some d, s') ∧ OptimalCon pushed s'.p.xs s'.p.us ∧ s'.nQP = if d then 2 else 3 := by
    intro d
    have h := e d
    generalize PyFull.solve none none 3 (pushOcp d) = r at h ⊢
    obtain ⟨o, s'⟩ := r
    simp only [Prod.mk.injEq, decide_eq_true_eq] at h
    obtain ⟨rfl, h2, h3, h4, h5⟩ := h
    exact ⟨s', rfl, pushed_optimal h3 h4 h5, h2⟩
  exact ⟨key false, key true⟩

/-! ### HPIPM_DENSE and a lower bound -/

/-- `clq 1 1 1 1 10` with the bound `-1 ≤ u` instead of `u ≤ 1`. -/
def pulled : Problem ℚ := { clq 1 1 1 1 10 with
  lb := fun t _ => if t = 0 then some (-1) else none
  ub := fun _ _ => none }

/-- HPIPM (dense) on the layout of `pulled`: the solution without the bound, or the one on the lower bound, if it satisfies the KKT conditions;
otherwise an exception. -/
def denseA : ℕ → PyDense.HDense ℚ → Option (PyDense.HDSol ℚ) := fun _ m =>
  let dx1 := (m.H 1 1 * m.b 0 - m.g 0 - m.g 1) / (m.H 0 0 + m.H 1 1)
  let dx2 := m.lg 0 + m.b 0
  let sol (dx : ℚ) : PyDense.HDSol ℚ :=
    ⟨fun i => if i = 0 then dx else dx - m.b 0, fun _ => m.H 0 0 * dx + m.g 0,
     fun i => if i = 0 then m.H 0 0 * dx + m.g 0 + m.H 1 1 * (dx - m.b 0) + m.g 1 else 0, fun _ => 0, 1, 0, 0⟩
  [sol dx1, sol dx2].find? fun a => decide (HDenseKKT 2 1 2 m a)

theorem denseA_exact : HDenseExact pulled.nVars pulled.nEq pulled.nIn denseA := by
  intro k m a h
  have := List.find?_some h
  exact of_decide_eq_true this

/-- the default solver with `HPIPM_DENSE`. -/
def pullDense : PyFull (PyDense.hpipmDense pulled denseA) := PyFull.new true (Data.zero _) (0 : ℕ)

/-- the optimum of `pulled`. -/
theorem pulled_optimal {X : Traj pulled} {U : Ctrls pulled} (h0 : X 0 = (10 : ℚ)) (h1 : X 1 = (9 : ℚ)) (hu : U 0 (0 : Fin 1) = (-1 : ℚ)) :
    OptimalCon pulled X U := by
  have hcost : ∀ (X : Traj pulled) (U : Ctrls pulled), trajCost pulled X U =
      (let x0 : ℚ := X 0; let u : ℚ := U 0 (0 : Fin 1); let x1 : ℚ := X 1; 0 + (1 * x0 * x0 + 1 * u * u) / 2 + 1 * x1 * x1 / 2) := fun _ _ => rfl
  refine ⟨⟨h0, fun t ht => ?_⟩, ⟨fun t ht => ?_, fun i => ⟨fun l hl => (by cases hl), fun u hu => (by cases hu)⟩⟩, fun X' U' hf hc => ?_⟩
  · obtain rfl : t = 0 := by change t < 1 at ht; omega
    let x0 : ℚ := X 0
    let x1 : ℚ := X 1
    let u : ℚ := U 0 (0 : Fin 1)
    have a0 : x0 = 10 := h0
    have a1 : x1 = 9 := h1
    have a2 : u = -1 := hu
    have : x1 = x0 + u := by rw [a0, a1, a2]; norm_num
    exact this
  · obtain rfl : t = 0 := by change t < 1 at ht; omega
    refine fun i => ⟨fun l hl => ?_, fun u' hu' => (by cases hu')⟩
    have : (-1 : ℚ) = l := Option.some.inj hl
    change l ≤ (U 0 (0 : Fin 1) : ℚ)
    rw [hu, this]
  · obtain ⟨f0, f1⟩ := hf
    have hub := ((hc.1 0 Nat.zero_lt_one) (0 : Fin 1)).1 (-1) rfl
    have hx1 := f1 0 Nat.zero_lt_one
    rw [hcost, hcost]
    simp only []
    let x0' : ℚ := X' 0
    let x1' : ℚ := X' 1
    let u' : ℚ := U' 0 (0 : Fin 1)
    have e0 : x0' = 10 := f0
    have e1 : x1' = x0' + u' := hx1
    have hub' : -1 ≤ u' := hub
    let x0 : ℚ := X 0
    let x1 : ℚ := X 1
    let u : ℚ := U 0 (0 : Fin 1)
    have a0 : x0 = 10 := h0
    have a1 : x1 = 9 := h1
    have a2 : u = -1 := hu
    change 0 + (1 * x0 * x0 + 1 * u * u) / 2 + 1 * x1 * x1 / 2 ≤ 0 + (1 * x0' * x0' + 1 * u' * u') / 2 + 1 * x1' * x1' / 2 ∧
      (0 + (1 * x0' * x0' + 1 * u' * u') / 2 + 1 * x1' * x1' / 2 = 0 + (1 * x0 * x0 + 1 * u * u) / 2 + 1 * x1 * x1 / 2 → _)
    have hd : (0 + (1 * x0' * x0' + 1 * u' * u') / 2 + 1 * x1' * x1' / 2) - (0 + (1 * x0 * x0 + 1 * u * u) / 2 + 1 * x1 * x1 / 2) =
        (u' + 1) * (u' + 9) := by rw [a0, a1, a2, e1, e0]; ring
    have hp : 0 ≤ (u' + 1) * (u' + 9) := mul_nonneg (by linarith) (by linarith)
    refine ⟨by linarith, fun he => ?_⟩
    have hz : (u' + 1) * (u' + 9) = 0 := by linarith
    have hu1 : u' = -1 := by
      rcases mul_eq_zero.mp hz with h | h <;> linarith
    refine ⟨fun t ht => ?_, fun t ht => ?_⟩
    · have : t = 0 ∨ t = 1 := by change t ≤ 1 at ht; omega
      rcases this with rfl | rfl
      · exact e0.trans a0.symm
      · change x1' = x1
        rw [e1, e0, hu1, a1]; norm_num
    · obtain rfl : t = 0 := by change t < 1 at ht; omega
      funext (i : Fin 1)
      obtain rfl := fin1 i
      exact hu1.trans a2.symm

/-- **C92 (e).**  The problem with an active lower bound and `HPIPM_DENSE`: no exact HPIPM, guess, iteration limit, options or history with a
tolerance of at most 1 make `solve` return true. -/
theorem C92_hpipm_dense_never {hp : ℕ → PyDense.HDense ℚ → Option (PyDense.HDSol ℚ)} (hh : HDenseExact pulled.nVars pulled.nEq pulled.nIn hp)
    (xs : Option (Traj pulled)) (us : Option (Ctrls pulled)) (m : ℕ) (s s' : PyFull (PyDense.hpipmDense pulled hp)) (hr : Reachable s)
    (ht : s.p.tol ≤ 1) : solve xs us m s ≠ (some true, s') := by
  intro h
  have hint : ∀ x, pulled.integrate x 0 = x := fun (x : ℚ) => by change x + 0 = x; rw [add_zero]
  obtain ⟨hy, hk⟩ := C92_hpipm_dense_sign Nat.zero_lt_one (fun _ => rfl) hh hr hint h
  have hx0 := (C87_dense_certificate hr hint h).2.2.2.1
  let x0 : ℚ := s'.p.xs 0
  let x1 : ℚ := s'.p.xs 1
  let u : ℚ := s'.p.us 0 (0 : Fin 1)
  let l : ℚ := s'.p.lagMul 1 (0 : Fin 1)
  let y : ℚ := s'.p.q.y 0 (0 : Fin 1)
  let y1 : ℚ := s'.p.q.y 1 (0 : Fin 1)
  have hy0 : 0 ≤ y := hy 0 (Nat.zero_le _) (0 : Fin 1)
  have h1 := hk.stat_u 0 Nat.zero_lt_one (0 : Fin 1)
  have h2 := hk.stat_T (0 : Fin 1)
  have h3 : |(x0 + u) - x1| ≤ s.p.tol := hk.gaps 0 Nat.zero_lt_one (0 : Fin 1)
  have h4 := hk.feas
  have h0 : x0 = 10 := hx0
  have m0 : ∀ (a : ℚ) (v : Vec ℚ 1), ((m1 a)ᵀ *ᵥ v) (0 : Fin 1) = a * v 0 := by
    intro a v
    simp [m1, Matrix.mulVec, dotProduct]
  have k1 : ∀ (v w : Vec ℚ 1) (b : ℚ), |1 * u + ((m1 1)ᵀ *ᵥ v) 0 + ((m1 1)ᵀ *ᵥ w) 0| ≤ b → |u + v 0 + w 0| ≤ b := by
    intro v w b hb
    rwa [m0, m0, one_mul, one_mul, one_mul] at hb
  have k2 : ∀ (v w : Vec ℚ 1) (b : ℚ), |1 * x1 - v 0 + ((m1 0)ᵀ *ᵥ w) 0| ≤ b → |x1 - v 0| ≤ b := by
    intro v w b hb
    rwa [m0, zero_mul, one_mul, add_zero] at hb
  have g1' : |u + l + y| ≤ s.p.tol := k1 _ _ _ h1
  have g2' : |x1 - l| ≤ s.p.tol := k2 _ _ _ h2
  have g4 : -1 - u ≤ s.p.tol := by
    have e : violation pulled s'.p.xs s'.p.us = max (-1 - u) 0 := by
      change (∑ t ∈ Finset.range 1, ∑ i : Fin 1, rowViol (pulled.lb t i) (pulled.ub t i) ((pulled.calcR t (s'.p.xs t) (s'.p.us t)).g i)) +
        ∑ i : Fin 1, rowViol none none ((pulled.calcT (s'.p.xs 1)).g i) = _
      rw [Finset.sum_range_one, Fin.sum_univ_one, Fin.sum_univ_one]
      change (max (-1 - u) 0 + 0) + (0 + 0) = _
      ring
    rw [e] at h4
    exact (le_max_left _ _).trans h4
  rw [abs_le] at g1' g2' h3
  rw [h0] at h3
  linarith [g1'.1, g1'.2, g2'.1, g2'.2, h3.1, h3.2]

/-- **C92 (f).**  … although with the exact HPIPM it has the solution after the first iteration. -/
theorem C92_hpipm_dense_example :
    ∃ s', PyFull.solve none none 3 pullDense = (some false, s') ∧ OptimalCon pulled s'.p.xs s'.p.us ∧ s'.nQP = 3 := by
  have e : (fun r : Option Bool × PyFull (PyDense.hpipmDense pulled denseA) => (r.1, r.2.nQP, (let x : ℚ := r.2.p.xs 0; decide (x = 10)),
      (let x : ℚ := r.2.p.xs 1; decide (x = 9)), (let u : ℚ := r.2.p.us 0 (0 : Fin 1); decide (u = -1)))) (PyFull.solve none none 3 pullDense) =
      (some false, 3, true, true, true) := by decide +kernel
  generalize PyFull.solve none none 3 pullDense = r at e ⊢
  obtain ⟨o, s'⟩ := r
  simp only [Prod.mk.injEq, decide_eq_true_eq] at e
  obtain ⟨rfl, h2, h3, h4, h5⟩ := e
  exact ⟨s', rfl, pulled_optimal h3 h4 h5, h2⟩

end Ex
end Mim
