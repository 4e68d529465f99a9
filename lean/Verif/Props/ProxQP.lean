import Verif.Props.ProxReturn
import Verif.Lemmas.QPOpt

/-!
# The QP of SolverPROXQP is the linearised problem (C40)
-/
set_option linter.unusedSectionVars false
set_option linter.unusedSimpArgs false

namespace Mim
open Spec Matrix
namespace PROX
variable {K : Type} [Field K] [LinearOrder K] [IsStrictOrderedRing K] {P : Problem K}
variable {qp : PSolve K} {fuel : ℕ} {xs : Option (Traj P)} {us : Option (Ctrls P)} {m : ℕ} {ri : K} {s s' s0 : PROX P} {b : Bool}
variable {d : Data P} {fs : ℕ → Vec K P.ndx} {q : PQP K}

theorem cost_quadModel (d : Data P) (fs : ℕ → Vec K P.ndx) (x : ℕ → Vec K P.ndx) (u : (t : ℕ) → Vec K (P.nu t)) :
    (lqOf d fs 0 0).cost x u = quadModel d x u := by
  unfold LQ.cost quadModel LQ.stageCost lqOf
  simp only [zero_smul, add_zero]
  rw [add_right_comm]
  congr 2
  refine Finset.sum_congr rfl fun t _ => ?_
  ring

theorem inBox_row {lb ub : Option K} {g c : K} :
    ((∀ l, (lb.map fun l => l - g) = some l → l ≤ c) ∧ ∀ u, (ub.map fun u => u - g) = some u → c ≤ u) ↔
      (∀ l, lb = some l → l ≤ g + c) ∧ ∀ u, ub = some u → g + c ≤ u := by
  constructor
  · rintro ⟨h1, h2⟩
    refine ⟨fun l hl => ?_, fun u hu => ?_⟩
    · have := h1 (l - g) (by rw [hl]; rfl); linarith
    · have := h2 (u - g) (by rw [hu]; rfl); linarith
  · rintro ⟨h1, h2⟩
    refine ⟨fun l hl => ?_, fun u hu => ?_⟩
    · obtain ⟨a, ha, rfl⟩ := Option.map_eq_some_iff.mp hl
      have := h1 a ha; linarith
    · obtain ⟨a, ha, rfl⟩ := Option.map_eq_some_iff.mp hu
      have := h2 a ha; linarith

/-- feasibility of the dense QP is feasibility of the linearised problem. -/
theorem feasible_iff (hT : 0 < P.T) (h : Ent d fs q) (z : FVec K) :
    DenseFeasible P.nVars P.nEq P.nIn q z ↔ QPFeasible d fs (stX P z) (stU P z) := by
  constructor
  · rintro ⟨h1, h2⟩
    refine ⟨rfl, ?_, ?_, ?_⟩
    · intro t ht
      funext i
      have e := h1 (t * P.ndx + i) (blk_lt i.2 ht)
      rw [rowA h.hA z ht i, h.hv.b t i ht] at e
      simp only [Pi.sub_apply, Pi.add_apply] at e ⊢
      linarith
    · intro t ht i
      have e := h2 (offs P.ng t + i) (offs_lt (d := P.ng) (by omega) i.2)
      rw [rowC h.hC z ht i, h.hv.l t i ht, h.hv.u t i ht] at e
      exact inBox_row.mp e
    · intro i
      have e := h2 (offs P.ng P.T + i) (offs_lt (d := P.ng) (by omega) i.2)
      rw [rowC_T h.hC z hT i, h.hv.lT i, h.hv.uT i] at e
      exact inBox_row.mp e
  · rintro ⟨-, h1, h2, h3⟩
    refine ⟨?_, ?_⟩
    · intro k hk
      obtain ⟨t, i, hi, rfl, ht⟩ : ∃ t i, i < P.ndx ∧ k = t * P.ndx + i ∧ t < P.T := by
        have hn : 0 < P.ndx := by
          rcases Nat.eq_zero_or_pos P.ndx with h0 | h0
          · unfold Problem.nEq at hk; rw [h0, Nat.mul_zero] at hk; omega
          · exact h0
        refine ⟨k / P.ndx, k % P.ndx, Nat.mod_lt _ hn, ?_, (Nat.div_lt_iff_lt_mul hn).mpr hk⟩
        rw [Nat.mul_comm]; exact (Nat.div_add_mod _ _).symm
      have e := congrFun (h1 t ht) ⟨i, hi⟩
      rw [rowA h.hA z ht ⟨i, hi⟩, h.hv.b t ⟨i, hi⟩ ht]
      simp only [Pi.sub_apply, Pi.add_apply] at e ⊢
      linarith
    · intro k hk
      obtain ⟨t, ht, i, hi, rfl⟩ := offs_cover hk
      rcases Nat.lt_succ_iff_lt_or_eq.mp ht with ht | rfl
      · have e := h2 t ht ⟨i, hi⟩
        rw [rowC h.hC z ht ⟨i, hi⟩, h.hv.l t ⟨i, hi⟩ ht, h.hv.u t ⟨i, hi⟩ ht]
        exact inBox_row.mpr e
      · have e := h3 ⟨i, hi⟩
        rw [rowC_T h.hC z hT ⟨i, hi⟩, h.hv.lT ⟨i, hi⟩, h.hv.uT ⟨i, hi⟩]
        exact inBox_row.mpr e

/-- every step is stacked in some vector. -/
theorem stack_surj (P : Problem K) (x : ℕ → Vec K P.ndx) (u : (t : ℕ) → Vec K (P.nu t)) (h0 : x 0 = 0) :
    ∃ z : FVec K, (∀ t, t ≤ P.T → stX P z t = x t) ∧ ∀ t, t < P.T → stU P z t = u t := by
  classical
  let zx : FVec K := forUp P.T (fun t => setSeg (t * P.ndx) (x (t + 1))) fun _ => 0
  let z : FVec K := forUp P.T (fun t => setSeg (P.T * P.ndx + offs P.nu t) (u t)) zx
  have hzx : ∀ n, n ≤ P.T → ∀ t, t < n → ∀ i : Fin P.ndx,
      forUp n (fun t => setSeg (t * P.ndx) (x (t + 1))) (fun _ => (0 : K)) (t * P.ndx + i) = x (t + 1) i := by
    intro n
    induction n with
    | zero => intro _ t ht; omega
    | succ n ih =>
      intro hn t ht i
      rw [forUp_succ]
      rcases Nat.lt_succ_iff_lt_or_eq.mp ht with ht' | rfl
      · rw [setSeg_out _ _ (blk_ne i.2 (by omega)), ih (by omega) t ht' i]
      · rw [setSeg_in]
  have hz1 : ∀ n, n ≤ P.T → ∀ k, k < P.T * P.ndx →
      forUp n (fun t => setSeg (P.T * P.ndx + offs P.nu t) (u t)) zx k = zx k := by
    intro n
    induction n with
    | zero => intro _ _ _; rfl
    | succ n ih =>
      intro hn k hk
      rw [forUp_succ, setSeg_out _ _ (by omega), ih (by omega) k hk]
  have hz2 : ∀ n, n ≤ P.T → ∀ t, t < n → ∀ i : Fin (P.nu t),
      forUp n (fun t => setSeg (P.T * P.ndx + offs P.nu t) (u t)) zx (P.T * P.ndx + offs P.nu t + i) = u t i := by
    intro n
    induction n with
    | zero => intro _ t ht; omega
    | succ n ih =>
      intro hn t ht i
      rw [forUp_succ]
      rcases Nat.lt_succ_iff_lt_or_eq.mp ht with ht' | rfl
      · have := offs_ne (d := P.nu) i.2 (show t ≠ n by omega)
        rw [setSeg_out _ _ (by omega), ih (by omega) t ht' i]
      · rw [setSeg_in]
  refine ⟨z, ?_, ?_⟩
  · intro t ht
    cases t with
    | zero => exact h0.symm
    | succ t =>
      funext i
      change z (t * P.ndx + i) = _
      rw [show z (t * P.ndx + i) = zx (t * P.ndx + i) from hz1 P.T le_rfl _ (blk_lt i.2 (by omega))]
      exact hzx P.T le_rfl t (by omega) i
  · intro t ht
    funext i
    exact hz2 P.T le_rfl t ht i

/-- **C40.**  From every reachable solver state, if the control dimension does not vary over time (more generally `ColsOK`), the QP
that `calc` hands to ProxSuite is the linearised problem of the current trajectory in the stacked variable
`z = (dx_1, …, dx_T, du_0, …, du_{T-1})` (with `dx_0 = 0`): its objective is the quadratic model of the cost, and `z` satisfies its
constraints iff the step satisfies the linearised dynamics (with the gaps) and the linearised constraints.  Every step is
stacked in some `z`. -/
theorem C40_prox_assembles (hs : Reachable s) (hT : 0 < P.T) (hc : ColsOK P) :
    let s1 := s.calcEval
    (FreshCalc P s1.data s.xs s.us ∧ FreshDiff P s1.data s.xs s.us ∧ ∀ t, t < P.T → s1.e.fs (t + 1) = shootGap P s.xs s.us t) ∧
    (∀ z, PQP.obj P.nVars s1.m z = quadModel s1.data (stX P z) (stU P z)) ∧
    (∀ z, DenseFeasible P.nVars P.nEq P.nIn s1.m z ↔ QPFeasible s1.data s1.e.fs (stX P z) (stU P z)) ∧
    (∀ (x : ℕ → Vec K P.ndx) (u : (t : ℕ) → Vec K (P.nu t)), x 0 = 0 → ∃ z : FVec K, (∀ t, t ≤ P.T → stX P z t = x t) ∧ ∀ t, t < P.T → stU P z t = u t) := by
  intro s1
  have he := calcEval_evald s
  have hE : Ent s1.data s1.e.fs s1.m := (Pattern.assemble hT hc (hs.pattern hT hc)).1
  refine ⟨⟨he.fresh, he.diff, he.fs⟩, fun z => ?_, fun z => feasible_iff hT hE z, fun x u h0 => stack_surj P x u h0⟩
  rw [obj_eq hT hE z, cost_quadModel]

/-- the KKT conditions mention only the nodes `0..T`. -/
theorem qpkkt_congr {preg dreg : K} {x x' lam lam' : ℕ → Vec K P.ndx} {u u' : (t : ℕ) → Vec K (P.nu t)}
    {y y' : (t : ℕ) → Vec K (P.ng t)} (h : QPKKT d fs preg dreg x u lam y) (hx : ∀ t, t ≤ P.T → x' t = x t)
    (hu : ∀ t, t < P.T → u' t = u t) (hl : ∀ t, 0 < t → t ≤ P.T → lam' t = lam t) (hy : ∀ t, t ≤ P.T → y' t = y t) (hT : 0 < P.T) :
    QPKKT d fs preg dreg x' u' lam' y' := by
  obtain ⟨⟨f1, f2, f3, f4⟩, h2, h3, h4, h5, h6⟩ := h
  refine ⟨⟨?_, ?_, ?_, ?_⟩, ?_, ?_, ?_, ?_, ?_⟩
  · rw [hx 0 (Nat.zero_le _)]; exact f1
  · intro t ht; rw [hx (t + 1) (by omega), hx t ht.le, hu t ht]; exact f2 t ht
  · intro t ht; rw [hx t ht.le, hu t ht]; exact f3 t ht
  · rw [hx _ le_rfl]; exact f4
  · intro t h0 ht
    rw [hx t ht.le, hu t ht, hl (t + 1) (by omega) (by omega), hl t h0 ht.le, hy t ht.le]
    exact h2 t h0 ht
  · intro t ht
    rw [hx t ht.le, hu t ht, hl (t + 1) (by omega) (by omega), hy t ht.le]
    exact h3 t ht
  · rw [hx _ le_rfl, hl _ hT le_rfl, hy _ le_rfl]; exact h4
  · intro t ht; rw [hx t ht.le, hu t ht, hy t ht.le]; exact h5 t ht
  · rw [hx _ le_rfl, hy _ le_rfl]; exact h6

/-- **C40 (directions).**  With an exact QP solver, in every iteration of every solve the direction and the multipliers read back from
ProxSuite satisfy the KKT conditions of the linearised problem of the current iterate, without regularization. -/
theorem C40_prox_direction_kkt (hr : Reachable s0) (hT : 0 < P.T) (hc : ColsOK P) (hqp : QPExact P.nVars P.nEq P.nIn qp)
    (hs : AtHead qp fuel xs us m ri s0 s) {s1 : PROX P} (hd : retry qp fuel true { s with wasFeas := false } = some (true, s1)) :
    FreshCalc P s1.data s.xs s.us ∧ FreshDiff P s1.data s.xs s.us ∧
    QPKKT s1.data s1.e.fs 0 0 s1.dx s1.du s1.lam s1.y := by
  obtain ⟨hx, hu, he, hm, n, a, ha, hlam, hy, hdx, hdu⟩ := C17_prox_directions_fresh hd
  have hE : Ent s1.data s1.e.fs s1.m := by rw [hm]; exact (Pattern.assemble hT hc (hs.pattern hT hc hr)).1
  refine ⟨by rw [← hx, ← hu]; exact he.fresh, by rw [← hx, ← hu]; exact he.diff, ?_⟩
  have hk := qpkkt_of_dense hT hE (hqp n _ a ha)
  refine qpkkt_congr hk ?_ ?_ ?_ ?_ hT
  · intro t ht
    cases t with
    | zero =>
      have e : s1.dx 0 = s.dx 0 := by
        cases retry_post hd with
        | gaveUp j _ _ _ hb' hs' => cases hb'
        | found j a _ ha _ _ hs' => subst hs'; rfl
      rw [e, hs.dx0 hr]
      rfl
    | succ t => rw [hdx t (by omega)]; rfl
  · intro t ht; rw [hdu t ht]; rfl
  · intro t h0 ht
    rw [hlam]
    unfold lamAfter
    rw [if_pos ⟨h0, ht⟩]
    cases t with
    | zero => omega
    | succ t => rfl
  · intro t ht
    rw [hy]
    unfold yAfter
    rw [if_pos ht]
    rfl

/-- **C40 (optimality).**  If moreover the Hessian blocks are symmetric and positive semidefinite, the direction minimises the quadratic
model of the cost among all steps that satisfy the linearised dynamics and constraints. -/
theorem C40_prox_direction_optimal (hr : Reachable s0) (hT : 0 < P.T) (hc : ColsOK P) (hqp : QPExact P.nVars P.nEq P.nIn qp)
    (hs : AtHead qp fuel xs us m ri s0 s) {s1 : PROX P} (hd : retry qp fuel true { s with wasFeas := false } = some (true, s1))
    (hsym : SymHess s1.data) (hcx : Convex s1.data 0 0) :
    QPFeasible s1.data s1.e.fs s1.dx s1.du ∧
    ∀ x u, QPFeasible s1.data s1.e.fs x u → quadModel s1.data s1.dx s1.du ≤ quadModel s1.data x u := by
  obtain ⟨_, _, hk⟩ := C40_prox_direction_kkt hr hT hc hqp hs hd
  refine ⟨hk.feas, fun x u h => ?_⟩
  have := QPKKT.global hsym hcx hk h
  rwa [cost_quadModel, cost_quadModel] at this

end PROX

namespace Ex
open PROX

/-- constant control dimension: C40 applies to `clq`. -/
example : ColsOK (clq 1 1 1 1 1) ∧ 0 < (clq 1 1 1 1 1).T ∧ QPExact (clq 1 1 1 1 1).nVars (clq 1 1 1 1 1).nEq (clq 1 1 1 1 1).nIn qp2 :=
  ⟨ColsOK.of_const (n := 1) fun _ => rfl, by decide, qp2_exact⟩

/-- C40 (directions) applied: the first direction of a new solver with the exact QP solver `qp2`. -/
example : ∃ s1, retry qp2 1 true { (PROX.new (Data.zero (clq 1 1 1 1 1))).start none none 0 with wasFeas := false } = some (true, s1) ∧
    QPKKT s1.data s1.e.fs 0 0 s1.dx s1.du s1.lam s1.y := by
  have h : (retry qp2 1 true { (PROX.new (Data.zero (clq 1 1 1 1 1))).start none none 0 with wasFeas := false }).map (fun r => r.1) = some true := by
    decide +kernel
  cases hr : retry qp2 1 true { (PROX.new (Data.zero (clq 1 1 1 1 1))).start none none 0 with wasFeas := false } with
  | none => rw [hr] at h; cases h
  | some r =>
    obtain ⟨b, s1⟩ := r
    rw [hr] at h
    simp only [Option.map_some, Option.some.injEq] at h
    subst h
    exact ⟨s1, rfl, (C40_prox_direction_kkt (P := clq 1 1 1 1 1) (.new _) (by decide) (ColsOK.of_const (n := 1) fun _ => rfl)
      (qp2_exact : QPExact (clq 1 1 1 1 1).nVars (clq 1 1 1 1 1).nEq (clq 1 1 1 1 1).nIn qp2)
      (AtHead.start (m := 1)) hr).2.2⟩

/-- Two stages with two and one controls, `x_{t+1} = x_t + sum of the controls`; the second stage has the constraint `u ≤ -1`. -/
def vary : Problem ℚ where
  T := 2
  ndx := 1
  nu t := if t = 0 then 2 else 1
  ng t := if t = 1 then 1 else 0
  X := ℚ
  integrate x d := x + d 0
  diff a b := fun _ => b - a
  zeroX := 0
  x0 := 0
  calcR _ x u := ⟨0, x + ∑ i, u i, fun _ => ∑ i, u i⟩
  calcDiffR _ _ _ := ⟨fun _ => 0, fun _ => 0, m1 0, Matrix.of fun _ _ => 0, Matrix.of fun i j => if i.val = j.val then 1 else 0, m1 1,
    Matrix.of fun _ _ => 1, Matrix.of fun _ _ => 0, Matrix.of fun _ _ => 1⟩
  calcT _ := ⟨0, fun _ => 0⟩
  calcDiffT _ := ⟨fun _ => 0, m1 1, Matrix.of fun _ _ => 0⟩
  badX _ := false
  lb _ _ := none
  ub _ _ := some (-1)

/-- the QP data of a new solver for `vary` at the zero trajectory. -/
def varyCalc : PROX vary := ((PROX.new (Data.zero vary)).start none none 0).calcEval

/-- `du_0 = (0, -1)`, `du_1 = 0`, `dx_1 = -1`, `dx_2 = -1`: the second control of stage 0 is `-1`. -/
def varyZ : FVec ℚ := fun i => if i = 0 ∨ i = 1 ∨ i = 3 then -1 else 0

theorem vary_C : prod vary.nVars varyCalc.m.C varyZ 0 = -1 ∧ varyCalc.m.C 0 3 = 1 ∧ varyCalc.m.C 0 4 = 0 := by decide +kernel
theorem vary_con : ((varyCalc.data.run 1).g + conLin varyCalc.data 1 (stX vary varyZ 1) (stU vary varyZ 1)) ⟨0, by decide⟩ = 0 := by
  decide +kernel

/-- **C40, negative part.**  With varying control dimensions the rows of the QP are wrong: on `vary` the constraint row of stage 1 acts
on the second control of stage 0, so that a step the QP considers feasible violates the linearised constraint of stage 1. -/
theorem C40_prox_varying_controls_refuted : Reachable (PROX.new (Data.zero vary)) ∧
    DenseFeasible vary.nVars vary.nEq vary.nIn varyCalc.m varyZ ∧
    ¬ QPFeasible varyCalc.data varyCalc.e.fs (stX vary varyZ) (stU vary varyZ) := by
  refine ⟨.new _, ⟨?_, ?_⟩, ?_⟩
  · have h : ∀ i ∈ List.range vary.nEq, prod vary.nVars varyCalc.m.A varyZ i = varyCalc.m.b i := by decide +kernel
    intro i hi
    exact h i (List.mem_range.mpr hi)
  · intro i hi
    have h1 : vary.nIn = 1 := by decide
    obtain rfl : i = 0 := by omega
    have hl : varyCalc.m.l 0 = none := by decide +kernel
    have hu : varyCalc.m.u 0 = some (-1) := by decide +kernel
    rw [vary_C.1]
    refine ⟨fun l h => ?_, fun u h => ?_⟩
    · rw [hl] at h; cases h
    · rw [hu] at h; cases h; exact le_refl _
  · intro h
    have := (h.con 1 (by decide) ⟨0, by decide⟩).2 (-1) rfl
    rw [vary_con] at this
    norm_num at this

end Ex
end Mim
