import Verif.Props.CSQPPenalty
import Verif.Props.QPPasses

/-!
# C24: each iteration of the QP solver of SolverCSQP takes an exact ADMM step
-/
set_option linter.unusedSectionVars false
set_option linter.unusedSimpArgs false

namespace Mim
open Spec QP Matrix

section
variable {F : Type} [Add F] [Sub F] [Mul F] [Div F] [Neg F] [Zero F] [One F] [FloatOps F] [SqrtOps F] {P : Problem F}
variable {llt : LLT F} {E : QEnv P}

/-- the parts of one executed iteration. -/
theorem step_parts {q q' : CQP P} (h : q.step llt E = .ok q') : ∃ q1, q.pass llt E = .ok q1 ∧ q1.v = q.v ∧ q'.b = q1.b ∧
    LagOK E (q1.forward E).v ((q1.forward E).updateLag E).v ∧
    ∃ r i, q'.v = { ((q1.forward E).updateLag E).v with rho := r, inv := i } := by
  unfold CQP.step at h
  obtain ⟨q1, h1, h2⟩ := Res.thenDo_eq_ok h
  refine ⟨q1, h1, ?_, ?_, updateLag_ok _, ?_⟩
  · unfold CQP.pass at h1
    split at h1
    · split at h1
      all_goals
        obtain ⟨b, _, h4⟩ := Res.map_eq_ok h1
        subst h4; rfl
    · cases h1; rfl
  · subst h2
    simp only []
    rw [(updateRho_b E _).1]; rfl
  · subst h2
    exact updateRho_v _

/-- the first state of the step, at every iteration. -/
theorem AtIter.zero0 {q0 q : CQP P} (h : AtIter llt E q0 q) (h0 : CSQP.Zero0 q0) : CSQP.Zero0 q :=
  h.inv (CSQP.zero0_inv E) h0

end

section
variable {K : Type} [Field K] [LinearOrder K] [IsStrictOrderedRing K] [SqrtOps K] {P : Problem K}
variable {llt : LLT K} {E : QEnv P}

/-- the parts of one executed iteration in a sequential run: it is the full pass. -/
theorem step_seq (hs : E.sched = none) {q0 q q' : CQP P} (h : AtIter llt E q0 q)
    (hst : ({ q with tick := q.tick + 1 } : CQP P).step llt E = .ok q') :
    ∃ B, fullPass llt E q.v q.b = .ok B ∧ q'.b = B ∧
      let x := fwdLoop E B.bp (q.v.dxt, q.v.dut)
      let v1 : CVars P := { q.v with dxt := x.1, dut := x.2 }
      ∃ v2 r i, LagOK E v1 v2 ∧ q'.v = { v2 with rho := r, inv := i } := by
  obtain ⟨q1, h1, h2, h3, h4, r, i, h5⟩ := step_parts hst
  rw [C25_csqp_cheap_pass_is_full hs h] at h1
  obtain ⟨B, h6, h7⟩ := Res.map_eq_ok h1
  subst h7
  exact ⟨B, h6, h3, _, r, i, h4, h5⟩

theorem augCost_congr (d : Data P) (fs : ℕ → Vec K P.ndx) (preg dreg : K) (a : Admm P) {x x' : ℕ → Vec K P.ndx}
    {u u' : (t : ℕ) → Vec K (P.nu t)} (hx : ∀ t, t ≤ P.T → x t = x' t) (hu : ∀ t, t < P.T → u t = u' t) :
    augCost d fs preg dreg a x u = augCost d fs preg dreg a x' u' := by
  unfold augCost LQ.cost
  rw [hx P.T le_rfl]
  congr 3
  · congr 2
    refine Finset.sum_congr rfl fun t ht => ?_
    rw [hx t (Finset.mem_range.mp ht).le, hu t (Finset.mem_range.mp ht)]
  · refine Finset.sum_congr rfl fun t ht => ?_
    rw [hx t (Finset.mem_range.mp ht).le, hu t (Finset.mem_range.mp ht)]

theorem IsAdmmStep.congr {d : Data P} {fs : ℕ → Vec K P.ndx} {preg dreg : K} {a : Admm P} {x x' : ℕ → Vec K P.ndx}
    {u u' : (t : ℕ) → Vec K (P.nu t)} (h : IsAdmmStep d fs preg dreg a x u) (hx : ∀ t, t ≤ P.T → x' t = x t)
    (hu : ∀ t, t < P.T → u' t = u t) : IsAdmmStep d fs preg dreg a x' u' := by
  refine ⟨by rw [hx 0 (by omega)]; exact h.start, fun t ht => ?_, fun y w h0 hd => ?_, fun y w h0 hd he => ?_⟩
  · rw [hx (t + 1) (by omega), hx t (by omega), hu t ht]; exact h.dyn t ht
  · rw [augCost_congr d fs preg dreg a hx hu]; exact h.minimal y w h0 hd
  · rw [augCost_congr d fs preg dreg a hx hu] at he
    obtain ⟨h1, h2⟩ := h.unique y w h0 hd he
    exact ⟨fun t ht => by rw [h1 t ht, hx t ht], fun t ht => by rw [h2 t ht, hu t ht]⟩

/-- a successful full backward pass followed by the forward pass from `dx_0 = 0`. -/
theorem pass_admm (hllt : LLTExact llt) (hsym : SymHess E.d) {v : CVars P} {B B' : CBP P}
    (hr : ∀ t, t ≤ P.T → ∀ i, v.rho t i ≠ 0) (h : fullPass llt E v B = .ok B')
    (x : (ℕ → Vec K P.ndx) × ((t : ℕ) → Vec K (P.nu t))) (h0 : x.1 0 = 0) :
    IsAdmmStep E.d E.fs E.preg E.dreg (admmOf E v) (fwdLoop E B'.bp x).1 (fwdLoop E B'.bp x).2 := by
  obtain ⟨hR, hpd⟩ := full_riccati hllt hsym h
  obtain ⟨f1, f2, f3⟩ := fwdLoop_spec E B'.bp x
  have hz : (fwdLoop E B'.bp x).1 0 = 0 := f3.trans h0
  have key : ∀ (x' : ℕ → Vec K P.ndx) (u' : (t : ℕ) → Vec K (P.nu t)), x' 0 = 0 → (∀ t, t < P.T → x' (t + 1) = (E.d.rd t).Fx *ᵥ x' t + (E.d.rd t).Fu *ᵥ u' t + E.fs (t + 1)) →
      _ := fun x' u' h0' hd' => Riccati.minimal hR hpd (x := (fwdLoop E B'.bp x).1) (x' := x')
        (u := (fwdLoop E B'.bp x).2) (u' := u') f1 hd' (h0'.trans hz.symm) f2
  refine ⟨hz, f1, fun x' u' h0' hd' => ?_, fun x' u' h0' hd' he => ?_⟩
  · rw [augCost_eq E v hr _ _ hz, augCost_eq E v hr _ _ h0']
    exact add_le_add_left (key x' u' h0' hd').1 _
  · rw [augCost_eq E v hr _ _ hz, augCost_eq E v hr _ _ h0'] at he
    obtain ⟨h1, h2⟩ := (key x' u' h0' hd').2 (add_right_cancel he)
    exact ⟨h2, h1⟩

/-- an iteration of a multi-threaded run is an iteration of the sequential one. -/
theorem seq_env (hs : ∀ l, E.sched = some l → SchedOK P l) {q0 q q' : CQP P} (h : AtIter llt E q0 q)
    (hst : ({ q with tick := q.tick + 1 } : CQP P).step llt E = .ok q') :
    ∃ E' : QEnv P, E'.sched = none ∧ E'.d = E.d ∧ E'.fs = E.fs ∧ E'.preg = E.preg ∧ E'.dreg = E.dreg ∧
      E'.c = E.c ∧ AtIter llt E' q0 q ∧ ({ q with tick := q.tick + 1 } : CQP P).step llt E' = .ok q' := by
  cases hE : E.sched with
  | none => exact ⟨E, hE, rfl, rfl, rfl, rfl, rfl, h, hst⟩
  | some l =>
    have hl := hs l hE
    have eE : E.withSched (some l) = E := by unfold QEnv.withSched; rw [← hE]
    refine ⟨E.withSched none, rfl, rfl, rfl, rfl, rfl, rfl, AtIter.seq hl (by rw [eE]; exact h), ?_⟩
    rcases step_same (llt := llt) (E := E) hl { q with tick := q.tick + 1 } with ⟨q1, h1, h2⟩ | ⟨q1, b, h1, h2⟩
    · rw [eE, hst] at h2; cases h2; exact h1
    · rw [eE, hst] at h2; cases h2

/-- **C24, one iteration.** In exact arithmetic, in every iteration of every `computeDirection` (cheap or full backward pass,
sequential or multi-threaded with any schedule) whose penalties are nonzero, the new `(dx, du)` is the unique minimiser of
quadratic model + `σ/2 ‖d - d_prev‖²` + `½ ‖G d - z + y/ρ‖²_ρ` subject to `dx_0 = 0` and the linearised dynamics.
`dx_0 = 0` holds in every reachable state of the solver. -/
theorem C24_csqp_iteration_is_admm_step (hllt : LLTExact llt) (hsym : SymHess E.d)
    (hs : ∀ l, E.sched = some l → SchedOK P l) {q0 q q' : CQP P} (h0 : CSQP.Zero0 q0) (h : AtIter llt E q0 q)
    (hr : ∀ t, t ≤ P.T → ∀ i, q.v.rho t i ≠ 0)
    (hst : ({ q with tick := q.tick + 1 } : CQP P).step llt E = .ok q') :
    IsAdmmStep E.d E.fs E.preg E.dreg ⟨E.c.sigma, q.v.dx, q.v.du, q.v.z, q.v.y, q.v.rho⟩ q'.v.dx q'.v.du := by
  obtain ⟨E', e1, e2, e3, e4, e5, e6, h', hst'⟩ := seq_env hs h hst
  obtain ⟨B, h6, h3, v2, r, i, hl, hv⟩ := step_seq e1 h' hst'
  have hz := h.zero0 h0
  rw [← e2, ← e3, ← e4, ← e5, ← e6]
  have := pass_admm hllt (e2 ▸ hsym) hr h6 (q.v.dxt, q.v.dut) hz.2
  refine IsAdmmStep.congr this (fun t ht => ?_) fun t ht => ?_
  · rw [hv]; exact hl.dx t ht
  · rw [hv]; exact hl.du t ht

/-- penalties are positive. -/
theorem penalties_pos {c : CConf K} {r : K} {rho inv : (t : ℕ) → Vec K (P.ng t)} (h : Penalties c P r rho inv)
    (hm : 0 < c.rhoMin) (hr : 0 < r) (hx : ∀ t, t ≤ P.T → ∀ i, ¬ RowCrossed P t i) (t : ℕ) (ht : t ≤ P.T) (i : Fin (P.ng t)) :
    0 < rho t i ∧ inv t i = 1 / rho t i := by
  by_cases h1 : RowFree P t i
  · obtain ⟨a, b⟩ := h.free t ht i h1; rw [a, b]; exact ⟨hm, rfl⟩
  · by_cases h2 : RowEq P t i
    · obtain ⟨a, b⟩ := h.eq t ht i h2; rw [a, b]
      refine ⟨mul_pos ?_ hr, rfl⟩
      simp
    · obtain ⟨a, b⟩ := h.ineq t ht i ⟨h1, h2, hx t ht i⟩; rw [a, b]; exact ⟨hr, rfl⟩

variable {W : World K} {fuel : ℕ} {xs : Option (Traj P)} {us : Option (Ctrls P)} {m : ℕ} {ri : K} {s0 : CSQP P}

/-- parameters for which all penalties stay positive. -/
structure PenaltyConf (c : CConf K) : Prop where
  pos : 0 < c.rhoMin
  le : c.rhoMin ≤ c.rhoBase
  le' : c.rhoBase ≤ c.rhoMax

/-- at every iteration of every QP of a solve all penalties are positive, with the right inverses. -/
theorem calls_penalty_pos (hc : PenaltyConf s0.c) (hx : ∀ t, t ≤ P.T → ∀ i, ¬ RowCrossed P t i) {s : CSQP P}
    (h : CSQP.Calls W fuel xs us m ri s0 s) {q : CQP P} (hq : AtIter W.llt (s.env W) s.q q) (t : ℕ) (ht : t ≤ P.T)
    (i : Fin (P.ng t)) : 0 < q.v.rho t i ∧ q.v.inv t i = 1 / q.v.rho t i := by
  have hp := C30_csqp_row_penalties h hq
  have hr := C29_csqp_rho_range (by simpa using hc.le) (by simpa using hc.le') (by simpa using hc.le.trans hc.le') h hq
  have h1 : s0.c.rhoMin ≤ q.rhoSparse := by simpa using hr.1
  exact penalties_pos hp hc.pos (hc.pos.trans_le h1) hx t ht i

/-- the cost Hessians the problem delivers are symmetric. -/
structure SymProblem (P : Problem K) : Prop where
  xx : ∀ t x u, (P.calcDiffR t x u).Lxxᵀ = (P.calcDiffR t x u).Lxx
  uu : ∀ t x u, (P.calcDiffR t x u).Luuᵀ = (P.calcDiffR t x u).Luu
  T : ∀ x, (P.calcDiffT x).Lxxᵀ = (P.calcDiffT x).Lxx

theorem SymProblem.data (hp : SymProblem P) {s : CSQP P} (h : CSQP.Evald s) : SymHess s.data :=
  ⟨fun t ht => by rw [h.diff.1 t ht]; exact hp.xx _ _ _, fun t ht => by rw [h.diff.1 t ht]; exact hp.uu _ _ _,
    by rw [h.diff.2]; exact hp.T _⟩

/-- **C24.** In exact arithmetic, for every solver state a user can produce (`Reachable`), every solve, every call of
`computeDirection` it makes and every executed iteration of it: the new step is the unique minimiser of the ADMM subproblem of
the problem's derivatives at the current trajectory. -/
theorem C24_csqp_admm_steps (hllt : LLTExact W.llt) (hp : SymProblem P) (hs : ∀ l, W.sched = some l → SchedOK P l)
    (hc : PenaltyConf s0.c) (hx : ∀ t, t ≤ P.T → ∀ i, ¬ RowCrossed P t i) (h0 : CSQP.Reachable s0) {s : CSQP P}
    (h : CSQP.Calls W fuel xs us m ri s0 s) {q q' : CQP P} (hq : AtIter W.llt (s.env W) s.q q)
    (hst : ({ q with tick := q.tick + 1 } : CQP P).step W.llt (s.env W) = .ok q') :
    FreshDiff P s.data s.xs s.us ∧ (∀ t, t < P.T → s.e.fs (t + 1) = shootGap P s.xs s.us t) ∧
    IsAdmmStep s.data s.e.fs s.preg s.dreg ⟨s.c.sigma, q.v.dx, q.v.du, q.v.z, q.v.y, q.v.rho⟩ q'.v.dx q'.v.du := by
  refine ⟨h.evald.diff, h.evald.fs, ?_⟩
  exact C24_csqp_iteration_is_admm_step (E := s.env W) hllt (hp.data h.evald) hs (h.node0 h0.node0).1 hq
    (fun t ht i => (calls_penalty_pos hc hx h hq t ht i).1.ne') hst

end

/-! ## non-vacuity -/
namespace Ex
open CSQP

theorem lin_reachable : Reachable linSolver := by
  exact .setParams _ _ rfl (.new _ _ _ _)

theorem lin_sym : SymProblem lin :=
  ⟨fun _ _ _ => by ext i j; rfl, fun _ _ _ => by ext i j; rfl, fun _ => by ext i j; rfl⟩

theorem lin_not_crossed : ∀ t, t ≤ lin.T → ∀ i, ¬ RowCrossed lin t i := by
  rintro t _ i ⟨l, u, h, _⟩; cases h

theorem lin_penalty : PenaltyConf linSolver.c := by
  constructor <;> decide +kernel

/-- a call of `computeDirection` that executes an iteration. -/
theorem lin_step : ∃ s q q', Calls world 20 none none 5 0 linSolver s ∧ AtIter world.llt (s.env world) s.q q ∧
    ({ q with tick := q.tick + 1 } : CQP lin).step world.llt (s.env world) = .ok q' := by
  obtain ⟨q', h⟩ := ok_of_isOk (r := (({ ({ (entry (linSolver.start world none none 5 0)).q.resetParams linSolver.c with
      qpIters := 1, exec := 0 } : CQP lin) with tick := 3 } : CQP lin).step world.llt
      ((entry (linSolver.start world none none 5 0)).env world))) (by decide +kernel)
  exact ⟨_, _, q', Calls.head AtHead.start (by decide +kernel) (by decide +kernel) (.inl rfl), AtIter.first rfl, h⟩

/-- the theorem applied to it. -/
example : ∃ (s : CSQP lin) (q q' : CQP lin), IsAdmmStep s.data s.e.fs s.preg s.dreg
    ⟨s.c.sigma, q.v.dx, q.v.du, q.v.z, q.v.y, q.v.rho⟩ q'.v.dx q'.v.du := by
  obtain ⟨s, q, q', h1, h2, h3⟩ := lin_step
  exact ⟨s, q, q', (C24_csqp_admm_steps llt1_exact lin_sym (fun l h => by cases h) lin_penalty lin_not_crossed
    lin_reachable h1 h2 h3).2.2⟩

end Ex
end Mim
