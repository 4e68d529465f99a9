import Verif.Lemmas.QPFixed
import Verif.Props.CSQPConvex
import Verif.Props.CSQPTime

/-!
# C67: SolverCSQP recognises an exact solution it is started at
-/
set_option linter.unusedSectionVars false
set_option linter.unusedSimpArgs false

namespace Mim
open Matrix Spec QP
variable {K : Type} [Field K] [LinearOrder K] [IsStrictOrderedRing K] {P : Problem K}

/-- a violation of zero means all rows are inside their bounds. -/
theorem inBox_of_violation {xs : Traj P} {us : Ctrls P} (h : violation P xs us ≤ 0) :
    (∀ t, t < P.T → InBox (P.lb t) (P.ub t) (P.calcR t (xs t) (us t)).g) ∧ InBox (P.lb P.T) (P.ub P.T) (P.calcT (xs P.T)).g := by
  have row : ∀ (lb ub : Option K) (g : K), rowViol lb ub g = 0 → (∀ l, lb = some l → l ≤ g) ∧ ∀ u, ub = some u → g ≤ u := by
    intro lb ub g h
    have h1 : 0 ≤ lb.elim 0 fun l => max (l - g) 0 := by cases lb <;> simp
    have h2 : 0 ≤ ub.elim 0 fun u => max (g - u) 0 := by cases ub <;> simp
    unfold rowViol at h
    constructor
    · rintro l rfl
      have h1' : max (l - g) 0 = 0 := by rw [Option.elim_some] at h; have := le_max_right (l - g) 0; linarith
      have := le_max_left (l - g) 0
      linarith
    · rintro u rfl
      have h2' : max (g - u) 0 = 0 := by rw [Option.elim_some] at h; have := le_max_right (g - u) 0; linarith
      have := le_max_left (g - u) 0
      linarith
  have n1 : ∀ t, 0 ≤ ∑ i, rowViol (P.lb t i) (P.ub t i) ((P.calcR t (xs t) (us t)).g i) := fun t =>
    Finset.sum_nonneg fun i _ => rowViol_nonneg _ _ _
  have n2 : 0 ≤ ∑ t ∈ Finset.range P.T, ∑ i, rowViol (P.lb t i) (P.ub t i) ((P.calcR t (xs t) (us t)).g i) :=
    Finset.sum_nonneg fun t _ => n1 t
  have n3 : 0 ≤ ∑ i, rowViol (P.lb P.T i) (P.ub P.T i) ((P.calcT (xs P.T)).g i) := Finset.sum_nonneg fun i _ => rowViol_nonneg _ _ _
  unfold violation at h
  have z2 : ∑ t ∈ Finset.range P.T, ∑ i, rowViol (P.lb t i) (P.ub t i) ((P.calcR t (xs t) (us t)).g i) = 0 := by linarith
  have z3 : ∑ i, rowViol (P.lb P.T i) (P.ub P.T i) ((P.calcT (xs P.T)).g i) = 0 := by linarith
  refine ⟨fun t ht i => ?_, fun i => ?_⟩
  · have := (Finset.sum_eq_zero_iff_of_nonneg fun t _ => n1 t).mp z2 t (Finset.mem_range.mpr ht)
    exact row _ _ _ ((Finset.sum_eq_zero_iff_of_nonneg fun i _ => rowViol_nonneg _ _ _).mp this i (Finset.mem_univ i))
  · exact row _ _ _ ((Finset.sum_eq_zero_iff_of_nonneg fun i _ => rowViol_nonneg _ _ _).mp z3 i (Finset.mem_univ i))

namespace CSQP
variable [SqrtOps K] {W : World K} {fuel : ℕ} {m : ℕ} {ri : K} {s0 : CSQP P}

/-- the multipliers the solver stores: those of `IsCKKT` except for block 0, from which `Gx_0' y_0` is missing. -/
def innerLam (P : Problem K) (xs : Traj P) (us : Ctrls P) (lam : ℕ → Vec K P.ndx) : ℕ → Vec K P.ndx :=
  Function.update lam 0 ((P.calcDiffR 0 (xs 0) (us 0)).Lx + (P.calcDiffR 0 (xs 0) (us 0)).Fxᵀ *ᵥ lam 1)

/-- at a point that satisfies the optimality conditions exactly the zero step solves the QP. -/
theorem zeroQP_of_kkt (hT : 0 < P.T) {s : CSQP P} (he : Evald s) {lam : ℕ → Vec K P.ndx} {y : (t : ℕ) → Vec K (P.ng t)}
    (hk : IsCKKT P 0 s.xs s.us lam y) (hc : Complementary P s.xs s.us y) :
    ZeroQP (s.env W) (innerLam P s.xs s.us lam) y := by
  have z : ∀ {n : ℕ} {v : Vec K n}, (∀ i, |v i| ≤ 0) → v = 0 := fun h => funext fun i => abs_nonpos_iff.mp (h i)
  have hs : ∀ t, innerLam P s.xs s.us lam (t + 1) = lam (t + 1) := fun t => Function.update_of_ne (Nat.succ_ne_zero t) _ _
  obtain ⟨b1, b2⟩ := inBox_of_violation hk.feas
  refine ⟨fun t ht => ?_, fun t ht => ?_, ?_, fun t ht => ?_, fun t ht => ?_, ?_, fun t ht => ?_, ?_⟩
  · change (s.data.rd t).Lx + (s.data.rd t).Fxᵀ *ᵥ _ + (if 0 < t then (s.data.rd t).Gxᵀ *ᵥ y t else 0) = _
    rw [he.diff.1 t ht, hs]
    rcases Nat.eq_zero_or_pos t with rfl | hp
    · rw [if_neg (lt_irrefl 0), add_zero]
      unfold innerLam
      rw [Function.update_self]
    · obtain ⟨j, rfl⟩ : ∃ j, t = j + 1 := ⟨t - 1, by omega⟩
      rw [if_pos hp, hs]
      have := z (hk.stat_x _ ht)
      rw [← sub_eq_zero, ← this]; abel
  · change (s.data.rd t).Lu + (s.data.rd t).Fuᵀ *ᵥ _ + (s.data.rd t).Guᵀ *ᵥ y t = 0
    rw [he.diff.1 t ht, hs]
    exact z (hk.stat_u t ht)
  · change s.data.td.Lx + s.data.td.Gxᵀ *ᵥ y P.T = _
    rw [he.diff.2]
    have e : innerLam P s.xs s.us lam P.T = lam P.T := Function.update_of_ne (by omega) _ _
    rw [e]
    have := z hk.stat_T
    rw [← sub_eq_zero, ← this]; abel
  · change s.e.fs (t + 1) = 0
    rw [he.fs t ht]; exact z (hk.gaps t ht)
  · change InBox _ _ (s.data.run t).g
    rw [he.fresh.1 t ht]; exact b1 t ht
  · change InBox _ _ s.data.ter.g
    rw [he.fresh.2]; exact b2
  · change NormalCone _ _ (s.data.run t).g _
    rw [he.fresh.1 t ht]; exact hc.1 t ht
  · change NormalCone _ _ s.data.ter.g _
    rw [he.fresh.2]; exact hc.2

/-- what the direction computation needs to start at the solution: the constraint multipliers it starts from are `y`, and its starting
step is zero - either the step left in the solver with the warm start switched off, or no constraint force is present. -/
structure WarmAt (s0 : CSQP P) (y : (t : ℕ) → Vec K (P.ng t)) : Prop where
  mult : ∀ t, t ≤ P.T → (if s0.c.resetY then 0 else s0.q.v.y t) = y t
  step : (s0.c.eqGuess = true ∧ ∀ t, t ≤ P.T → y t = 0) ∨
    (s0.c.eqGuess = false ∧ (∀ t, t ≤ P.T → s0.q.v.dx t = 0) ∧ ∀ t, t < P.T → s0.q.v.du t = 0)

theorem entry_start_v (xs : Option (Traj P)) (us : Option (Ctrls P)) :
    (entry (s0.start W xs us m ri)).q.v.dx = s0.q.v.dx ∧ (entry (s0.start W xs us m ri)).q.v.du = s0.q.v.du ∧
    (entry (s0.start W xs us m ri)).q.v.y = s0.q.v.y := by
  have e : ∀ s : CSQP P, (entry s).q.v.dx = s.q.v.dx ∧ (entry s).q.v.du = s.q.v.du ∧ (entry s).q.v.y = s.q.v.y := by
    intro s; unfold entry prepare; simp only []; split <;> exact ⟨rfl, rfl, rfl⟩
  obtain ⟨e1, e2, e3⟩ := e (s0.start W xs us m ri)
  rw [e1, e2, e3]
  unfold start
  simp only []
  by_cases hm : m = 0
  · rw [if_pos hm]; exact ⟨rfl, rfl, rfl⟩
  · rw [if_neg hm]; exact ⟨rfl, rfl, rfl⟩

/-- **C67.**  In exact arithmetic: if `solve` is started at a trajectory that satisfies the optimality conditions of the constrained
problem exactly (with sign and complementarity conditions), holding the matching constraint multipliers, and if the direction
computation does not fail, it returns true in its first iteration with the trajectory and the multipliers unchanged, without trying a
step - for every problem, every set of parameters with positive penalties, every number of QP iterations and every schedule. -/
theorem C67_csqp_recognises (hllt : LLTExact W.llt) (hp : SymProblem P) (hs : ∀ l, W.sched = some l → SchedOK P l) (hT : 0 < P.T)
    (hc : PenaltyConf s0.c) (hb : ∀ t, t ≤ P.T → ∀ i, ¬ RowCrossed P t i) (h0 : Node0 s0) (htol : 0 ≤ s0.c.tol) (hqp : 0 < s0.c.maxQP)
    (htime : ∀ k, W.clock k - W.clock s0.q.tick < s0.c.maxTime) (hm : 0 < m) (hf : 0 < fuel) {xs : Traj P} {us : Ctrls P}
    (hx0 : xs 0 = P.x0) {lam : ℕ → Vec K P.ndx} {y : (t : ℕ) → Vec K (P.ng t)} (hk : IsCKKT P 0 xs us lam y)
    (hcomp : Complementary P xs us y) (hw : WarmAt s0 y)
    (hdir : ∀ s, Calls W fuel (some xs) (some us) m ri s0 s → ∃ s1, s.dir W = .ok s1) :
    ∃ s', solve W fuel (some xs) (some us) m ri s0 = some (.ret true, s') ∧ s'.xs = xs ∧ s'.us = us ∧ s'.iter = 0 ∧
      s'.nTry = s0.nTry ∧ (∀ t, t ≤ P.T → s'.q.v.y t = y t) ∧ (∀ t, 0 < t → t ≤ P.T → s'.lagMul t = lam t) ∧ s'.m.KKT ≤ 0 := by
  obtain ⟨c1, c2, c3, c4⟩ := start_conf W (some xs) (some us) m ri s0
  set s1 := s0.start W (some xs) (some us) m ri with hs1
  have hhead : AtHead W fuel (some xs) (some us) m ri s0 s1 := .start
  have hxs1 : s1.xs = xs ∧ s1.us = us ∧ s1.nTry = s0.nTry := by
    have e : Function.update (β := fun _ => P.X) xs 0 P.x0 = xs := by rw [← hx0]; exact Function.update_eq_self 0 xs
    rw [hs1]
    unfold start
    simp only [Option.getD_some]
    split <;> exact ⟨e, rfl, rfl⟩
  have htu : ∀ q : CQP P, q.t0 = W.clock s0.q.tick → ∀ s : CSQP P, s.c = s0.c → q.timeUp (s.env W) = false := by
    intro q hq s hsc
    unfold CQP.timeUp
    rw [hq]
    change leb s.c.maxTime (W.clock q.tick - _) = false
    rw [hsc]
    simpa using htime q.tick
  have hu1 : s1.q.timeUp (s1.env W) = false := htu _ hhead.t0 s1 hhead.conf
  have hre1 : s1.q.reached = false := by rw [hs1]; unfold start; rfl
  have hcall : Calls W fuel (some xs) (some us) m ri s0 (entry s1) := .head hhead (by rw [c4]; exact hm) hu1 (.inr hre1)
  obtain ⟨s2, h2⟩ := hdir _ hcall
  obtain ⟨q2, hq2, e2⟩ := dir_ok h2
  obtain ⟨a1, a2, a3, a4⟩ := entry_conf s1
  have hEv := hcall.evald
  have hk' : IsCKKT P 0 (entry s1).xs (entry s1).us lam y := by rw [a3, a4, hxs1.1, hxs1.2.1]; exact hk
  have hc' : Complementary P (entry s1).xs (entry s1).us y := by rw [a3, a4, hxs1.1, hxs1.2.1]; exact hcomp
  have hZ := zeroQP_of_kkt (W := W) hT hEv hk' hc'
  obtain ⟨v1, v2, v3⟩ := entry_start_v (W := W) (m := m) (ri := ri) (s0 := s0) (some xs) (some us)
  rw [← hs1] at v1 v2 v3
  have hcc := hcall.conf
  have hN := hcall.node0 h0
  obtain ⟨z1, z2, z3, z4, z5⟩ := hZ.direction (q0 := (entry s1).q) (q' := q2) hllt (hp.data hEv) hs hN.1
    (by intro t ht; rw [v3]; change (if (entry s1).c.resetY then _ else _) = _; rw [hcc]; exact hw.mult t ht)
    (by change ((entry s1).c.eqGuess = true ∧ _) ∨ ((entry s1).c.eqGuess = false ∧ _); rw [hcc, v1, v2]; exact hw.step)
    (fun q hq => calls_penalty_pos hc hb hcall hq)
    (fun q hq => htu q (hq.clock.1.trans hcall.t0) _ hcc) (by change 0 < (entry s1).c.maxQP; rw [hcc]; exact hqp) hq2
  have hres : s2.checkKKT.m.KKT ≤ 0 := by
    rw [e2]
    change ckktResidual (entry s1).data (entry s1).e.fs _ q2.v.y (entry s1).e.con ≤ 0
    have hlam : ∀ t, t ≤ P.T → multipliers { entry s1 with q := q2 } t = innerLam P (entry s1).xs (entry s1).us lam t := by
      intro t ht
      unfold multipliers
      rw [if_pos ht]
      change q2.b.bp.Vx t + mv (q2.b.bp.Vxx t) (q2.v.dxt t) = _
      rw [z2 t ht, z4 t ht, mv_exact, Matrix.mulVec_zero, add_zero]
    have zz : ∀ {n : ℕ} {v : Vec K n}, v = 0 → ∀ i, |v i| ≤ 0 := fun h i => by rw [h]; simp
    rw [C03_csqp_residual_meaning _ _ _ _ _ _ le_rfl]
    have st : ∀ t, t < P.T → ((entry s1).data.rd t).Lx + ((entry s1).data.rd t).Fxᵀ *ᵥ multipliers { entry s1 with q := q2 } (t + 1) +
        (if 0 < t then ((entry s1).data.rd t).Gxᵀ *ᵥ y t else 0) = multipliers { entry s1 with q := q2 } t := by
      intro t ht
      rw [hlam t ht.le, hlam (t + 1) ht]; exact hZ.stat_x t ht
    refine ⟨fun i hT => zz ?_ i, fun t h0 ht => zz ?_, fun t ht => zz ?_, zz ?_, fun t ht => zz ?_, ?_⟩
    · have := st 0 hT
      rw [if_neg (lt_irrefl 0), add_zero] at this
      exact sub_eq_zero.mpr this
    · have := st t ht
      rw [if_pos h0] at this
      rw [z1.y t ht.le, ← sub_eq_zero.mpr this]; abel
    · rw [z1.y t ht.le, hlam (t + 1) ht]; exact hZ.stat_u t ht
    · have := hZ.stat_T
      rw [z1.y P.T le_rfl, hlam P.T le_rfl, ← sub_eq_zero.mpr this]
      change _ = (entry s1).data.td.Lx + (entry s1).data.td.Gxᵀ *ᵥ y P.T - _
      abel
    · rcases t with _ | t
      · exact hN.2
      · exact hZ.gaps t (by omega)
    · rw [hEv.con, conViol_exact]; exact hk'.feas
  have hq0 : ¬ s2.q.qpIters = 0 := by rw [e2]; change ¬ q2.qpIters = 0; omega
  have hfin : s2.finish = (.fin (.ret true), s2.checkKKT.callbacks) := by
    unfold finish
    rw [if_neg hq0]
    simp only []
    rw [if_pos]
    change leb s2.checkKKT.m.KKT s2.c.tol = true
    have : s2.c = s0.c := by rw [e2]; exact hcc
    rw [this]
    simpa using hres.trans htol
  have hdirn : direction W fuel true (entry s1) = some (none, s2) := by
    unfold direction
    obtain ⟨n, rfl⟩ : ∃ n, fuel = n + 1 := ⟨fuel - 1, by omega⟩
    have hre : (entry s1).q.reached = false := by
      have : (entry s1).q.reached = s1.q.reached := by unfold entry prepare; simp only []; split <;> rfl
      rw [this, hre1]
    split
    · rw [h2]
    · unfold retry; rw [hre, h2]; rfl
  have hbody : body W fuel s1 = some (.fin (.ret true), s2.checkKKT.callbacks) := by
    unfold body
    simp only [hu1, Bool.false_eq_true, if_false]
    have : prepare { s1 with q := { s1.q with tick := s1.q.tick + 1 } } = entry s1 := rfl
    rw [this, hdirn]
    simp only [hfin]
  have hsol : solve W fuel (some xs) (some us) m ri s0 = some (.ret true, s2.checkKKT.callbacks) := by
    obtain ⟨n, rfl⟩ : ∃ n, m = n + 1 := ⟨m - 1, by omega⟩
    unfold solve
    rw [← hs1]
    unfold iterate
    rw [hbody]
  refine ⟨_, hsol, ?_, ?_, ?_, ?_, ?_, ?_, hres⟩
  · change s2.xs = _; rw [e2]; change (entry s1).xs = _; rw [a3, hxs1.1]
  · change s2.us = _; rw [e2]; change (entry s1).us = _; rw [a4, hxs1.2.1]
  · change s2.iter = _; rw [e2]; change (entry s1).iter = _; rw [a2, c4]
  · change s2.nTry = _; rw [e2]; change (entry s1).nTry = _
    have : (entry s1).nTry = s1.nTry := by unfold entry prepare; simp only []; split <;> rfl
    rw [this, hxs1.2.2]
  · intro t ht
    change s2.q.v.y t = _; rw [e2]; exact z1.y t ht
  · intro t h0 ht
    change multipliers s2 t = _
    rw [e2]
    unfold multipliers
    rw [if_pos ht]
    change q2.b.bp.Vx t + mv (q2.b.bp.Vxx t) (q2.v.dxt t) = _
    rw [z2 t ht, z4 t ht, mv_exact, Matrix.mulVec_zero, add_zero]
    exact Function.update_of_ne (by omega) _ _

/-- **C67 (convex).**  On a convex problem the direction computation does not fail either. -/
theorem C67_csqp_recognises_convex (hllt : LLTExact W.llt) (hp : SymProblem P) (hC : ConvexProblem P)
    (hs : ∀ l, W.sched = some l → SchedOK P l) (hT : 0 < P.T)
    (hc : PenaltyConf s0.c) (hσ : 0 < s0.c.sigma) (hreg : RegOK s0.c.par) (hri : 0 ≤ ri)
    (hg : s0.c.eqGuess = false ∨ StrictControls P ∨ (s0.c.removeReg = false ∧ 0 < ri))
    (hb : ∀ t, t ≤ P.T → ∀ i, ¬ RowCrossed P t i) (h0 : Node0 s0) (htol : 0 ≤ s0.c.tol) (hqp : 0 < s0.c.maxQP)
    (htime : ∀ k, W.clock k - W.clock s0.q.tick < s0.c.maxTime) (hm : 0 < m) (hf : 0 < fuel) {xs : Traj P} {us : Ctrls P}
    (hx0 : xs 0 = P.x0) {lam : ℕ → Vec K P.ndx} {y : (t : ℕ) → Vec K (P.ng t)} (hk : IsCKKT P 0 xs us lam y)
    (hcomp : Complementary P xs us y) (hw : WarmAt s0 y) :
    ∃ s', solve W fuel (some xs) (some us) m ri s0 = some (.ret true, s') ∧ s'.xs = xs ∧ s'.us = us ∧ s'.iter = 0 ∧
      s'.nTry = s0.nTry ∧ (∀ t, t ≤ P.T → s'.q.v.y t = y t) ∧ (∀ t, 0 < t → t ≤ P.T → s'.lagMul t = lam t) ∧ s'.m.KKT ≤ 0 :=
  C67_csqp_recognises hllt hp hs hT hc hb h0 htol hqp htime hm hf hx0 hk hcomp hw fun _ h =>
    C66_csqp_convex_direction hllt hp hC hs hc hσ hreg hri hg hb h

end CSQP

/-! ## non-vacuity and limits -/
namespace Ex
open CSQP

/-- the minimum of `lin`: `u = 1` at its upper bound, state at rest. -/
def linX : Traj lin := fun _ => (0 : ℚ)
def linU : Ctrls lin := fun _ _ => 1
/-- its multipliers: the active bound pushes with force 1. -/
def linY : (t : ℕ) → Vec ℚ (lin.ng t) := fun t _ => if t = 0 then 1 else 0

theorem lin_kkt : IsCKKT lin 0 linX linU (fun _ => 0) linY := by
  refine ⟨?_, ?_, ?_, ?_, ?_⟩
  · intro t ht (i : Fin 1)
    obtain rfl : t = 0 := by have : t < 1 := ht; omega
    obtain rfl : i = 0 := Subsingleton.elim _ _
    decide +kernel
  · intro t ht (i : Fin 1)
    obtain rfl : t = 0 := by have : t < 1 := ht; omega
    obtain rfl : i = 0 := Subsingleton.elim _ _
    decide +kernel
  · intro (i : Fin 1)
    obtain rfl : i = 0 := Subsingleton.elim _ _
    decide +kernel
  · intro t ht (i : Fin 1)
    obtain rfl : t = 0 := by have : t < 1 := ht; omega
    obtain rfl : i = 0 := Subsingleton.elim _ _
    decide +kernel
  · decide +kernel

theorem lin_compl : Complementary lin linX linU linY := by
  refine ⟨fun t ht i => ?_, fun i => ?_⟩
  · obtain rfl : t = 0 := by have : t < 1 := ht; omega
    exact ⟨fun _ => rfl, fun h => absurd h (by change ¬ ((1 : ℚ) < 0); norm_num)⟩
  · exact ⟨fun h => absurd h (by change ¬ ((0 : ℚ) < 0); norm_num), fun h => absurd h (by change ¬ ((0 : ℚ) < 0); norm_num)⟩

/-- a solver that has already solved `lin` (with `σ = 0`, which makes the QP finite). -/
noncomputable def linDone : CSQP lin := ((CSQP.solve world 20 none (some linU) 5 0 lin0Solver).map Prod.snd).getD lin0Solver

theorem linDone_y : sc (linDone.q.v.y 0) = 1 ∧ sc (linDone.q.v.y 1) = 0 := by decide +kernel
theorem linDone_d : sc (linDone.q.v.dx 0) = 0 ∧ sc (linDone.q.v.dx 1) = 0 ∧ sc (linDone.q.v.du 0) = 0 := by decide +kernel
theorem linDone_c : linDone.c = lin0Solver.c := by
  unfold linDone
  cases h : CSQP.solve world 20 none (some linU) 5 0 lin0Solver with
  | none => rfl
  | some r => exact (solve_conf h).1

theorem linDone_reachable : Reachable linDone := by
  unfold linDone
  cases h : CSQP.solve world 20 none (some linU) 5 0 lin0Solver with
  | none => exact lin0_reachable
  | some r => exact .solve _ _ _ _ _ _ _ _ _ lin0_reachable h

theorem lin_regOK : RegOK linSolver.c.par := ⟨by decide +kernel, by decide +kernel, by decide +kernel, by decide +kernel⟩

/-- it is asked again, with `σ = 1/30` and any number of QP iterations, starting from the solution. -/
noncomputable def linAgain (n : ℕ) : CSQP lin := { linDone with c := { linSolver.c with maxQP := n + 1 } }

theorem sc_inj {v w : Vec ℚ 1} (h : sc v = sc w) : v = w := funext fun i => by
  obtain rfl : i = 0 := Subsingleton.elim _ _
  exact h

theorem linAgain_warm (n : ℕ) : WarmAt (linAgain n) linY := by
  refine ⟨fun t ht => ?_, .inr ⟨rfl, fun t ht => ?_, fun t ht => ?_⟩⟩
  · change linDone.q.v.y t = _
    obtain rfl | rfl : t = 0 ∨ t = 1 := by have : t ≤ 1 := ht; omega
    · exact sc_inj (linDone_y.1.trans rfl)
    · exact sc_inj (linDone_y.2.trans rfl)
  · change linDone.q.v.dx t = _
    obtain rfl | rfl : t = 0 ∨ t = 1 := by have : t ≤ 1 := ht; omega
    · exact sc_inj (linDone_d.1.trans rfl)
    · exact sc_inj (linDone_d.2.1.trans rfl)
  · change linDone.q.v.du t = _
    obtain rfl : t = 0 := by have : t < 1 := ht; omega
    exact sc_inj (linDone_d.2.2.trans rfl)

/-- **the theorem applied**: the solver sees at once that it is at the solution, for every limit on the QP iterations. -/
theorem C67_example (n m fuel : ℕ) (hm : 0 < m) (hf : 0 < fuel) : Reachable (linAgain n) ∧
    ∃ s', CSQP.solve world fuel (some linX) (some linU) m 0 (linAgain n) = some (.ret true, s') ∧ s'.xs = linX ∧ s'.us = linU ∧
      s'.nTry = (linAgain n).nTry ∧ sc (s'.q.v.y 0) = 1 := by
  have hre : Reachable (linAgain n) := .setParams linDone { linSolver.c with maxQP := n + 1 } (by rw [linDone_c]; rfl) linDone_reachable
  refine ⟨hre, ?_⟩
  obtain ⟨s', h1, h2, h3, _, h4, h5, _⟩ := C67_csqp_recognises_convex (W := world) (s0 := linAgain n) (fuel := fuel) (m := m) (ri := 0)
    llt1_exact lin_sym lin_convex (fun l h => by cases h) Nat.zero_lt_one ⟨lin_penalty.pos, lin_penalty.le, lin_penalty.le'⟩
    (by change (0 : ℚ) < 1 / 30; norm_num) lin_regOK le_rfl (.inl rfl)
    lin_not_crossed hre.node0 (by change (0 : ℚ) ≤ lit (1 / 10 ^ 6); simp) (Nat.succ_pos n)
    (fun k => by change (0 : ℚ) - 0 < 1; norm_num) hm hf (xs := linX) (us := linU) rfl lin_kkt lin_compl (linAgain_warm n)
  exact ⟨s', h1, h2, h3, h4, by rw [h5 0 (Nat.zero_le _)]; rfl⟩

/-- the same solver with the warm start on (the default) and regularization 1. -/
noncomputable def linAgainWarm : CSQP lin := { linDone with c := { linSolver.c with eqGuess := true, removeReg := false } }

/-- **limit**: with the warm start on, the constraint multipliers of the solution are not enough: the unconstrained step it starts from
pulls the QP away, the residual test fails and `solve` leaves the solution, violating the bound `u ≤ 1`. -/
theorem C67_warm_start_leaves : (CSQP.solve world 20 (some linX) (some linU) 1 1 linAgainWarm).map
    (fun r => (decide (r.1 = .ret true), decide (1 < sc (r.2.us 0)))) = some (false, true) := by decide +kernel

end Ex
end Mim
