import Verif.Props.QPResidual
import Verif.Props.SQPAffine

/-!
# C46: without inequality constraints SolverCSQP computes the direction and the multipliers of SolverSQP

`C46_csqp_unique_minimiser`: with no constraints and the equality-QP initial guess, `computeDirection` - any number of QP
iterations, any stop reason, sequential or multi-threaded - returns the unique minimiser of the unconstrained quadratic model,
for every `σ ≥ 0`, every relaxation and every penalty.  `C46_csqp_same_as_sqp` compares with SolverSQP.
-/
set_option linter.unusedSectionVars false
set_option linter.unusedSimpArgs false

namespace Mim
open Spec QP Matrix

namespace Spec
section
variable {K : Type} [Field K] [LinearOrder K] [IsStrictOrderedRing K] {P : Problem K}

/-- `(x, u)` is the unique minimiser of the (regularized) quadratic model among the steps that start with `0` and satisfy the
linearised dynamics. -/
structure UniqueMin (d : Data P) (fs : ℕ → Vec K P.ndx) (preg dreg : K) (x : ℕ → Vec K P.ndx)
    (u : (t : ℕ) → Vec K (P.nu t)) : Prop where
  start : x 0 = 0
  dyn : ∀ t, t < P.T → x (t + 1) = (d.rd t).Fx *ᵥ x t + (d.rd t).Fu *ᵥ u t + fs (t + 1)
  minimal : ∀ x' u', x' 0 = 0 → (∀ t, t < P.T → x' (t + 1) = (d.rd t).Fx *ᵥ x' t + (d.rd t).Fu *ᵥ u' t + fs (t + 1)) →
    (lqOf d fs preg dreg).cost x u ≤ (lqOf d fs preg dreg).cost x' u' ∧
    ((lqOf d fs preg dreg).cost x' u' = (lqOf d fs preg dreg).cost x u →
      (∀ t, t < P.T → u' t = u t) ∧ ∀ t, t ≤ P.T → x' t = x t)

/-- the problem has no inequality constraints. -/
def NoCon (P : Problem K) : Prop := ∀ t, t ≤ P.T → P.ng t = 0
end
end Spec

section
variable {K : Type} [Field K] [LinearOrder K] [IsStrictOrderedRing K] [SqrtOps K] {P : Problem K}
variable {llt : LLT K} {E : QEnv P}

theorem plain_termsOf (E : QEnv P) (hsym : SymHess E.d) : TermsOf (plainTerms E) E.preg (lqOf E.d E.fs E.preg E.dreg) := by
  refine ⟨⟨fun t ht => ?_, fun t ht => ?_, ?_⟩, ?_, ?_, ?_, ?_, ?_⟩
  · simp only [lqOf]; rw [Matrix.transpose_add, sub_reg_transpose, hsym.xx t ht]
  · simp only [lqOf]; rw [Matrix.transpose_add, sub_reg_transpose, hsym.uu t ht]
  · simp only [lqOf]; rw [Matrix.transpose_add, sub_reg_transpose, hsym.T]
  · intro t ht w; simp only [plainTerms, lqOf, mv_exact]
  · intro t ht w; simp only [plainTerms, lqOf, mv_exact]
  · intro t ht V; simp only [plainTerms, lqOf, mm_exact]; abel
  · intro t ht V; simp only [plainTerms, lqOf, mm_exact, regDiag_exact]; abel
  · intro t ht V; simp only [plainTerms, lqOf, mm_exact]

/-- the warm start of `computeDirection` computes the minimiser of the unconstrained quadratic model. -/
theorem plain_min (hllt : LLTExact llt) (hsym : SymHess E.d) {B B' : CBP P} (h : plainPass llt E B = .ok B')
    (x : (ℕ → Vec K P.ndx) × ((t : ℕ) → Vec K (P.nu t))) (h0 : x.1 0 = 0) :
    UniqueMin E.d E.fs E.preg E.dreg (fwdLoop E B'.bp x).1 (fwdLoop E B'.bp x).2 := by
  obtain ⟨k1, k2, k3, k4⟩ := plainPass_ok h
  obtain ⟨hR, hpd⟩ := sweep_riccati hllt (plain_termsOf E hsym) rfl (by rw [k1, regDiag_exact]; rfl) k2 k3 k4
  obtain ⟨f1, f2, f3⟩ := fwdLoop_spec E B'.bp x
  have hz : (fwdLoop E B'.bp x).1 0 = 0 := f3.trans h0
  exact ⟨hz, f1, fun x' u' h0' hd' => Riccati.minimal hR hpd f1 hd' (h0'.trans hz.symm) f2⟩

theorem UniqueMin.congr {d : Data P} {fs : ℕ → Vec K P.ndx} {preg dreg : K} {x x' : ℕ → Vec K P.ndx}
    {u u' : (t : ℕ) → Vec K (P.nu t)} (h : UniqueMin d fs preg dreg x u) (hx : ∀ t, t ≤ P.T → x' t = x t)
    (hu : ∀ t, t < P.T → u' t = u t) : UniqueMin d fs preg dreg x' u' := by
  have hc : (lqOf d fs preg dreg).cost x' u' = (lqOf d fs preg dreg).cost x u := by
    unfold LQ.cost
    rw [hx P.T le_rfl]
    congr 2
    refine Finset.sum_congr rfl fun t ht => ?_
    rw [hx t (Finset.mem_range.mp ht).le, hu t (Finset.mem_range.mp ht)]
  refine ⟨by rw [hx 0 (by omega)]; exact h.start, fun t ht => ?_, fun y w h0 hd => ?_⟩
  · rw [hx (t + 1) (by omega), hx t (by omega), hu t ht]; exact h.dyn t ht
  · rw [hc]
    obtain ⟨h1, h2⟩ := h.minimal y w h0 hd
    exact ⟨h1, fun e => ⟨fun t ht => by rw [(h2 e).1 t ht, hu t ht], fun t ht => by rw [(h2 e).2 t ht, hx t ht]⟩⟩

theorem sqDist_self {n : ℕ} (a : Vec K n) : sqDist a a = 0 := by simp [sqDist]
theorem sqDist_nonneg {n : ℕ} (a b : Vec K n) : 0 ≤ sqDist a b := Finset.sum_nonneg fun _ _ => sq_nonneg _
theorem penalty_empty {m : ℕ} (h : m = 0) (rho y z c : Vec K m) : penalty rho y z c = 0 := by
  subst h; simp [penalty]

theorem noCon_aug (hn : NoCon P) (d : Data P) (fs : ℕ → Vec K P.ndx) (preg dreg : K) (a : Admm P) (x : ℕ → Vec K P.ndx)
    (u : (t : ℕ) → Vec K (P.nu t)) : augCost d fs preg dreg a x u = (lqOf d fs preg dreg).cost x u +
      (∑ t ∈ Finset.range P.T, a.sigma / 2 * (sqDist (x t) (a.px t) + sqDist (u t) (a.pu t))) +
      a.sigma / 2 * sqDist (x P.T) (a.px P.T) := by
  unfold augCost
  rw [penalty_empty (hn _ le_rfl), add_zero]
  congr 2
  refine Finset.sum_congr rfl fun t ht => ?_
  rw [penalty_empty (hn _ (Finset.mem_range.mp ht).le), add_zero]

/-- an ADMM step from the minimiser stays there. -/
theorem admm_fixed (hn : NoCon P) {d : Data P} {fs : ℕ → Vec K P.ndx} {preg dreg : K} {a : Admm P} (hs : 0 ≤ a.sigma)
    (h : UniqueMin d fs preg dreg a.px a.pu) {x : ℕ → Vec K P.ndx} {u : (t : ℕ) → Vec K (P.nu t)}
    (hx : IsAdmmStep d fs preg dreg a x u) : (∀ t, t ≤ P.T → x t = a.px t) ∧ ∀ t, t < P.T → u t = a.pu t := by
  have e0 : augCost d fs preg dreg a a.px a.pu = (lqOf d fs preg dreg).cost a.px a.pu := by
    rw [noCon_aug hn]; simp only [sqDist_self]; simp
  have h1 := hx.minimal a.px a.pu h.start h.dyn
  have h2 := (h.minimal x u hx.start hx.dyn).1
  have h3 : (lqOf d fs preg dreg).cost x u ≤ augCost d fs preg dreg a x u := by
    rw [noCon_aug hn]
    have s1 : 0 ≤ ∑ t ∈ Finset.range P.T, a.sigma / 2 * (sqDist (x t) (a.px t) + sqDist (u t) (a.pu t)) :=
      Finset.sum_nonneg fun t _ => mul_nonneg (by linarith) (add_nonneg (sqDist_nonneg _ _) (sqDist_nonneg _ _))
    have s2 : 0 ≤ a.sigma / 2 * sqDist (x P.T) (a.px P.T) := mul_nonneg (by linarith) (sqDist_nonneg _ _)
    linarith
  obtain ⟨k1, k2⟩ := hx.unique a.px a.pu h.start h.dyn (by rw [e0] at h1 ⊢; linarith)
  exact ⟨fun t ht => (k1 t ht).symm, fun t ht => (k2 t ht).symm⟩

theorem step_min (hllt : LLTExact llt) (hsym : SymHess E.d) (hs : ∀ l, E.sched = some l → SchedOK P l)
    (hn : NoCon P) (hsig : 0 ≤ E.c.sigma) {q0 q q' : CQP P} (h0 : CSQP.Zero0 q0) (h : AtIter llt E q0 q)
    (hm : UniqueMin E.d E.fs E.preg E.dreg q.v.dx q.v.du)
    (hst : ({ q with tick := q.tick + 1 } : CQP P).step llt E = .ok q') :
    UniqueMin E.d E.fs E.preg E.dreg q'.v.dx q'.v.du ∧ (∀ t, t ≤ P.T → q'.v.dx t = q.v.dx t) ∧
      ∀ t, t < P.T → q'.v.du t = q.v.du t := by
  have ha := C24_csqp_iteration_is_admm_step hllt hsym hs h0 h
    (fun t ht i => (Fin.cast (hn t ht) i).elim0) hst
  obtain ⟨k1, k2⟩ := admm_fixed hn hsig hm ha
  exact ⟨UniqueMin.congr hm k1 k2, k1, k2⟩

theorem iter_min (hllt : LLTExact llt) (hsym : SymHess E.d) (hs : ∀ l, E.sched = some l → SchedOK P l)
    (hn : NoCon P) (hsig : 0 ≤ E.c.sigma) (hg : E.c.eqGuess = true) {q0 q : CQP P} (h0 : CSQP.Zero0 q0)
    (h : AtIter llt E q0 q) : UniqueMin E.d E.fs E.preg E.dreg q.v.dx q.v.du := by
  induction h with
  | @first q h =>
    unfold CQP.warm at h
    rw [if_pos hg] at h
    obtain ⟨q1, h1, h2⟩ := Res.thenDo_eq_ok h
    obtain ⟨b, h3, h4⟩ := Res.map_eq_ok h1
    subst h4 h2
    exact plain_min hllt hsym h3 _ ((CSQP.zero0_inv E).reset q0 h0).1
  | @next q q' h ht hst hn' ih =>
    rw [(between_v q').1]
    exact (step_min hllt hsym hs hn hsig h0 h ih hst).1

/-- **C46, direction.** No constraints, equality-QP guess enabled, exact arithmetic, `σ ≥ 0`: whatever the number of QP
iterations and whatever ended them, `computeDirection` returns the unique minimiser of the unconstrained quadratic model. -/
theorem C46_csqp_unique_minimiser (hllt : LLTExact llt) (hsym : SymHess E.d) (hs : ∀ l, E.sched = some l → SchedOK P l)
    (hn : NoCon P) (hsig : 0 ≤ E.c.sigma) (hg : E.c.eqGuess = true) {q0 q' : CQP P} (h0 : CSQP.Zero0 q0)
    (h : q0.computeDirection llt E = .ok q') : UniqueMin E.d E.fs E.preg E.dreg q'.v.dx q'.v.du := by
  have hd := direction_end h
  clear h
  cases hd with
  | @limit q h he => exact (iter_min hllt hsym hs hn hsig hg h0 h :)
  | @time q h he ht => exact (iter_min hllt hsym hs hn hsig hg h0 h :)
  | @tol q q' h he ht hst hi hc =>
    simp only [(setTol_v E.c q').1]
    exact (step_min hllt hsym hs hn hsig h0 h (iter_min hllt hsym hs hn hsig hg h0 h) hst).1

/-- **C46, multipliers.** After each executed QP iteration the multipliers of the dynamics are those of the unconstrained
quadratic model, too: all stationarity conditions hold exactly. -/
theorem C46_csqp_multipliers (hllt : LLTExact llt) (hsym : SymHess E.d) (hs : ∀ l, E.sched = some l → SchedOK P l)
    (hn : NoCon P) (hsig : 0 ≤ E.c.sigma) (hg : E.c.eqGuess = true) {q0 q q' : CQP P} (h0 : CSQP.Zero0 q0)
    (h : AtIter llt E q0 q) (hst : ({ q with tick := q.tick + 1 } : CQP P).step llt E = .ok q') :
    (∀ t, 0 < t → t < P.T → statX E.d E.preg q'.v.dx q'.v.du (qpLam q') q'.v.y t = 0) ∧
    (∀ t, t < P.T → statU E.d E.dreg q'.v.dx q'.v.du (qpLam q') q'.v.y t = 0) ∧
    statT E.d E.preg q'.v.dx (qpLam q') q'.v.y = 0 := by
  obtain ⟨_, k1, k2⟩ := step_min hllt hsym hs hn hsig h0 h (iter_min hllt hsym hs hn hsig hg h0 h) hst
  obtain ⟨_, _, r3, r4, r5⟩ := C28_csqp_residual hllt hsym hs h0 h hst
  refine ⟨fun t h1 h2 => ?_, fun t h2 => ?_, ?_⟩
  · rw [r3 t h1 h2, k1 t h2.le, QP.mulVec_empty (hn t h2.le)]; simp
  · rw [r4 t h2, k2 t h2, QP.mulVec_empty (hn t h2.le)]; simp
  · rw [r5, k1 _ le_rfl, QP.mulVec_empty (hn _ le_rfl)]; simp

/-- two quadratic models with the same data at the nodes of the horizon. -/
theorem uniqueMin_same {d d' : Data P} {fs fs' : ℕ → Vec K P.ndx} {preg dreg : K} (hr : ∀ t, t < P.T → d'.rd t = d.rd t)
    (ht : d'.td = d.td) (hf : ∀ t, t < P.T → fs' (t + 1) = fs (t + 1)) {x x' : ℕ → Vec K P.ndx}
    {u u' : (t : ℕ) → Vec K (P.nu t)} (h : UniqueMin d fs preg dreg x u) (h' : UniqueMin d' fs' preg dreg x' u') :
    (∀ t, t ≤ P.T → x t = x' t) ∧ ∀ t, t < P.T → u t = u' t := by
  have hc : ∀ y w, (lqOf d' fs' preg dreg).cost y w = (lqOf d fs preg dreg).cost y w := by
    intro y w
    unfold LQ.cost LQ.stageCost
    simp only [lqOf, ht]
    congr 2
    refine Finset.sum_congr rfl fun t h => ?_
    rw [hr t (Finset.mem_range.mp h)]
  have hd : ∀ t, t < P.T → x' (t + 1) = (d.rd t).Fx *ᵥ x' t + (d.rd t).Fu *ᵥ u' t + fs (t + 1) := fun t h1 => by
    rw [h'.dyn t h1, hr t h1, hf t h1]
  have hd' : ∀ t, t < P.T → x (t + 1) = (d'.rd t).Fx *ᵥ x t + (d'.rd t).Fu *ᵥ u t + fs' (t + 1) := fun t h1 => by
    rw [h.dyn t h1, hr t h1, hf t h1]
  have h1 := h.minimal x' u' h'.start hd
  have h2 := (h'.minimal x u h.start hd').1
  rw [hc, hc] at h2
  obtain ⟨a, b⟩ := h1.2 (le_antisymm h2 h1.1)
  exact ⟨fun t h => (b t h).symm, fun t h => (a t h).symm⟩

theorem sqp_uniqueMin {llt : LLT K} {fuel : ℕ} {r : Bool} {s s1 : SQP P} (hllt : LLTExact llt) (hf : s.feas = false)
    (k2 : s1.dx 0 = 0) (h : SQP.retry llt fuel r s = some (true, s1)) (hsym : SymHess s1.data) :
    UniqueMin s1.data s1.fs s1.preg s1.dreg s1.dx s1.du := by
  obtain ⟨k1, _⟩ := C18_sqp_direction_kkt hllt hf h hsym
  exact ⟨k2, k1.dyn, fun x' u' h0 hd => C19_sqp_direction_minimal hllt hf h hsym hd (h0.trans k2.symm)⟩

variable {W : World K} {fuel : ℕ} {xs : Option (Traj P)} {us : Option (Ctrls P)} {m : ℕ} {ri : K} {s0 : CSQP P}

/-- **C46.** Exact arithmetic, symmetric cost Hessians, no constraints, equality-QP guess enabled, `σ ≥ 0`.  Take any call of
`computeDirection` in any solve of a CSQP solver in any state a user can produce (multi-threaded or not), and any
iteration of any solve of an SQP solver in any reachable state (all its line searches so far accepted a step, see C17) that
is at the same trajectory and finds a direction with the same regularization: the two directions are equal at every node. -/
theorem C46_csqp_same_as_sqp (hllt : LLTExact W.llt) (hp : SymProblem P) (hs : ∀ l, W.sched = some l → SchedOK P l)
    (hT : 0 < P.T) (hn : NoCon P) (hsig : 0 ≤ s0.c.sigma) (hg : s0.c.eqGuess = true) (h0 : CSQP.Reachable s0) {s s' : CSQP P}
    (h : CSQP.Calls W fuel xs us m ri s0 s) (hd : s.dir W = .ok s')
    {llt' : LLT K} (hllt' : LLTExact llt') {fuel' n : ℕ} {xs' : Option (Traj P)} {us' : Option (Ctrls P)} {ri' : K}
    {z0 z z1 : SQP P} (hr : SQP.Reachable z0) (hit : SQP.iterate llt' fuel' n (z0.start xs' us' ri') = some (none, z))
    (hacc : z.nRej = z0.nRej) (hzd : SQP.retry llt' fuel' true z = some (true, z1))
    (hx : ∀ t, t ≤ P.T → z1.xs t = s.xs t) (hu : ∀ t, t < P.T → z1.us t = s.us t) (hpr : z1.preg = s.preg)
    (hdr : z1.dreg = s.dreg) :
    (∀ t, t ≤ P.T → s'.q.v.dx t = z1.dx t) ∧ ∀ t, t < P.T → s'.q.v.du t = z1.du t := by
  unfold CSQP.dir at hd
  obtain ⟨q', hq, e⟩ := Res.map_eq_ok hd
  subst e
  have hc := h.conf
  have m1 := C46_csqp_unique_minimiser (E := s.env W) hllt (hp.data h.evald) hs hn
    (by show 0 ≤ s.c.sigma; rw [hc]; exact hsig) (by show s.c.eqGuess = true; rw [hc]; exact hg) (h.node0 h0.node0).1 hq
  obtain ⟨_, hfd, _, _, hfs⟩ := C17_sqp_directions_fresh hT n hit hacc hzd
  have hsym : SymHess z1.data := ⟨fun t ht => by rw [hfd.run t ht]; exact hp.xx _ _ _,
    fun t ht => by rw [hfd.run t ht]; exact hp.uu _ _ _, by rw [hfd.ter]; exact hp.T _⟩
  have m2 := sqp_uniqueMin hllt' (iterate_feas n hit) (C18_sqp_every_iteration hllt' hr n hit hzd hsym).2 hzd hsym
  rw [hpr, hdr] at m2
  refine uniqueMin_same (fun t ht => ?_) ?_ (fun t ht => ?_) m1 m2
  · show z1.data.rd t = s.data.rd t
    rw [hfd.run t ht, h.evald.diff.run t ht, hx t ht.le, hu t ht]
  · show z1.data.td = s.data.td
    rw [hfd.ter, h.evald.diff.ter, hx _ le_rfl]
  · show z1.fs (t + 1) = s.e.fs (t + 1)
    rw [hfs t ht, h.evald.fs t ht]
    unfold shootGap
    rw [hx t ht.le, hu t ht, hx (t + 1) ht]

end

/-! ## non-vacuity -/
namespace Ex
open CSQP

/-- CSQP on the unconstrained problem `lq`: two QP iterations per direction. -/
def lqC : CSQP lq :=
  let s := CSQP.new (Data.zero lq) (fun _ _ => 0) (fun _ _ => 0) 0
  { s with c := { s.c with maxQP := 2, maxTime := 1, removeReg := true } }

noncomputable def lqCCall : CSQP lq := entry (lqC.start world none none 5 0)

theorem lqC_calls : Calls world 20 none none 5 0 lqC lqCCall :=
  Calls.head AtHead.start (by decide +kernel) (by decide +kernel) (.inl rfl)

theorem lqC_dir : ∃ s', lqCCall.dir world = .ok s' :=
  ok_of_isOk (by decide +kernel)

/-- C46 applied: the first direction of CSQP on `lq` is the first direction of SQP. -/
example : ∃ (s' : CSQP lq) (z1 : SQP lq), lqCCall.dir world = .ok s' ∧
    SQP.retry llt1 20 true (lqSolver.start none none 0) = some (true, z1) ∧
    (∀ t, t ≤ lq.T → s'.q.v.dx t = z1.dx t) ∧ ∀ t, t < lq.T → s'.q.v.du t = z1.du t := by
  obtain ⟨s', hd⟩ := lqC_dir
  obtain ⟨s1, _, h1, _⟩ := C44_nonvacuous
  cases SQP.body_cases h1 with
  | gaveUp hr hb => cases hb
  | converged s3 hr hk hs' hb => cases hb
  | searched s3 hr hk hs' hb =>
    obtain ⟨p3, d3⟩ := retry_zero_reg (s := lqSolver.start none none 0) (by decide +kernel) ⟨rfl, rfl⟩ hr
    obtain ⟨x1, x2, _⟩ := SQP.retry_xs hr
    refine ⟨s', s3, hd, hr, ?_⟩
    exact C46_csqp_same_as_sqp (W := world) (s0 := lqC) llt1_exact
      ⟨fun _ _ _ => by ext i j; rfl, fun _ _ _ => by ext i j; rfl, fun _ => by ext i j; rfl⟩ (fun l h => by cases h) (by decide)
      (fun _ _ => rfl) (by decide +kernel) rfl (.setParams _ _ rfl (.new _ _ _ _)) lqC_calls hd llt1_exact
      (n := 0) (xs' := none) (us' := none) (ri' := 0) (z0 := lqSolver) (.new _) rfl rfl hr
      (fun t ht => by rw [x1]; rfl) (fun t ht => by rw [x2]; rfl) p3 d3

end Ex
end Mim
