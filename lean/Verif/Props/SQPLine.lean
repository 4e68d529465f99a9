import Verif.Props.SQPReturn

/-!
# The line search and the data it works on: SolverSQP (C15, C16, C17)
-/
set_option linter.unusedSectionVars false
set_option linter.unusedSimpArgs false

namespace Mim
open Spec SQP Matrix

namespace Spec
variable {F : Type} [Add F] [Sub F] [Mul F] [Div F] [Neg F] [Zero F] [One F] [FloatOps F] (P : Problem F)

/-- the merit function of SQP at a trajectory: cost plus weighted L1 norm of the shooting gaps. -/
def meritAt (mu : F) (xs : Traj P) (us : Ctrls P) : F := trajCost P xs us + mu * shootGapNorm P xs us

theorem trajCost_congr {xs xs' : Traj P} {us us' : Ctrls P} (hx : ∀ t, t ≤ P.T → xs t = xs' t)
    (hu : ∀ t, t < P.T → us t = us' t) : trajCost P xs us = trajCost P xs' us' := by
  unfold trajCost
  rw [hx P.T le_rfl, sumUp_congr P.T (nodeCost P xs us) (nodeCost P xs' us')]
  intro t ht
  unfold nodeCost
  rw [hx t ht.le, hu t ht]

theorem shootGap_congr {xs xs' : Traj P} {us us' : Ctrls P} (hx : ∀ t, t ≤ P.T → xs t = xs' t)
    (hu : ∀ t, t < P.T → us t = us' t) : ∀ t, t < P.T → shootGap P xs us t = shootGap P xs' us' t := by
  intro t ht
  unfold shootGap
  rw [hx t ht.le, hu t ht, hx (t + 1) ht]

theorem shootGapNorm_congr {xs xs' : Traj P} {us us' : Ctrls P} (hx : ∀ t, t ≤ P.T → xs t = xs' t)
    (hu : ∀ t, t < P.T → us t = us' t) : shootGapNorm P xs us = shootGapNorm P xs' us' := by
  unfold shootGapNorm
  exact sumUp_congr _ _ _ fun t ht => by rw [shootGap_congr P hx hu t ht]

theorem FreshCalc.congr {d : Data P} {xs xs' : Traj P} {us us' : Ctrls P} (h : FreshCalc P d xs us)
    (hx : ∀ t, t ≤ P.T → xs' t = xs t) (hu : ∀ t, t < P.T → us' t = us t) : FreshCalc P d xs' us' :=
  ⟨fun t ht => by rw [hx t ht.le, hu t ht]; exact h.run t ht, by rw [hx P.T le_rfl]; exact h.ter⟩

end Spec

section
variable {F : Type} [Add F] [Sub F] [Mul F] [Div F] [Neg F] [Zero F] [One F] [FloatOps F] {P : Problem F}
variable {llt : LLT F} {fuel : ℕ} {xs : Option (Traj P)} {us : Option (Ctrls P)} {m : ℕ} {ri : F} {s s' : SQP P} {b : Bool}

/-- **C16 (SQP).**  Either the search accepts the first step length (in `set_alphas` order) that lies in `[0,1]`, whose
trial does not blow up and passes the test, and the new trajectory is the trial; or no step length passes and
`xs`, `us` are unchanged. -/
theorem C16_sqp_first_acceptable (hT : 0 < P.T) (s : SQP P) :
    (∃ pre a post, s.par.alphas = pre ++ a :: post ∧ (∀ b ∈ pre, ¬ Acceptable s b) ∧ Acceptable s a ∧
      (∀ t, t ≤ P.T → (search s).xs t = stepX P s.xs s.dx a t) ∧
      (∀ t, t < P.T → (search s).us t = stepU P s.us s.du a t) ∧
      FreshCalc P (search s).data (search s).xs (search s).us ∧
      (search s).steplength = a ∧ (search s).nRej = s.nRej) ∨
    ((∀ b ∈ s.par.alphas, ¬ Acceptable s b) ∧ (search s).xs = s.xs ∧ (search s).us = s.us ∧
      (search s).nRej = s.nRej + 1 ∧
      (s.par.alphas ≠ [] → s.par.alphas.getLast? = some (search s).steplength)) := by
  have hrej : (lineSearch s.par.alphas s).2.nRej = s.nRej :=
    lineSearch_frame nRej (fun _ _ _ _ _ _ _ _ _ => rfl) (fun _ _ _ _ _ _ => rfl) _ _
  obtain ⟨l1, l2⟩ := lineSearch_spec hT s.par.alphas s
  unfold search
  simp only []
  split
  · rename_i hf
    obtain ⟨pre, a, post, h1, h2, h3, h4⟩ := l1 hf
    exact .inl ⟨pre, a, post, h1, h2, h3, h4.xs, h4.us, h4.fresh.congr P h4.xs h4.us, h4.step, hrej⟩
  · rename_i hf
    obtain ⟨h1, h2, h3⟩ := l2 (by simpa using hf)
    simp only [core, Prod.mk.injEq] at h2
    refine .inr ⟨h1, h2.1, h2.2.1, ?_, ?_⟩
    · change _ + 1 = _; rw [hrej]
    · intro hne
      change _ = some (lineSearch s.par.alphas s).2.steplength
      rw [h3 hne, List.getLast?_eq_getLast_of_ne_nil hne, List.getLastD_eq_getLast?,
        List.getLast?_eq_getLast_of_ne_nil hne]
      rfl

/-- **C15 (SQP), one step.**  With the merit line search, an accepted step strictly decreases the merit function; no
assumption on the arithmetic (`<` on doubles). -/
theorem C15_sqp_step_decreases (hT : 0 < P.T) (s : SQP P) (huf : s.useFilter = false)
    (hacc : (search s).nRej = s.nRej) :
    ltb (meritAt P s.mu (search s).xs (search s).us) s.merit = true := by
  rcases C16_sqp_first_acceptable hT s with ⟨pre, a, post, _, _, h3, h4, h5, _, _, _⟩ | ⟨_, _, _, h, _⟩
  · obtain ⟨_, _, _, h⟩ := h3
    rw [if_neg (by simp [huf])] at h
    unfold meritAt
    rw [trajCost_congr P h4 h5, shootGapNorm_congr P h4 h5]
    exact h
  · omega

theorem calcDiff_fresh (s : SQP P) (h : s.iter = 0 ∨ FreshCalc P s.data s.xs s.us) :
    FreshCalc P s.calcDiff.data s.xs s.us ∧ FreshDiff P s.calcDiff.data s.xs s.us ∧
    s.calcDiff.fs = gapsOf s.calcDiff.data s.xs ∧ s.calcDiff.cost = s.calcDiff.data.totalCost := by
  refine ⟨?_, ?_, rfl, rfl⟩
  · unfold calcDiff
    rcases h with h | h
    · simp only [h, if_true]
      exact ⟨fun t ht => by simp [Data.calcDiffAll, Data.calcAll, ht], rfl⟩
    · simp only []
      split
      · exact ⟨fun t ht => by simp [Data.calcDiffAll, Data.calcAll, ht], rfl⟩
      · exact ⟨fun t ht => h.run t ht, h.ter⟩
  · exact ⟨fun t ht => by simp [calcDiff, Data.calcDiffAll, ht], rfl⟩

theorem totalCost_fresh {d : Data P} {xs : Traj P} {us : Ctrls P} (h : FreshCalc P d xs us) :
    d.totalCost = trajCost P xs us := by
  unfold Data.totalCost trajCost
  rw [h.ter, sumUp_congr P.T _ (nodeCost P xs us)]
  intro t ht
  rw [h.run t ht]; rfl

theorem gapsOf_fresh {d : Data P} {xs : Traj P} {us : Ctrls P} (h : FreshCalc P d xs us) :
    gapsOf d xs 0 = P.diff (xs 0) P.x0 ∧ ∀ t, t < P.T → gapsOf d xs (t + 1) = shootGap P xs us t :=
  ⟨rfl, fun t ht => by change P.diff _ (d.run t).xnext = _; rw [h.run t ht]; rfl⟩

/-- the state after `n` iterations is fresh (or it is the first one), unless a line search of this call failed. -/
theorem iterate_fresh (hT : 0 < P.T) (s0 : SQP P) (h0 : s0.iter = 0) (n : ℕ) (r : Option Bool) (s1 : SQP P)
    (h : iterate llt fuel n s0 = some (r, s1)) :
    (r = none → s0.nRej ≤ s1.nRej ∧ (s1.nRej = s0.nRej → s1.iter = 0 ∨ FreshCalc P s1.data s1.xs s1.us)) ∧
    (r = some true → s1.nRej = s0.nRej → FreshCalc P s1.data s1.xs s1.us ∧ FreshDiff P s1.data s1.xs s1.us ∧
      s1.fs = gapsOf s1.data s1.xs ∧ s1.cost = s1.data.totalCost) := by
  have hretry : ∀ (s1 s2 : SQP P) b, retry llt fuel true s1 = some (b, s2) → s2.nRej = s1.nRej := fun s1 s2 b h =>
    retry_frame nRej (fun _ _ _ _ _ _ _ _ _ _ _ _ => rfl) (fun _ _ _ => rfl) _ _ _ _ _ _ h
  have key := iterate_inv llt fuel
    (fun _ s1 => s0.nRej ≤ s1.nRej ∧ (s1.nRej = s0.nRej → s1.iter = 0 ∨ FreshCalc P s1.data s1.xs s1.us))
    (fun b s1 => b = true → s1.nRej = s0.nRej → FreshCalc P s1.data s1.xs s1.us ∧ FreshDiff P s1.data s1.xs s1.us ∧
      s1.fs = gapsOf s1.data s1.xs ∧ s1.cost = s1.data.totalCost)
    (fun n s1 s2 hI h => by
      cases body_cases h with
      | gaveUp hr hb => cases hb
      | converged s3 hr hk hs hb => cases hb
      | searched s3 hr hk hs hb =>
        have hn3 := hretry _ _ _ hr
        have hrej : s2.nRej = (checked s3).pushFilter.search.nRej := by
          rw [hs]; exact updateReg_frame nRej (fun _ _ _ => rfl) _
        obtain ⟨e1, e2, _, e4⟩ := updateReg_xs (checked s3).pushFilter.search
        rw [← hs] at e1 e2 e4
        rcases C16_sqp_first_acceptable hT (checked s3).pushFilter with
          ⟨pre, a, post, _, _, _, _, _, hf, _, hn⟩ | ⟨_, _, _, hn, _⟩
        · rw [hn] at hrej
          change s2.nRej = s3.nRej at hrej
          refine ⟨?_, fun _ => .inr ?_⟩
          · change _ ≤ s2.nRej; rw [hrej, hn3]; exact hI.1
          · change FreshCalc P s2.data s2.xs s2.us
            rw [e1, e2, e4]; exact hf
        · rw [hn] at hrej
          change s2.nRej = s3.nRej + 1 at hrej
          have := hI.1
          refine ⟨by change _ ≤ s2.nRej; omega, fun h => ?_⟩
          change s2.nRej = _ at h
          omega)
    (fun n s1 b s2 hI h hb hn => by
      subst hb
      cases body_cases h with
      | gaveUp hr hb => cases hb
      | converged s3 hr hk hs hb =>
        have hn3 := hretry _ _ _ hr
        obtain ⟨x1, x2, _⟩ := retry_xs hr
        have e := retry_eval hr
        simp only [if_true] at e
        obtain ⟨d1, d2, d3, _, _⟩ := e
        rw [hs] at hn
        change s3.nRej = _ at hn
        obtain ⟨f1, f2, f3, f4⟩ := calcDiff_fresh s1 (hI.2 (by omega))
        rw [hs]
        refine ⟨?_, ?_, ?_, ?_⟩
        · change FreshCalc P s3.data s3.xs s3.us; rw [d1, x1, x2]; exact f1
        · change FreshDiff P s3.data s3.xs s3.us; rw [d1, x1, x2]; exact f2
        · change s3.fs = gapsOf s3.data s3.xs; rw [d1, x1, d3]; exact f3
        · change s3.cost = s3.data.totalCost; rw [d1, d2]; exact f4
      | searched s3 hr hk hs hb => split at hb <;> simp at hb)
    n s0 ⟨le_rfl, fun _ => .inl h0⟩ r s1 h
  constructor
  · intro hr
    rcases key with ⟨_, h'⟩ | ⟨b', h', _⟩
    · exact h'
    · rw [hr] at h'; cases h'
  · intro hr
    rcases key with ⟨h', _⟩ | ⟨b', h', hq⟩
    · rw [hr] at h'; cases h'
    · rw [hr] at h'
      simp only [Option.some.injEq] at h'
      exact hq h'.symm

/-- **C17 (SQP), positive part.**  As long as no line search of this call failed, every direction computation, successful
or not, in the main loop or the extra iteration, works with costs, next states and derivatives evaluated at the current
`xs`, `us`; its gaps and cost are those of the current trajectory.  (`s1` is the state after `n` complete iterations,
`s2` the state right after the direction computation that follows.) -/
theorem C17_sqp_directions_fresh (hT : 0 < P.T) (n : ℕ) {s1 s2 : SQP P}
    (h1 : iterate llt fuel n (s.start xs us ri) = some (none, s1)) (hacc : s1.nRej = s.nRej)
    (h2 : retry llt fuel true s1 = some (b, s2)) :
    FreshCalc P s2.data s2.xs s2.us ∧ FreshDiff P s2.data s2.xs s2.us ∧
    s2.cost = trajCost P s2.xs s2.us ∧
    s2.fs 0 = P.diff (s2.xs 0) P.x0 ∧ ∀ t, t < P.T → s2.fs (t + 1) = shootGap P s2.xs s2.us t := by
  have hf := ((iterate_fresh hT (s.start xs us ri) rfl n none s1 h1).1 rfl).2 hacc
  obtain ⟨x1, x2, _⟩ := retry_xs h2
  have e := retry_eval h2
  simp only [if_true] at e
  obtain ⟨d1, d2, d3, _, _⟩ := e
  obtain ⟨f1, f2, f3, f4⟩ := calcDiff_fresh s1 hf
  rw [x1, x2, d1, d2, d3, f4, f3]
  exact ⟨f1, f2, totalCost_fresh f1, gapsOf_fresh f1⟩

/-- freshness at a true return, for the exact certificate. -/
theorem solve_true_fresh (hT : 0 < P.T) (h : solve llt fuel xs us m ri s = some (true, s'))
    (hacc : s'.nRej = s.nRej) :
    FreshCalc P s'.data s'.xs s'.us ∧ FreshDiff P s'.data s'.xs s'.us ∧ s'.fs = gapsOf s'.data s'.xs := by
  rcases solve_cases h with h | ⟨s1, h1, h2⟩
  · obtain ⟨a, b, c, _⟩ := (iterate_fresh hT (s.start xs us ri) rfl m _ _ h).2 rfl hacc
    exact ⟨a, b, c⟩
  · cases extra_cases h2 with
    | off he hb hs => cases hb
    | gaveUp he hr hb => cases hb
    | checked he s3 hr hs hb =>
      have hn : s3.nRej = s1.nRej :=
        retry_frame nRej (fun _ _ _ _ _ _ _ _ _ _ _ _ => rfl) (fun _ _ _ => rfl) _ _ _ _ _ _ hr
      rw [hs] at hacc
      change s3.nRej = _ at hacc
      have hf := ((iterate_fresh hT (s.start xs us ri) rfl m none s1 h1).1 rfl).2 (by rw [← hn, hacc]; rfl)
      obtain ⟨x1, x2, _⟩ := retry_xs hr
      have e := retry_eval hr
      simp only [if_true] at e
      obtain ⟨d1, d2, d3, _, _⟩ := e
      obtain ⟨f1, f2, f3, f4⟩ := calcDiff_fresh s1 hf
      rw [hs]
      refine ⟨?_, ?_, ?_⟩
      · change FreshCalc P s3.data s3.xs s3.us; rw [d1, x1, x2]; exact f1
      · change FreshDiff P s3.data s3.xs s3.us; rw [d1, x1, x2]; exact f2
      · change s3.fs = gapsOf s3.data s3.xs; rw [d1, x1, d3]; exact f3

end

section Exact
variable {K : Type} [Field K] [LinearOrder K] [IsStrictOrderedRing K] {P : Problem K}
variable {llt : LLT K} {fuel : ℕ} {xs : Option (Traj P)} {us : Option (Ctrls P)} {m : ℕ} {ri : K} {s s' : SQP P} {b : Bool}

/-- **C01 + C02 + C17 (SQP certificate).**  In exact arithmetic, if `solve` returns true and none of its line searches
failed, the returned trajectory with the returned multipliers satisfies the first-order optimality conditions of the
optimal control problem up to the termination tolerance. -/
theorem C17_sqp_true_is_kkt (hT : 0 < P.T) (h : solve llt fuel xs us m ri s = some (true, s'))
    (hacc : s'.nRej = s.nRej) : IsKKT P s.tol s'.xs s'.us s'.lagMul := by
  obtain ⟨hk, htol, hres, _⟩ := C01_sqp_true_sound h
  obtain ⟨f1, f2, f3⟩ := solve_true_fresh hT h hacc
  rw [leb_exact, decide_eq_true_eq, htol, hres] at hk
  have h0 : 0 ≤ s.tol := by
    refine le_trans ?_ hk
    unfold kktResidual
    simp only [cppMax_exact, normInf_exact]
    exact le_max_of_le_left (le_max_of_le_right (exactNormInf_nonneg _))
  obtain ⟨c1, c2, c3, c4⟩ := (C02_sqp_residual_meaning s'.data s'.fs s'.lagMul s.tol h0).mp hk
  obtain ⟨g1, g2⟩ := gapsOf_fresh f1
  refine ⟨fun t ht i => ?_, fun t ht i => ?_, fun i => ?_, fun i => ?_, fun t ht i => ?_⟩
  · have := c1 t ht i; rwa [f2.run t ht] at this
  · have := c2 t ht i; rwa [f2.run t ht] at this
  · have := c3 i; rwa [f2.ter] at this
  · have := c4 0 (Nat.zero_le _) i; rwa [f3, g1] at this
  · have := c4 (t + 1) ht i; rwa [f3, g2 t ht] at this

theorem sumUp_zero_of {n : ℕ} {f : ℕ → K} (h : ∀ t, t < n → f t = 0) : sumUp n f = 0 := by
  rw [sumUp_exact]; exact Finset.sum_eq_zero fun t ht => h t (Finset.mem_range.mp ht)

/-- the gap norm of a fresh trajectory that starts at `x0` is the norm of its shooting gaps. -/
theorem gapNorm_fresh {fs : ℕ → Vec K P.ndx} {xs : Traj P} {us : Ctrls P} (h0 : fs 0 = 0)
    (h : ∀ t, t < P.T → fs (t + 1) = shootGap P xs us t) : gapNorm (P := P) fs = shootGapNorm P xs us := by
  unfold gapNorm shootGapNorm
  rw [sumUp_exact, sumUp_exact, ← Finset.sum_range_succ (fun t => norm1 (fs t)), Finset.sum_range_succ', h0]
  simp only [norm1_exact, Pi.zero_apply, abs_zero, Finset.sum_const_zero, add_zero]
  exact Finset.sum_congr rfl fun t ht => by rw [h t (Finset.mem_range.mp ht)]

/-- **C15 (SQP), over a solve.**  With the merit line search, the merit function evaluated at the successive iterates of a
solve is strictly decreasing as long as no line search failed: if the searches of the first `n + 1` iterations all
accepted a step, the iterate after them has a smaller merit than the iterate before the last of them.  (`s1`, `s1'`:
states after `n` and `n + 1` iterations.) -/
theorem C15_sqp_merit_monotone (hT : 0 < P.T) (hs : Reachable s) (huf : s.useFilter = false)
    (hint : ∀ a ∈ s.par.alphas, P.integrate P.x0 (sv a (zeroV K P.ndx)) = P.x0) (hdiff : P.diff P.x0 P.x0 = 0)
    (n : ℕ) {s1 s1' : SQP P}
    (h1 : iterate llt fuel n (s.start xs us ri) = some (none, s1))
    (h2 : body llt fuel s1 = some (none, s1')) (hacc : s1'.nRej = s.nRej) :
    meritAt P s.mu s1'.xs s1'.us < meritAt P s.mu s1.xs s1.us := by
  cases body_cases h2 with
  | gaveUp hr hb => cases hb
  | converged s3 hr hk hs' hb => cases hb
  | searched s3 hr hk hs' hb =>
    have hn3 : s3.nRej = s1.nRej :=
      retry_frame nRej (fun _ _ _ _ _ _ _ _ _ _ _ _ => rfl) (fun _ _ _ => rfl) _ _ _ _ _ _ hr
    have hmono := ((iterate_fresh hT (s.start xs us ri) rfl n none s1 h1).1 rfl).1
    change s.nRej ≤ s1.nRej at hmono
    have hrej : s1'.nRej = (checked s3).pushFilter.search.nRej := by
      rw [hs']; exact updateReg_frame nRej (fun _ _ _ => rfl) _
    have hcase : (checked s3).pushFilter.search.nRej = (checked s3).pushFilter.nRej := by
      rcases C16_sqp_first_acceptable hT (checked s3).pushFilter with ⟨_, _, _, _, _, _, _, _, _, _, hn⟩ | ⟨_, _, _, hn, _⟩
      · exact hn
      · rw [hn] at hrej
        change s1'.nRej = s3.nRej + 1 at hrej
        omega
    have hn1 : s1.nRej = s.nRej := by
      rw [hcase] at hrej
      change s1'.nRej = s3.nRej at hrej
      omega
    obtain ⟨f1, f2, f3, f4, f5⟩ := C17_sqp_directions_fresh hT n h1 hn1 hr
    -- configuration is unchanged
    have cfg : (s1.useFilter, s1.mu, s1.par) = (s.useFilter, s.mu, s.par) := by
      have hb : ∀ (s : SQP P) r s', body llt fuel s = some (r, s') →
          ((s'.useFilter, s'.mu, s'.par) : Bool × K × Params K) = (s.useFilter, s.mu, s.par) := fun s r s' h =>
        body_frame (fun s => (s.useFilter, s.mu, s.par)) (fun _ _ _ _ _ _ _ _ _ _ _ _ => rfl) (fun _ _ _ => rfl)
          (fun _ _ _ _ _ _ _ _ _ => rfl) (fun _ _ _ _ _ _ => rfl) (fun _ _ _ _ => rfl) (fun _ _ _ _ => rfl)
          (fun _ _ => rfl) h
      rcases iterate_inv llt fuel (fun _ s1 => (s1.useFilter, s1.mu, s1.par) = (s.useFilter, s.mu, s.par))
        (fun _ _ => True) (fun n s1 s2 hI h => (hb _ _ _ h).trans hI) (fun _ _ _ _ _ _ => trivial)
        n (s.start xs us ri) rfl none s1 h1 with ⟨_, h⟩ | ⟨_, h, _⟩
      · exact h
      · cases h
    simp only [Prod.mk.injEq] at cfg
    obtain ⟨cf1, cf2, cf3⟩ := cfg
    have r1 : s3.useFilter = s1.useFilter :=
      retry_frame useFilter (fun _ _ _ _ _ _ _ _ _ _ _ _ => rfl) (fun _ _ _ => rfl) _ _ _ _ _ _ hr
    have r2 : s3.mu = s1.mu :=
      retry_frame mu (fun _ _ _ _ _ _ _ _ _ _ _ _ => rfl) (fun _ _ _ => rfl) _ _ _ _ _ _ hr
    obtain ⟨x1, x2, _⟩ := retry_xs hr
    have hx0 := (iterate_xs0 hT hs hint n _ _ h1).2.2
    have hd := C15_sqp_step_decreases hT (checked s3).pushFilter (by change s3.useFilter = false; rw [r1, cf1, huf]) hcase
    rw [ltb_exact, decide_eq_true_eq] at hd
    change meritAt P s3.mu _ _ < s3.merit at hd
    obtain ⟨e1, e2, _, _⟩ := updateReg_xs (checked s3).pushFilter.search
    rw [← hs'] at e1 e2
    rw [← e1, ← e2, r2, cf2] at hd
    have hm := (retry_eval hr)
    simp only [if_true] at hm
    obtain ⟨d1, d2, d3, d4, d5⟩ := hm
    have hmerit : s3.merit = meritAt P s.mu s1.xs s1.us := by
      rw [d5, ← d2, ← d3, f3, cf2, gapNorm_fresh (xs := s3.xs) (us := s3.us) (by rw [f4, x1, hx0, hdiff]) f5, x1, x2]
      rfl
    rw [← hmerit]
    exact hd

end Exact
/-! ## Witnesses -/

namespace Ex

/-- **C17 (SQP), refutation of the unrestricted claim.**  A default-constructed SQP solver, in exact arithmetic, started at
a trajectory whose shooting gap is 1: the first line search rejects every trial, the second direction computation works
with the next state of the last rejected trial, and `solve` returns true with residual 0 although the returned trajectory
still has the shooting gap 1 (tolerance `1e-6`).  So the hypothesis that no line search failed cannot be dropped from
`C17_sqp_directions_fresh` and `C17_sqp_true_is_kkt`. -/
theorem C17_sqp_stale_certificate_refuted :
    ∃ s' : SQP stale,
      SQP.solve llt1 20 (some staleGuess) none 5 0 (SQP.new (Data.zero stale)) = some (true, s') ∧
      s'.KKT = 0 ∧ s'.nRej = 1 ∧ shootGap stale s'.xs s'.us 0 = (fun _ => 1) ∧
      ¬ IsKKT stale s'.tol s'.xs s'.us s'.lagMul := by
  have hrun : staleRun.map (fun r => (r.1, r.2.KKT, r.2.nRej, shootGap stale r.2.xs r.2.us 0 (0 : Fin 1), r.2.tol))
      = some (true, 0, 1, 1, 1 / 10 ^ 6) := by decide +kernel
  change ∃ s', staleRun = _ ∧ _
  cases hs : staleRun with
  | none => rw [hs] at hrun; cases hrun
  | some r =>
    obtain ⟨b, s'⟩ := r
    rw [hs] at hrun
    simp only [Option.map_some, Option.some.injEq, Prod.mk.injEq] at hrun
    obtain ⟨rfl, h2, h3, h4, h5⟩ := hrun
    refine ⟨s', rfl, h2, h3, ?_, ?_⟩
    · funext i
      obtain rfl : i = (0 : Fin 1) := Fin.fin_one_eq_zero i
      exact h4
    · intro h
      have := h.gaps 0 (by decide) (0 : Fin 1)
      rw [h4, h5] at this
      norm_num at this

/-- C16, C17: on the LQ problem the first step is accepted, and no search fails. -/
example : (SQP.solve llt1 20 none none 5 0 lqSolver).map (fun r => (r.1, r.2.nRej, r.2.nTry)) = some (true, 0, 1) := by
  decide +kernel

/-- C15: the merit search on the LQ problem: one accepted step, then convergence. -/
example : (SQP.iterate llt1 20 1 (SQP.start none none (1 / 2) { lqSolver with useFilter := false })).map
    (fun r => (r.1, r.2.nRej, decide (meritAt lq 1 r.2.xs r.2.us <
      meritAt lq 1 (SQP.start none none (1 / 2) lqSolver).xs (SQP.start none none (1 / 2) lqSolver).us)))
    = some (none, 0, true) := by decide +kernel
example : lq.diff lq.x0 lq.x0 = 0 := by funext i; simp [lq, scalar]

/-- C16, the failing branch: all ten trials of the first iteration are rejected. -/
example : (SQP.iterate llt1 20 1 (SQP.start (some staleGuess) none 0
    (SQP.new (Data.zero stale)))).map (fun r => (r.1, r.2.nRej, r.2.nTry)) = some (none, 1, 10) := by decide +kernel

end Ex
end Mim
