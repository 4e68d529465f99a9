import Verif.Lemmas.DDPLine
import Verif.Lemmas.BackwardExact
import Verif.Props.DDPReturn
import Verif.Spec.Affine

/-!
# Line search, rollouts and expected improvement of SolverDDP and SolverFDDP (C16, C20, C21, C22, C23, C37, C48)
-/
set_option linter.unusedSectionVars false
set_option linter.unusedSimpArgs false

namespace Mim
open Spec DDP Matrix

section
variable {F : Type} [Add F] [Sub F] [Mul F] [Div F] [Neg F] [Zero F] [One F] [FloatOps F] {P : Problem F}
variable {k : Kind P} {llt : LLT F} {fuel : ℕ} {xs : Option (Traj P)} {us : Option (Ctrls P)} {m : ℕ} {fe : Bool} {ri : F}
  {s s' : DDP P} {b : Bool}

/-! ## C16 -/

theorem getLast_of_getLastD {l : List F} {d x : F} (hne : l ≠ []) (h : x = l.getLastD d) : l.getLast? = some x := by
  rw [h, List.getLast?_eq_getLast_of_ne_nil hne, List.getLastD_eq_getLast?, List.getLast?_eq_getLast_of_ne_nil hne]
  rfl

/-- **C16 (DDP).**  Either the search accepts the first step length (in `set_alphas` order) that passes the test, and the
new candidate is its closed-loop rollout, marked feasible; or none passes and trajectory and feasibility flag are unchanged.
(`s.y.xs 0 = x0` holds whenever `solve` reaches the search: `ddp_searches_from_x0`.) -/
theorem C16_ddp_first_acceptable (s : DDP P) (h0 : s.y.xs 0 = P.x0) :
    (∃ pre a post, s.c.par.alphas = pre ++ a :: post ∧ (∀ b ∈ pre, ¬ AcceptDDP s b) ∧ AcceptDDP s a ∧
      (∀ t, t ≤ P.T → (search (ddp P) s).xs t = s.policy.X true a t) ∧
      (∀ t, t < P.T → (search (ddp P) s).us t = s.policy.U true a t) ∧
      (search (ddp P) s).e.cost = trajCost P (s.policy.X true a) (s.policy.U true a) ∧
      (search (ddp P) s).feas = true ∧ (search (ddp P) s).steplength = a ∧ (search (ddp P) s).nRej = s.nRej ∧
      (search (ddp P) s).m.d0 = s.m.d0) ∨
    ((∀ b ∈ s.c.par.alphas, ¬ AcceptDDP s b) ∧ (search (ddp P) s).xs = s.xs ∧ (search (ddp P) s).us = s.us ∧
      (search (ddp P) s).feas = s.feas ∧ (search (ddp P) s).nRej = s.nRej + 1 ∧
      (s.c.par.alphas ≠ [] → s.c.par.alphas.getLast? = some (search (ddp P) s).steplength)) := by
  have hS : SameD s { s with recalc := false } := ⟨h0, _, _, _, _, _, _, rfl⟩
  rw [search_eq]
  rcases ddp_line.search s s.c.par.alphas _ hS with ⟨h1, pre, a, post, s2, h2, h3, h4, h5, h6, h7⟩ | ⟨h1, h2, h3, h4⟩
  · left
    rw [if_pos h1, h7]
    obtain ⟨_, st, r, y, n, dV, ex, e⟩ := h5
    have hst := h6.step
    refine ⟨pre, a, post, h2, h3, h4, h6.xs, h6.us, h6.cost, rfl, hst, ?_, ?_⟩
    · rw [e]; rfl
    · rw [e]; rfl
  · right
    rw [if_neg (by simp [h1])]
    obtain ⟨_, st, r, y, n, dV, ex, e⟩ := h3
    refine ⟨h2, ?_, ?_, ?_, ?_, fun hne => getLast_of_getLastD hne h4⟩
    · rw [e]
    · rw [e]
    · rw [e]
    · rw [e]

/-- **C16 (FDDP).**  The same for FDDP; the rollout closes the gaps iff the candidate is feasible or the step is 1. -/
theorem C16_fddp_first_acceptable (s : DDP P) :
    (∃ pre a post, s.c.par.alphas = pre ++ a :: post ∧ (∀ b ∈ pre, ¬ AcceptFDDP s b) ∧ AcceptFDDP s a ∧
      (∀ t, t ≤ P.T → (search (fddp P) s).xs t = s.policy.X (s.closes a) a t) ∧
      (∀ t, t < P.T → (search (fddp P) s).us t = s.policy.U (s.closes a) a t) ∧
      (search (fddp P) s).feas = (!s.c.useFilter && s.closes a) ∧
      (search (fddp P) s).steplength = a ∧ (search (fddp P) s).nRej = s.nRej) ∨
    ((∀ b ∈ s.c.par.alphas, ¬ AcceptFDDP s b) ∧ (search (fddp P) s).xs = s.xs ∧ (search (fddp P) s).us = s.us ∧
      (search (fddp P) s).feas = s.feas ∧ (search (fddp P) s).nRej = s.nRej + 1 ∧
      (s.c.par.alphas ≠ [] → s.c.par.alphas.getLast? = some (search (fddp P) s).steplength)) := by
  have hS : SameF s { s with recalc := false } := ⟨_, _, _, _, _, _, _, _, _, rfl⟩
  rw [search_eq]
  rcases fddp_line.search s s.c.par.alphas _ hS with ⟨h1, pre, a, post, s2, h2, h3, h4, h5, h6, h7⟩ | ⟨h1, h2, h3, h4⟩
  · left
    rw [if_pos h1, h7]
    obtain ⟨st, r, y, n, dV, ex, d0, d1, dv, e⟩ := h5
    have hst := h6.step
    refine ⟨pre, a, post, h2, h3, h4, ?_⟩
    change (∀ t, t ≤ P.T → (commitFDDP a s2).xs t = _) ∧ (∀ t, t < P.T → (commitFDDP a s2).us t = _) ∧
      (commitFDDP a s2).feas = _ ∧ (commitFDDP a s2).steplength = a ∧ (commitFDDP a s2).nRej = _
    have hc : s2.c = s.c := by rw [e]
    have hf : s2.feas = s.feas := by rw [e]
    have hn : s2.nRej = s.nRej := by rw [e]
    unfold commitFDDP
    rw [hc]
    cases huf : s.c.useFilter with
    | true =>
      simp only [if_true]
      exact ⟨h6.xs, h6.us, rfl, hst, hn⟩
    | false =>
      simp only [Bool.false_eq_true, if_false]
      refine ⟨h6.xs, h6.us, ?_, hst, hn⟩
      change (s2.feas || eqb a 1) = _
      rw [hf]; rfl
  · right
    rw [if_neg (by simp [h1])]
    obtain ⟨st, r, y, n, dV, ex, d0, d1, dv, e⟩ := h3
    refine ⟨h2, ?_, ?_, ?_, ?_, fun hne => getLast_of_getLastD hne h4⟩
    · rw [e]
    · rw [e]
    · rw [e]
    · rw [e]

/-! ## C21 -/

/-- a gap-closing rollout is feasible. -/
theorem policy_feasible (π : Policy P) (a : F) : Feasible P (π.X true a) (π.U true a) := ⟨rfl, fun t _ => rfl⟩

theorem feasible_congr {xs xs' : Traj P} {us us' : Ctrls P} (h : Feasible P xs us) (hx : ∀ t, t ≤ P.T → xs' t = xs t)
    (hu : ∀ t, t < P.T → us' t = us t) : Feasible P xs' us' :=
  ⟨by rw [hx 0 (Nat.zero_le _)]; exact h.1, fun t ht => by rw [hx t ht.le, hx (t + 1) ht, hu t ht]; exact h.2 t ht⟩

/-- **C21, trials of DDP.** -/
theorem C21_ddp_trial {a : F} {s1 : DDP P} (h0 : s.y.xs 0 = P.x0) (h : tryDDP a s = .ok s1) :
    Feasible P s1.y.xs s1.y.us ∧ s1.y.cost = trajCost P s1.y.xs s1.y.us := by
  rcases tryDDP_roll a s h0 with ⟨s2, h2, h3⟩ | ⟨s2, h2, _⟩
  · rw [h] at h2
    obtain rfl : s1 = s2 := by cases h2; rfl
    exact ⟨feasible_congr (policy_feasible s.policy a) h3.xs h3.us, by rw [h3.cost, trajCost_congr P h3.xs h3.us]⟩
  · rw [h] at h2; cases h2

/-- **C21, trials of FDDP** with step 1 or from a feasible candidate; the cost is that of the trial in all cases. -/
theorem C21_fddp_trial {a : F} {s1 : DDP P} (h : tryFDDP a s = .ok s1) :
    ((s.feas = true ∨ eqb a 1 = true) → Feasible P s1.y.xs s1.y.us) ∧ s1.y.cost = trajCost P s1.y.xs s1.y.us := by
  rcases tryFDDP_roll a s with ⟨s2, h2, h3, _⟩ | ⟨s2, h2, _⟩
  · rw [h] at h2
    obtain rfl : s1 = s2 := by cases h2; rfl
    refine ⟨fun hc => ?_, by rw [h3.cost, trajCost_congr P h3.xs h3.us]⟩
    rw [← Bool.or_eq_true] at hc
    have hx := h3.xs
    have hu := h3.us
    rw [hc] at hx hu
    exact feasible_congr (policy_feasible s.policy a) hx hu
  · rw [h] at h2; cases h2

/-- what one iteration does to the candidate. -/
theorem body_candidate (hk : k.Laws) {s s' : DDP P} {r : Option Bool} (h : body k llt fuel s = some (r, s')) :
    (s'.xs = s.xs ∧ s'.us = s.us ∧ s'.feas = s.feas ∧ s'.y.xs = s.y.xs) ∨
    ∃ s1, retry k llt fuel s = some (true, s1) ∧
      (r = none ∨ r = some false) ∧
      let p := search k (k.push (checked k s1))
      s'.xs = p.xs ∧ s'.us = p.us ∧ s'.feas = p.feas ∧ s'.y = p.y ∧ s'.nRej = p.nRej ∧ s'.m.d0 = p.m.d0 ∧
        s'.steplength = p.steplength := by
  cases body_cases h with
  | gaveUp hr hb =>
    obtain ⟨p, q, e, d, r, e1⟩ := retry_frame hk hr
    left; rw [e1]; exact ⟨rfl, rfl, rfl, rfl⟩
  | converged s1 hr _ hs hb =>
    obtain ⟨p, q, e, d, r, e1⟩ := retry_frame hk hr
    obtain ⟨d0, d1, dg, dq, e2⟩ := checked_frame hk s1
    left; rw [hs, e2, e1]; exact ⟨rfl, rfl, rfl, rfl⟩
  | stuck s1 hr _ _ hs hb =>
    right
    obtain ⟨_, _, e4⟩ := updateReg_frame (search k (k.push (checked k s1)))
    refine ⟨s1, hr, .inr hb, ?_⟩
    rw [hs, e4]; exact ⟨rfl, rfl, rfl, rfl, rfl, rfl, rfl⟩
  | next s1 hr _ _ hs hb =>
    right
    obtain ⟨_, _, e4⟩ := updateReg_frame (search k (k.push (checked k s1)))
    refine ⟨s1, hr, .inl hb, ?_⟩
    rw [hs, e4]; exact ⟨rfl, rfl, rfl, rfl, rfl, rfl, rfl⟩

/-- the state handed to the search. -/
theorem pushed_candidate (hk : k.Laws) {s s1 : DDP P} (h : retry k llt fuel s = some (b, s1)) :
    let p := k.push (checked k s1)
    p.xs = s.xs ∧ p.us = s.us ∧ p.feas = s.feas ∧ p.y.xs = s.y.xs ∧ p.c = s.c := by
  obtain ⟨p, q, e, d, r, e1⟩ := retry_frame hk h
  obtain ⟨_, _, _, _, _, _, _, _, _, e2, _⟩ := pushed_frame hk s1
  simp only []
  rw [e2, e1]; exact ⟨rfl, rfl, rfl, rfl, rfl⟩

theorem ddp_lineSearch_xs0 (as : List F) (s : DDP P) : (lineSearch (ddp P) as s).2.y.xs 0 = s.y.xs 0 := by
  induction as generalizing s with
  | nil => rfl
  | cons a as ih =>
    have h1 := tryDDP_xs0 a { s with steplength := a, nTry := s.nTry + 1 }
    unfold lineSearch
    split
    · rename_i s1 h2
      change tryDDP a _ = _ at h2
      rw [h2] at h1
      exact (ih s1).trans h1
    · rename_i s1 h2
      change tryDDP a _ = _ at h2
      rw [h2] at h1
      simp only []
      split
      · exact h1
      · exact (ih _).trans h1

theorem ddp_search_xs0 (s : DDP P) : (search (ddp P) s).y.xs 0 = s.y.xs 0 := by
  rw [search_eq]
  have h := ddp_lineSearch_xs0 s.c.par.alphas { s with recalc := false }
  split
  · exact h
  · exact h

/-- every line search of a DDP solve starts from a trial trajectory whose first state is `x0`. -/
theorem ddp_searches_from_x0 (n : ℕ) {s1 : DDP P} {r : Option Bool}
    (h1 : iterate (ddp P) llt fuel n (s.start xs us fe ri) = some (r, s1)) : s1.y.xs 0 = P.x0 := by
  have hb : ∀ (s2 : DDP P) r s3, s2.y.xs 0 = P.x0 → body (ddp P) llt fuel s2 = some (r, s3) → s3.y.xs 0 = P.x0 := by
    intro s2 r s3 hI h
    rcases body_candidate ddp_laws h with ⟨_, _, _, e⟩ | ⟨s4, hr, _, _, _, _, e, _⟩
    · rw [e]; exact hI
    · rw [e, ddp_search_xs0, (pushed_candidate ddp_laws hr).2.2.2.1]; exact hI
  rcases iterate_inv fuel (fun _ s1 => s1.y.xs 0 = P.x0) (fun _ s1 => s1.y.xs 0 = P.x0)
    (fun _ s2 s3 hI h => hb s2 _ s3 hI h) (fun _ s2 b s3 hI h => hb s2 _ s3 hI h) n _
    (by change Function.update s.y.xs 0 P.x0 0 = _; rw [Function.update_self]) _ _ h1 with ⟨_, h⟩ | ⟨_, _, h⟩
  · exact h
  · exact h

/-- one iteration keeps the feasibility flag honest. -/
theorem ddp_body_feasible (hk : IsSolver k) (h0 : k = ddp P → s.y.xs 0 = P.x0) {r : Option Bool}
    (hf : s.feas = true → Feasible P s.xs s.us) (h : body k llt fuel s = some (r, s')) :
    (s'.feas = true → Feasible P s'.xs s'.us) ∧
    (k = ddp P → (s'.xs = s.xs ∧ s'.us = s.us) ∨ Feasible P s'.xs s'.us) := by
  rcases body_candidate hk.laws h with ⟨e1, e2, e3, _⟩ | ⟨s1, hr, _, e1, e2, e3, _⟩
  · rw [e1, e2, e3]; exact ⟨hf, fun _ => .inl ⟨rfl, rfl⟩⟩
  · obtain ⟨p1, p2, p3, p4, _⟩ := pushed_candidate hk.laws hr
    rw [e1, e2, e3]
    rcases hk with rfl | rfl
    · rcases C16_ddp_first_acceptable ((ddp P).push (checked (ddp P) s1)) (p4 ▸ h0 rfl) with
        ⟨pre, a, post, _, _, _, hx, hu, _⟩ | ⟨_, hx, hu, hfe, _⟩
      · have := feasible_congr (policy_feasible ((ddp P).push (checked (ddp P) s1)).policy a) hx hu
        exact ⟨fun _ => this, fun _ => .inr this⟩
      · rw [hx, hu, hfe, p1, p2, p3]; exact ⟨hf, fun _ => .inl ⟨rfl, rfl⟩⟩
    · rcases C16_fddp_first_acceptable ((fddp P).push (checked (fddp P) s1)) with
        ⟨pre, a, post, _, _, _, hx, hu, hfe, _⟩ | ⟨_, hx, hu, hfe, _⟩
      · have hF : ((fddp P).push (checked (fddp P) s1)).closes a = true →
            Feasible P (search (fddp P) ((fddp P).push (checked (fddp P) s1))).xs
              (search (fddp P) ((fddp P).push (checked (fddp P) s1))).us := by
          intro hc
          rw [hc] at hx hu
          exact feasible_congr (policy_feasible ((fddp P).push (checked (fddp P) s1)).policy a) hx hu
        constructor
        · rw [hfe, Bool.and_eq_true]
          exact fun h => hF h.2
        · intro heq
          by_cases hc : ((fddp P).push (checked (fddp P) s1)).closes a = true
          · exact .inr (hF hc)
          · -- `fddp P = ddp P` would make the two `commit`s equal
            exfalso
            have hcm : (fddp P).commit = (ddp P).commit := by rw [heq]
            have h1 := congrArg DDP.feas (congrFun (congrFun hcm a)
              { (fddp P).push (checked (fddp P) s1) with
                c := { ((fddp P).push (checked (fddp P) s1)).c with useFilter := true } })
            change false = true at h1
            cases h1
      · rw [hx, hu, hfe, p1, p2, p3]; exact ⟨hf, fun _ => .inl ⟨rfl, rfl⟩⟩

/-- **C21, the feasibility flag is honest.**  If the flag passed to `solve` was right (`is_feasible = true` only for a
dynamically feasible guess), then after `solve`, however it returns, `get_is_feasible()` is true only if the returned
trajectory starts at `x0` and satisfies the dynamics exactly; DDP and FDDP, any arithmetic. -/
theorem C21_feasible_flag (hk : IsSolver k)
    (hfe : fe = true → Feasible P (xs.getD fun _ => P.zeroX) (us.getD fun t => zeroV F (P.nu t)))
    (h : solve k llt fuel xs us m fe ri s = some (b, s')) : s'.feas = true → Feasible P s'.xs s'.us := by
  by_cases hd : k = ddp P
  · subst hd
    have hy : ∀ {s2 s3 : DDP P} {r}, s2.y.xs 0 = P.x0 → body (ddp P) llt fuel s2 = some (r, s3) → s3.y.xs 0 = P.x0 := by
      intro s2 s3 r hI h
      rcases body_candidate ddp_laws h with ⟨_, _, _, e⟩ | ⟨s4, hr, _, _, _, _, e, _⟩
      · rw [e]; exact hI
      · rw [e, ddp_search_xs0, (pushed_candidate ddp_laws hr).2.2.2.1]; exact hI
    exact (solve_inv (fun _ s1 => (s1.feas = true → Feasible P s1.xs s1.us) ∧ s1.y.xs 0 = P.x0)
      (fun _ s1 => s1.feas = true → Feasible P s1.xs s1.us)
      (fun _ s2 s3 hI h => ⟨(ddp_body_feasible hk (fun _ => hI.2) hI.1 h).1, (hy hI.2 h :)⟩)
      (fun _ s2 b s3 hI h => (ddp_body_feasible hk (fun _ => hI.2) hI.1 h).1)
      (fun _ hI => hI.1)
      ⟨hfe, by change Function.update s.y.xs 0 P.x0 0 = _; rw [Function.update_self]⟩ h :)
  · exact (solve_inv (fun _ s1 => (s1.feas = true → Feasible P s1.xs s1.us))
      (fun _ s1 => s1.feas = true → Feasible P s1.xs s1.us)
      (fun _ s2 s3 hI h => (ddp_body_feasible hk (fun e => absurd e hd) hI h).1)
      (fun _ s2 b s3 hI h => (ddp_body_feasible hk (fun e => absurd e hd) hI h).1)
      (fun _ hI => hI) hfe h :)

/-- **C21, DDP.**  After `SolverDDP::solve`, however it returns, the trajectory is either the initial guess or dynamically
feasible from `x0`. -/
theorem C21_ddp_returned (h : solve (ddp P) llt fuel xs us m fe ri s = some (b, s')) :
    (s'.xs = (xs.getD fun _ => P.zeroX) ∧ s'.us = (us.getD fun t => zeroV F (P.nu t))) ∨ Feasible P s'.xs s'.us := by
  have hy : ∀ {s2 s3 : DDP P} {r}, s2.y.xs 0 = P.x0 → body (ddp P) llt fuel s2 = some (r, s3) → s3.y.xs 0 = P.x0 ∧
      ((s3.xs = s2.xs ∧ s3.us = s2.us) ∨ Feasible P s3.xs s3.us) := by
    intro s2 s3 r hI h
    rcases body_candidate ddp_laws h with ⟨e1, e2, _, e⟩ | ⟨s4, hr, _, e1, e2, _, e, _⟩
    · rw [e]; exact ⟨hI, .inl ⟨e1, e2⟩⟩
    · obtain ⟨p1, p2, p3, p4, _⟩ := pushed_candidate ddp_laws hr
      rw [e, ddp_search_xs0, p4, e1, e2]
      refine ⟨hI, ?_⟩
      rcases C16_ddp_first_acceptable ((ddp P).push (checked (ddp P) s4)) (p4 ▸ hI) with
        ⟨pre, a, post, _, _, _, hx, hu, _⟩ | ⟨_, hx, hu, hfe, _⟩
      · exact .inr (feasible_congr (policy_feasible ((ddp P).push (checked (ddp P) s4)).policy a) hx hu)
      · rw [hx, hu, p1, p2]; exact .inl ⟨rfl, rfl⟩
  let Q : DDP P → Prop := fun s1 =>
    (s1.xs = (xs.getD fun _ => P.zeroX) ∧ s1.us = (us.getD fun t => zeroV F (P.nu t))) ∨ Feasible P s1.xs s1.us
  have step : ∀ (s2 s3 : DDP P) r, s2.y.xs 0 = P.x0 ∧ Q s2 → body (ddp P) llt fuel s2 = some (r, s3) →
      s3.y.xs 0 = P.x0 ∧ Q s3 := by
    intro s2 s3 r hI h
    obtain ⟨h1, h2⟩ := hy hI.1 h
    refine ⟨h1, ?_⟩
    rcases h2 with ⟨e1, e2⟩ | h2
    · change _ ∨ _; rw [e1, e2]; exact hI.2
    · exact .inr h2
  exact (solve_inv (fun _ s1 => s1.y.xs 0 = P.x0 ∧ Q s1) (fun _ s1 => Q s1)
    (fun _ s2 s3 hI h => step s2 s3 _ hI h) (fun _ s2 b s3 hI h => (step s2 s3 _ hI h).2) (fun _ hI => hI.2)
    ⟨by change Function.update s.y.xs 0 P.x0 0 = _; rw [Function.update_self], .inl ⟨rfl, rfl⟩⟩ h :)

/-! ## C23 -/

/-- **C23.**  The gap norm `SolverFDDP` computes for a trial is the sum of the norms of `xnext(x_t, u_t) ⊖ x_t` (displacement
along the dynamics at the *same* node), not of the shooting gaps `xnext(x_t, u_t) ⊖ x_{t+1}`. -/
theorem C23_fddp_gap_try {a : F} {s1 : DDP P} (h : tryFDDP a s = .ok s1) :
    s1.y.gap = sumUp P.T fun t => norm1 (P.diff (s1.y.xs t) (P.calcR t (s1.y.xs t) (s1.y.us t)).xnext) := by
  rcases tryFDDP_roll a s with ⟨s2, h2, h3, h4⟩ | ⟨s2, h2, _⟩
  · rw [h] at h2
    obtain rfl : s1 = s2 := by cases h2; rfl
    rw [h4]
    refine sumUp_congr _ _ _ fun t ht => ?_
    rw [h3.xs t ht.le, h3.us t ht]
    rfl
  · rw [h] at h2; cases h2

/-! ## C37 -/

/-- regularization after a search as a function of the last step length. -/
theorem updateReg_preg (s : DDP P) : s.updateReg.2.preg =
    (let r := if ltb s.c.par.thStepDec s.steplength then decReg s.c.par s.preg else s.preg
     if leb s.steplength s.c.par.thStepInc then incReg s.c.par r else r) := by
  unfold updateReg
  simp only []
  by_cases h1 : ltb s.c.par.thStepDec s.steplength = true
  · simp only [h1, if_true]
    by_cases h2 : leb s.steplength s.c.par.thStepInc = true
    · simp [h2, increaseReg, decreaseReg]
    · simp [h2, increaseReg, decreaseReg]
  · simp only [h1, if_false]
    by_cases h2 : leb s.steplength s.c.par.thStepInc = true
    · simp [h2, increaseReg, decreaseReg]
    · simp [h2, increaseReg, decreaseReg]

/-- step length passes the test of the solver `k`. -/
def Accept (k : Kind P) (s : DDP P) (a : F) : Prop := (k = ddp P ∧ AcceptDDP s a) ∨ (k = fddp P ∧ AcceptFDDP s a)

/-- **C37 (DDP, FDDP).**  After a line search that accepted no step the regularization is decreased if the last step length
exceeds `th_stepdec`, then increased if it is `<= th_stepinc`. -/
theorem C37_ddp_failed_search (hk : IsSolver k) (s : DDP P) (h0 : s.y.xs 0 = P.x0)
    (hfail : ∀ a ∈ s.c.par.alphas, ¬ Accept k s a) {a : F} (hlast : s.c.par.alphas.getLast? = some a) :
    (updateReg (search k s)).2.preg =
      (let r := if ltb s.c.par.thStepDec a then decReg s.c.par s.preg else s.preg
       if leb a s.c.par.thStepInc then incReg s.c.par r else r) := by
  have hne : s.c.par.alphas ≠ [] := by intro h; rw [h] at hlast; cases hlast
  have hsl : (search k s).steplength = a := by
    rcases hk with rfl | rfl
    · rcases C16_ddp_first_acceptable s h0 with ⟨pre, a', post, h1, _, h3, _⟩ | ⟨_, _, _, _, _, h5⟩
      · exact absurd (.inl ⟨rfl, h3⟩) (hfail a' (by rw [h1]; simp))
      · have := h5 hne
        rw [hlast] at this
        exact (Option.some.inj this).symm
    · rcases C16_fddp_first_acceptable s with ⟨pre, a', post, h1, _, h3, _⟩ | ⟨_, _, _, _, _, h5⟩
      · exact absurd (.inr ⟨rfl, h3⟩) (hfail a' (by rw [h1]; simp))
      · have := h5 hne
        rw [hlast] at this
        exact (Option.some.inj this).symm
  obtain ⟨_, _, _, _, _, _, _, _, _, _, _, _, _, _, _, e, _⟩ := search_frame hk.laws s
  have hc : (search k s).c = s.c := by rw [e]
  have hp : (search k s).preg = s.preg := by rw [e]
  rw [updateReg_preg, hsl, hc, hp]

end

section Exact
variable {K : Type} [Field K] [LinearOrder K] [IsStrictOrderedRing K] {P : Problem K}
variable {k : Kind P} {llt : LLT K} {fuel : ℕ} {xs : Option (Traj P)} {us : Option (Ctrls P)} {m : ℕ} {fe : Bool} {ri : K}
  {s s' : DDP P} {b : Bool}

/-- **C37 (DDP, FDDP), default step lengths.** -/
theorem C37_ddp_failed_search_increases (hk : IsSolver k) (s : DDP P) (h0 : s.y.xs 0 = P.x0) (hp : RegOK s.c.par)
    (hfail : ∀ a ∈ s.c.par.alphas, ¬ Accept k s a) {a : K} (hlast : s.c.par.alphas.getLast? = some a)
    (h1 : a ≤ s.c.par.thStepInc) (h2 : a ≤ s.c.par.thStepDec) (hr : s.c.par.regMin ≤ s.preg) (hr2 : s.preg < s.c.par.regMax) :
    s.preg < (updateReg (search k s)).2.preg := by
  rw [C37_ddp_failed_search hk s h0 hfail hlast]
  simp only [ltb_exact, leb_exact, h1, not_lt.mpr h2, decide_true, decide_false, if_true, if_false, Bool.false_eq_true]
  exact incReg_lt hp hr hr2

/-! ## C20 -/

/-- **C20 (FDDP).**  For arbitrary nonlinear dynamics: a trial of FDDP with step `a ≠ 1` from an infeasible candidate has
exactly `(1 - a)` times the current gaps, initial gap included.  (`integrate` and `diff` are compatible.) -/
theorem C20_fddp_gap_contraction (hid : ∀ x d, P.diff (P.integrate x d) x = -d) {a : K} (ha : a ≠ 1) (hf : s.feas = false)
    {s1 : DDP P} (h : tryFDDP a s = .ok s1) :
    P.diff (s1.y.xs 0) P.x0 = (1 - a) • s.e.fs 0 ∧
    ∀ t, t < P.T → shootGap P s1.y.xs s1.y.us t = (1 - a) • s.e.fs (t + 1) := by
  have hc : (s.feas || eqb a 1) = false := by rw [hf]; simp [ha]
  rcases tryFDDP_roll a s with ⟨s2, h2, h3, _⟩ | ⟨s2, h2, _⟩
  · rw [h] at h2
    obtain rfl : s1 = s2 := by cases h2; rfl
    have hx := h3.xs
    have hu := h3.us
    rw [hc] at hx hu
    have key : ∀ t, P.diff (s.policy.X false a t) (s.policy.pre false a t) = (1 - a) • s.e.fs t := by
      intro t
      rw [Policy.X_eq]
      unfold Policy.shift
      simp only [Bool.false_eq_true, if_false]
      rw [hid, sv_exact, ← neg_smul, neg_sub]
      rfl
    refine ⟨?_, fun t ht => ?_⟩
    · rw [hx 0 (Nat.zero_le _)]; exact key 0
    · unfold shootGap
      rw [hx (t + 1) ht, hx t ht.le, hu t ht]
      exact key (t + 1)
  · rw [h] at h2; cases h2

/-! ## C22 -/

/-- the two sums of the expected improvement. -/
theorem improve_sums (bp : BP P) (n : ℕ) :
    forUp n (fun t (d : K × K) =>
      if P.nu t ≠ 0 then (d.1 + dot (bp.Qu t) (bp.k t), d.2 - dot (bp.k t) (bp.Quuk t)) else d) (0, 0) =
    (∑ t ∈ Finset.range n, bp.Qu t ⬝ᵥ bp.k t, - ∑ t ∈ Finset.range n, if P.nu t ≠ 0 then bp.k t ⬝ᵥ bp.Quuk t else 0) := by
  induction n with
  | zero => simp
  | succ n ih =>
    rw [forUp_succ, ih, Finset.sum_range_succ, Finset.sum_range_succ]
    by_cases h0 : P.nu n = 0
    · have : bp.Qu n ⬝ᵥ bp.k n = 0 := by
        rw [dotProduct]; exact Finset.sum_eq_zero fun i _ => (Fin.cast h0 i).elim0
      simp [h0, this]
    · simp only [h0, ne_eq, not_false_eq_true, if_true, dot_exact, Prod.mk.injEq, true_and]
      ring

/-- after a successful backward pass `k·Quu k = k·Qu ≥ 0`. -/
theorem gain_pos (hllt : LLTExact llt) {d : Data P} (hsym : SymHess d) {fs : ℕ → Vec K P.ndx} {feas : Bool} {preg dreg : K}
    {b b' : BP P} (h : backwardPass llt d fs feas preg dreg b = .ok b') (t : ℕ) (ht : t < P.T) :
    0 ≤ b'.Qu t ⬝ᵥ b'.k t ∧ (P.nu t ≠ 0 → b'.k t ⬝ᵥ b'.Quuk t = b'.Qu t ⬝ᵥ b'.k t) := by
  obtain ⟨hR, hpd⟩ := backward_riccati hllt hsym h
  obtain ⟨_, _, h3⟩ := Bwd.backwardPass_ok h
  rcases Nat.eq_zero_or_pos (P.nu t) with h0 | h0
  · refine ⟨?_, fun h => absurd h0 h⟩
    rw [dotProduct]; exact (Finset.sum_eq_zero fun i _ => (Fin.cast h0 i).elim0).ge
  · obtain ⟨e1, e2, e3, e4, e5, e6, e7, e8, e9⟩ := (h3 t ht).pos h0
    have hq : b'.Quu t *ᵥ b'.k t = b'.Qu t := by
      rw [e6]; exact hllt.solves _ _ _ (hR.symU t ht) e1 _
    rw [e7, mv_exact, hq]
    refine ⟨?_, fun _ => dotProduct_comm _ _⟩
    by_cases hk0 : b'.k t = 0
    · rw [hk0, dotProduct_zero]
    · have := hpd t ht (b'.k t) hk0
      rw [hq] at this
      rw [dotProduct_comm]; exact this.le

/-- the Hessians stored by a fresh evaluation of a problem with symmetric Hessians are symmetric. -/
theorem freshDiff_symHess {d : Data P} {xs : Traj P} {us : Ctrls P} (h : FreshDiff P d xs us) (hs : SymProblem P) :
    SymHess d :=
  ⟨fun t ht => by rw [h.run t ht]; exact hs.xx t ht _ _, fun t ht => by rw [h.run t ht]; exact hs.uu t ht _ _,
    by rw [h.ter]; exact hs.T _⟩

/-- **C22, expected improvement of DDP.**  After every successful direction computation of a solve, `d1 = -d0`, `d0 >= 0`,
and the predicted improvement of step length `a` is `a (1 - a/2) d0`, non-negative on `[0,1]`. -/
theorem C22_ddp_expected_improvement (hllt : LLTExact llt) (hs : SymProblem P) (n : ℕ) {s1 s2 : DDP P}
    (h1 : iterate (ddp P) llt fuel n (s.start xs us fe ri) = some (none, s1))
    (h2 : retry (ddp P) llt fuel s1 = some (true, s2)) :
    let d := ((ddp P).improve s2).m
    d.d0 = ∑ t ∈ Finset.range P.T, s2.e.bp.Qu t ⬝ᵥ s2.e.bp.k t ∧ d.d1 = - d.d0 ∧ 0 ≤ d.d0 ∧
    ∀ a, predicted d.d0 d.d1 a = a * (1 - a / 2) * d.d0 ∧ (0 ≤ a → a ≤ 1 → 0 ≤ predicted d.d0 d.d1 a) := by
  obtain ⟨f1, _⟩ := C17_ddp_directions_fresh (.inl rfl) n h1 h2
  obtain ⟨_, hb, _⟩ := retry_spec ddp_laws h2
  obtain ⟨_, b0, hb⟩ := hb rfl
  have hg := gain_pos hllt (freshDiff_symHess f1 hs) hb
  simp only []
  have e0 : ((ddp P).improve s2).m.d0 = ∑ t ∈ Finset.range P.T, s2.e.bp.Qu t ⬝ᵥ s2.e.bp.k t := by
    change (forUp P.T _ (0, 0)).1 = _
    rw [improve_sums]
  have e1 : ((ddp P).improve s2).m.d1 = - ((ddp P).improve s2).m.d0 := by
    rw [e0]
    change (forUp P.T _ (0, 0)).2 = _
    rw [improve_sums]
    simp only []
    congr 1
    refine Finset.sum_congr rfl fun t ht => ?_
    have ht := Finset.mem_range.mp ht
    split
    · rename_i hne; exact (hg t ht).2 hne
    · rename_i hne
      have h0 : P.nu t = 0 := not_not.mp hne
      rw [dotProduct]; exact (Finset.sum_eq_zero fun i _ => (Fin.cast h0 i).elim0).symm
  have e2 : 0 ≤ ((ddp P).improve s2).m.d0 := by
    rw [e0]; exact Finset.sum_nonneg fun t ht => (hg t (Finset.mem_range.mp ht)).1
  have e3 : ∀ a, predicted ((ddp P).improve s2).m.d0 ((ddp P).improve s2).m.d1 a =
      a * (1 - a / 2) * ((ddp P).improve s2).m.d0 := by
    intro a
    rw [e1]
    unfold predicted
    simp only [lit_exact]
    push_cast
    ring
  refine ⟨e0, e1, e2, fun a => ⟨e3 a, fun h0 h1 => ?_⟩⟩
  rw [e3]
  exact mul_nonneg (mul_nonneg h0 (by linarith)) e2

/-- **C22, Armijo decrease of DDP.**  Any iteration of a solve that starts from a feasible candidate, accepts a step length
`a` and has `d0 >= th_grad` decreases the total cost by more than `th_acceptstep · a (1 - a/2) d0`; so (for
`th_acceptstep >= 0`) the cost strictly decreases. -/
theorem C22_ddp_armijo (hllt : LLTExact llt) (hs : SymProblem P) (hta : 0 ≤ s.c.par.thAccept) (n : ℕ) {s1 s1' : DDP P}
    {r : Option Bool}
    (h1 : iterate (ddp P) llt fuel n (s.start xs us fe ri) = some (none, s1))
    (h2 : body (ddp P) llt fuel s1 = some (r, s1')) (hr : r ≠ some true) (hf : s1.feas = true) (hacc : s1'.nRej = s1.nRej)
    (hg : s.c.par.thGrad ≤ s1'.m.d0) (hgu : ∃ s2, retry (ddp P) llt fuel s1 = some (true, s2)) :
    s.c.par.thAccept * (s1'.steplength * (1 - s1'.steplength / 2) * s1'.m.d0) <
      trajCost P s1.xs s1.us - trajCost P s1'.xs s1'.us ∧
    trajCost P s1'.xs s1'.us < trajCost P s1.xs s1.us := by
  obtain ⟨sr, hsr⟩ := hgu
  have hIH := iterate_headInv ddp_laws s xs us fe ri n h1
  have hx0 := ddp_searches_from_x0 n h1
  have key : ∃ s2, retry (ddp P) llt fuel s1 = some (true, s2) ∧
      let p := search (ddp P) ((ddp P).push (checked (ddp P) s2))
      s1'.xs = p.xs ∧ s1'.us = p.us ∧ s1'.nRej = p.nRej ∧ s1'.m.d0 = p.m.d0 ∧ s1'.steplength = p.steplength := by
    cases body_cases h2 with
    | gaveUp hr' hb => rw [hsr] at hr'; cases hr'
    | converged s3 hr' _ hs hb => exact absurd hb hr
    | stuck s3 hr' _ _ hs hb =>
      obtain ⟨_, _, e4⟩ := updateReg_frame (search (ddp P) ((ddp P).push (checked (ddp P) s3)))
      refine ⟨s3, hr', ?_⟩
      rw [hs, e4]; exact ⟨rfl, rfl, rfl, rfl, rfl⟩
    | next s3 hr' _ _ hs hb =>
      obtain ⟨_, _, e4⟩ := updateReg_frame (search (ddp P) ((ddp P).push (checked (ddp P) s3)))
      refine ⟨s3, hr', ?_⟩
      rw [hs, e4]; exact ⟨rfl, rfl, rfl, rfl, rfl⟩
  obtain ⟨s2, hr2, e1, e2, e3, e4, e5⟩ := key
  obtain ⟨p1, p2, p3, p4, p5⟩ := pushed_candidate ddp_laws hr2
  obtain ⟨d1, d2, d3, d4⟩ := C22_ddp_expected_improvement hllt hs n h1 hr2
  obtain ⟨_, f2, _⟩ := C17_ddp_directions_fresh (.inl rfl) n h1 hr2
  obtain ⟨_, _, _, _, _, e7⟩ := retry_frame ddp_laws hr2
  have hxs2 : s2.xs = s1.xs := by rw [e7]
  have hus2 : s2.us = s1.us := by rw [e7]
  have hn2 : s2.nRej = s1.nRej := by rw [e7]
  set p := (ddp P).push (checked (ddp P) s2) with hp
  have pd0 : p.m.d0 = ((ddp P).improve s2).m.d0 := rfl
  have pd1 : p.m.d1 = ((ddp P).improve s2).m.d1 := rfl
  have pcost : p.e.cost = s2.e.cost := rfl
  have pn : p.nRej = s2.nRej := rfl
  rcases C16_ddp_first_acceptable p (by rw [p4]; exact hx0) with
    ⟨pre, a, post, _, _, hA, hx, hu, _, _, hst, hn, hd0⟩ | ⟨_, _, _, _, hn, _⟩
  · obtain ⟨a1, a2, _, _, hA⟩ := hA
    have hc : p.c = s.c := p5.trans hIH.2.1
    rw [p3, hf, hc, pd0, pd1, (d4 a).1, pcost, f2] at hA
    have hgr : s.c.par.thGrad ≤ ((ddp P).improve s2).m.d0 := by rw [e4, hd0, pd0] at hg; exact hg
    simp only [ltb_exact, decide_eq_true_eq, Bool.true_eq_false, false_or] at hA
    rcases hA with hA | hA
    · exact absurd hA (not_lt.mpr hgr)
    · have hT : trajCost P s1'.xs s1'.us = trajCost P (p.policy.X true a) (p.policy.U true a) := by
        rw [e1, e2]; exact trajCost_congr P hx hu
      rw [hT, e5, hst, e4, hd0, pd0, ← hxs2, ← hus2]
      refine ⟨hA, ?_⟩
      simp only [ltb_exact, decide_eq_false_iff_not, not_lt] at a1 a2
      have h5 : 0 ≤ s.c.par.thAccept * (a * (1 - a / 2) * ((ddp P).improve s2).m.d0) :=
        mul_nonneg hta (mul_nonneg (mul_nonneg a2 (by linarith)) d3)
      linarith
  · rw [e3, hn, pn, hn2] at hacc; omega

/-! ## C48 -/

/-- **C48, meaning.**  The value `stoppingCriteria()` computes is `Σ_t |Qu_t|²`; it is non-negative and zero exactly if every
`Qu_t` vanishes. -/
theorem C48_stop_meaning (s : DDP P) :
    s.stopping.m.stop = ∑ t ∈ Finset.range P.T, s.e.bp.Qu t ⬝ᵥ s.e.bp.Qu t ∧ 0 ≤ s.stopping.m.stop ∧
    (s.stopping.m.stop = 0 ↔ ∀ t, t < P.T → s.e.bp.Qu t = 0) := by
  have e : s.stopping.m.stop = ∑ t ∈ Finset.range P.T, s.e.bp.Qu t ⬝ᵥ s.e.bp.Qu t := by
    unfold stopping
    simp only []
    have : ∀ n, forUp n (fun t acc => if P.nu t ≠ 0 then acc + sqNorm (s.e.bp.Qu t) else acc) (0 : K) =
        ∑ t ∈ Finset.range n, s.e.bp.Qu t ⬝ᵥ s.e.bp.Qu t := by
      intro n
      induction n with
      | zero => simp
      | succ n ih =>
        rw [forUp_succ, ih, Finset.sum_range_succ]
        by_cases h0 : P.nu n = 0
        · have : s.e.bp.Qu n ⬝ᵥ s.e.bp.Qu n = 0 := by
            rw [dotProduct]; exact Finset.sum_eq_zero fun i _ => (Fin.cast h0 i).elim0
          simp [h0, this]
        · simp [h0]
    exact this P.T
  have hnn : ∀ t, 0 ≤ s.e.bp.Qu t ⬝ᵥ s.e.bp.Qu t := fun t => Finset.sum_nonneg fun i _ => mul_self_nonneg _
  refine ⟨e, by rw [e]; exact Finset.sum_nonneg fun t _ => hnn t, ?_⟩
  rw [e, Finset.sum_eq_zero_iff_of_nonneg fun t _ => hnn t]
  constructor
  · intro h t ht
    have := h t (Finset.mem_range.mpr ht)
    rw [dotProduct, Finset.sum_eq_zero_iff_of_nonneg fun i _ => mul_self_nonneg _] at this
    funext i
    exact mul_self_eq_zero.mp (this i (Finset.mem_univ i))
  · intro h t ht
    rw [h t (Finset.mem_range.mp ht), dotProduct_zero]

end Exact

/-! ## The hypotheses can be met; counterexamples -/
namespace Ex

/-- `lq` with states `1, 1, 1` and zero controls: a feasible, non-optimal guess. -/
def ones : Traj lq := fun _ => (1 : ℚ)

example : Feasible lq ones (fun _ => zeroV ℚ 1) := ⟨rfl, fun t _ => by
  change (1 : ℚ) = 1 + 0
  norm_num⟩

/-- C16, C21, C22: DDP from that guess accepts a full step from a feasible candidate, with `d0 >= th_grad`. -/
example : (DDP.solve (ddp lq) llt1 20 (some ones) none 1 true 1 lqDDP).map
    (fun r => (r.1, r.2.feas, r.2.nRej, r.2.steplength, r.2.m.d0, r.2.e.cost)) =
    some (false, true, 0, 1, 7 / 10, 39 / 40) := by decide +kernel
example : lqDDP.c.par.thGrad ≤ 7 / 10 := by decide +kernel
example : trajCost lq ones (fun _ => zeroV ℚ 1) = 3 / 2 := by decide +kernel
example : (0 : ℚ) ≤ lqDDP.c.par.thAccept := by decide +kernel

/-- C16 (FDDP): a search that rejects two step lengths and accepts the third; C21: FDDP without the filter ends feasible. -/
example : (DDP.solve (fddp lq) llt1 20 none none 2 false 1
    { lqDDP with c := { lqDDP.c with useFilter := false } }).map
    (fun r => (r.1, r.2.feas, r.2.nRej, r.2.steplength)) = some (false, true, 0, 1) := by decide +kernel

/-- a state handed to a line search by FDDP on `lq`: the second iteration from the default guess. -/
noncomputable def failing : DDP lq :=
  match DDP.iterate (fddp lq) llt1 20 1 (lqDDP.start none none false 1) with
  | some (_, s) =>
    match DDP.retry (fddp lq) llt1 20 s with
    | some (_, s) => (fddp lq).push (checked (fddp lq) s)
    | none => lqDDP
  | none => lqDDP

theorem failing_rejects : (search (fddp lq) failing).nRej = failing.nRej + 1 := by decide +kernel

theorem fddp_ne_ddp {F : Type} [Add F] [Sub F] [Mul F] [Div F] [Neg F] [Zero F] [One F] [FloatOps F] (P : Problem F)
    (s : DDP P) : fddp P ≠ ddp P := by
  intro heq
  have hcm : (fddp P).commit = (ddp P).commit := by rw [heq]
  have h1 := congrArg DDP.feas (congrFun (congrFun hcm 1) { s with c := { s.c with useFilter := true } })
  change false = true at h1
  cases h1

local instance : DecidableEq lq.X := inferInstanceAs (DecidableEq ℚ)

/-- C37: all hypotheses of `C37_ddp_failed_search_increases` hold there. -/
example : failing.y.xs 0 = lq.x0 ∧ RegOK failing.c.par ∧ (∀ a ∈ failing.c.par.alphas, ¬ Accept (fddp lq) failing a) ∧
    failing.c.par.alphas.getLast? = some (1 / 512) ∧ 1 / 512 ≤ failing.c.par.thStepInc ∧ 1 / 512 ≤ failing.c.par.thStepDec ∧
    failing.c.par.regMin ≤ failing.preg ∧ failing.preg < failing.c.par.regMax := by
  refine ⟨by decide +kernel, by constructor <;> decide +kernel, ?_, by decide +kernel, by decide +kernel, by decide +kernel, by decide +kernel,
    by decide +kernel⟩
  have h := failing_rejects
  rcases C16_fddp_first_acceptable failing with ⟨_, _, _, _, _, _, _, _, _, _, hn⟩ | ⟨hall, _⟩
  · omega
  · rintro a ha (⟨h1, _⟩ | ⟨_, h1⟩)
    · exact fddp_ne_ddp lq lqDDP h1
    · exact hall a ha h1

/-- C20, C23: a one-node problem with a gap of 1 (states `0, 1`, zero controls, no state cost). -/
def free : Problem ℚ := scalar 1 0 1 0 0
def freeGuess : Traj free := fun t => if t = 0 then (0 : ℚ) else (1 : ℚ)

/-- FDDP's state when it starts its line search from that guess. -/
noncomputable def freeState : DDP free :=
  match DDP.retry (fddp free) llt1 20 ((DDP.new (Data.zero free)).start (some freeGuess) none false 0) with
  | some (_, s) => s
  | none => DDP.new (Data.zero free)

/-- C20: the half step succeeds from an infeasible candidate, and halves the gap 1. -/
example : (∀ (x : free.X) d, free.diff (free.integrate x d) x = -d) ∧ freeState.feas = false ∧ (1 / 2 : ℚ) ≠ 1 ∧
    (match tryFDDP (1 / 2) freeState with
      | .ok s1 => decide (freeState.e.fs 1 = (fun _ => -1) ∧ shootGap free s1.y.xs s1.y.us 0 = fun _ => -1 / 2)
      | .exn _ => false) = true := by
  refine ⟨fun x d => ?_, by decide +kernel, by norm_num, by decide +kernel⟩
  funext i
  have key : ∀ (x : ℚ) (d : Fin 1 → ℚ) (i : Fin 1), x - (x + d 0) = - d i := by
    intro x d i; rw [Fin.fin_one_eq_zero i]; ring
  exact key x d i

/-- **C23, counterexample 1.**  FDDP's gap norm for the half step on `free` is 0 although the trial's gap norm is 1/2. -/
theorem C23_positive_gap_measured_zero :
    (match tryFDDP (1 / 2) freeState with
      | .ok s1 => decide (s1.y.gap = 0 ∧ shootGapNorm free s1.y.xs s1.y.us = 1 / 2)
      | .exn _ => false) = true := by decide +kernel

/-- `x⁺ = -x + u`, `x0 = 1`, horizon 2, unit quadratic costs. -/
def osc : Problem ℚ where
  T := 2
  ndx := 1
  nu _ := 1
  ng _ := 0
  X := ℚ
  integrate x d := x + d 0
  diff a b := fun _ => b - a
  zeroX := 0
  x0 := 1
  calcR _ x u := ⟨(x * x + u 0 * u 0) / 2, -x + u 0, fun i => i.elim0⟩
  calcDiffR _ x u := ⟨fun _ => x, fun _ => u 0, m1 1, m1 0, m1 1, m1 (-1), m1 1,
    Matrix.of fun i => i.elim0, Matrix.of fun i => i.elim0⟩
  calcT x := ⟨x * x / 2, fun i => i.elim0⟩
  calcDiffT x := ⟨fun _ => x, m1 1, Matrix.of fun i => i.elim0⟩
  badX _ := false
  lb _ i := i.elim0
  ub _ i := i.elim0

/-- FDDP's state at its first line search on `osc` from the default guess. -/
noncomputable def oscState : DDP osc :=
  match DDP.retry (fddp osc) llt1 20 ((DDP.new (Data.zero osc)).start none none false 0) with
  | some (_, s) => (fddp osc).push (checked (fddp osc) s)
  | none => DDP.new (Data.zero osc)

/-- **C23, counterexample 2.**  On `osc` the full step is dynamically feasible (gap 0, current gap 1, so it must not be
dominated), yet FDDP computes the gap norm 2 for it and its filter refuses it. -/
theorem C23_feasible_trial_refused :
    oscState.e.gap = 1 ∧ ¬ AcceptFDDP oscState 1 ∧
    (match tryFDDP 1 oscState with
      | .ok s1 => decide (s1.y.gap = 2 ∧ shootGapNorm osc s1.y.xs s1.y.us = 0)
      | .exn _ => false) = true := by
  refine ⟨by decide +kernel, ?_, by decide +kernel⟩
  intro h
  have h2 : (search (fddp osc) oscState).steplength = 1 / 4 := by decide +kernel
  rcases C16_fddp_first_acceptable oscState with ⟨pre, a, post, h3, h4, _, _, _, _, h5, _⟩ | ⟨h3, _⟩
  · rw [h2] at h5
    subst h5
    cases pre with
    | nil =>
      have := congrArg List.head? h3
      have h6 : oscState.c.par.alphas.head? = some 1 := by decide +kernel
      rw [h6] at this
      have h7 := Option.some.inj this
      norm_num at h7
    | cons b pre =>
      have := congrArg List.head? h3
      have h6 : oscState.c.par.alphas.head? = some 1 := by decide +kernel
      rw [h6] at this
      have h7 : (1 : ℚ) = b := Option.some.inj this
      exact h4 b (by simp) (h7 ▸ h)
  · exact h3 1 (by decide +kernel) h

/-- C48: the criterion of a converged run is 0, of the first iteration 13/4. -/
example : (DDP.solve (ddp lq) llt1 20 (some ones) none 1 true 1 lqDDP).map (fun r => r.2.m.stop) = some (13 / 4) := by
  decide +kernel

end Ex
end Mim
