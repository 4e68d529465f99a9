import Verif.Lemmas.DDPRoll
import Verif.Lemmas.SQPSearch
import Verif.Props.SQPLine

/-!
# The line search of DDP and FDDP
-/
set_option linter.unusedSectionVars false
set_option linter.unusedSimpArgs false

namespace Mim.DDP
open Spec
variable {F : Type} [Add F] [Sub F] [Mul F] [Div F] [Neg F] [Zero F] [One F] [FloatOps F] {P : Problem F}

/-- `exp(a) = a (d0 + ½ a d1)`, the predicted improvement of step length `a`. -/
def predicted (d0 d1 a : F) : F := a * (d0 + lit (1 / 2) * a * d1)

/-- Step length `a` passes in `SolverDDP`: it lies in `[0,1]`, the closed-loop rollout does not blow up, the predicted
improvement is non-negative, and either the gradient term is below `th_grad`, or the candidate is infeasible, or the actual
decrease exceeds `th_acceptstep` times the predicted one. -/
def AcceptDDP (s : DDP P) (a : F) : Prop :=
  ltb 1 a = false ∧ ltb a 0 = false ∧ ¬ s.policy.BlowsUp true a ∧
  leb 0 (predicted s.m.d0 s.m.d1 a) = true ∧
  (ltb s.m.d0 s.c.par.thGrad = true ∨ s.feas = false ∨
    ltb (s.c.par.thAccept * predicted s.m.d0 s.m.d1 a)
      (s.e.cost - trajCost P (s.policy.X true a) (s.policy.U true a)) = true)

/-- whether FDDP's trial closes the gaps. -/
def closes (s : DDP P) (a : F) : Bool := s.feas || eqb a 1

/-- what FDDP takes for the gap norm of a trial. -/
def gapTryAt (s : DDP P) (a : F) : F :=
  sumUp P.T fun t => norm1 (P.diff (s.policy.X (s.closes a) a t) (s.policy.pre (s.closes a) a (t + 1)))

/-- the filter finds an entry at least as good as `(c, g)`. -/
def WorseThanMemory (s : DDP P) (c g : F) : Prop :=
  ∃ j, j < s.c.filterSize ∧ j ≤ s.iter ∧
    leb (s.m.costList.get (s.c.filterSize - 1 - j)) c = true ∧ leb (s.m.gapList.get (s.c.filterSize - 1 - j)) g = true

/-- the correction of FDDP's predicted improvement for the gaps. -/
def dvAt (s : DDP P) (X : Traj P) : F :=
  if s.feas then 0
  else forUp P.T (fun t acc => acc - dot (s.e.fs t) (mv (s.e.bp.Vxx t) (P.diff (X t) (s.xs t))))
    (0 - dot (s.e.fs P.T) (mv (s.e.bp.Vxx P.T) (P.diff (X P.T) (s.xs P.T))))

/-- FDDP's predicted improvement of step length `a`. -/
def predictedFDDP (s : DDP P) (a : F) : F :=
  predicted (s.m.dg + s.dvAt (s.policy.X (s.closes a) a)) (s.m.dq - lit 2 * s.dvAt (s.policy.X (s.closes a) a)) a

/-- Step length `a` passes in `SolverFDDP`. -/
def AcceptFDDP (s : DDP P) (a : F) : Prop :=
  ltb 1 a = false ∧ ltb a 0 = false ∧ ¬ s.policy.BlowsUp (s.closes a) a ∧
  if s.c.useFilter then
    ¬ s.WorseThanMemory (trajCost P (s.policy.X (s.closes a) a) (s.policy.U (s.closes a) a)) (s.gapTryAt a)
  else
    let dV := s.e.cost - trajCost P (s.policy.X (s.closes a) a) (s.policy.U (s.closes a) a)
    (leb 0 (s.predictedFDDP a) = true ∧ (ltb (s.m.dg + s.dvAt (s.policy.X (s.closes a) a)) s.c.par.thGrad = true ∨
      ltb (s.c.par.thAccept * s.predictedFDDP a) dV = true)) ∨
    (leb 0 (s.predictedFDDP a) = false ∧ ltb (s.c.thNeg * s.predictedFDDP a) dV = true)

/-- the trial trajectory, controls and cost held by `s1` are those of step length `a` from `s`. -/
structure Holds (s : DDP P) (close : Bool) (a : F) (s1 : DDP P) : Prop where
  xs : ∀ t, t ≤ P.T → s1.y.xs t = s.policy.X close a t
  us : ∀ t, t < P.T → s1.y.us t = s.policy.U close a t
  cost : s1.y.cost = trajCost P (s.policy.X close a) (s.policy.U close a)
  step : s1.steplength = a

/-- what a solver's line search needs: `Same s s1` – `s1` is an intermediate state of a search begun in `s`. -/
structure Kind.Line (k : Kind P) (Same : DDP P → DDP P → Prop) (Acc : DDP P → F → Prop) (close : DDP P → F → Bool) : Prop where
  exn : ∀ s s1 s2 a, Same s s1 → k.trial a { s1 with steplength := a, nTry := s1.nTry + 1 } = .exn s2 →
    ¬ Acc s a ∧ Same s s2 ∧ s2.steplength = a
  ok : ∀ s s1 s2 a, Same s s1 → k.trial a { s1 with steplength := a, nTry := s1.nTry + 1 } = .ok s2 →
    ((k.test a s2).1 = true ↔ Acc s a) ∧ Same s (k.test a s2).2 ∧ Holds s (close s a) a (k.test a s2).2

/-- the two outcomes of a line search. -/
theorem Kind.Line.search {k : Kind P} {Same : DDP P → DDP P → Prop} {Acc : DDP P → F → Prop} {close : DDP P → F → Bool}
    (h : k.Line Same Acc close) (s : DDP P) (as : List F) (s1 : DDP P) (h1 : Same s s1) :
    ((lineSearch k as s1).1 = true ∧ ∃ pre a post s2, as = pre ++ a :: post ∧ (∀ b ∈ pre, ¬ Acc s b) ∧ Acc s a ∧
      Same s s2 ∧ Holds s (close s a) a s2 ∧ (lineSearch k as s1).2 = { k.commit a s2 with recalc := true }) ∨
    ((lineSearch k as s1).1 = false ∧ (∀ b ∈ as, ¬ Acc s b) ∧ Same s (lineSearch k as s1).2 ∧
      (lineSearch k as s1).2.steplength = as.getLastD s1.steplength) := by
  induction as generalizing s1 with
  | nil => exact .inr ⟨rfl, fun b hb => (by cases hb), h1, rfl⟩
  | cons a as ih =>
    have lift : ∀ s2 : DDP P, ¬ Acc s a → s2.steplength = a → Same s s2 →
        ((lineSearch k as s2).1 = true ∧ ∃ pre a' post s3, a :: as = pre ++ a' :: post ∧ (∀ b ∈ pre, ¬ Acc s b) ∧ Acc s a' ∧
          Same s s3 ∧ Holds s (close s a') a' s3 ∧ (lineSearch k as s2).2 = { k.commit a' s3 with recalc := true }) ∨
        ((lineSearch k as s2).1 = false ∧ (∀ b ∈ a :: as, ¬ Acc s b) ∧ Same s (lineSearch k as s2).2 ∧
          (lineSearch k as s2).2.steplength = (a :: as).getLastD s1.steplength) := by
      intro s2 hna hst hs
      rcases ih s2 hs with ⟨h2, pre, a', post, s3, h3, h4, h5⟩ | ⟨h2, h3, h4, h5⟩
      · refine .inl ⟨h2, a :: pre, a', post, s3, by rw [h3]; rfl, ?_, h5⟩
        intro b hb
        rcases List.mem_cons.mp hb with rfl | hb
        · exact hna
        · exact h4 b hb
      · refine .inr ⟨h2, ?_, h4, ?_⟩
        · intro b hb
          rcases List.mem_cons.mp hb with rfl | hb
          · exact hna
          · exact h3 b hb
        · rw [h5, hst]
          cases as <;> rfl
    unfold lineSearch
    split
    · rename_i s2 h2
      obtain ⟨i1, i2, i3⟩ := h.exn s s1 s2 a h1 h2
      exact lift s2 i1 i3 i2
    · rename_i s2 h2
      obtain ⟨i1, i2, i3⟩ := h.ok s s1 s2 a h1 h2
      simp only []
      split
      · rename_i ht
        exact .inl ⟨rfl, [], a, as, _, rfl, fun b hb => (by cases hb), i1.mp ht, i2, i3, rfl⟩
      · rename_i ht
        exact lift _ (fun hA => ht (i1.mpr hA)) i3.step i2

/-! ### DDP -/

/-- intermediate states of DDP's line search. -/
def SameD (s s1 : DDP P) : Prop :=
  s1.y.xs 0 = P.x0 ∧ ∃ st r y n dV ex, s1 = { s with
    steplength := st, recalc := r, y := y, nTry := n, m := { s.m with dV := dV, dVexp := ex } }

theorem stageDDP_xs0 (a : F) (t : ℕ) (s : DDP P) : (stageDDP a t s).st.y.xs 0 = s.y.xs 0 := by
  unfold stageDDP
  rw [Res.throwIf_st]
  simp only [nodeDDP]
  rw [Function.update_of_ne (by omega)]

theorem tryDDP_xs0 (a : F) (s : DDP P) : (tryDDP a s).st.y.xs 0 = s.y.xs 0 := by
  unfold tryDDP
  split
  · rfl
  · have h1 := forUpR_inv_st (fun s' : DDP P => s'.y.xs 0 = s.y.xs 0) P.T (stageDDP a) { s with y := { s.y with cost := 0 } } rfl
      (fun t _ s1 h => (stageDDP_xs0 a t s1).trans h)
    cases hf : forUpR P.T (stageDDP a) { s with y := { s.y with cost := 0 } } with
    | exn s1 => rw [hf] at h1; exact h1
    | ok s1 =>
      rw [hf] at h1
      simp only [Res.bind_ok]
      have h2 : (finishDDP s1).st.y.xs 0 = s1.y.xs 0 := by unfold finishDDP; rw [Res.throwIf_st]
      cases hg : finishDDP s1 with
      | exn s2 => rw [hg] at h2; exact h2.trans h1
      | ok s2 => rw [hg] at h2; exact h2.trans h1

theorem ddp_line : (ddp P).Line SameD AcceptDDP (fun _ _ => true) where
  exn s s1 s2 a h1 h2 := by
    obtain ⟨hx, st, r, y, n, dV, ex, e⟩ := h1
    have hx2 := tryDDP_xs0 a { s1 with steplength := a, nTry := s1.nTry + 1 }
    obtain ⟨y', dV', e2, _⟩ := tryDDP_st a { s1 with steplength := a, nTry := s1.nTry + 1 }
    change tryDDP a _ = _ at h2
    rw [h2] at e2 hx2
    change s2 = _ at e2
    refine ⟨fun hA => ?_, ⟨hx2.trans hx, ?_⟩, by rw [e2]⟩
    · rcases tryDDP_roll a { s1 with steplength := a, nTry := s1.nTry + 1 } hx with ⟨s3, h3, _⟩ | ⟨s3, h3, h4⟩
      · rw [h3] at h2; cases h2
      · obtain ⟨a1, a2, a3, _⟩ := hA
        have hp : (policy { s1 with steplength := a, nTry := s1.nTry + 1 }) = s.policy := by rw [e]; rfl
        rw [hp, a1, a2] at h4
        rcases h4 with h4 | h4 | h4
        · cases h4
        · cases h4
        · exact a3 h4
    · rw [e2, e]; exact ⟨_, _, _, _, _, _, rfl⟩
  ok s s1 s2 a h1 h2 := by
    obtain ⟨hx, st, r, y, n, dV, ex, e⟩ := h1
    have hx2 := tryDDP_xs0 a { s1 with steplength := a, nTry := s1.nTry + 1 }
    change tryDDP a _ = _ at h2
    rw [h2] at hx2
    rcases tryDDP_roll a { s1 with steplength := a, nTry := s1.nTry + 1 } hx with ⟨s3, h3, h4⟩ | ⟨s3, h3, _⟩
    · rw [h3] at h2
      obtain rfl : s3 = s2 := by cases h2; rfl
      have hp : (policy { s1 with steplength := a, nTry := s1.nTry + 1 }) = s.policy := by rw [e]; rfl
      obtain ⟨y', dV', e2⟩ := h4.frame
      have hdV := h4.dV
      have hgood := h4.good
      have hxs := h4.xs
      have hus := h4.us
      have hcost := h4.cost
      rw [hp] at hdV hgood hxs hus hcost
      refine ⟨?_, ⟨hx2.trans hx, ?_⟩, ?_⟩
      · change (testDDP a s3).1 = true ↔ _
        unfold testDDP AcceptDDP setExp predicted
        simp only [Bool.and_eq_true, Bool.or_eq_true, Bool.not_eq_true', hdV]
        rw [e2, e]
        simp only []
        constructor
        · rintro ⟨i1, i2⟩
          refine ⟨h4.lo, h4.hi, hgood, i1, ?_⟩
          rcases i2 with (i2 | i2) | i2
          · exact .inl i2
          · exact .inr (.inl i2)
          · exact .inr (.inr i2)
        · rintro ⟨_, _, _, i1, i2⟩
          refine ⟨i1, ?_⟩
          rcases i2 with i2 | i2 | i2
          · exact .inl (.inl i2)
          · exact .inl (.inr i2)
          · exact .inr i2
      · change ∃ st r y n dV ex, (testDDP a s3).2 = _
        unfold testDDP setExp
        rw [e2, e]
        exact ⟨_, _, _, _, _, _, rfl⟩
      · change Holds s true a (testDDP a s3).2
        refine ⟨hxs, hus, hcost, ?_⟩
        change s3.steplength = a
        rw [e2]
    · rw [h3] at h2; cases h2

/-! ### FDDP -/

/-- intermediate states of FDDP's line search. -/
def SameF (s s1 : DDP P) : Prop :=
  ∃ st r y n dV ex d0 d1 dv, s1 = { s with
    steplength := st, recalc := r, y := y, nTry := n
    m := { s.m with dV := dV, dVexp := ex, d0 := d0, d1 := d1, dv := dv } }

theorem expFDDP_dv {s s1 : DDP P} {X : Traj P} (h1 : SameF s s1) (hX : ∀ t, t ≤ P.T → s1.y.xs t = X t) :
    s1.expFDDP.m.dv = s.dvAt X ∧ s1.expFDDP.m.d0 = s.m.dg + s.dvAt X ∧ s1.expFDDP.m.d1 = s.m.dq - lit 2 * s.dvAt X := by
  have key : s1.expFDDP.m.dv = s.dvAt X := by
    obtain ⟨st, r, y, n, dV, ex, d0, d1, dv, rfl⟩ := h1
    unfold expFDDP dvAt
    simp only []
    cases hf : s.feas with
    | true => rfl
    | false =>
      simp only [Bool.false_eq_true, if_false]
      have : ∀ n, n ≤ P.T → ∀ (d : ℕ → Vec F P.ndx) (v : F), (forUp n (fun t (r : (ℕ → Vec F P.ndx) × F) =>
          (Function.update r.1 t (P.diff (y.xs t) (s.xs t)),
            r.2 - dot (s.e.fs t) (mv (s.e.bp.Vxx t) (P.diff (y.xs t) (s.xs t))))) (d, v)).2 =
          forUp n (fun t acc => acc - dot (s.e.fs t) (mv (s.e.bp.Vxx t) (P.diff (X t) (s.xs t)))) v := by
        intro n hn d v
        induction n with
        | zero => rfl
        | succ n ih =>
          rw [forUp_succ, forUp_succ, ← ih (by omega), ← hX n (by omega)]
      rw [← hX P.T le_rfl]
      exact this P.T le_rfl _ _
  refine ⟨key, ?_, ?_⟩
  · rw [← key]
    obtain ⟨st, r, y, n, dV, ex, d0, d1, dv, rfl⟩ := h1
    rfl
  · rw [← key]
    obtain ⟨st, r, y, n, dV, ex, d0, d1, dv, rfl⟩ := h1
    rfl

theorem fddp_line : (fddp P).Line SameF AcceptFDDP closes where
  exn s s1 s2 a h1 h2 := by
    obtain ⟨st, r, y, n, dV, ex, d0, d1, dv, e⟩ := h1
    have e2 := fddp_laws.trial a { s1 with steplength := a, nTry := s1.nTry + 1 }
    obtain ⟨y', dV', e2, _⟩ := e2
    rw [h2] at e2
    change s2 = _ at e2
    refine ⟨fun hA => ?_, ?_, by rw [e2]⟩
    · change tryFDDP a _ = _ at h2
      rcases tryFDDP_roll a { s1 with steplength := a, nTry := s1.nTry + 1 } with ⟨s3, h3, _⟩ | ⟨s3, h3, h4⟩
      · rw [h3] at h2; cases h2
      · obtain ⟨a1, a2, a3, _⟩ := hA
        have hp : (policy { s1 with steplength := a, nTry := s1.nTry + 1 }) = s.policy := by rw [e]; rfl
        have hc : (({ s1 with steplength := a, nTry := s1.nTry + 1 } : DDP P).feas || eqb a 1) = s.closes a := by rw [e]; rfl
        rw [hp, hc, a1, a2] at h4
        rcases h4 with h4 | h4 | h4
        · cases h4
        · cases h4
        · exact a3 h4
    · rw [e2, e]; exact ⟨_, _, _, _, _, _, _, _, _, rfl⟩
  ok s s1 s2 a h1 h2 := by
    obtain ⟨st, r, y, n, dV, ex, d0, d1, dv, e⟩ := h1
    change tryFDDP a _ = _ at h2
    rcases tryFDDP_roll a { s1 with steplength := a, nTry := s1.nTry + 1 } with ⟨s3, h3, h4, h5⟩ | ⟨s3, h3, _⟩
    · rw [h3] at h2
      obtain rfl : s3 = s2 := by cases h2; rfl
      have hp : (policy { s1 with steplength := a, nTry := s1.nTry + 1 }) = s.policy := by rw [e]; rfl
      have hc : (({ s1 with steplength := a, nTry := s1.nTry + 1 } : DDP P).feas || eqb a 1) = s.closes a := by rw [e]; rfl
      obtain ⟨y', dV', e2⟩ := h4.frame
      have hdV := h4.dV
      have hgood := h4.good
      have hxs := h4.xs
      have hus := h4.us
      have hcost := h4.cost
      rw [hp, hc] at hdV hgood hxs hus hcost h5
      have hec : ({ s1 with steplength := a, nTry := s1.nTry + 1 } : DDP P).e.cost = s.e.cost := by rw [e]
      rw [hec] at hdV
      have hS : SameF s s3 := by rw [e2, e]; exact ⟨_, _, _, _, _, _, _, _, _, rfl⟩
      have hst : s3.steplength = a := by rw [e2]
      obtain ⟨x1, x2, x3⟩ := expFDDP_dv hS hxs
      have e3 : s3.c = s.c ∧ s3.iter = s.iter ∧ s3.m.costList = s.m.costList ∧ s3.m.gapList = s.m.gapList := by
        rw [e2, e]; exact ⟨rfl, rfl, rfl, rfl⟩
      obtain ⟨c1, c2, c3, c4⟩ := e3
      have hgt : s3.y.gap = s.gapTryAt a := h5
      change ((testFDDP a s3).1 = true ↔ _) ∧ SameF s (testFDDP a s3).2 ∧ Holds s (s.closes a) a (testFDDP a s3).2
      unfold testFDDP
      rw [c1]
      cases huf : s.c.useFilter with
      | true =>
        simp only [if_true]
        refine ⟨?_, hS, ⟨hxs, hus, hcost, hst⟩⟩
        rw [Bool.not_eq_true', Bool.eq_false_iff, ne_eq, SQP.filterLoop_iff, c2, c3, c4, hgt, hcost]
        unfold AcceptFDDP WorseThanMemory
        rw [huf, if_pos rfl]
        constructor
        · intro h
          exact ⟨h4.lo, h4.hi, hgood, fun ⟨j, h1, h2, h3⟩ => h ⟨j, Nat.zero_le _, by omega, h1, h2, h3⟩⟩
        · rintro ⟨_, _, _, h⟩ ⟨j, _, _, h1, h2, h3⟩
          exact h ⟨j, h1, h2, h3⟩
      | false =>
        simp only [Bool.false_eq_true, if_false]
        have hd : (s3.expFDDP.setExp a).m.dVexp = s.predictedFDDP a := by
          unfold setExp predictedFDDP predicted
          simp only [x2, x3]
        have hd0 : (s3.expFDDP.setExp a).m.d0 = s.m.dg + s.dvAt (s.policy.X (s.closes a) a) := x2
        have hdV2 : (s3.expFDDP.setExp a).m.dV = s.e.cost - trajCost P (s.policy.X (s.closes a) a) (s.policy.U (s.closes a) a) :=
          hdV
        have hc2 : (s3.expFDDP.setExp a).c = s.c := c1
        refine ⟨?_, ?_, ⟨hxs, hus, hcost, hst⟩⟩
        · rw [hd, hd0, hdV2, hc2]
          unfold AcceptFDDP
          rw [huf]
          simp only [Bool.false_eq_true, if_false]
          cases hl : leb 0 (s.predictedFDDP a)
          · simp only [Bool.false_eq_true, if_false, false_and, false_or, true_and]
            exact ⟨fun h => ⟨h4.lo, h4.hi, hgood, h⟩, fun h => h.2.2.2⟩
          · simp only [if_true, Bool.or_eq_true, true_and, Bool.true_eq_false, false_and, or_false]
            exact ⟨fun h => ⟨h4.lo, h4.hi, hgood, h⟩, fun h => h.2.2.2⟩
        · unfold setExp expFDDP
          rw [e2, e]
          exact ⟨_, _, _, _, _, _, _, _, _, rfl⟩
    · rw [h3] at h2; cases h2

end Mim.DDP
