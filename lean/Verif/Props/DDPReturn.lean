import Verif.Lemmas.DDPLoop
import Verif.Lemmas.Reg
import Verif.Lemmas.Backward
import Verif.Props.SQPReturn
import Mathlib.Algebra.Order.Archimedean.Basic

/-!
# What a return of `SolverDDP::solve` / `SolverFDDP::solve` guarantees (C04, C08, C09, C10, C17, C38)

`DDP.solve k llt fuel xs us m fe ri s = some (b, s')` says that the call returned `b` and left the solver in state `s'`;
`k` is `ddp P` or `fddp P`.
-/
set_option linter.unusedSectionVars false
set_option linter.unusedSimpArgs false

namespace Mim
open Spec Matrix

namespace DDP
section
variable {F : Type} [Add F] [Sub F] [Mul F] [Div F] [Neg F] [Zero F] [One F] [FloatOps F] {P : Problem F}

/-- one of the two solvers. -/
def IsSolver (k : Kind P) : Prop := k = ddp P ∨ k = fddp P

theorem IsSolver.laws {k : Kind P} (h : IsSolver k) : k.Laws := by
  rcases h with rfl | rfl
  · exact ddp_laws
  · exact fddp_laws
end
end DDP

open DDP

section
variable {F : Type} [Add F] [Sub F] [Mul F] [Div F] [Neg F] [Zero F] [One F] [FloatOps F] {P : Problem F}
variable {k : Kind P} {llt : LLT F} {fuel : ℕ} {xs : Option (Traj P)} {us : Option (Ctrls P)} {m : ℕ} {fe : Bool} {ri : F}
  {s s' : DDP P} {b : Bool}

/-- the number of KKT checks of one iteration. -/
theorem ddp_body_nKKT (hk : IsSolver k) {s s' : DDP P} {r : Option Bool} (h : body k llt fuel s = some (r, s')) :
    s.nKKT ≤ s'.nKKT ∧ s'.nKKT ≤ s.nKKT + 1 ∧ (r ≠ some false → s'.nKKT = s.nKKT + 1) := by
  cases body_cases h with
  | gaveUp hr hb =>
    obtain ⟨p, q, e, d, r, e1⟩ := retry_frame hk.laws hr
    rw [e1]; exact ⟨le_rfl, Nat.le_succ _, fun h => absurd hb h⟩
  | converged s1 hr _ hs hb =>
    obtain ⟨p, q, e, d, r, e1⟩ := retry_frame hk.laws hr
    obtain ⟨d0, d1, dg, dq, e2⟩ := checked_frame hk.laws s1
    rw [hs, e2, e1]; exact ⟨Nat.le_succ _, le_rfl, fun _ => rfl⟩
  | stuck s1 hr _ _ hs hb =>
    obtain ⟨p, q, e, d, r, e1⟩ := retry_frame hk.laws hr
    obtain ⟨_, _, _, _, _, _, _, _, _, e2, _, en⟩ := pushed_frame hk.laws s1
    obtain ⟨_, _, _, _, _, _, _, _, _, _, _, _, _, _, _, e3, _⟩ := search_frame hk.laws (k.push (checked k s1))
    obtain ⟨_, _, e4⟩ := DDP.updateReg_frame (search k (k.push (checked k s1)))
    rw [hs, e4, e3, e2, en, e1]; exact ⟨Nat.le_succ _, le_rfl, fun _ => rfl⟩
  | next s1 hr _ _ hs hb =>
    obtain ⟨p, q, e, d, r, e1⟩ := retry_frame hk.laws hr
    obtain ⟨_, _, _, _, _, _, _, _, _, e2, _, en⟩ := pushed_frame hk.laws s1
    obtain ⟨_, _, _, _, _, _, _, _, _, _, _, _, _, _, _, e3, _⟩ := search_frame hk.laws (k.push (checked k s1))
    obtain ⟨_, _, e4⟩ := DDP.updateReg_frame (search k (k.push (checked k s1)))
    rw [hs, e4, e3, e2]
    change s.nKKT ≤ _ ∧ _
    rw [en, e1]; exact ⟨Nat.le_succ _, le_rfl, fun _ => rfl⟩

/-- **C04.**  If `SolverDDP::solve` or `SolverFDDP::solve` returns true, the reported residual is `<=` the tolerance, which the
call does not change; it is the residual of the final derivatives, gaps and multipliers, and was computed during this call;
and the derivatives, gaps and cost are those of the *returned* trajectory.  No assumption on the arithmetic. -/
theorem C04_ddp_true_sound (hk : IsSolver k) (h : solve k llt fuel xs us m fe ri s = some (true, s')) :
    leb s'.m.KKT s.c.tol = true ∧ s'.c = s.c ∧ s'.m.KKT = kktResidual s'.y.data s'.e.fs s'.y.lagMul ∧ s.nKKT < s'.nKKT ∧
    FreshDiff P s'.y.data s'.xs s'.us ∧ s'.e.cost = trajCost P s'.xs s'.us ∧
    s'.e.fs 0 = P.diff (s'.xs 0) P.x0 ∧ ∀ t, t < P.T → s'.e.fs (t + 1) = shootGap P s'.xs s'.us t := by
  have key := solve_inv (k := k) (llt := llt) (fuel := fuel)
    (fun _ s1 => s.nKKT ≤ s1.nKKT ∧ s1.c = s.c ∧ HeadInv s1)
    (fun b s1 => b = true → leb s1.m.KKT s.c.tol = true ∧ s1.c = s.c ∧
      s1.m.KKT = kktResidual s1.y.data s1.e.fs s1.y.lagMul ∧ s.nKKT < s1.nKKT ∧ EvalFresh s1)
    (fun n s1 s2 hI h => ⟨hI.1.trans (ddp_body_nKKT hk h).1, (body_frame hk.laws h).1.trans hI.2.1,
      body_headInv hk.laws h hI.2.2⟩)
    (fun n s1 b s2 hI h hb => by
      subst hb
      have hn := (ddp_body_nKKT hk h).2.2 (by simp)
      have hc := (body_frame hk.laws h).1
      cases body_cases h with
      | gaveUp hr hb => cases hb
      | stuck s3 hr hk' hu hs hb => cases hb
      | next s3 hr hk' hu hs hb => cases hb
      | converged s3 hr hk' hs hb =>
        have hf := retry_evalFresh hk.laws hr hI.2.2
        obtain ⟨d0, d1, dg, dq, e2⟩ := checked_frame hk.laws s3
        rw [← hs, hc, hI.2.1] at hk'
        refine ⟨hk', hc.trans hI.2.1, ?_, by have := hI.1; omega, ?_⟩
        · rw [hs, e2]
        · rw [hs, e2]; exact hf.congr rfl rfl rfl rfl rfl rfl)
    (fun s1 _ h => by cases h)
    ⟨le_rfl, rfl, start_headInv s xs us fe ri⟩ h rfl
  obtain ⟨k1, k2, k3, k4, k5⟩ := key
  exact ⟨k1, k2, k3, k4, k5.diff, k5.cost, k5.gap0, k5.gaps⟩

/-- **C17 (DDP, FDDP).**  At every direction computation of every solve, successful or not and whatever the line searches
before did, derivatives, cost and gaps are those of the current trajectory. -/
theorem C17_ddp_directions_fresh (hk : IsSolver k) (n : ℕ) {s1 s2 : DDP P}
    (h1 : iterate k llt fuel n (s.start xs us fe ri) = some (none, s1)) (h2 : retry k llt fuel s1 = some (b, s2)) :
    FreshDiff P s2.y.data s2.xs s2.us ∧ s2.e.cost = trajCost P s2.xs s2.us ∧
    s2.e.fs 0 = P.diff (s2.xs 0) P.x0 ∧ ∀ t, t < P.T → s2.e.fs (t + 1) = shootGap P s2.xs s2.us t := by
  have := retry_evalFresh hk.laws h2 (iterate_headInv hk.laws s xs us fe ri n h1).1
  exact ⟨this.diff, this.cost, this.gap0, this.gaps⟩

/-- the number of trials of a line search. -/
theorem ddp_lineSearch_nTry (hk : IsSolver k) (as : List F) (s : DDP P) :
    (lineSearch k as s).2.nTry ≤ s.nTry + as.length := by
  induction as generalizing s with
  | nil => exact le_rfl
  | cons a as ih =>
    obtain ⟨y, dV, e, _⟩ := hk.laws.trial a { s with steplength := a, nTry := s.nTry + 1 }
    unfold lineSearch
    split
    · rename_i s1 h1
      rw [h1] at e
      change s1 = _ at e
      have := ih s1
      have e' : s1.nTry = s.nTry + 1 := by rw [e]
      simp only [List.length_cons]; omega
    · rename_i s1 h1
      rw [h1] at e
      change s1 = _ at e
      obtain ⟨dx, d0, d1, dv, ex, e2⟩ := hk.laws.test a s1
      simp only [List.length_cons]
      split
      · obtain ⟨f, w, c, e3⟩ := hk.laws.commit a (k.test a s1).2
        rw [e3, e2, e]
        change s.nTry + 1 ≤ _; omega
      · have := ih (k.test a s1).2
        rw [e2] at this ⊢
        have e' : s1.nTry = s.nTry + 1 := by rw [e]
        change _ ≤ s1.nTry + as.length at this
        omega

theorem ddp_search_nTry (hk : IsSolver k) (s : DDP P) : (search k s).nTry ≤ s.nTry + s.c.par.alphas.length := by
  have := ddp_lineSearch_nTry hk s.c.par.alphas { s with recalc := false }
  rw [search_eq]
  split
  · exact this
  · exact this

theorem ddp_body_nTry (hk : IsSolver k) {s s' : DDP P} {r : Option Bool} (h : body k llt fuel s = some (r, s')) :
    s'.nTry ≤ s.nTry + s.c.par.alphas.length := by
  have hsearch : ∀ s1, retry k llt fuel s = some (true, s1) →
      (search k (k.push (checked k s1))).updateReg.2.nTry ≤ s.nTry + s.c.par.alphas.length := by
    intro s1 hr
    obtain ⟨p, q, e, d, r, e1⟩ := retry_frame hk.laws hr
    obtain ⟨_, _, _, _, _, _, _, _, _, e2, _, en⟩ := pushed_frame hk.laws s1
    obtain ⟨_, _, e4⟩ := DDP.updateReg_frame (search k (k.push (checked k s1)))
    have := ddp_search_nTry hk (k.push (checked k s1))
    rw [e4]
    refine this.trans ?_
    rw [e2, e1]
  cases body_cases h with
  | gaveUp hr hb =>
    obtain ⟨p, q, e, d, r, e1⟩ := retry_frame hk.laws hr
    rw [e1]; exact Nat.le_add_right _ _
  | converged s1 hr _ hs hb =>
    obtain ⟨p, q, e, d, r, e1⟩ := retry_frame hk.laws hr
    obtain ⟨d0, d1, dg, dq, e2⟩ := checked_frame hk.laws s1
    rw [hs, e2, e1]; exact Nat.le_add_right _ _
  | stuck s1 hr _ _ hs hb => rw [hs]; exact hsearch s1 hr
  | next s1 hr _ _ hs hb => rw [hs]; exact hsearch s1 hr

/-- **C08 (DDP, FDDP).**  `get_iter() <= maxiter`, at most `maxiter * |alphas|` trials and at most `maxiter` KKT checks. -/
theorem C08_ddp_counts (hk : IsSolver k) (h : solve k llt fuel xs us m fe ri s = some (b, s')) :
    s'.iter ≤ m ∧ s'.nTry ≤ s.nTry + m * s.c.par.alphas.length ∧ s'.nKKT ≤ s.nKKT + m := by
  refine solve_inv (k := k) (llt := llt) (fuel := fuel)
    (fun n s1 => s1.c = s.c ∧ s1.iter + n = m ∧
      s1.nTry + n * s.c.par.alphas.length ≤ s.nTry + m * s.c.par.alphas.length ∧ s1.nKKT + n ≤ s.nKKT + m)
    (fun _ s1 => s1.iter ≤ m ∧ s1.nTry ≤ s.nTry + m * s.c.par.alphas.length ∧ s1.nKKT ≤ s.nKKT + m)
    (fun n s1 s2 hI h => ?_) (fun n s1 b s2 hI h => ?_) (fun s1 hI => ?_) ⟨rfl, Nat.zero_add m, le_rfl, le_rfl⟩ h
  · obtain ⟨i1, i3, i4, i5⟩ := hI
    obtain ⟨p1, p3⟩ := body_frame hk.laws h
    have b1 := ddp_body_nTry hk h
    have b2 := (ddp_body_nKKT hk h).2.1
    rw [i1] at b1
    refine ⟨p1.trans i1, ?_, ?_, ?_⟩
    · change s2.iter + 1 + n = m; omega
    · change s2.nTry + _ ≤ _
      have : (n + 1) * s.c.par.alphas.length = n * s.c.par.alphas.length + s.c.par.alphas.length := by
        rw [Nat.succ_mul]
      omega
    · change s2.nKKT + n ≤ _; omega
  · obtain ⟨i1, i3, i4, i5⟩ := hI
    obtain ⟨p1, p3⟩ := body_frame hk.laws h
    have b1 := ddp_body_nTry hk h
    have b2 := (ddp_body_nKKT hk h).2.1
    rw [i1] at b1
    have : (n + 1) * s.c.par.alphas.length = n * s.c.par.alphas.length + s.c.par.alphas.length := by
      rw [Nat.succ_mul]
    refine ⟨by omega, by omega, by omega⟩
  · obtain ⟨i1, i3, i4, i5⟩ := hI
    exact ⟨by omega, by omega, by omega⟩

/-- **C38 (DDP, FDDP).**  The callbacks run exactly once, in order, at the end of every iteration that neither converged nor gave
up; `evs` lists the (residual, cost, gap norm) they see, one per such iteration.  All of these residuals are above the
tolerance: no callback sees the converged iteration of a successful solve, which makes one more KKT check. -/
theorem C38_ddp_callbacks (hk : IsSolver k) (h : solve k llt fuel xs us m fe ri s = some (b, s')) :
    ∃ evs : List (F × F × F), evs.length = s'.iter ∧
      s'.log = s.log ++ evs.zipIdx.flatMap (callbackEvents s.c.ncb) ∧
      (∀ e ∈ evs, leb e.1 s.c.tol = false) ∧
      (b = true → s'.nKKT = s.nKKT + evs.length + 1) := by
  -- members an iteration cannot touch before its callbacks
  have hmid : ∀ (s1 s3 : DDP P), retry k llt fuel s1 = some (true, s3) →
      (search k (k.push (checked k s3))).updateReg.2.log = s1.log ∧
      (search k (k.push (checked k s3))).updateReg.2.iter = s1.iter ∧
      (search k (k.push (checked k s3))).updateReg.2.c = s1.c ∧
      (search k (k.push (checked k s3))).updateReg.2.m.KKT = (checked k s3).m.KKT := by
    intro s1 s3 hr
    obtain ⟨p, q, e, d, r, e1⟩ := retry_frame hk.laws hr
    obtain ⟨_, _, _, _, _, _, _, _, _, e2, ekk, en⟩ := pushed_frame hk.laws s3
    obtain ⟨d0, d1, dg, dq, e5⟩ := checked_frame hk.laws s3
    obtain ⟨_, _, _, _, _, _, _, _, _, _, _, _, _, _, _, e3, _⟩ := search_frame hk.laws (k.push (checked k s3))
    obtain ⟨_, _, e4⟩ := DDP.updateReg_frame (search k (k.push (checked k s3)))
    rw [e4, e3, e2]
    refine ⟨?_, ?_, ?_, ?_⟩
    · rw [e1]
    · rw [e1]
    · rw [e1]
    · rw [e5]; exact ekk
  have key := solve_inv (k := k) (llt := llt) (fuel := fuel)
    (fun _ s1 => s1.c = s.c ∧ ∃ evs : List (F × F × F), evs.length = s1.iter ∧
      s1.log = s.log ++ evs.zipIdx.flatMap (callbackEvents s.c.ncb) ∧
      (∀ e ∈ evs, leb e.1 s.c.tol = false) ∧ s1.nKKT = s.nKKT + evs.length)
    (fun b s1 => ∃ evs : List (F × F × F), evs.length = s1.iter ∧
      s1.log = s.log ++ evs.zipIdx.flatMap (callbackEvents s.c.ncb) ∧
      (∀ e ∈ evs, leb e.1 s.c.tol = false) ∧ (b = true → s1.nKKT = s.nKKT + evs.length + 1))
    (fun n s1 s2 hI h => ?_) (fun n s1 b s2 hI h => ?_) (fun s1 hI => ?_) ⟨rfl, [], rfl, by simp [start, setCandidate], by simp, rfl⟩ h
  · exact key
  · obtain ⟨i1, evs, i2, i3, i4, i5⟩ := hI
    have hn := (ddp_body_nKKT hk h).2.2 (by simp)
    have hc := (body_frame hk.laws h)
    refine ⟨hc.1.trans i1, ?_⟩
    cases body_cases h with
    | gaveUp hr hb => cases hb
    | converged s3 hr _ hs hb => cases hb
    | stuck s3 hr hk' hu hs hb => cases hb
    | next s3 hr hk' hu hs hb =>
      obtain ⟨m1, m2, m3, m4⟩ := hmid s1 s3 hr
      set s4 := (search k (k.push (checked k s3))).updateReg.2 with hs4
      have hct : (checked k s3).c = s.c := by
        obtain ⟨p, q, e, d, r, e1⟩ := retry_frame hk.laws hr
        obtain ⟨d0, d1, dg, dq, e5⟩ := checked_frame hk.laws s3
        rw [e5, e1]; exact i1
      refine ⟨evs ++ [(s4.m.KKT, s4.e.cost, s4.e.gap)], ?_, ?_, ?_, ?_⟩
      · change _ = s2.iter + 1
        rw [hc.2]; simp [i2]
      · change s2.log = _
        rw [hs]
        change s4.log ++ (List.range s4.c.ncb).map (fun c => (⟨c, s4.iter, s4.m.KKT, s4.e.cost, s4.e.gap⟩ : CbEvent F)) = _
        rw [m1, m2, m3, i1, ← i2, i3, List.zipIdx_append, List.flatMap_append, List.append_assoc]
        simp [callbackEvents]
      · intro e he
        rcases List.mem_append.mp he with he | he
        · exact i4 e he
        · simp only [List.mem_singleton] at he
          rw [he, m4, ← hct]; exact hk'
      · change s2.nKKT = _
        rw [hn, i5]; simp [Nat.add_assoc]
  · obtain ⟨i1, evs, i2, i3, i4, i5⟩ := hI
    have hc := (body_frame hk.laws h)
    have hnk : b = true → s2.nKKT = s1.nKKT + 1 := fun hb => (ddp_body_nKKT hk h).2.2 (by rw [hb]; simp)
    refine ⟨evs, i2.trans hc.2.symm, ?_, i4, fun hb => by rw [hnk hb, i5]⟩
    rw [← i3]
    cases body_cases h with
    | gaveUp hr hb =>
      obtain ⟨p, q, e, d, r, e1⟩ := retry_frame hk.laws hr
      rw [e1]
    | converged s3 hr _ hs hb =>
      obtain ⟨p, q, e, d, r, e1⟩ := retry_frame hk.laws hr
      obtain ⟨d0, d1, dg, dq, e2⟩ := checked_frame hk.laws s3
      rw [hs, e2, e1]
    | stuck s3 hr hk' hu hs hb => rw [hs]; exact (hmid s1 s3 hr).1
    | next s3 hr hk' hu hs hb => cases hb
  · obtain ⟨i1, evs, i2, i3, i4, i5⟩ := hI
    exact ⟨evs, i2, i3, i4, fun h => by cases h⟩

/-- regularization over one iteration. -/
theorem ddp_body_reg (hk : IsSolver k) {s s' : DDP P} {r : Option Bool} {I : F → Prop}
    (hinc : ∀ r, I r → I (incReg s.c.par r)) (hdec : ∀ r, I r → I (decReg s.c.par r)) (h0 : I s.preg ∧ s.dreg = s.preg)
    (h : body k llt fuel s = some (r, s')) : I s'.preg ∧ s'.dreg = s'.preg := by
  have hmid : ∀ s3, retry k llt fuel s = some (true, s3) →
      I (search k (k.push (checked k s3))).updateReg.2.preg ∧
      (search k (k.push (checked k s3))).updateReg.2.dreg = (search k (k.push (checked k s3))).updateReg.2.preg := by
    intro s3 hr
    have h1 := DDP.retry_reg hk.laws hinc h0 hr
    obtain ⟨p, q, e, d, r, e1⟩ := retry_frame hk.laws hr
    obtain ⟨_, _, _, _, _, _, _, _, _, e2, _, _⟩ := pushed_frame hk.laws s3
    obtain ⟨_, _, _, _, _, _, _, _, _, _, _, _, _, _, _, e3, _⟩ := search_frame hk.laws (k.push (checked k s3))
    have hpar : (search k (k.push (checked k s3))).c = s.c := by rw [e3, e2, e1]
    apply updateReg_reg
    · rw [hpar]; exact hinc
    · rw [hpar]; exact hdec
    · rw [e3, e2]; exact h1
  cases body_cases h with
  | gaveUp hr hb => exact DDP.retry_reg hk.laws hinc h0 hr
  | converged s3 hr _ hs hb =>
    obtain ⟨d0, d1, dg, dq, e2⟩ := checked_frame hk.laws s3
    rw [hs, e2]; exact (DDP.retry_reg hk.laws hinc h0 hr :)
  | stuck s3 hr hk' hu hs hb => rw [hs]; exact hmid s3 hr
  | next s3 hr hk' hu hs hb => rw [hs]; exact hmid s3 hr

theorem ddp_solve_reg (hk : IsSolver k) {I : F → Prop} (hinc : ∀ r, I r → I (incReg s.c.par r))
    (hdec : ∀ r, I r → I (decReg s.c.par r)) (h0 : I (initReg s.c.par ri))
    (h : solve k llt fuel xs us m fe ri s = some (b, s')) : I s'.preg ∧ s'.dreg = s'.preg := by
  exact (solve_inv (k := k) (llt := llt) (fuel := fuel) (fun _ s1 => s1.c = s.c ∧ I s1.preg ∧ s1.dreg = s1.preg)
    (fun _ s1 => I s1.preg ∧ s1.dreg = s1.preg)
    (fun n s1 s2 hI h => ⟨(body_frame hk.laws h).1.trans hI.1,
      (ddp_body_reg hk (by rw [hI.1]; exact hinc) (by rw [hI.1]; exact hdec) hI.2 h :)⟩)
    (fun n s1 b s2 hI h => ddp_body_reg hk (by rw [hI.1]; exact hinc) (by rw [hI.1]; exact hdec) hI.2 h)
    (fun s1 hI => hI.2) ⟨rfl, h0, rfl⟩ h :)

/-- **C10 (DDP, FDDP), equality.**  However `solve` returns, primal and dual regularization are equal (any arithmetic). -/
theorem C10_ddp_preg_eq_dreg (hk : IsSolver k) (h : solve k llt fuel xs us m fe ri s = some (b, s')) : s'.dreg = s'.preg :=
  (ddp_solve_reg hk (I := fun _ => True) (fun _ _ => trivial) (fun _ _ => trivial) trivial h).2

/-- whether the backward pass throws does not depend on leftovers of earlier passes. -/
theorem ddp_isOk_indep (d : Data P) (fs : ℕ → Vec F P.ndx) (feas : Bool) (p q : F) (b1 b2 : BP P) :
    (backwardPass llt d fs feas p q b1).isOk = (backwardPass llt d fs feas p q b2).isOk := by
  rcases Bwd.backwardPass_indep llt d fs feas p q b1 b2 with ⟨x, y, e1, e2, _⟩ | ⟨x, y, e1, e2⟩ <;> rw [e1, e2] <;> rfl

/-- **C09 (DDP, FDDP), non-termination.**  If the initial regularization is a value that `increaseRegularization` maps to itself
and that is not `reg_max` (in doubles: 0), and the first direction computation throws, `solve` does not return. -/
theorem C09_ddp_diverges (hk : IsSolver k) (hz : incReg s.c.par (initReg s.c.par ri) = initReg s.c.par ri)
    (hmax : eqb (initReg s.c.par ri) s.c.par.regMax = false) (hm : 0 < m)
    (hfail : (k.dir llt true (s.start xs us fe ri)).isOk = false) (fuel : ℕ) :
    solve k llt fuel xs us m fe ri s = none := by
  have hloop : ∀ n (s1 : DDP P), s1.c = s.c → s1.preg = initReg s.c.par ri → s1.dreg = initReg s.c.par ri →
      (k.dir llt s1.recalc s1).isOk = false → retry k llt n s1 = none := by
    intro n
    induction n with
    | zero => intros; rfl
    | succ n ih =>
      intro s1 h1 h2 h3 h4
      unfold retry
      obtain ⟨bp, g, e⟩ := hk.laws.dir llt s1.recalc s1
      have hok := hk.laws.dir_isOk llt s1.recalc s1
      obtain ⟨fs, c, d, e'⟩ := evald_frame s1.recalc s1
      cases hd : k.dir llt s1.recalc s1 with
      | ok s2 => rw [hd] at h4; cases h4
      | exn s2 =>
        rw [hd] at e hok
        change s2 = _ at e
        simp only []
        set s3 : DDP P := ({ s2 with recalc := false } : DDP P).increaseReg with hs3
        have hc3 : s3.c = s.c := by rw [hs3, e, e']; exact h1
        have hp3 : s3.preg = initReg s.c.par ri := by
          rw [hs3, e, e']
          change incReg s1.c.par s1.preg = _
          rw [h1, h2, hz]
        have hd3 : s3.dreg = initReg s.c.par ri := by
          rw [hs3, e, e']
          change incReg s1.c.par s1.preg = _
          rw [h1, h2, hz]
        rw [if_neg (by rw [hp3, hc3, hmax]; simp)]
        apply ih s3 hc3 hp3 hd3
        rw [hk.laws.dir_isOk]
        have er : s3.recalc = false := by rw [hs3]; rfl
        rw [er]
        change (backwardPass llt s3.y.data s3.e.fs s3.feas s3.preg s3.dreg s3.e.bp).isOk = false
        rw [e'] at hok
        have : s3.y.data = d ∧ s3.e.fs = fs ∧ s3.feas = s1.feas := by
          rw [hs3, e, e']; exact ⟨rfl, rfl, rfl⟩
        rw [this.1, this.2.1, this.2.2, hp3, hd3, ddp_isOk_indep d fs s1.feas _ _ s3.e.bp s1.e.bp]
        rw [h2, h3] at hok
        exact hok.symm
  obtain ⟨j, rfl⟩ : ∃ j, m = j + 1 := ⟨m - 1, by omega⟩
  have hr := hloop fuel (s.start xs us fe ri) rfl rfl rfl hfail
  unfold solve iterate body
  rw [hr]

/-- **C09 (DDP, FDDP), giving up.**  If every direction computation throws, `solve` returns false at `reg_max` without any KKT
check. -/
theorem C09_ddp_gives_up (hk : IsSolver k) (hall : ∀ (r : Bool) (s : DDP P), (k.dir llt r s).isOk = false) (hm : 0 < m)
    (h : solve k llt fuel xs us m fe ri s = some (b, s')) :
    b = false ∧ eqb s'.preg s.c.par.regMax = true ∧ s'.nKKT = s.nKKT := by
  have hr : ∀ fuel (bb : Bool) (s s1 : DDP P), retry k llt fuel s = some (bb, s1) → bb = false := by
    intro fuel
    induction fuel with
    | zero => intro bb s s1 h; cases h
    | succ n ih =>
      intro bb s s1 h
      unfold retry at h
      split at h
      · rename_i s2 hs2
        have := hall s.recalc s
        rw [hs2] at this; cases this
      · simp only [] at h
        split at h
        · simp only [Option.some.injEq, Prod.mk.injEq] at h
          exact h.1.symm
        · exact ih _ _ _ h
  obtain ⟨j, rfl⟩ : ∃ j, m = j + 1 := ⟨m - 1, by omega⟩
  have hb : ∀ r s1, body k llt fuel (s.start xs us fe ri) = some (r, s1) →
      r = some false ∧ eqb s1.preg s.c.par.regMax = true ∧ s1.nKKT = s.nKKT := by
    intro r s1 h
    cases body_cases h with
    | gaveUp hr1 hb =>
      obtain ⟨p, q, e, d, r, e1⟩ := retry_frame hk.laws hr1
      have h3 := (retry_spec hk.laws hr1).2.2 rfl
      refine ⟨hb, ?_, ?_⟩
      · rw [e1] at h3 ⊢; exact h3
      · rw [e1]; rfl
    | converged s3 hr1 _ hs hb => cases hr _ _ _ _ hr1
    | stuck s3 hr1 hk' hu hs hb => cases hr _ _ _ _ hr1
    | next s3 hr1 hk' hu hs hb => cases hr _ _ _ _ hr1
  unfold solve iterate at h
  cases hx : body k llt fuel (s.start xs us fe ri) with
  | none => rw [hx] at h; cases h
  | some x =>
    obtain ⟨r, s1⟩ := x
    obtain ⟨h1, h2, h3⟩ := hb r s1 hx
    subst h1
    rw [hx] at h
    simp only [Option.some.injEq, Prod.mk.injEq] at h
    obtain ⟨rfl, rfl⟩ := h
    exact ⟨rfl, h2, h3⟩

end

section Exact
variable {K : Type} [Field K] [LinearOrder K] [IsStrictOrderedRing K] {P : Problem K}
variable {k : Kind P} {llt : LLT K} {fuel : ℕ} {xs : Option (Traj P)} {us : Option (Ctrls P)} {m : ℕ} {fe : Bool} {ri : K}
  {s s' : DDP P} {b : Bool}

/-- a residual is non-negative. -/
theorem kktResidual_nonneg (d : Data P) (fs lam : ℕ → Vec K P.ndx) : 0 ≤ kktResidual d fs lam := by
  unfold kktResidual
  simp only [cppMax_exact, normInf_exact]
  exact le_max_of_le_left (le_max_of_le_right (exactNormInf_nonneg _))

/-- **C04, meaning.**  In exact arithmetic a true return of DDP or FDDP certifies first-order optimality, up to the tolerance, of
the returned trajectory (with the multipliers the solver stores). -/
theorem C04_ddp_true_is_kkt (hk : IsSolver k) (h : solve k llt fuel xs us m fe ri s = some (true, s')) :
    IsKKT P s.c.tol s'.xs s'.us s'.y.lagMul := by
  obtain ⟨h1, h2, h3, _, f2, _, g1, g2⟩ := C04_ddp_true_sound hk h
  rw [leb_exact, decide_eq_true_eq, h3] at h1
  have h0 : 0 ≤ s.c.tol := (kktResidual_nonneg _ _ _).trans h1
  obtain ⟨c1, c2, c3, c4⟩ := (C02_sqp_residual_meaning s'.y.data s'.e.fs s'.y.lagMul s.c.tol h0).mp h1
  refine ⟨fun t ht i => ?_, fun t ht i => ?_, fun i => ?_, fun i => ?_, fun t ht i => ?_⟩
  · have := c1 t ht i; rwa [f2.run t ht] at this
  · have := c2 t ht i; rwa [f2.run t ht] at this
  · have := c3 i; rwa [f2.ter] at this
  · have := c4 0 (Nat.zero_le _) i; rwa [g1] at this
  · have := c4 (t + 1) ht i; rwa [g2 t ht] at this

/-- **C10 (DDP, FDDP), range.** -/
theorem C10_ddp_range (hk : IsSolver k) (hp : RegOK s.c.par) (h0 : InRange s.c.par ri)
    (h : solve k llt fuel xs us m fe ri s = some (b, s')) :
    s.c.par.regMin ≤ s'.preg ∧ s'.preg ≤ s.c.par.regMax ∧ s'.dreg = s'.preg := by
  have := ddp_solve_reg hk (I := InRange s.c.par) (fun r hr => hr.incReg hp) (fun r hr => hr.decReg hp)
    (by rw [initReg_exact]; exact h0) h
  exact ⟨this.1.1, this.1.2, this.2⟩

/-- the retry loop ends after at most `n` attempts when `n` increases reach `reg_max`. -/
theorem ddp_retry_terminates (hk : IsSolver k) (hinc : 1 < s.c.par.regInc) (n : ℕ) (hn : 0 < n) (hp : 0 < s.preg)
    (hreach : s.c.par.regMax ≤ s.preg * s.c.par.regInc ^ n) : ∃ x, retry k llt n s = some x := by
  induction n generalizing s with
  | zero => omega
  | succ n ih =>
    unfold retry
    obtain ⟨bp, g, e⟩ := hk.laws.dir llt s.recalc s
    obtain ⟨fs, c, d, e'⟩ := evald_frame s.recalc s
    rw [e'] at e
    cases hd : k.dir llt s.recalc s with
    | ok s1 => exact ⟨_, rfl⟩
    | exn s1 =>
      rw [hd] at e
      change s1 = _ at e
      simp only []
      set s3 : DDP P := ({ s1 with recalc := false } : DDP P).increaseReg with hs3
      have hc3 : s3.c = s.c := by rw [hs3, e]; rfl
      have hp3 : s3.preg = min s.c.par.regMax (s.preg * s.c.par.regInc) := by
        rw [hs3, e]
        change incReg s.c.par s.preg = _
        rw [incReg_exact]
      by_cases hm : s3.preg = s3.c.par.regMax
      · exact ⟨_, if_pos (by rw [eqb_exact, decide_eq_true_eq]; exact hm)⟩
      · rw [if_neg (by rw [eqb_exact, decide_eq_true_eq]; exact hm)]
        rw [hc3, hp3] at hm
        have hlt : s.preg * s.c.par.regInc < s.c.par.regMax := by
          by_contra hge
          exact hm (min_eq_left (not_lt.mp hge))
        have hpr : s3.preg = s.preg * s.c.par.regInc := by rw [hp3, min_eq_right hlt.le]
        have hn0 : 0 < n := by
          rcases Nat.eq_zero_or_pos n with h0 | h0
          · subst h0
            rw [zero_add, pow_one] at hreach
            exact absurd hreach (not_le.mpr hlt)
          · exact h0
        apply ih
        · rw [hc3]; exact hinc
        · exact hn0
        · rw [hpr]; positivity
        · rw [hc3, hpr, mul_assoc, ← pow_succ']; exact hreach

/-- **C09 (DDP, FDDP), termination with an explicit bound** on the attempts of each retry loop, for every problem and every
linear solver. -/
theorem C09_ddp_terminates_bound (hk : IsSolver k) (hmin : 0 < s.c.par.regMin) (hmax : 0 < s.c.par.regMax)
    (hinc : 1 < s.c.par.regInc) (hri : 0 < ri) (N : ℕ) (hN : 0 < N)
    (hreach : s.c.par.regMax ≤ min (min s.c.par.regMin s.c.par.regMax) ri * s.c.par.regInc ^ N) :
    ∃ b s', solve k llt N xs us m fe ri s = some (b, s') := by
  set r0 := min (min s.c.par.regMin s.c.par.regMax) ri with hr0
  have hr0pos : 0 < r0 := lt_min (lt_min hmin hmax) hri
  let I : K → Prop := fun r => r0 ≤ r
  have hIinc : ∀ r, I r → I (incReg s.c.par r) := by
    intro r hr
    change r0 ≤ incReg s.c.par r
    rw [incReg_exact]
    refine le_min ((min_le_left _ _).trans (min_le_right _ _)) ?_
    have : 0 < r := lt_of_lt_of_le hr0pos hr
    have h1 : r0 ≤ r := hr
    nlinarith
  have hIdec : ∀ r, I r → I (decReg s.c.par r) := by
    intro r hr
    change r0 ≤ decReg s.c.par r
    rw [decReg_exact]
    exact le_max_of_le_left ((min_le_left _ _).trans (min_le_left _ _))
  have hit : ∀ n (s1 : DDP P), s1.c = s.c → I s1.preg → s1.dreg = s1.preg → ∃ x, iterate k llt N n s1 = some x := by
    intro n
    induction n with
    | zero => intro s1 _ _ _; exact ⟨_, rfl⟩
    | succ n ih =>
      intro s1 hc hp hd
      obtain ⟨x, hx⟩ := ddp_retry_terminates (llt := llt) (s := s1) hk (by rw [hc]; exact hinc) N hN (lt_of_lt_of_le hr0pos hp)
        (by rw [hc]; exact hreach.trans (mul_le_mul_of_nonneg_right hp (pow_nonneg (by linarith) _)))
      have hb : ∃ y, body k llt N s1 = some y := by
        unfold body
        rw [hx]
        obtain ⟨b, s2⟩ := x
        cases b
        · exact ⟨_, rfl⟩
        · simp only []
          split
          · exact ⟨_, rfl⟩
          · split
            · exact ⟨_, rfl⟩
            · exact ⟨_, rfl⟩
      obtain ⟨⟨r, s2⟩, hy⟩ := hb
      unfold iterate
      rw [hy]
      cases r with
      | some b => exact ⟨_, rfl⟩
      | none =>
        have hc2 := (body_frame hk.laws hy).1
        have := ddp_body_reg (I := I) hk (by rw [hc]; exact hIinc) (by rw [hc]; exact hIdec) ⟨hp, hd⟩ hy
        exact ih _ (hc2.trans hc) this.1 this.2
  have h0 : I (initReg s.c.par ri) := by
    change r0 ≤ _; rw [initReg_exact]; exact min_le_right _ _
  obtain ⟨⟨r, s1⟩, hx⟩ := hit m (s.start xs us fe ri) rfl h0 rfl
  unfold solve
  rw [hx]
  cases r <;> exact ⟨_, _, rfl⟩

/-- **C09 (DDP, FDDP), termination.**  In an Archimedean field such a bound always exists. -/
theorem C09_ddp_terminates [Archimedean K] (hk : IsSolver k) (hmin : 0 < s.c.par.regMin) (hmax : 0 < s.c.par.regMax)
    (hinc : 1 < s.c.par.regInc) (hri : 0 < ri) (llt : LLT K) (xs : Option (Traj P)) (us : Option (Ctrls P)) (m : ℕ) (fe : Bool) :
    ∃ N b s', solve k llt N xs us m fe ri s = some (b, s') := by
  set r0 := min (min s.c.par.regMin s.c.par.regMax) ri with hr0
  have hr0pos : 0 < r0 := lt_min (lt_min hmin hmax) hri
  obtain ⟨N, hN⟩ := pow_unbounded_of_one_lt (s.c.par.regMax / r0) hinc
  have hle : s.c.par.regMax ≤ r0 * s.c.par.regInc ^ (N + 1) := by
    have h1 : s.c.par.regMax ≤ r0 * s.c.par.regInc ^ N := by
      rw [mul_comm]; exact ((div_lt_iff₀ hr0pos).mp hN).le
    refine h1.trans (mul_le_mul_of_nonneg_left ?_ hr0pos.le)
    exact pow_le_pow_right₀ hinc.le (Nat.le_succ N)
  obtain ⟨b, s', h⟩ := C09_ddp_terminates_bound (llt := llt) (xs := xs) (us := us) (m := m) (fe := fe) hk hmin hmax hinc hri
    (N + 1) (Nat.succ_pos N) hle
  exact ⟨N + 1, b, s', h⟩

/-- **C09 (DDP, FDDP), regularization zero.**  `solve(..., reginit = 0)` never returns if the first direction computation
throws. -/
theorem C09_ddp_zero_diverges (hk : IsSolver k) (hmax : 0 < s.c.par.regMax) (hm : 0 < m)
    (hfail : (k.dir llt true (s.start xs us fe 0)).isOk = false) (fuel : ℕ) :
    solve k llt fuel xs us m fe 0 s = none := by
  apply C09_ddp_diverges hk
  · rw [initReg_exact, incReg_exact, zero_mul, min_eq_right hmax.le]
  · rw [initReg_exact, eqb_exact]; simp [hmax.ne]
  · exact hm
  · exact hfail

end Exact

/-! ## The hypotheses can be met -/
namespace Ex

/-- a default-constructed DDP/FDDP solver for `lq`. -/
def lqDDP : DDP lq := DDP.new (Data.zero lq)

example : IsSolver (ddp lq) := .inl rfl
example : IsSolver (fddp lq) := .inr rfl

/-- C04, C08, C38: both solvers return true on a small LQ problem (with two callbacks). -/
example : (DDP.solve (ddp lq) llt1 20 none none 10 false 0 { lqDDP with c := { lqDDP.c with ncb := 2 } }).map
    (fun r => (r.1, r.2.iter, r.2.m.KKT, r.2.nKKT, r.2.nTry, r.2.log.length)) = some (true, 3, 0, 4, 3, 6) := by decide +kernel
example : (DDP.solve (fddp lq) llt1 20 none none 10 false 0 { lqDDP with c := { lqDDP.c with ncb := 2 } }).map
    (fun r => (r.1, r.2.iter, r.2.m.KKT, r.2.nKKT, r.2.nTry, r.2.log.length)) = some (true, 2, 0, 3, 11, 4) := by decide +kernel

/-- C04 with FDDP's second line search. -/
example : (DDP.solve (fddp lq) llt1 20 none none 10 false 0 { lqDDP with c := { lqDDP.c with useFilter := false } }).map
    (fun r => (r.1, r.2.iter, r.2.m.KKT)) = some (true, 3, 0) := by decide +kernel

/-- C17: the run of FDDP above contains a line search in which all ten steps are rejected (SQP's data would be stale). -/
example : (DDP.solve (fddp lq) llt1 20 none none 10 false 0 lqDDP).map (fun r => (r.1, r.2.nRej)) = some (true, 1) := by
  decide +kernel

/-- C09: the bound for default parameters is 18 attempts; and both solvers hang with `reginit = 0` on a concave problem. -/
example : lqDDP.c.par.regMax ≤ min (min lqDDP.c.par.regMin lqDDP.c.par.regMax) lqDDP.c.par.regMin *
    lqDDP.c.par.regInc ^ 18 := by decide +kernel
example : RegOK lqDDP.c.par := RegOK.default
theorem C09_ddp_concave_hangs (fuel : ℕ) (k : Kind (scalar 2 1 (-1) 0 1)) (hk : IsSolver k) :
    DDP.solve k llt1 fuel none none 1 false 0 (DDP.new (Data.zero _)) = none := by
  rcases hk with rfl | rfl
  · exact C09_ddp_zero_diverges (.inl rfl) (by change (0 : ℚ) < 10 ^ 9; norm_num) (by norm_num) (by decide +kernel) fuel
  · exact C09_ddp_zero_diverges (.inr rfl) (by change (0 : ℚ) < 10 ^ 9; norm_num) (by norm_num) (by decide +kernel) fuel

/-- C09: a linear solver that always fails. -/
example : (DDP.solve (ddp lq) (fun _ _ => none) 18 none none 3 false (1 / 10 ^ 9) lqDDP).map
    (fun r => (r.1, r.2.preg, r.2.nKKT)) = some (false, 10 ^ 9, 0) := by decide +kernel

end Ex
end Mim
