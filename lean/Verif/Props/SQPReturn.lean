import Verif.Lemmas.SQPDir
import Verif.Spec.Examples

/-!
# What a return of `SolverSQP::solve` guarantees (C01, C02, C07, C08, C38)

`SQP.solve … = some (b, s')` says that the call returned `b` and left the solver in state `s'`.
-/
set_option linter.unusedSectionVars false
set_option linter.unusedSimpArgs false

namespace Mim
open Spec SQP Matrix

section
variable {F : Type} [Add F] [Sub F] [Mul F] [Div F] [Neg F] [Zero F] [One F] [FloatOps F] {P : Problem F}
variable {llt : LLT F} {fuel : ℕ} {xs : Option (Traj P)} {us : Option (Ctrls P)} {m : ℕ} {ri : F} {s s' : SQP P} {b : Bool}

theorem retry_nKKT {r : Bool} {s s1 : SQP P} {b : Bool} (h : retry llt fuel r s = some (b, s1)) : s1.nKKT = s.nKKT :=
  retry_frame nKKT (fun _ _ _ _ _ _ _ _ _ _ _ _ => rfl) (fun _ _ _ => rfl) _ _ _ _ _ _ h

theorem search_nKKT (s : SQP P) : (search s).nKKT = s.nKKT :=
  search_frame nKKT (fun _ _ _ _ _ _ _ _ _ => rfl) (fun _ _ _ _ _ _ => rfl) (fun _ _ => rfl) s

theorem updateReg_nKKT (s : SQP P) : (updateReg s).2.nKKT = s.nKKT :=
  updateReg_frame nKKT (fun _ _ _ => rfl) s

theorem body_nKKT_le {r : Option Bool} {s s1 : SQP P} (h : body llt fuel s = some (r, s1)) :
    s.nKKT ≤ s1.nKKT ∧ s1.nKKT ≤ s.nKKT + 1 ∧ (r = some true → s1.nKKT = s.nKKT + 1) := by
  cases body_cases h with
  | gaveUp hr hb => rw [retry_nKKT hr, hb]; simp
  | converged s2 hr hk hs hb =>
    have : s1.nKKT = s.nKKT + 1 := by
      rw [hs]; change s2.nKKT + 1 = _; rw [retry_nKKT hr]
    omega
  | searched s2 hr hk hs hb =>
    have : s1.nKKT = s.nKKT + 1 := by
      rw [hs, updateReg_nKKT, search_nKKT]; change s2.nKKT + 1 = _; rw [retry_nKKT hr]
    omega

/-- **C01.**  If `SolverSQP::solve` returns true then the reported KKT residual is `<=` the termination tolerance (which the
call does not change), the residual is the one of the final data, gaps and multipliers, these stem from a successful
`computeDirection`, and the check was made during this call.  No assumption on the arithmetic. -/
theorem C01_sqp_true_sound (h : solve llt fuel xs us m ri s = some (true, s')) :
    leb s'.KKT s'.tol = true ∧ s'.tol = s.tol ∧
    s'.KKT = kktResidual s'.data s'.fs s'.lagMul ∧
    s.nKKT < s'.nKKT ∧
    ∃ s0 s1 recalc, computeDirection llt recalc s0 = .ok s1 ∧
      s1.data = s'.data ∧ s1.fs = s'.fs ∧ s1.lagMul = s'.lagMul ∧ s1.xs = s'.xs ∧ s1.us = s'.us := by
  have htol : s'.tol = s.tol := solve_frame tol (fun _ _ _ _ _ _ _ _ _ _ _ _ => rfl) (fun _ _ _ => rfl)
    (fun _ _ _ _ _ _ _ _ _ => rfl) (fun _ _ _ _ _ _ => rfl) (fun _ _ _ _ => rfl) (fun _ _ _ _ => rfl)
    (fun _ _ => rfl) (fun _ _ => rfl) h
  have key := fun r s1 => iterate_inv llt fuel (fun _ s1 => s.nKKT ≤ s1.nKKT)
    (fun b s1 => b = true → leb s1.KKT s1.tol = true ∧ s1.KKT = kktResidual s1.data s1.fs s1.lagMul ∧
      s.nKKT < s1.nKKT ∧ ∃ s0 s2 recalc, computeDirection llt recalc s0 = .ok s2 ∧
      s2.data = s1.data ∧ s2.fs = s1.fs ∧ s2.lagMul = s1.lagMul ∧ s2.xs = s1.xs ∧ s2.us = s1.us)
    (fun n s1 s2 hI h => hI.trans (body_nKKT_le h).1)
    (fun n s1 b s2 hI h hb => by
      subst hb
      have hn := (body_nKKT_le h).2.2 rfl
      cases body_cases h with
      | gaveUp hr hb => cases hb
      | converged s3 hr hk hs hb =>
        subst hs
        obtain ⟨s0, r0, hd⟩ := retry_true hr
        exact ⟨hk, rfl, by omega, s0, s3, r0, hd, rfl, rfl, rfl, rfl, rfl⟩
      | searched s3 hr hk hs hb => split at hb <;> simp at hb)
    m (s.start xs us ri) (le_refl _) r s1
  suffices hh : leb s'.KKT s'.tol = true ∧ s'.KKT = kktResidual s'.data s'.fs s'.lagMul ∧
      s.nKKT < s'.nKKT ∧ ∃ s0 s2 recalc, computeDirection llt recalc s0 = .ok s2 ∧
      s2.data = s'.data ∧ s2.fs = s'.fs ∧ s2.lagMul = s'.lagMul ∧ s2.xs = s'.xs ∧ s2.us = s'.us from
    ⟨hh.1, htol, hh.2.1, hh.2.2.1, hh.2.2.2⟩
  rcases solve_cases h with h | ⟨s1, h1, h2⟩
  · rcases key _ _ h with ⟨h', _⟩ | ⟨b', h', hq⟩
    · cases h'
    · cases h'; exact hq rfl
  · have hn : s.nKKT ≤ s1.nKKT := by
      rcases key _ _ h1 with ⟨_, h'⟩ | ⟨b', h', _⟩
      · exact h'
      · cases h'
    cases extra_cases h2 with
    | off he hb hs => cases hb
    | gaveUp he hr hb => cases hb
    | checked he s3 hr hs hb =>
      subst hs
      obtain ⟨s0, r0, hd⟩ := retry_true hr
      have : s3.nKKT = s1.nKKT := retry_nKKT hr
      refine ⟨hb.symm, rfl, ?_, s0, s3, r0, hd, rfl, rfl, rfl, rfl, rfl⟩
      change s.nKKT < s3.nKKT + 1
      omega

/-- **C08.**  `get_iter() <= maxiter`; at most `maxiter * |alphas|` `tryStep` calls; at most `maxiter` KKT checks, one more
with the extra iteration. -/
theorem C08_sqp_counts (h : solve llt fuel xs us m ri s = some (b, s')) :
    s'.iter ≤ m ∧
    s'.nTry ≤ s.nTry + m * s.par.alphas.length ∧
    s'.nKKT ≤ s.nKKT + m + (if s.extra then 1 else 0) := by
  have hls : ∀ (as : List F) (s : SQP P), (lineSearch as s).2.nTry ≤ s.nTry + as.length := by
    intro as
    induction as with
    | nil => intro s; exact le_rfl
    | cons a as ih =>
      intro s
      have htry : ∀ s : SQP P, (tryStep a s).st.nTry = s.nTry + 1 := by
        intro s
        unfold tryStep
        simp only []
        split
        · rfl
        · have h1 := forUpR_proj (nTry (P := P)) P.T (tryStage a)
            { s with nTry := s.nTry + 1, costTry := 0, meritTry := 0, gapTry := 0 }
            (fun t s => by
              have e : ∀ (b : Bool) (s : SQP P), (if b = true then Res.exn s else Res.ok s).st = s := by
                intro b s; cases b <;> rfl
              unfold tryStage
              simp only [e]
              split <;> rfl)
          generalize forUpR P.T (tryStage a)
            { s with nTry := s.nTry + 1, costTry := 0, meritTry := 0, gapTry := 0 } = r at h1 ⊢
          cases r with
          | exn s1 => exact h1
          | ok s1 =>
            have e : ∀ (b : Bool) (s : SQP P), (if b = true then Res.exn s else Res.ok s).st = s := by
              intro b s; cases b <;> rfl
            rw [Res.bind_ok]
            unfold tryTerminal
            simp only [e]
            exact h1
      have ht := htry { s with steplength := a }
      change _ = s.nTry + 1 at ht
      unfold lineSearch
      split
      · rename_i s1 hs1
        rw [hs1] at ht
        change s1.nTry = _ at ht
        have := ih s1
        simp only [List.length_cons]; omega
      · rename_i s1 hs1
        rw [hs1] at ht
        change s1.nTry = _ at ht
        simp only [List.length_cons]
        have i1 := ih { s1 with isWorse := s1.worse }
        have i2 := ih s1
        change _ ≤ s1.nTry + as.length at i1
        split
        · split
          · omega
          · change s1.nTry ≤ _; omega
        · split
          · change s1.nTry ≤ _; omega
          · omega
  have hpar : ∀ s s1 : SQP P, ∀ r, body llt fuel s = some (r, s1) →
      s1.par = s.par ∧ s1.extra = s.extra ∧ s1.iter = s.iter := fun s s1 r h =>
    ⟨body_frame par (fun _ _ _ _ _ _ _ _ _ _ _ _ => rfl) (fun _ _ _ => rfl)
      (fun _ _ _ _ _ _ _ _ _ => rfl) (fun _ _ _ _ _ _ => rfl) (fun _ _ _ _ => rfl) (fun _ _ _ _ => rfl)
      (fun _ _ => rfl) h,
     body_frame extra (fun _ _ _ _ _ _ _ _ _ _ _ _ => rfl) (fun _ _ _ => rfl)
      (fun _ _ _ _ _ _ _ _ _ => rfl) (fun _ _ _ _ _ _ => rfl) (fun _ _ _ _ => rfl) (fun _ _ _ _ => rfl)
      (fun _ _ => rfl) h,
     body_frame iter (fun _ _ _ _ _ _ _ _ _ _ _ _ => rfl) (fun _ _ _ => rfl)
      (fun _ _ _ _ _ _ _ _ _ => rfl) (fun _ _ _ _ _ _ => rfl) (fun _ _ _ _ => rfl) (fun _ _ _ _ => rfl)
      (fun _ _ => rfl) h⟩
  have hretry : ∀ (r b : Bool) (s s1 : SQP P), retry llt fuel r s = some (b, s1) →
      s1.nTry = s.nTry ∧ s1.iter = s.iter ∧ s1.par = s.par := fun r b s s1 h =>
    ⟨retry_frame nTry (fun _ _ _ _ _ _ _ _ _ _ _ _ => rfl) (fun _ _ _ => rfl) _ _ _ _ _ _ h,
     retry_frame iter (fun _ _ _ _ _ _ _ _ _ _ _ _ => rfl) (fun _ _ _ => rfl) _ _ _ _ _ _ h,
     retry_frame par (fun _ _ _ _ _ _ _ _ _ _ _ _ => rfl) (fun _ _ _ => rfl) _ _ _ _ _ _ h⟩
  have hsearch : ∀ s : SQP P, (search s).nTry ≤ s.nTry + s.par.alphas.length := by
    intro s
    have := hls s.par.alphas s
    unfold search
    simp only []
    split
    · exact this
    · exact this
  have hbody : ∀ s s1 : SQP P, ∀ r, body llt fuel s = some (r, s1) → s1.nTry ≤ s.nTry + s.par.alphas.length := by
    intro s s1 r h
    cases body_cases h with
    | gaveUp hr hb => rw [(hretry _ _ _ _ hr).1]; exact Nat.le_add_right _ _
    | converged s3 hr hk hs hb =>
      rw [hs]; change s3.nTry ≤ _; rw [(hretry _ _ _ _ hr).1]; exact Nat.le_add_right _ _
    | searched s3 hr hk hs hb =>
      obtain ⟨e1, _, e3⟩ := hretry _ _ _ _ hr
      rw [hs, updateReg_frame nTry (fun _ _ _ => rfl)]
      have := hsearch (checked s3).pushFilter
      change _ ≤ s3.nTry + s3.par.alphas.length at this
      rw [e1, e3] at this
      exact this
  -- invariant: after `m - n` iterations
  have key := fun r s1 => iterate_inv llt fuel
    (fun n s1 => s1.par = s.par ∧ s1.extra = s.extra ∧ s1.iter + n = m ∧
      s1.nTry + n * s.par.alphas.length ≤ s.nTry + m * s.par.alphas.length ∧ s1.nKKT + n ≤ s.nKKT + m)
    (fun _ s1 => s1.iter ≤ m ∧ s1.nTry ≤ s.nTry + m * s.par.alphas.length ∧ s1.nKKT ≤ s.nKKT + m)
    (fun n s1 s2 hI h => by
      obtain ⟨i1, i2, i3, i4, i5⟩ := hI
      obtain ⟨p1, p2, p3⟩ := hpar _ _ _ h
      have b1 := hbody _ _ _ h
      have b2 := (body_nKKT_le h).2.1
      rw [i1] at b1
      refine ⟨p1.trans i1, p2.trans i2, ?_, ?_, ?_⟩
      · change s2.iter + 1 + n = m; omega
      · change s2.nTry + _ ≤ _
        have : (n + 1) * s.par.alphas.length = n * s.par.alphas.length + s.par.alphas.length := by
          rw [Nat.succ_mul]
        omega
      · change s2.nKKT + n ≤ _; omega)
    (fun n s1 b s2 hI h => by
      obtain ⟨i1, i2, i3, i4, i5⟩ := hI
      obtain ⟨p1, p2, p3⟩ := hpar _ _ _ h
      have b1 := hbody _ _ _ h
      have b2 := (body_nKKT_le h).2.1
      rw [i1] at b1
      have : (n + 1) * s.par.alphas.length = n * s.par.alphas.length + s.par.alphas.length := by
        rw [Nat.succ_mul]
      refine ⟨by omega, by omega, by omega⟩)
    m (s.start xs us ri) ⟨rfl, rfl, Nat.zero_add m, le_rfl, le_rfl⟩ r s1
  rcases solve_cases h with h | ⟨s1, h1, h2⟩
  · rcases key _ _ h with ⟨h', _⟩ | ⟨b', h', q1, q2, q3⟩
    · cases h'
    · exact ⟨q1, q2, q3.trans (Nat.le_add_right _ _)⟩
  · rcases key _ _ h1 with ⟨_, i1, i2, i3, i4, i5⟩ | ⟨b', h', _⟩
    · simp only [Nat.zero_mul, Nat.add_zero] at i3 i4 i5
      cases extra_cases h2 with
      | off he hb hs =>
        rw [hs]
        exact ⟨i3.le, i4, i5.trans (Nat.le_add_right _ _)⟩
      | gaveUp he hr hb =>
        obtain ⟨r1, r2, r3⟩ := hretry _ _ _ _ hr
        have := retry_nKKT hr
        exact ⟨by omega, by omega, by omega⟩
      | checked he s3 hr hs hb =>
        obtain ⟨r1, r2, r3⟩ := hretry _ _ _ _ hr
        have := retry_nKKT hr
        rw [← i2, he, hs]
        exact ⟨by change s3.iter ≤ m; omega, by change s3.nTry ≤ _; omega,
          by change s3.nKKT + 1 ≤ s.nKKT + m + 1; omega⟩
    · cases h'

/-- the callback calls made for one KKT check: each of the `ncb` callbacks once, in order. -/
def callbackEvents (ncb : ℕ) (check : (F × F × F) × ℕ) : List (CbEvent F) :=
  (List.range ncb).map fun j => ⟨j, check.2, check.1.1, check.1.2.1, check.1.2.2⟩

/-- **C38 (SQP).**  The callbacks run exactly once, in order, for every KKT check of the call, with the iteration number
(counted from 0), residual, cost and gap norm of that check; `checks` lists the (residual, cost, gap norm) triples.
Every check but the last had a residual above the tolerance, and `solve` returns true iff the last check's residual
is within tolerance: the last callback of a successful solve sees the final residual. -/
theorem C38_sqp_callbacks (h : solve llt fuel xs us m ri s = some (b, s')) :
    ∃ checks : List (F × F × F),
      s'.nKKT = s.nKKT + checks.length ∧
      s'.log = s.log ++ checks.zipIdx.flatMap (callbackEvents s.ncb) ∧
      (∀ c ∈ checks.dropLast, leb c.1 s.tol = false) ∧
      (b = true ↔ ∃ c, checks.getLast? = some c ∧ leb c.1 s.tol = true) ∧
      (∀ c, checks.getLast? = some c → c.1 = s'.KKT) := by
  -- the check made by an iteration whose direction computation ended in `s1`
  have hstep : ∀ (s0 s1 : SQP P) (checks : List (F × F × F)) (bb : Bool), retry llt fuel true s0 = some (bb, s1) →
      s0.ncb = s.ncb → s0.iter = checks.length →
      s0.log = s.log ++ checks.zipIdx.flatMap (callbackEvents s.ncb) →
      (checked s1).log = s.log ++ (checks ++ [(s1.checkKKT.KKT, s1.cost, s1.gap)]).zipIdx.flatMap (callbackEvents s.ncb) := by
    intro s0 s1 checks bb hr hncb hit hlog
    have r1 : s1.log = s0.log :=
      retry_frame log (fun _ _ _ _ _ _ _ _ _ _ _ _ => rfl) (fun _ _ _ => rfl) _ _ _ _ _ _ hr
    have r2 : s1.ncb = s0.ncb :=
      retry_frame ncb (fun _ _ _ _ _ _ _ _ _ _ _ _ => rfl) (fun _ _ _ => rfl) _ _ _ _ _ _ hr
    have r3 : s1.iter = s0.iter :=
      retry_frame iter (fun _ _ _ _ _ _ _ _ _ _ _ _ => rfl) (fun _ _ _ => rfl) _ _ _ _ _ _ hr
    change s1.log ++ (List.range s1.ncb).map (fun c => (⟨c, s1.iter, s1.checkKKT.KKT, s1.cost, s1.gap⟩ : CbEvent F)) = _
    rw [r1, r2, r3, hncb, hit, hlog, List.zipIdx_append, List.flatMap_append, List.append_assoc]
    simp [callbackEvents]
  have key := fun r s1 => iterate_inv llt fuel
    (fun _ s1 => s1.ncb = s.ncb ∧ s1.tol = s.tol ∧ ∃ checks : List (F × F × F), s1.iter = checks.length ∧
      s1.nKKT = s.nKKT + checks.length ∧ s1.log = s.log ++ checks.zipIdx.flatMap (callbackEvents s.ncb) ∧
      (∀ c ∈ checks, leb c.1 s.tol = false) ∧ (∀ c, checks.getLast? = some c → c.1 = s1.KKT))
    (fun b s1 => ∃ checks : List (F × F × F),
      s1.nKKT = s.nKKT + checks.length ∧ s1.log = s.log ++ checks.zipIdx.flatMap (callbackEvents s.ncb) ∧
      (∀ c ∈ checks.dropLast, leb c.1 s.tol = false) ∧
      (b = true ↔ ∃ c, checks.getLast? = some c ∧ leb c.1 s.tol = true) ∧
      (∀ c, checks.getLast? = some c → c.1 = s1.KKT))
    (fun n s1 s2 hI h => by
      obtain ⟨i1, i2, checks, i3, i4, i5, i6, i7⟩ := hI
      cases body_cases h with
      | gaveUp hr hb => cases hb
      | converged s3 hr hk hs hb => cases hb
      | searched s3 hr hk hs hb =>
        have t1 : s3.tol = s1.tol :=
          retry_frame tol (fun _ _ _ _ _ _ _ _ _ _ _ _ => rfl) (fun _ _ _ => rfl) _ _ _ _ _ _ hr
        have t2 : s3.iter = s1.iter :=
          retry_frame iter (fun _ _ _ _ _ _ _ _ _ _ _ _ => rfl) (fun _ _ _ => rfl) _ _ _ _ _ _ hr
        have t3 : s3.ncb = s1.ncb :=
          retry_frame ncb (fun _ _ _ _ _ _ _ _ _ _ _ _ => rfl) (fun _ _ _ => rfl) _ _ _ _ _ _ hr
        have t4 := retry_nKKT hr
        have fr := fun {A : Type} (π : SQP P → A) (h1 : ∀ s data xsTry usTry fsTry c g m n,
            π (wTry s data xsTry usTry fsTry c g m n) = π s)
            (h2 : ∀ (s : SQP P) a b xs us fe,
              π { s with steplength := a, isWorse := b, xs := xs, us := us, feas := fe } = π s)
            (h3 : ∀ (s : SQP P) n, π { s with nRej := n } = π s)
            (h4 : ∀ (s : SQP P) p d, π { s with preg := p, dreg := d } = π s) =>
          (updateReg_frame π h4 (checked s3).pushFilter.search).trans (search_frame π h1 h2 h3 (checked s3).pushFilter)
        have e1 := fr ncb (fun _ _ _ _ _ _ _ _ _ => rfl) (fun _ _ _ _ _ _ => rfl) (fun _ _ => rfl) (fun _ _ _ => rfl)
        have e2 := fr tol (fun _ _ _ _ _ _ _ _ _ => rfl) (fun _ _ _ _ _ _ => rfl) (fun _ _ => rfl) (fun _ _ _ => rfl)
        have e3 := fr iter (fun _ _ _ _ _ _ _ _ _ => rfl) (fun _ _ _ _ _ _ => rfl) (fun _ _ => rfl) (fun _ _ _ => rfl)
        have e4 := fr nKKT (fun _ _ _ _ _ _ _ _ _ => rfl) (fun _ _ _ _ _ _ => rfl) (fun _ _ => rfl) (fun _ _ _ => rfl)
        have e5 := fr log (fun _ _ _ _ _ _ _ _ _ => rfl) (fun _ _ _ _ _ _ => rfl) (fun _ _ => rfl) (fun _ _ _ => rfl)
        have e6 := fr SQP.KKT (fun _ _ _ _ _ _ _ _ _ => rfl) (fun _ _ _ _ _ _ => rfl) (fun _ _ => rfl) (fun _ _ _ => rfl)
        rw [← hs] at e1 e2 e3 e4 e5 e6
        change s2.ncb = s3.ncb at e1
        change s2.tol = s3.tol at e2
        change s2.iter = s3.iter at e3
        change s2.nKKT = s3.nKKT + 1 at e4
        change s2.log = (checked s3).log at e5
        change s2.KKT = s3.checkKKT.KKT at e6
        refine ⟨?_, ?_, checks ++ [(s3.checkKKT.KKT, s3.cost, s3.gap)], ?_, ?_, ?_, ?_, ?_⟩
        · change s2.ncb = _; rw [e1, t3, i1]
        · change s2.tol = _; rw [e2, t1, i2]
        · change s2.iter + 1 = _; rw [e3, t2, i3]; simp
        · change s2.nKKT = _; rw [e4, t4, i4]; simp [Nat.add_assoc]
        · change s2.log = _; rw [e5]; exact hstep s1 s3 checks true hr i1 i3 i5
        · intro c hc
          rcases List.mem_append.mp hc with hc | hc
          · exact i6 c hc
          · simp only [List.mem_singleton] at hc
            subst hc
            have : leb s3.checkKKT.KKT s3.tol = false := hk
            rw [t1, i2] at this
            exact this
        · intro c hc
          simp only [List.getLast?_append, List.getLast?_singleton, Option.some_or, Option.some.injEq] at hc
          rw [← hc]
          exact e6.symm)
    (fun n s1 b s2 hI h => by
      obtain ⟨i1, i2, checks, i3, i4, i5, i6, i7⟩ := hI
      have hfalse : ∀ s2 : SQP P, s2.nKKT = s1.nKKT → s2.log = s1.log → s2.KKT = s1.KKT →
          ∃ checks : List (F × F × F),
            s2.nKKT = s.nKKT + checks.length ∧ s2.log = s.log ++ checks.zipIdx.flatMap (callbackEvents s.ncb) ∧
            (∀ c ∈ checks.dropLast, leb c.1 s.tol = false) ∧
            (false = true ↔ ∃ c, checks.getLast? = some c ∧ leb c.1 s.tol = true) ∧
            (∀ c, checks.getLast? = some c → c.1 = s2.KKT) := by
        intro s2 h1 h2 h3
        refine ⟨checks, by omega, by rw [h2, i5], fun c hc => i6 c (List.mem_of_mem_dropLast hc), ?_, ?_⟩
        · constructor
          · intro h; cases h
          · rintro ⟨c, hc, hc'⟩
            rw [i6 c (List.mem_of_getLast? hc)] at hc'
            cases hc'
        · intro c hc
          rw [h3]; exact i7 c hc
      cases body_cases h with
      | gaveUp hr hb =>
        cases hb
        exact hfalse s2 (retry_nKKT hr)
          (retry_frame log (fun _ _ _ _ _ _ _ _ _ _ _ _ => rfl) (fun _ _ _ => rfl) _ _ _ _ _ _ hr)
          (retry_frame SQP.KKT (fun _ _ _ _ _ _ _ _ _ _ _ _ => rfl) (fun _ _ _ => rfl) _ _ _ _ _ _ hr)
      | converged s3 hr hk hs hb =>
        cases hb
        have t1 : s3.tol = s1.tol :=
          retry_frame tol (fun _ _ _ _ _ _ _ _ _ _ _ _ => rfl) (fun _ _ _ => rfl) _ _ _ _ _ _ hr
        have t4 := retry_nKKT hr
        have hk' : leb s3.checkKKT.KKT s3.tol = true := hk
        rw [t1, i2] at hk'
        refine ⟨checks ++ [(s3.checkKKT.KKT, s3.cost, s3.gap)], ?_, ?_, ?_, ?_, ?_⟩
        · rw [hs]; change s3.nKKT + 1 = _; rw [t4, i4]; simp [Nat.add_assoc]
        · rw [hs]; exact hstep s1 s3 checks true hr i1 i3 i5
        · intro c hc
          simp only [List.dropLast_concat] at hc
          exact i6 c hc
        · simp [hk']
        · intro c hc
          simp only [List.getLast?_append, List.getLast?_singleton, Option.some_or, Option.some.injEq] at hc
          rw [← hc, hs]; rfl
      | searched s3 hr hk hs hb =>
        have hb' : b = false := by
          split at hb
          · simpa using hb
          · cases hb
        subst hb'
        have t1 : s3.tol = s1.tol :=
          retry_frame tol (fun _ _ _ _ _ _ _ _ _ _ _ _ => rfl) (fun _ _ _ => rfl) _ _ _ _ _ _ hr
        have t4 := retry_nKKT hr
        have fr := fun {A : Type} (π : SQP P → A) (h1 : ∀ s data xsTry usTry fsTry c g m n,
            π (wTry s data xsTry usTry fsTry c g m n) = π s)
            (h2 : ∀ (s : SQP P) a b xs us fe,
              π { s with steplength := a, isWorse := b, xs := xs, us := us, feas := fe } = π s)
            (h3 : ∀ (s : SQP P) n, π { s with nRej := n } = π s)
            (h4 : ∀ (s : SQP P) p d, π { s with preg := p, dreg := d } = π s) =>
          (updateReg_frame π h4 (checked s3).pushFilter.search).trans (search_frame π h1 h2 h3 (checked s3).pushFilter)
        have e4 := fr nKKT (fun _ _ _ _ _ _ _ _ _ => rfl) (fun _ _ _ _ _ _ => rfl) (fun _ _ => rfl) (fun _ _ _ => rfl)
        have e5 := fr log (fun _ _ _ _ _ _ _ _ _ => rfl) (fun _ _ _ _ _ _ => rfl) (fun _ _ => rfl) (fun _ _ _ => rfl)
        have e6 := fr SQP.KKT (fun _ _ _ _ _ _ _ _ _ => rfl) (fun _ _ _ _ _ _ => rfl) (fun _ _ => rfl) (fun _ _ _ => rfl)
        rw [← hs] at e4 e5 e6
        change s2.nKKT = s3.nKKT + 1 at e4
        change s2.log = (checked s3).log at e5
        change s2.KKT = s3.checkKKT.KKT at e6
        have hk' : leb s3.checkKKT.KKT s3.tol = false := hk
        rw [t1, i2] at hk'
        refine ⟨checks ++ [(s3.checkKKT.KKT, s3.cost, s3.gap)], ?_, ?_, ?_, ?_, ?_⟩
        · rw [e4, t4, i4]; simp [Nat.add_assoc]
        · rw [e5]; exact hstep s1 s3 checks true hr i1 i3 i5
        · intro c hc
          simp only [List.dropLast_concat] at hc
          exact i6 c hc
        · simp [hk']
        · intro c hc
          simp only [List.getLast?_append, List.getLast?_singleton, Option.some_or, Option.some.injEq] at hc
          rw [← hc]; exact e6.symm)
    m (s.start xs us ri) ⟨rfl, rfl, [], rfl, rfl, by simp [SQP.start, SQP.setCandidate], by simp, by simp⟩ r s1
  rcases solve_cases h with h | ⟨s1, h1, h2⟩
  · rcases key _ _ h with ⟨h', _⟩ | ⟨b', h', hq⟩
    · cases h'
    · cases h'; exact hq
  · rcases key _ _ h1 with ⟨_, i1, i2, checks, i3, i4, i5, i6, i7⟩ | ⟨b', h', _⟩
    · have hfalse : ∀ s2 : SQP P, s2.nKKT = s1.nKKT → s2.log = s1.log → s2.KKT = s1.KKT →
          ∃ checks : List (F × F × F),
            s2.nKKT = s.nKKT + checks.length ∧ s2.log = s.log ++ checks.zipIdx.flatMap (callbackEvents s.ncb) ∧
            (∀ c ∈ checks.dropLast, leb c.1 s.tol = false) ∧
            (false = true ↔ ∃ c, checks.getLast? = some c ∧ leb c.1 s.tol = true) ∧
            (∀ c, checks.getLast? = some c → c.1 = s2.KKT) := by
        intro s2 h1 h2 h3
        refine ⟨checks, by omega, by rw [h2, i5], fun c hc => i6 c (List.mem_of_mem_dropLast hc), ?_, ?_⟩
        · constructor
          · intro h; cases h
          · rintro ⟨c, hc, hc'⟩
            rw [i6 c (List.mem_of_getLast? hc)] at hc'
            cases hc'
        · intro c hc
          rw [h3]; exact i7 c hc
      cases extra_cases h2 with
      | off he hb hs => subst hs; subst hb; exact hfalse _ rfl rfl rfl
      | gaveUp he hr hb =>
        subst hb
        exact hfalse s' (retry_nKKT hr)
          (retry_frame log (fun _ _ _ _ _ _ _ _ _ _ _ _ => rfl) (fun _ _ _ => rfl) _ _ _ _ _ _ hr)
          (retry_frame SQP.KKT (fun _ _ _ _ _ _ _ _ _ _ _ _ => rfl) (fun _ _ _ => rfl) _ _ _ _ _ _ hr)
      | checked he s3 hr hs hb =>
        have t1 : s3.tol = s1.tol :=
          retry_frame tol (fun _ _ _ _ _ _ _ _ _ _ _ _ => rfl) (fun _ _ _ => rfl) _ _ _ _ _ _ hr
        have t4 := retry_nKKT hr
        have hb' : b = leb s3.checkKKT.KKT s3.tol := hb
        rw [t1, i2] at hb'
        refine ⟨checks ++ [(s3.checkKKT.KKT, s3.cost, s3.gap)], ?_, ?_, ?_, ?_, ?_⟩
        · rw [hs]; change s3.nKKT + 1 = _; rw [t4, i4]; simp [Nat.add_assoc]
        · rw [hs]; exact hstep s1 s3 checks true hr i1 i3 i5
        · intro c hc
          simp only [List.dropLast_concat] at hc
          exact i6 c hc
        · simp [hb']
        · intro c hc
          simp only [List.getLast?_append, List.getLast?_singleton, Option.some_or, Option.some.injEq] at hc
          rw [← hc, hs]; rfl
    · cases h'

/-- after any number of iterations the first state and first direction block are `x0` and `0`. -/
theorem iterate_xs0 (hT : 0 < P.T) (hs : Reachable s)
    (hint : ∀ a ∈ s.par.alphas, P.integrate P.x0 (sv a (zeroV F P.ndx)) = P.x0) (n : ℕ) (r : Option Bool) (s1 : SQP P)
    (h : iterate llt fuel n (s.start xs us ri) = some (r, s1)) :
    s1.par = s.par ∧ s1.dx 0 = zeroV F P.ndx ∧ s1.xs 0 = P.x0 := by
  have hdx := hs.dx0
  have hb : ∀ (s1 s2 : SQP P) r, (s1.par = s.par ∧ s1.dx 0 = zeroV F P.ndx ∧ s1.xs 0 = P.x0) →
      body llt fuel s1 = some (r, s2) → s2.par = s.par ∧ s2.dx 0 = zeroV F P.ndx ∧ s2.xs 0 = P.x0 := by
    rintro s1 s2 r ⟨i1, i2, i3⟩ h
    cases body_cases h with
    | gaveUp hr hb =>
      obtain ⟨e1, e2, e3⟩ := retry_xs hr
      exact ⟨e3.trans i1, (retry_dx0 hr).trans i2, by rw [e1]; exact i3⟩
    | converged s3 hr hk hs hb =>
      obtain ⟨e1, e2, e3⟩ := retry_xs hr
      rw [hs]
      exact ⟨e3.trans i1, (retry_dx0 hr).trans i2, by change s3.xs 0 = _; rw [e1]; exact i3⟩
    | searched s3 hr hk hs hb =>
      obtain ⟨e1, e2, e3⟩ := retry_xs hr
      have d3 := (retry_dx0 hr).trans i2
      refine ⟨?_, ?_, ?_⟩
      · rw [hs, updateReg_frame par (fun _ _ _ => rfl), search_frame par (fun _ _ _ _ _ _ _ _ _ => rfl)
          (fun _ _ _ _ _ _ => rfl) (fun _ _ => rfl)]
        exact e3.trans i1
      · rw [hs, (updateReg_xs _).2.2.1, search_dx]; exact d3
      · rw [hs, (updateReg_xs _).1]
        obtain ⟨l1, l2⟩ := lineSearch_spec hT (checked s3).pushFilter.par.alphas (checked s3).pushFilter
        unfold search
        simp only []
        have hx3 : (checked s3).pushFilter.xs 0 = P.x0 := by change s3.xs 0 = _; rw [e1]; exact i3
        split
        · rename_i hf
          obtain ⟨pre, a, post, ha, _, _, hst⟩ := l1 hf
          rw [hst.xs 0 (Nat.zero_le _)]
          unfold stepX
          rw [hx3]
          change P.integrate P.x0 (sv a (s3.dx 0)) = _
          rw [d3]
          apply hint
          have : (checked s3).pushFilter.par.alphas = s.par.alphas := by
            change s3.par.alphas = _; rw [e3, i1]
          rw [this] at ha
          rw [ha]; simp
        · rename_i hf
          have := (l2 (by simpa using hf)).2.1
          simp only [core, Prod.mk.injEq] at this
          change (lineSearch _ _).2.xs 0 = _
          rw [this.1]; exact hx3
  have key := iterate_inv llt fuel
    (fun _ s1 => s1.par = s.par ∧ s1.dx 0 = zeroV F P.ndx ∧ s1.xs 0 = P.x0)
    (fun _ s1 => s1.par = s.par ∧ s1.dx 0 = zeroV F P.ndx ∧ s1.xs 0 = P.x0)
    (fun n s1 s2 hI h => (hb _ _ _ hI h :)) (fun n s1 b s2 hI h => hb _ _ _ hI h)
    n (s.start xs us ri) ⟨rfl, hdx, (by simp [SQP.start, SQP.setCandidate])⟩ r s1 h
  rcases key with ⟨_, h'⟩ | ⟨b', _, h'⟩
  · exact h'
  · exact h'

/-- **C07 (SQP).**  However `solve` returns, from every reachable solver state and for every initial guess, the returned
trajectory starts at the problem's initial state, provided that integrating a multiple of the zero displacement from
it returns it.  (A problem needs at least one running node: with none the code indexes out of range.) -/
theorem C07_sqp_initial_state (hT : 0 < P.T) (hs : Reachable s)
    (hint : ∀ a ∈ s.par.alphas, P.integrate P.x0 (sv a (zeroV F P.ndx)) = P.x0)
    (h : solve llt fuel xs us m ri s = some (b, s')) : s'.xs 0 = P.x0 := by
  rcases solve_cases h with h | ⟨s1, h1, h2⟩
  · exact (iterate_xs0 hT hs hint m _ _ h).2.2
  · have e1 := (iterate_xs0 hT hs hint m _ _ h1).2.2
    cases extra_cases h2 with
    | off he hb' hs => rw [hs]; exact e1
    | gaveUp he hr hb' => rw [(retry_xs hr).1]; exact e1
    | checked he s2 hr hs hb' => rw [hs]; change s2.xs 0 = _; rw [(retry_xs hr).1]; exact e1

end

section Exact
variable {K : Type} [Field K] [LinearOrder K] [IsStrictOrderedRing K] {P : Problem K}

theorem forUp_max_le (n : ℕ) (f : ℕ → K) (a c : K) :
    forUp n (fun t m => max m (f t)) a ≤ c ↔ a ≤ c ∧ ∀ t, t < n → f t ≤ c := by
  induction n with
  | zero => simp
  | succ n ih =>
    rw [forUp_succ, max_le_iff, ih]
    constructor
    · rintro ⟨⟨h1, h2⟩, h3⟩
      refine ⟨h1, fun t ht => ?_⟩
      rcases Nat.lt_succ_iff_lt_or_eq.mp ht with ht | rfl
      · exact h2 t ht
      · exact h3
    · rintro ⟨h1, h2⟩
      exact ⟨⟨h1, fun t ht => h2 t (Nat.lt_succ_of_lt ht)⟩, h2 n (Nat.lt_succ_self n)⟩

/-- **C02.**  In exact arithmetic, for a non-negative tolerance, the residual of `checkKKTConditions` is within the
tolerance iff every stationarity component and every component of every gap (the initial gap `fs 0` included) is. -/
theorem C02_sqp_residual_meaning (d : Data P) (fs lam : ℕ → Vec K P.ndx) (tol : K) (h0 : 0 ≤ tol) :
    kktResidual d fs lam ≤ tol ↔
      (∀ t, t < P.T → ∀ i, |((d.rd t).Lx + (d.rd t).Fxᵀ *ᵥ lam (t + 1) - lam t) i| ≤ tol) ∧
      (∀ t, t < P.T → ∀ i, |((d.rd t).Lu + (d.rd t).Fuᵀ *ᵥ lam (t + 1)) i| ≤ tol) ∧
      (∀ i, |(d.td.Lx - lam P.T) i| ≤ tol) ∧
      (∀ t, t ≤ P.T → ∀ i, |fs t i| ≤ tol) := by
  unfold kktResidual
  simp only [cppMax_exact, normInf_exact, mv_exact, max_assoc]
  rw [max_le_iff, max_le_iff, forUp_max_le, forUp_max_le]
  simp only [max_le_iff, exactNormInf_le, h0, true_and]
  constructor
  · rintro ⟨h1, h2, h3⟩
    exact ⟨fun t ht => (h1 t ht).1, fun t ht => (h1 t ht).2, h2, fun t ht => h3 t (Nat.lt_succ_of_le ht)⟩
  · rintro ⟨h1, h2, h3, h4⟩
    exact ⟨fun t ht => ⟨h1 t ht, h2 t ht⟩, h3, fun t ht => h4 t (Nat.le_of_lt_succ ht)⟩

end Exact

/-! ## The hypotheses can be met -/

namespace Ex

/-- C01, C08, C38: `solve` on a small LQ problem returns true at iteration 1, with residual 0 and two checks. -/
example : (SQP.solve llt1 20 none none 5 0 lqSolver).map
    (fun r => (r.1, r.2.iter, r.2.KKT, r.2.nKKT, r.2.nTry)) = some (true, 1, 0, 2, 1) := by decide +kernel

/-- C38 with two callbacks: four calls. -/
example : (SQP.solve llt1 20 none none 5 0 { lqSolver with ncb := 2 }).map (fun r => r.2.log.length) = some 4 := by
  decide +kernel

/-- C07: the guess does not start at `x0`, the result does. -/
example : (SQP.solve llt1 20 (some fun _ => (7 : ℚ)) none 5 0 lqSolver).map (fun r => (r.1, decide (r.2.xs 0 = (1 : ℚ))))
    = some (true, true) := by decide +kernel
example : ∀ a ∈ lqSolver.par.alphas, lq.integrate lq.x0 (sv a (zeroV ℚ lq.ndx)) = lq.x0 := by
  intro a _; simp [lq, scalar, sv, zeroV]

end Ex
end Mim
