import Verif.Props.DDPLine

/-!
# The stopping criterion of SolverDDP and SolverFDDP has no influence (C48)
-/
set_option linter.unusedSectionVars false
set_option linter.unusedSimpArgs false

namespace Mim
open Spec DDP Matrix

/-! ## C48, non-interference -/
section
variable {F : Type} [Add F] [Sub F] [Mul F] [Div F] [Neg F] [Zero F] [One F] [FloatOps F] {P : Problem F}
variable {k : Kind P} {llt : LLT F} {fuel : ℕ} {xs : Option (Traj P)} {us : Option (Ctrls P)} {m : ℕ} {fe : Bool} {ri : F}

/-- the same solver with another value of `get_stop()`. -/
def withStop (v : F) (s : DDP P) : DDP P := { s with m := { s.m with stop := v } }

theorem Res.bind_map {S : Type} {r : Res S} {f : S → Res S} {g : S → S} (hf : ∀ s, f (g s) = (f s).map g) :
    (r.map g).bind f = (r.bind f).map g := by
  cases r with
  | ok s => exact hf s
  | exn s => rfl

theorem forUpR_map {S : Type} {f : ℕ → S → Res S} {g : S → S} (hf : ∀ t s, f t (g s) = (f t s).map g) (n : ℕ) (s : S) :
    forUpR n f (g s) = (forUpR n f s).map g := by
  induction n with
  | zero => rfl
  | succ n ih => rw [forUpR_succ, forUpR_succ, ih, Res.bind_map (hf n)]

theorem Res.throwIf_map {S : Type} (c : Bool) (s : S) (g : S → S) : Res.throwIf c (g s) = (Res.throwIf c s).map g := by
  cases c <;> rfl

/-- functions of a solver that neither read nor write `stop_`. -/
structure DDP.Kind.NoStop (k : Kind P) : Prop where
  dir : ∀ llt r v s, k.dir llt r (withStop v s) = (k.dir llt r s).map (withStop v)
  improve : ∀ v s, k.improve (withStop v s) = withStop v (k.improve s)
  push : ∀ v s, k.push (withStop v s) = withStop v (k.push s)
  trial : ∀ a v s, k.trial a (withStop v s) = (k.trial a s).map (withStop v)
  test : ∀ a v s, k.test a (withStop v s) = ((k.test a s).1, withStop v (k.test a s).2)
  commit : ∀ a v s, k.commit a (withStop v s) = withStop v (k.commit a s)

theorem map_map {S R Q : Type} (r : Res S) (f : S → R) (g : R → Q) : (r.map f).map g = r.map (g ∘ f) := by cases r <;> rfl

theorem ddp_noStop : (ddp P).NoStop where
  dir llt r v s := by
    cases r <;> (change Res.map _ _ = (Res.map _ _).map _; rw [map_map]; rfl)
  improve v s := rfl
  push v s := rfl
  trial a v s := by
    change tryDDP a _ = (tryDDP a s).map _
    unfold tryDDP
    split
    · rfl
    · have h1 := forUpR_map (f := stageDDP (P := P) a) (g := withStop v)
        (fun t s => by unfold stageDDP; simp only []; rw [← Res.throwIf_map]; rfl) P.T
        { s with y := { s.y with cost := 0 } }
      have h2 : ∀ s : DDP P, finishDDP (withStop v s) = (finishDDP s).map (withStop v) := fun s => by
        unfold finishDDP; simp only []; rw [← Res.throwIf_map]; rfl
      change ((forUpR P.T (stageDDP a) (withStop v { s with y := { s.y with cost := 0 } })).bind finishDDP).bind _ = _
      rw [h1, Res.bind_map h2, Res.bind_map]
      intro s; rfl
  test a v s := rfl
  commit a v s := rfl

theorem fddp_noStop : (fddp P).NoStop where
  dir llt r v s := by
    cases r <;> (change Res.map _ _ = (Res.map _ _).map _; rw [map_map]; rfl)
  improve v s := rfl
  push v s := rfl
  trial a v s := by
    change tryFDDP a _ = (tryFDDP a s).map _
    unfold tryFDDP
    split
    · rfl
    · have h1 := forUpR_map (f := stageFDDP (P := P) (s.feas || eqb a 1) a) (g := withStop v)
        (fun t s' => by unfold stageFDDP; simp only []; rw [← Res.throwIf_map]; rfl) P.T
        { s with y := { s.y with cost := 0, gap := 0, xnext := P.x0 } }
      have h2 : ∀ s' : DDP P, finishFDDP (s.feas || eqb a 1) a (withStop v s') =
          (finishFDDP (s.feas || eqb a 1) a s').map (withStop v) := fun s => by
        unfold finishFDDP; simp only []; rw [← Res.throwIf_map]; rfl
      change ((forUpR P.T (stageFDDP (s.feas || eqb a 1) a)
        (withStop v { s with y := { s.y with cost := 0, gap := 0, xnext := P.x0 } })).bind
          (finishFDDP (s.feas || eqb a 1) a)).bind _ = _
      rw [h1, Res.bind_map h2, Res.bind_map]
      intro s; rfl
  test a v s := by
    change testFDDP a _ = _
    change _ = ((testFDDP a s).1, withStop v (testFDDP a s).2)
    unfold testFDDP
    cases h : s.c.useFilter
    · simp only [withStop, h]; rfl
    · simp only [withStop, h]; rfl
  commit a v s := by
    change commitFDDP a _ = withStop v (commitFDDP a s)
    unfold commitFDDP
    cases h : s.c.useFilter
    · simp only [withStop, h]; rfl
    · simp only [withStop, h]; rfl

theorem DDP.IsSolver.noStop (h : IsSolver k) : k.NoStop := by
  rcases h with rfl | rfl
  exacts [ddp_noStop, fddp_noStop]

theorem retry_noStop (hk : k.NoStop) (v : F) (n : ℕ) (s : DDP P) :
    retry k llt n (withStop v s) = (retry k llt n s).map fun r => (r.1, withStop v r.2) := by
  induction n generalizing s with
  | zero => rfl
  | succ n ih =>
    unfold retry
    rw [show k.dir llt (withStop v s).recalc (withStop v s) = (k.dir llt s.recalc s).map (withStop v) from hk.dir llt _ v s]
    cases k.dir llt s.recalc s with
    | ok s1 => rfl
    | exn s1 =>
      simp only [Res.map]
      change (if eqb (increaseReg { s1 with recalc := false }).preg s1.c.par.regMax = true then _
        else retry k llt n (withStop v (increaseReg { s1 with recalc := false }))) = _
      rw [ih]
      split
      · rename_i h; rw [if_pos (by exact h)]; rfl
      · rename_i h; rw [if_neg (by exact h)]

theorem lineSearch_noStop (hk : k.NoStop) (v : F) (as : List F) (s : DDP P) :
    lineSearch k as (withStop v s) = ((lineSearch k as s).1, withStop v (lineSearch k as s).2) := by
  induction as generalizing s with
  | nil => rfl
  | cons a as ih =>
    unfold lineSearch
    rw [show k.trial a { withStop v s with steplength := a, nTry := (withStop v s).nTry + 1 } =
      (k.trial a { s with steplength := a, nTry := s.nTry + 1 }).map (withStop v) from
        hk.trial a v { s with steplength := a, nTry := s.nTry + 1 }]
    cases k.trial a { s with steplength := a, nTry := s.nTry + 1 } with
    | exn s1 => exact ih s1
    | ok s1 =>
      simp only [Res.map]
      rw [hk.test]
      simp only []
      split
      · rw [hk.commit]; rfl
      · exact ih _

theorem search_noStop (hk : k.NoStop) (v : F) (s : DDP P) : search k (withStop v s) = withStop v (search k s) := by
  unfold search
  have h := lineSearch_noStop hk v s.c.par.alphas { s with recalc := false }
  simp only []
  change (if (lineSearch k s.c.par.alphas (withStop v { s with recalc := false })).1 = true then
    (lineSearch k s.c.par.alphas (withStop v { s with recalc := false })).2
    else { (lineSearch k s.c.par.alphas (withStop v { s with recalc := false })).2 with
      nRej := (lineSearch k s.c.par.alphas (withStop v { s with recalc := false })).2.nRej + 1 }) = _
  rw [h]
  simp only []
  split <;> rfl

theorem updateReg_noStop (v : F) (s : DDP P) : updateReg (withStop v s) = ((updateReg s).1, withStop v (updateReg s).2) := by
  unfold updateReg
  simp only []
  by_cases h1 : ltb s.c.par.thStepDec s.steplength = true <;> by_cases h2 : leb s.steplength s.c.par.thStepInc = true
  all_goals (simp [withStop, h1, h2, increaseReg, decreaseReg])

theorem body_noStop (hk : k.NoStop) (v : F) (s : DDP P) :
    (body k llt fuel (withStop v s)).map (fun r => (r.1, withStop 0 r.2)) =
    (body k llt fuel s).map (fun r => (r.1, withStop 0 r.2)) := by
  unfold body
  rw [retry_noStop hk]
  cases hr : retry k llt fuel s with
  | none => rfl
  | some r =>
    obtain ⟨b, s1⟩ := r
    cases b with
    | false => rfl
    | true =>
      simp only [Option.map]
      rw [hk.improve]
      change Option.map _ (if leb (checkKKT (k.improve s1)).m.KKT (checkKKT (k.improve s1)).c.tol = true then _ else _) = _
      split
      · rfl
      · have e : updateReg (search k (k.push (withStop v (k.improve s1)).checkKKT)) =
            ((updateReg (search k (k.push (k.improve s1).checkKKT))).1,
              withStop v (updateReg (search k (k.push (k.improve s1).checkKKT))).2) := by
          rw [show (withStop v (k.improve s1)).checkKKT = withStop v (k.improve s1).checkKKT from rfl,
            hk.push, search_noStop hk, updateReg_noStop]
        rw [e]
        simp only []
        split
        · rfl
        · rfl

/-- **C48, non-interference.**  At every iteration of a solve, replacing the stopping criterion by any other value changes
neither the return value of the rest of the run nor anything it leaves behind, except the criterion itself. -/
theorem C48_stop_noninterference (hk : IsSolver k) (v w : F) (n : ℕ) (s : DDP P) :
    (iterate k llt fuel n (withStop v s)).map (fun r => (r.1, withStop 0 r.2)) =
    (iterate k llt fuel n (withStop w s)).map (fun r => (r.1, withStop 0 r.2)) := by
  suffices h : ∀ (v : F) (n : ℕ) (s : DDP P), (iterate k llt fuel n (withStop v s)).map (fun r => (r.1, withStop 0 r.2)) =
      (iterate k llt fuel n (withStop 0 s)).map (fun r => (r.1, withStop 0 r.2)) by rw [h v, h w]
  intro v n
  induction n generalizing v with
  | zero => intro s; rfl
  | succ n ih =>
    intro s
    have hb := body_noStop hk.noStop (llt := llt) (fuel := fuel) v s
    have hb0 := body_noStop hk.noStop (llt := llt) (fuel := fuel) 0 s
    rw [← hb0] at hb
    unfold iterate
    cases h1 : body k llt fuel (withStop v s) with
    | none =>
      cases h2 : body k llt fuel (withStop 0 s) with
      | none => rfl
      | some r2 => rw [h1, h2] at hb; cases hb
    | some r1 =>
      cases h2 : body k llt fuel (withStop 0 s) with
      | none => rw [h1, h2] at hb; cases hb
      | some r2 =>
        rw [h1, h2] at hb
        obtain ⟨b1, s1⟩ := r1
        obtain ⟨b2, s2⟩ := r2
        simp only [Option.map, Option.some.injEq, Prod.mk.injEq] at hb
        obtain ⟨rfl, hs⟩ := hb
        cases b1 with
        | some b => simp only [Option.map, hs]
        | none =>
          simp only []
          have e1 : ({ s1 with iter := s1.iter + 1 } : DDP P) = withStop s1.m.stop { withStop 0 s1 with iter := s1.iter + 1 } := rfl
          have e2 : ({ s2 with iter := s2.iter + 1 } : DDP P) = withStop s2.m.stop { withStop 0 s2 with iter := s2.iter + 1 } := rfl
          have hi : (withStop 0 s1).iter = (withStop 0 s2).iter := by rw [hs]
          have hi : s1.iter = s2.iter := hi
          rw [e1, e2, hs, hi, ih s1.m.stop, ih s2.m.stop]

end


namespace Ex

/-- C48: a run from two different values of the criterion: the same return value, state and final criterion. -/
example : (DDP.iterate (ddp lq) llt1 20 3 (withStop 7 (lqDDP.start none none false 0))).map (fun r => (r.1, r.2.m.stop, r.2.e.cost)) =
    (DDP.iterate (ddp lq) llt1 20 3 (withStop 5 (lqDDP.start none none false 0))).map (fun r => (r.1, r.2.m.stop, r.2.e.cost)) := by
  decide +kernel

end Ex
end Mim
