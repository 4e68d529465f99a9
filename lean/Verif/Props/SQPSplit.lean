import Verif.Lemmas.SQPSplit
import Verif.Props.SQPLine
import Verif.Props.SQPReturn
import Verif.Lemmas.SQPFrame
import Verif.Lemmas.SQPLoop
import Verif.Props.SQPReg
import Verif.Spec.Examples

/-!
# C102: a solve may be split into several calls
-/
set_option autoImplicit false
set_option linter.unusedSectionVars false
set_option linter.unusedSimpArgs false

namespace Mim
namespace Spec
section
variable {F : Type} {P : Problem F}

/-- two solvers hold the same trajectory. -/
structure SameTraj (s s' : SQP P) : Prop where
  xs : ∀ t, t ≤ P.T → s.xs t = s'.xs t
  us : ∀ t, t < P.T → s.us t = s'.us t

/-- … and report the same cost, violation, residual, multipliers, feedback policy, direction and regularization. -/
structure SameReport (s s' : SQP P) : Prop extends SameTraj s s' where
  cost : s.cost = s'.cost
  gap : s.gap = s'.gap
  merit : s.merit = s'.merit
  KKT : s.KKT = s'.KKT
  lag : ∀ t, t ≤ P.T → s.lagMul t = s'.lagMul t
  gains : ∀ t, t < P.T → s.bp.K t = s'.bp.K t ∧ s.bp.k t = s'.bp.k t
  dx : ∀ t, t ≤ P.T → s.dx t = s'.dx t
  du : ∀ t, t < P.T → s.du t = s'.du t
  preg : s.preg = s'.preg
end
end Spec

section
variable {F : Type} [Add F] [Sub F] [Mul F] [Div F] [Neg F] [Zero F] [One F] [FloatOps F] {P : Problem F}
open SQP Spec
variable {llt : LLT F} {fuel m m1 m2 : ℕ} {xs : Option (Traj P)} {us : Option (Ctrls P)} {ri : F} {s a : SQP P} {r : Bool}

namespace SQP.Split

theorem iterate_succ (n : ℕ) (s : SQP P) : iterate llt fuel (n + 1) s =
    match body llt fuel s with
    | none => none
    | some (some b, s) => some (some b, s)
    | some (none, s) => iterate llt fuel n { s with iter := s.iter + 1 } := rfl

/-- the settings `extra`, `useFilter`, `filterSize`. -/
def cfg (s : SQP P) := (s.extra, s.useFilter, s.filterSize)

theorem iterate_cfg (n : ℕ) : ∀ (s x : SQP P) (q : Option Bool), iterate llt fuel n s = some (q, x) → cfg x = cfg s := by
  induction n with
  | zero => intro s x q h; simp only [iterate, Option.some.injEq, Prod.mk.injEq] at h; rw [h.2]
  | succ n ih =>
    intro s x q h
    rw [iterate_succ] at h
    have hb : ∀ q x, body llt fuel s = some (q, x) → cfg x = cfg s := fun q x hx =>
      body_frame cfg (fun _ _ _ _ _ _ _ _ _ _ _ _ => rfl) (fun _ _ _ => rfl) (fun _ _ _ _ _ _ _ _ _ => rfl) (fun _ _ _ _ _ _ => rfl)
        (fun _ _ _ _ => rfl) (fun _ _ _ _ => rfl) (fun _ _ => rfl) hx
    split at h
    · cases h
    · rename_i q y hy
      simp only [Option.some.injEq, Prod.mk.injEq] at h
      rw [← h.2]; exact hb _ _ hy
    · rename_i y hy
      have e1 := ih { y with iter := y.iter + 1 } x q h
      have e2 : cfg { y with iter := y.iter + 1 } = cfg y := rfl
      exact (e1.trans e2).trans (hb _ _ hy)

theorem iterate_add (m1 m2 : ℕ) (s : SQP P) : iterate llt fuel (m1 + m2) s =
    match iterate llt fuel m1 s with
    | none => none
    | some (some b, a) => some (some b, a)
    | some (none, a) => iterate llt fuel m2 a := by
  induction m1 generalizing s with
  | zero => rw [Nat.zero_add]; rfl
  | succ n ih =>
    rw [show n + 1 + m2 = (n + m2) + 1 by omega]
    rw [iterate_succ, iterate_succ]
    cases body llt fuel s with
    | none => rfl
    | some x =>
      obtain ⟨r, x⟩ := x
      cases r with
      | some b => rfl
      | none =>
        simp only []
        exact ih _

theorem iter_of_iterate {n : ℕ} {s a : SQP P} {r : Option Bool} (h : iterate llt fuel n s = some (r, a)) :
    (r = none ∧ a.iter = s.iter + n) ∨ (r ≠ none ∧ a.iter < s.iter + n) := by
  induction n generalizing s with
  | zero =>
    simp only [iterate, Option.some.injEq, Prod.mk.injEq] at h
    obtain ⟨rfl, rfl⟩ := h
    exact .inl ⟨rfl, rfl⟩
  | succ n ih =>
    unfold iterate at h
    have hb : ∀ q x, body llt fuel s = some (q, x) → x.iter = s.iter := fun q x hx =>
      body_frame iter (fun _ _ _ _ _ _ _ _ _ _ _ _ => rfl) (fun _ _ _ => rfl) (fun _ _ _ _ _ _ _ _ _ => rfl) (fun _ _ _ _ _ _ => rfl)
        (fun _ _ _ _ => rfl) (fun _ _ _ _ => rfl) (fun _ _ => rfl) hx
    split at h
    · cases h
    · rename_i q x hx
      simp only [Option.some.injEq, Prod.mk.injEq] at h
      obtain ⟨rfl, rfl⟩ := h
      exact .inr ⟨nofun, by rw [hb _ _ hx]; omega⟩
    · rename_i x hx
      have := ih h
      have e := hb _ _ hx
      simp only [e] at this
      rcases this with ⟨h1, h2⟩ | ⟨h1, h2⟩
      · exact .inl ⟨h1, by omega⟩
      · exact .inr ⟨h1, by omega⟩

/-- a call that used all its iterations. -/
theorem limit {s a : SQP P} (hex : s.extra = false) (h : solve llt fuel xs us m ri s = some (r, a)) (hi : a.iter = m) :
    iterate llt fuel m (s.start xs us ri) = some (none, a) ∧ r = false := by
  unfold solve at h
  have hs : (s.start xs us ri).iter = 0 := rfl
  split at h
  · cases h
  · rename_i q x hx
    simp only [Option.some.injEq, Prod.mk.injEq] at h
    obtain ⟨rfl, rfl⟩ := h
    rcases iter_of_iterate hx with ⟨h1, _⟩ | ⟨_, h2⟩
    · cases h1
    · omega
  · rename_i x hx
    have e : x.extra = s.extra := by
      have := iterate_cfg _ _ _ _ hx
      simp only [cfg, Prod.mk.injEq] at this
      exact this.1
    unfold extraIter at h
    rw [e, hex, if_neg (by simp)] at h
    simp only [Option.some.injEq, Prod.mk.injEq] at h
    exact ⟨by rw [hx, h.2], h.1.symm⟩

/-- at the head of every iteration of a solve the candidate is marked infeasible. -/
theorem iterate_feas {s s1 : SQP P} (n : ℕ) (h : iterate llt fuel n (s.start xs us ri) = some (none, s1)) : s1.feas = false := by
  have hs : ∀ s : SQP P, s.feas = false → (search s).feas = false := by
    intro s hf
    have hl : ∀ as (s : SQP P), s.feas = false → (lineSearch as s).2.feas = false := by
      intro as
      induction as with
      | nil => intro s h; exact h
      | cons a as ih =>
        intro s h
        have ht := tryStep_frame (P := P) feas (fun _ _ _ _ _ _ _ _ _ => rfl) a { s with steplength := a }
        unfold lineSearch
        split
        · rename_i s2 hs2
          rw [hs2] at ht
          exact ih _ (ht.trans h)
        · rename_i s2 hs2
          rw [hs2] at ht
          simp only []
          split
          · split
            · exact ih _ (ht.trans h)
            · rfl
          · split
            · rfl
            · exact ih _ (ht.trans h)
    unfold search
    simp only []
    split
    · exact hl _ _ hf
    · exact (hl _ _ hf :)
  have hr : ∀ {b} {s s1 : SQP P}, retry llt fuel true s = some (b, s1) → s1.feas = s.feas := fun h =>
    retry_frame feas (fun _ _ _ _ _ _ _ _ _ _ _ _ => rfl) (fun _ _ _ => rfl) _ _ _ _ _ _ h
  rcases iterate_inv llt fuel (fun _ s1 => s1.feas = false) (fun _ _ => True) (fun n s1 s2 hI h => by
    change s2.feas = false
    cases body_cases h with
    | gaveUp h1 hb => cases hb
    | converged s3 h1 hk hs' hb => cases hb
    | searched s3 h1 hk hs' hb =>
      rw [hs', updateReg_frame feas (fun _ _ _ => rfl)]
      exact hs _ ((hr h1).trans hI)) (fun _ _ _ _ _ _ => trivial) n (s.start xs us ri) rfl none s1 h with ⟨_, h⟩ | ⟨_, h, _⟩
  · exact h
  · cases h

theorem Alike.traj {s s' : SQP P} (h : Alike s s') : SameTraj s s' := ⟨h.xs, h.us⟩

theorem Dir.report {s s' : SQP P} (h : Dir s s') (hk : s.KKT = s'.KKT) : SameReport s s' :=
  ⟨h.toAlike.traj, h.cost, h.gap, h.merit, hk, h.lag, fun t ht => ⟨h.bp.K t (by omega) ht, h.bp.k t (by omega) ht⟩, h.dx, h.du,
    (ctl_all h.ctl).2.2.2.2.2.2.2.1⟩

end SQP.Split

open SQP.Split in
/-- C102.  Suppose a call of `solve` with `maxiter = m1` used all its iterations and every line search found a step.  Calling `solve` again with
`maxiter = m2`, the trajectory held by the solver as the guess and its regularization as `reginit`, gives what a single call with
`maxiter = m1 + m2` would have given: the same return value and trajectory, and if it converges the same cost, residual, multipliers, policy and
direction.  (Merit function, or filter of the default size 1; no extra iteration; any arithmetic.) -/
theorem C102_sqp_split (hT : 0 < P.T) (hs : Reachable s) (ha : s.par.alphas ≠ [])
    (hint : ∀ a ∈ s.par.alphas, P.integrate P.x0 (sv a (zeroV F P.ndx)) = P.x0)
    (hf : s.useFilter = false ∨ s.filterSize ≤ 1) (hex : s.extra = false)
    (h1 : solve llt fuel xs us m1 ri s = some (r, a)) (hi : a.iter = m1) (hacc : a.nRej = s.nRej) (hn : isnan a.preg = false) :
    (solve llt fuel xs us (m1 + m2) ri s = none ∧ solve llt fuel (some a.xs) (some a.us) m2 a.preg a = none) ∨
    ∃ q b c, solve llt fuel xs us (m1 + m2) ri s = some (q, b) ∧ solve llt fuel (some a.xs) (some a.us) m2 a.preg a = some (q, c) ∧
      SameTraj b c ∧ (q = true → SameReport b c) := by
  obtain ⟨h2, rfl⟩ := limit hex h1 hi
  obtain ⟨x1, x2, x3⟩ := iterate_xs0 hT hs hint m1 none a h2
  have hd := C10_sqp_preg_eq_dreg h1
  have hfe := SQP.Split.iterate_feas m1 h2
  have hfr := ((iterate_fresh hT (s.start xs us ri) rfl m1 none a h2).1 rfl).2 hacc
  have hcf : a.useFilter = s.useFilter ∧ a.filterSize = s.filterSize := by
    have := iterate_cfg _ _ _ _ h2
    simp only [cfg, Prod.mk.injEq] at this
    exact ⟨this.2.1, this.2.2⟩
  have hh : Head a (a.start (some a.xs) (some a.us) a.preg) := by
    have hx : ∀ t, a.xs t = (a.start (some a.xs) (some a.us) a.preg).xs t := by
      intro t
      change a.xs t = Function.update a.xs 0 P.x0 t
      by_cases h0 : t = 0
      · subst h0; rw [Function.update_self]; exact x3
      · rw [Function.update_of_ne h0]
    refine ⟨⟨?_, fun t _ => hx t, fun t _ => rfl, rfl, by rw [hcf.1, hcf.2]; exact hf⟩, .inl ⟨hfr, .inl rfl⟩⟩
    simp only [SQP.Split.ctl, start, setCandidate, initReg, hn, Bool.false_eq_true, if_false, hd, hfe]
  have e : solve llt fuel xs us (m1 + m2) ri s = match iterate llt fuel m2 a with
      | none => none
      | some (some b, s) => some (b, s)
      | some (none, s) => extraIter llt fuel s := by
    unfold solve
    rw [iterate_add, h2]
    rfl
  rw [e]
  unfold solve
  rcases iterate_alike llt fuel hT m2 (by rw [x1]; exact ha) hh with
    ⟨e1, e2⟩ | ⟨b, c, e1, e2, hd, hk⟩ | ⟨b, c, e1, e2, hd⟩ | ⟨b, c, e1, e2, hd⟩
  · rw [e1, e2]; exact .inl ⟨rfl, rfl⟩
  · rw [e1, e2]; exact .inr ⟨true, b, c, rfl, rfl, hd.toAlike.traj, fun _ => hd.report hk⟩
  · rw [e1, e2]; exact .inr ⟨false, b, c, rfl, rfl, hd.traj, nofun⟩
  · rw [e1, e2]
    rcases extraIter_alike llt fuel hd with ⟨e1, e2⟩ | ⟨q, b, c, e1, e2, h3, h4⟩
    · exact .inl ⟨e1, e2⟩
    · exact .inr ⟨q, b, c, e1, e2, h3.traj, fun hq => (h4 hq).1.report (h4 hq).2⟩

end

namespace Ex
open SQP Spec

/-- C102 on the scalar problem: one iteration, then at most two more. -/
theorem C102_example : ∃ a, solve llt1 20 none none 1 0 lqSolver = some (false, a) ∧
    ∃ b c, solve llt1 20 none none (1 + 2) 0 lqSolver = some (true, b) ∧ solve llt1 20 (some a.xs) (some a.us) 2 a.preg a = some (true, c) ∧
      SameReport b c ∧ b.xs 1 = (2 / 5 : ℚ) := by
  have hrun : (solve llt1 20 none none 1 0 lqSolver).map (fun r => (r.1, r.2.iter, r.2.nRej)) = some (false, 1, 0) := by decide +kernel
  have hall : (solve llt1 20 none none (1 + 2) 0 lqSolver).map (fun r => (r.1, (r.2.xs 1 : ℚ))) = some (true, (2 / 5 : ℚ)) := by decide +kernel
  cases h1 : solve llt1 20 none none 1 0 lqSolver with
  | none => rw [h1] at hrun; cases hrun
  | some x =>
    obtain ⟨r, a⟩ := x
    rw [h1] at hrun
    simp only [Option.map_some, Option.some.injEq, Prod.mk.injEq] at hrun
    obtain ⟨rfl, hi, hr⟩ := hrun
    refine ⟨a, rfl, ?_⟩
    rcases C102_sqp_split (s := lqSolver) (m2 := 2) (by decide) (.new _) (by decide) (fun a _ => by simp [lq, scalar, sv, zeroV]) (.inr le_rfl) rfl h1 hi hr rfl with
      ⟨e1, _⟩ | ⟨q, b, c, e1, e2, _, h⟩
    · rw [e1] at hall; cases hall
    · rw [e1] at hall
      have hall := Option.some.inj hall
      have hq : q = true := congrArg Prod.fst hall
      have hx : b.xs 1 = (2 / 5 : ℚ) := congrArg Prod.snd hall
      subst hq
      exact ⟨b, c, e1, e2, h rfl, hx⟩

/-- the hypothesis on the line searches cannot be dropped: on the problem `stale` of C17 one call with two iterations returns true (from the outdated
data of a refused trial), two calls with one iteration each return false. -/
theorem C102_split_after_failed_search :
    ((solve llt1 20 (some staleGuess) none (1 + 1) 0 (SQP.new (Data.zero stale))).map fun r => r.1) = some true ∧
    (((solve llt1 20 (some staleGuess) none 1 0 (SQP.new (Data.zero stale))).bind fun a =>
      solve llt1 20 (some a.2.xs) (some a.2.us) 1 a.2.preg a.2).map fun r => r.1) = some false := by
  refine ⟨by decide +kernel, by decide +kernel⟩
end Ex
end Mim
