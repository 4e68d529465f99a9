import Verif.Lemmas.DDPLine

/-!
# The multipliers a forward pass of FDDP leaves behind
-/
set_option linter.unusedSectionVars false
set_option linter.unusedSimpArgs false

namespace Mim.DDP
open Spec
section
variable {F : Type} [Add F] [Sub F] [Mul F] [Div F] [Neg F] [Zero F] [One F] [FloatOps F] {P : Problem F}

/-- the state difference from which FDDP computes the multiplier of node `t`: the stored one, minus the gap if the trial leaves it open. -/
def multArg (roll : Bool) (s : DDP P) (d : Vec F P.ndx) (t : ℕ) : Vec F P.ndx := if roll then d else d - s.e.fs t

/-- after `n` nodes of the forward pass. -/
structure MultInvF (roll : Bool) (s : DDP P) (n : ℕ) (s1 : DDP P) : Prop where
  frame : ∃ y, s1 = { s with y := y }
  dx : ∀ t, t < n → s1.y.dx t = P.diff (s.xs t) (s1.y.xs t)
  old : ∀ t, n ≤ t → s1.y.dx t = s.y.dx t
  lag : ∀ t, t < n → s1.y.lagMul t = mv (s.e.bp.Vxx t) (multArg roll s (s.y.dx t) t) + s.e.bp.Vx t

theorem multArg_lag (roll : Bool) (s : DDP P) (d : Vec F P.ndx) (t : ℕ) :
    (if roll then mv (s.e.bp.Vxx t) d + s.e.bp.Vx t else mv (s.e.bp.Vxx t) (d - s.e.fs t) + s.e.bp.Vx t) =
      mv (s.e.bp.Vxx t) (multArg roll s d t) + s.e.bp.Vx t := by
  unfold multArg; cases roll <;> rfl

theorem stageFDDP_mult {s s1 s2 : DDP P} {roll : Bool} {a : F} {n : ℕ} (h : MultInvF roll s n s1) (h2 : stageFDDP roll a n s1 = .ok s2) :
    MultInvF roll s (n + 1) s2 := by
  unfold stageFDDP at h2
  obtain ⟨_, rfl⟩ := Res.throwIf_eq_ok h2
  obtain ⟨y, hy⟩ := h.frame
  have hx : s1.xs = s.xs := by rw [hy]
  have hb : s1.e = s.e := by rw [hy]
  have hm : ∀ d t, multArg roll s1 d t = multArg roll s d t := fun d t => by unfold multArg; rw [hb]
  refine ⟨⟨nodeFDDP roll a n s1, by rw [hy]⟩, fun t ht => ?_, fun t ht => ?_, fun t ht => ?_⟩
  · change Function.update s1.y.dx n (P.diff (s1.xs n) _) t = P.diff (s.xs t) (Function.update (β := fun _ => P.X) s1.y.xs n _ t)
    rcases Nat.lt_or_eq_of_le (Nat.le_of_lt_succ ht) with h' | rfl
    · rw [Function.update_of_ne (show t ≠ n by omega), Function.update_of_ne (show t ≠ n by omega)]; exact h.dx t h'
    · rw [Function.update_self, Function.update_self, hx]
  · change Function.update s1.y.dx n _ t = _
    rw [Function.update_of_ne (by omega)]; exact h.old t (by omega)
  · change Function.update s1.y.lagMul n (if roll then mv (s1.e.bp.Vxx n) (s1.y.dx n) + s1.e.bp.Vx n
      else mv (s1.e.bp.Vxx n) (s1.y.dx n - s1.e.fs n) + s1.e.bp.Vx n) t = _
    rcases Nat.lt_or_eq_of_le (Nat.le_of_lt_succ ht) with h' | rfl
    · rw [Function.update_of_ne (by omega)]; exact h.lag t h'
    · rw [Function.update_self, multArg_lag, hm, hb, h.old t le_rfl]

theorem loopFDDP_mult {s s1 : DDP P} {roll : Bool} {a : F} (n : ℕ) {c g : F} {x : P.X}
    (h : forUpR n (stageFDDP roll a) { s with y := { s.y with cost := c, gap := g, xnext := x } } = .ok s1) : MultInvF roll s n s1 := by
  induction n generalizing s1 with
  | zero =>
    cases h
    exact ⟨⟨_, rfl⟩, fun t ht => by omega, fun _ _ => rfl, fun t ht => by omega⟩
  | succ n ih =>
    rw [forUpR_succ] at h
    cases e : forUpR n (stageFDDP roll a) { s with y := { s.y with cost := c, gap := g, xnext := x } } with
    | exn s2 => rw [e] at h; cases h
    | ok s2 =>
      rw [e, Res.bind_ok] at h
      exact stageFDDP_mult (ih e) h

/-- **The multipliers of a forward pass of FDDP** are computed with the state differences stored before it (except the last one,
computed with this pass's difference at node `T - 1`). -/
theorem tryFDDP_mult {s s1 : DDP P} {a : F} (hT : 0 < P.T) (h : tryFDDP a s = .ok s1) :
    (∀ t, t < P.T → s1.y.dx t = P.diff (s.xs t) (s1.y.xs t)) ∧
    (∀ t, t < P.T → s1.y.lagMul t = mv (s.e.bp.Vxx t) (multArg (s.closes a) s (s.y.dx t) t) + s.e.bp.Vx t) ∧
    s1.y.lagMul P.T = mv (s.e.bp.Vxx P.T) (multArg (s.closes a) s (s1.y.dx (P.T - 1)) P.T) + s.e.bp.Vx P.T := by
  unfold tryFDDP at h
  split at h
  · cases h
  have hcl : (s.feas || eqb a 1) = s.closes a := rfl
  simp only [hcl] at h
  generalize s.closes a = roll at h ⊢
  cases e : forUpR P.T (stageFDDP roll a) { s with y := { s.y with cost := 0, gap := 0, xnext := P.x0 } } with
  | exn s2 => rw [e] at h; cases h
  | ok s2 =>
    have hI := loopFDDP_mult P.T e
    rw [e, Res.bind_ok] at h
    unfold finishFDDP at h
    simp only [] at h
    generalize hx : (if roll = true then s2.y.xnext else P.integrate s2.y.xnext (sv (a - 1) (s2.e.fs P.T))) = x at h
    cases hb : bad (s2.y.cost + (s2.y.data.calcTer x).ter.cost)
    · rw [hb] at h
      simp only [Res.throwIf, Bool.false_eq_true, if_false, Res.bind_ok] at h
      cases h
      obtain ⟨y, hy⟩ := hI.frame
      have hb : s2.e = s.e := by rw [hy]
      refine ⟨fun t ht => ?_, fun t ht => ?_, ?_⟩
      · change s2.y.dx t = P.diff (s.xs t) (Function.update (β := fun _ => P.X) s2.y.xs P.T x t)
        rw [Function.update_of_ne (by omega)]; exact hI.dx t ht
      · change Function.update s2.y.lagMul P.T _ t = _
        rw [Function.update_of_ne (by omega)]; exact hI.lag t ht
      · change Function.update s2.y.lagMul P.T _ P.T = mv _ (multArg roll s (s2.y.dx (P.T - 1)) P.T) + _
        rw [Function.update_self, multArg_lag, hb]
        unfold multArg; rw [hb]
    · rw [hb] at h; cases h

end
end Mim.DDP
