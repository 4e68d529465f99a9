import Verif.Lemmas.DDPLine

/-!
# The multipliers a forward pass of DDP leaves behind
-/
set_option linter.unusedSectionVars false
set_option linter.unusedSimpArgs false

namespace Mim.DDP
open Spec
section
variable {F : Type} [Add F] [Sub F] [Mul F] [Div F] [Neg F] [Zero F] [One F] [FloatOps F] {P : Problem F}

/-- after `n` nodes of the forward pass. -/
structure MultInv (s : DDP P) (n : ℕ) (s1 : DDP P) : Prop where
  frame : ∃ y, s1 = { s with y := y }
  dx : ∀ t, t < n → s1.y.dx t = P.diff (s.xs t) (s1.y.xs t)
  old : ∀ t, n ≤ t → s1.y.dx t = s.y.dx t
  lag : ∀ t, t < n → s1.y.lagMul t = mv (s.e.bp.Vxx t) (s.y.dx t) + s.e.bp.Vx t

theorem stageDDP_mult {s s1 s2 : DDP P} {a : F} {n : ℕ} (h : MultInv s n s1) (h2 : stageDDP a n s1 = .ok s2) :
    MultInv s (n + 1) s2 := by
  unfold stageDDP at h2
  obtain ⟨_, rfl⟩ := Res.throwIf_eq_ok h2
  obtain ⟨y, hy⟩ := h.frame
  have hx : s1.xs = s.xs := by rw [hy]
  have hb : s1.e = s.e := by rw [hy]
  refine ⟨⟨nodeDDP a n s1, by rw [hy]⟩, fun t ht => ?_, fun t ht => ?_, fun t ht => ?_⟩
  · change Function.update s1.y.dx n (P.diff (s1.xs n) (s1.y.xs n)) t =
      P.diff (s.xs t) (Function.update (β := fun _ => P.X) s1.y.xs (n + 1) _ t)
    rw [Function.update_of_ne (show t ≠ n + 1 by omega)]
    rcases Nat.lt_or_eq_of_le (Nat.le_of_lt_succ ht) with h' | rfl
    · rw [Function.update_of_ne (show t ≠ n by omega)]; exact h.dx t h'
    · rw [Function.update_self, hx]
  · change Function.update s1.y.dx n (P.diff (s1.xs n) (s1.y.xs n)) t = _
    rw [Function.update_of_ne (by omega)]; exact h.old t (by omega)
  · change Function.update s1.y.lagMul n (mv (s1.e.bp.Vxx n) (s1.y.dx n) + s1.e.bp.Vx n) t = _
    rcases Nat.lt_or_eq_of_le (Nat.le_of_lt_succ ht) with h' | rfl
    · rw [Function.update_of_ne (by omega)]; exact h.lag t h'
    · rw [Function.update_self, hb, h.old t le_rfl]

theorem loopDDP_mult {s s1 : DDP P} {a : F} (n : ℕ) {c : F}
    (h : forUpR n (stageDDP a) { s with y := { s.y with cost := c } } = .ok s1) : MultInv s n s1 := by
  induction n generalizing s1 with
  | zero =>
    cases h
    exact ⟨⟨_, rfl⟩, fun t ht => by omega, fun _ _ => rfl, fun t ht => by omega⟩
  | succ n ih =>
    rw [forUpR_succ] at h
    cases e : forUpR n (stageDDP a) { s with y := { s.y with cost := c } } with
    | exn s2 => rw [e] at h; cases h
    | ok s2 =>
      rw [e, Res.bind_ok] at h
      exact stageDDP_mult (ih e) h

/-- **The multipliers of a forward pass are computed with the state differences of the forward pass before it** (except the
last one, computed with this pass's difference at node `T - 1`). -/
theorem tryDDP_mult {s s1 : DDP P} {a : F} (hT : 0 < P.T) (h : tryDDP a s = .ok s1) :
    (∀ t, t < P.T → s1.y.dx t = P.diff (s.xs t) (s1.y.xs t)) ∧
    (∀ t, t < P.T → s1.y.lagMul t = mv (s.e.bp.Vxx t) (s.y.dx t) + s.e.bp.Vx t) ∧
    s1.y.lagMul P.T = mv (s.e.bp.Vxx P.T) (s1.y.dx (P.T - 1)) + s.e.bp.Vx P.T := by
  unfold tryDDP at h
  split at h
  · cases h
  cases e : forUpR P.T (stageDDP a) { s with y := { s.y with cost := 0 } } with
  | exn s2 => rw [e] at h; cases h
  | ok s2 =>
    have hI := loopDDP_mult P.T e
    rw [e, Res.bind_ok] at h
    unfold finishDDP at h
    simp only [] at h
    cases hb : bad (s2.y.cost + (s2.y.data.calcTer (s2.y.xs P.T)).ter.cost)
    · rw [hb] at h
      simp only [Res.throwIf, Bool.false_eq_true, if_false, Res.bind_ok] at h
      cases h
      obtain ⟨y, hy⟩ := hI.frame
      have hb : s2.e = s.e := by rw [hy]
      refine ⟨hI.dx, fun t ht => ?_, ?_⟩
      · change Function.update s2.y.lagMul P.T _ t = _
        rw [Function.update_of_ne (by omega)]; exact hI.lag t ht
      · change Function.update s2.y.lagMul P.T _ P.T = _
        rw [Function.update_self, hb]
    · rw [hb] at h; cases h

end
end Mim.DDP
