import Verif.Model.DDP

/-!
# The backward pass, stage by stage

Pure description of what a stage writes, and independence of the pass from leftovers of earlier passes.
-/
set_option linter.unusedSectionVars false
set_option linter.unusedSimpArgs false

namespace Mim
namespace Bwd
variable {F : Type} [Add F] [Sub F] [Mul F] [Div F] [Neg F] [Zero F] [One F] [FloatOps F] {P : Problem F}

section
variable (d : Data P) (t : ℕ) (W : Mat F P.ndx P.ndx) (w : Vec F P.ndx)

/-- the Q-terms of stage `t` as functions of the next value function `½ x'Wx + w'x`. -/
def Qx : Vec F P.ndx := (d.rd t).Lx + mv (d.rd t).Fx.transpose w
def Qxx : Mat F P.ndx P.ndx := (d.rd t).Lxx + mm (mm (d.rd t).Fx.transpose W) (d.rd t).Fx
def Qu : Vec F (P.nu t) := (d.rd t).Lu + mv (d.rd t).Fu.transpose w
def Quu (dreg : F) : Mat F (P.nu t) (P.nu t) :=
  if isnan dreg then (d.rd t).Luu + mm (mm (d.rd t).Fu.transpose W) (d.rd t).Fu
  else addDiag ((d.rd t).Luu + mm (mm (d.rd t).Fu.transpose W) (d.rd t).Fu) dreg
def Qxu : Mat F P.ndx (P.nu t) := (d.rd t).Lxu + mm (mm (d.rd t).Fx.transpose W) (d.rd t).Fu
def K (s : Vec F (P.nu t) → Vec F (P.nu t)) : Mat F (P.nu t) P.ndx := solveCols s (Qxu d t W).transpose
def k (s : Vec F (P.nu t) → Vec F (P.nu t)) : Vec F (P.nu t) := s (Qu d t w)

/-- value function of stage `t`: Hessian. -/
def Vxx (preg : F) (A : Mat F P.ndx P.ndx) : Mat F P.ndx P.ndx :=
  if isnan preg then symm A else addDiag (symm A) preg
/-- value function of stage `t`: gradient. -/
def Vx (feas : Bool) (a : Vec F P.ndx) (W : Mat F P.ndx P.ndx) (f : Vec F P.ndx) : Vec F P.ndx :=
  if feas then a else a + mv W f
end

variable {llt : LLT F} {d : Data P} {fs : ℕ → Vec F P.ndx} {feas : Bool} {preg dreg : F}

/-- Hessian and gradient of stage `t` with control. -/
def stVxx (d : Data P) (preg : F) (t : ℕ) (W : Mat F P.ndx P.ndx) (s : Vec F (P.nu t) → Vec F (P.nu t)) :=
  Vxx preg (Qxx d t W - mm (Qxu d t W) (K d t W s))
def stVx (d : Data P) (fs : ℕ → Vec F P.ndx) (feas : Bool) (preg : F) (t : ℕ) (W : Mat F P.ndx P.ndx)
    (w : Vec F P.ndx) (s : Vec F (P.nu t) → Vec F (P.nu t)) :=
  Vx feas (Qx d t w - mv (K d t W s).transpose (Qu d t w)) (stVxx d preg t W s) (fs t)

/-- a stage with controls. -/
theorem stage_pos (t : ℕ) (b : BP P) (h : 0 < P.nu t) :
    (∀ s, llt (P.nu t) (Quu d t (b.Vxx (t + 1)) dreg) = some s →
      let W := b.Vxx (t + 1)
      let w := b.Vx (t + 1)
      let b' : BP P :=
        { Vxx := Function.update b.Vxx t (stVxx d preg t W s)
          Vx := Function.update b.Vx t (stVx d fs feas preg t W w s)
          Qxx := Function.update b.Qxx t (Qxx d t W)
          Qxu := Function.update b.Qxu t (Qxu d t W)
          Quu := Function.update b.Quu t (Quu d t W dreg)
          Qx := Function.update b.Qx t (Qx d t w)
          Qu := Function.update b.Qu t (Qu d t w)
          K := Function.update b.K t (K d t W s)
          k := Function.update b.k t (k d t w s)
          Quuk := Function.update b.Quuk t (mv (Quu d t W dreg) (k d t w s))
          llt := Function.update b.llt t s }
      backwardStage llt d fs feas preg dreg t b =
        if badStage (stVx d fs feas preg t W w s) (stVxx d preg t W s) then .exn b' else .ok b') ∧
    (llt (P.nu t) (Quu d t (b.Vxx (t + 1)) dreg) = none → ∃ b', backwardStage llt d fs feas preg dreg t b = .exn b') := by
  have hne : P.nu t ≠ 0 := by omega
  constructor
  · intro s hs
    simp only []
    unfold backwardStage computeGains qTerms
    simp only [hne, ne_eq, not_false_eq_true, if_true, h, Function.update_self]
    simp only [Quu] at hs
    rw [hs]
    simp only [Res.bind_ok, vTerms, hne, ne_eq, not_false_eq_true, if_true, Function.update_self]
    rfl
  · intro hs
    unfold backwardStage computeGains qTerms
    simp only [hne, ne_eq, not_false_eq_true, if_true, h, Function.update_self]
    simp only [Quu] at hs
    rw [hs]
    exact ⟨_, rfl⟩

/-- a stage without controls. -/
theorem stage_zero (t : ℕ) (b : BP P) (h : P.nu t = 0) :
    let W := b.Vxx (t + 1)
    let w := b.Vx (t + 1)
    let V := Vxx preg (Qxx d t W)
    let v := Vx feas (Qx d t w) V (fs t)
    let b' : BP P :=
      { b with
        Vxx := Function.update b.Vxx t V
        Vx := Function.update b.Vx t v
        Qxx := Function.update b.Qxx t (Qxx d t W)
        Qx := Function.update b.Qx t (Qx d t w) }
    backwardStage llt d fs feas preg dreg t b = if badStage v V then .exn b' else .ok b' := by
  simp only []
  unfold backwardStage computeGains qTerms
  simp only [h, ne_eq, not_true_eq_false, if_false, lt_irrefl, Res.bind_ok, vTerms, Function.update_self]
  rfl

/-- the parts of two passes that were computed so far agree. -/
structure Agree (t : ℕ) (b1 b2 : BP P) : Prop where
  Vxx : ∀ j, t ≤ j → j ≤ P.T → b1.Vxx j = b2.Vxx j
  Vx : ∀ j, t ≤ j → j ≤ P.T → b1.Vx j = b2.Vx j
  Qxx : ∀ j, t ≤ j → j < P.T → b1.Qxx j = b2.Qxx j
  Qxu : ∀ j, t ≤ j → j < P.T → b1.Qxu j = b2.Qxu j
  Quu : ∀ j, t ≤ j → j < P.T → b1.Quu j = b2.Quu j
  Qx : ∀ j, t ≤ j → j < P.T → b1.Qx j = b2.Qx j
  Qu : ∀ j, t ≤ j → j < P.T → b1.Qu j = b2.Qu j
  K : ∀ j, t ≤ j → j < P.T → b1.K j = b2.K j
  k : ∀ j, t ≤ j → j < P.T → b1.k j = b2.k j
  Quuk : ∀ j, t ≤ j → j < P.T → b1.Quuk j = b2.Quuk j
  llt : ∀ j, t ≤ j → j < P.T → b1.llt j = b2.llt j

theorem update_agree {β : ℕ → Type} {f g : (j : ℕ) → β j} {t n : ℕ} {x : β t}
    (h : ∀ j, t + 1 ≤ j → j < n → f j = g j) (j : ℕ) (hj : t ≤ j) (hn : j < n) :
    Function.update f t x j = Function.update g t x j := by
  by_cases e : j = t
  · subst e; simp
  · rw [Function.update_of_ne e, Function.update_of_ne e]
    exact h j (by omega) hn

theorem update_agree' {β : ℕ → Type} {f g : (j : ℕ) → β j} {t n : ℕ} {x : β t}
    (h : ∀ j, t + 1 ≤ j → j ≤ n → f j = g j) (j : ℕ) (hj : t ≤ j) (hn : j ≤ n) :
    Function.update f t x j = Function.update g t x j := by
  by_cases e : j = t
  · subst e; simp
  · rw [Function.update_of_ne e, Function.update_of_ne e]
    exact h j (by omega) hn

/-- both results are normal and agree, or both are exceptional. -/
def ResAgree (t : ℕ) (r1 r2 : Res (BP P)) : Prop :=
  (∃ b1 b2, r1 = .ok b1 ∧ r2 = .ok b2 ∧ Agree t b1 b2) ∨ ∃ b1 b2, r1 = .exn b1 ∧ r2 = .exn b2

theorem stage_agree {t : ℕ} (ht : t < P.T) {b1 b2 : BP P} (h : Agree (t + 1) b1 b2) :
    ResAgree t (backwardStage llt d fs feas preg dreg t b1) (backwardStage llt d fs feas preg dreg t b2) := by
  have hW := h.Vxx (t + 1) le_rfl ht
  have hw := h.Vx (t + 1) le_rfl ht
  rcases Nat.eq_zero_or_pos (P.nu t) with h0 | h0
  · have e1 := stage_zero (llt := llt) (d := d) (fs := fs) (feas := feas) (preg := preg) (dreg := dreg) t b1 h0
    have e2 := stage_zero (llt := llt) (d := d) (fs := fs) (feas := feas) (preg := preg) (dreg := dreg) t b2 h0
    simp only [] at e1 e2
    rw [← hW, ← hw] at e2
    rw [e1, e2]
    split
    · exact .inr ⟨_, _, rfl, rfl⟩
    · refine .inl ⟨_, _, rfl, rfl, ⟨update_agree' h.Vxx, update_agree' h.Vx, update_agree h.Qxx, ?_, ?_,
        update_agree h.Qx, ?_, ?_, ?_, ?_, ?_⟩⟩
      all_goals
        intro j hj hn
        by_cases e : j = t
        · subst e
          first
            | (funext i; exact (Fin.cast h0 i).elim0)
            | (ext i i'; exact (Fin.cast h0 i').elim0)
            | (ext i i'; exact (Fin.cast h0 i).elim0)
            | (funext v i; exact (Fin.cast h0 i).elim0)
        · first
            | exact h.Qxu j (by omega) hn
            | exact h.Quu j (by omega) hn
            | exact h.Qu j (by omega) hn
            | exact h.K j (by omega) hn
            | exact h.k j (by omega) hn
            | exact h.Quuk j (by omega) hn
            | exact h.llt j (by omega) hn
  · have e1 := stage_pos (llt := llt) (d := d) (fs := fs) (feas := feas) (preg := preg) (dreg := dreg) t b1 h0
    have e2 := stage_pos (llt := llt) (d := d) (fs := fs) (feas := feas) (preg := preg) (dreg := dreg) t b2 h0
    simp only [] at e1 e2
    rw [← hW, ← hw] at e2
    cases hs : llt (P.nu t) (Quu d t (b1.Vxx (t + 1)) dreg) with
    | none =>
      obtain ⟨c1, e1⟩ := e1.2 hs
      obtain ⟨c2, e2⟩ := e2.2 hs
      exact .inr ⟨c1, c2, e1, e2⟩
    | some s =>
      rw [e1.1 s hs, e2.1 s hs]
      split
      · exact .inr ⟨_, _, rfl, rfl⟩
      · exact .inl ⟨_, _, rfl, rfl, ⟨update_agree' h.Vxx, update_agree' h.Vx, update_agree h.Qxx, update_agree h.Qxu,
          update_agree h.Quu, update_agree h.Qx, update_agree h.Qu, update_agree h.K, update_agree h.k,
          update_agree h.Quuk, update_agree h.llt⟩⟩

/-- The outcome of the backward pass does not depend on what the arrays contained before. -/
theorem backwardPass_indep (llt : LLT F) (d : Data P) (fs : ℕ → Vec F P.ndx) (feas : Bool) (preg dreg : F)
    (b1 b2 : BP P) :
    ResAgree 0 (backwardPass llt d fs feas preg dreg b1) (backwardPass llt d fs feas preg dreg b2) := by
  have hloop : ∀ n, n ≤ P.T → ∀ b1 b2 : BP P, Agree n b1 b2 →
      ResAgree 0 (forDownR n (backwardStage llt d fs feas preg dreg) b1)
        (forDownR n (backwardStage llt d fs feas preg dreg) b2) := by
    intro n
    induction n with
    | zero => intro _ b1 b2 h; exact .inl ⟨b1, b2, rfl, rfl, h⟩
    | succ n ih =>
      intro hn b1 b2 h
      rw [forDownR_succ, forDownR_succ]
      rcases stage_agree (llt := llt) (d := d) (fs := fs) (feas := feas) (preg := preg) (dreg := dreg) hn h with
        ⟨c1, c2, e1, e2, h'⟩ | ⟨c1, c2, e1, e2⟩
      · rw [e1, e2]; exact ih (by omega) c1 c2 h'
      · rw [e1, e2]; exact .inr ⟨c1, c2, rfl, rfl⟩
  refine hloop P.T le_rfl _ _ ⟨?_, ?_, ?_, ?_, ?_, ?_, ?_, ?_, ?_, ?_, ?_⟩
  · intro j h1 h2
    obtain rfl : j = P.T := by omega
    simp [backwardInit]
  · intro j h1 h2
    obtain rfl : j = P.T := by omega
    simp [backwardInit]
  all_goals
    intro j h1 h2
    omega

end Bwd
end Mim
