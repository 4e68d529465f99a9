import Verif.Model.SQP

/-!
# What each routine of SolverSQP can modify

Frame lemmas: an observation `π` of the solver that does not look at the members a routine writes is unchanged by it.
-/
set_option linter.unusedSectionVars false
set_option linter.unusedSimpArgs false

namespace Mim

theorem forUp_proj {S A : Type _} (π : S → A) (n : ℕ) (f : ℕ → S → S) (s : S)
    (h : ∀ t s, π (f t s) = π s) : π (forUp n f s) = π s := by
  induction n with
  | zero => rfl
  | succ n ih => rw [forUp_succ, h, ih]

theorem forUpR_proj {S A : Type _} (π : S → A) (n : ℕ) (f : ℕ → S → Res S) (s : S)
    (h : ∀ t s, π (f t s).st = π s) : π (forUpR n f s).st = π s := by
  induction n with
  | zero => rfl
  | succ n ih =>
    rw [forUpR_succ]
    cases h1 : forUpR n f s with
    | ok s1 => rw [h1] at ih; rw [Res.bind_ok, h]; exact ih
    | exn s1 => rw [h1] at ih; exact ih

theorem forDownR_proj {S A : Type _} (π : S → A) (n : ℕ) (f : ℕ → S → Res S) (s : S)
    (h : ∀ t s, π (f t s).st = π s) : π (forDownR n f s).st = π s := by
  induction n generalizing s with
  | zero => rfl
  | succ n ih =>
    rw [forDownR_succ]
    have := h n s
    cases h1 : f n s with
    | ok s1 => rw [h1] at this; rw [Res.bind_ok, ih]; exact this
    | exn s1 => rw [h1] at this; exact this

namespace SQP
variable {F : Type} [Add F] [Sub F] [Mul F] [Div F] [Neg F] [Zero F] [One F] [FloatOps F] {P : Problem F}
variable {A : Type _}

/-- members written by `forwardPass`. -/
def wFwd (s : SQP P) (dx : ℕ → Vec F P.ndx) (du : (t : ℕ) → Vec F (P.nu t)) (lam : ℕ → Vec F P.ndx)
    (xg ug : F) : SQP P :=
  { s with dx := dx, du := du, lagMul := lam, xGrad := xg, uGrad := ug }

/-- members written by `computeDirection`. -/
def wDir (s : SQP P) (data : Data P) (cost : F) (fs : ℕ → Vec F P.ndx) (gap merit : F) (bp : BP P)
    (dx : ℕ → Vec F P.ndx) (du : (t : ℕ) → Vec F (P.nu t)) (lam : ℕ → Vec F P.ndx) (xg ug : F) : SQP P :=
  { s with data := data, cost := cost, fs := fs, gap := gap, merit := merit, bp := bp
           dx := dx, du := du, lagMul := lam, xGrad := xg, uGrad := ug }

/-- members written by `tryStep`. -/
def wTry (s : SQP P) (data : Data P) (xsTry : Traj P) (usTry : Ctrls P) (fsTry : ℕ → Vec F P.ndx)
    (costTry gapTry meritTry : F) (nTry : ℕ) : SQP P :=
  { s with data := data, xsTry := xsTry, usTry := usTry, fsTry := fsTry, costTry := costTry
           gapTry := gapTry, meritTry := meritTry, nTry := nTry }

theorem forwardPass_frame (π : SQP P → A)
    (h : ∀ s dx du lam xg ug, π (wFwd s dx du lam xg ug) = π s) (s : SQP P) :
    π (forwardPass s) = π s := by
  unfold forwardPass
  have h1 := fun (s : SQP P) => h s s.dx s.du
    (Function.update s.lagMul P.T (s.bp.Vx P.T + mv (s.bp.Vxx P.T) (s.dx P.T - s.fs P.T)))
    ((s.xGrad + norm1 (s.dx P.T)) / lit ((P.T : ℚ) + 1)) (s.uGrad / lit (P.T : ℚ))
  refine (h1 _).trans ?_
  rw [forUp_proj π]
  · exact h s s.dx s.du s.lagMul 0 0
  · intro t s
    exact h s _ _ _ _ _

theorem computeDirection_frame (π : SQP P → A)
    (h : ∀ s data cost fs gap merit bp dx du lam xg ug,
      π (wDir s data cost fs gap merit bp dx du lam xg ug) = π s) (llt : LLT F) (r : Bool) (s : SQP P) :
    π (computeDirection llt r s).st = π s := by
  have hf : ∀ s, π (forwardPass s) = π s :=
    forwardPass_frame π fun s dx du lam xg ug =>
      h s s.data s.cost s.fs s.gap s.merit s.bp dx du lam xg ug
  unfold computeDirection
  have key : ∀ s : SQP P, π (match backwardPass llt s.data s.fs s.feas s.preg s.dreg s.bp with
      | .ok b => Res.ok (forwardPass { s with bp := b })
      | .exn b => .exn { s with bp := b }).st = π s := by
    intro s
    split
    · refine (hf _).trans ?_
      exact h s s.data s.cost s.fs s.gap s.merit _ s.dx s.du s.lagMul s.xGrad s.uGrad
    · exact h s s.data s.cost s.fs s.gap s.merit _ s.dx s.du s.lagMul s.xGrad s.uGrad
  refine (key _).trans ?_
  refine (h _ _ _ _ _ _ _ _ _ _ _ _ : π (wDir (if r = true then s.calcDiff else s) _ _ _ _ _ _ _ _ _ _ _) = _).trans ?_
  split
  · exact h s _ _ _ s.gap s.merit s.bp s.dx s.du s.lagMul s.xGrad s.uGrad
  · rfl

theorem tryStage_frame (π : SQP P → A)
    (h : ∀ s data xsTry usTry fsTry c g m n, π (wTry s data xsTry usTry fsTry c g m n) = π s)
    (a : F) (t : ℕ) (s : SQP P) : π (tryStage a t s).st = π s := by
  unfold tryStage
  have e : ∀ (b : Bool) (s : SQP P), (if b = true then Res.exn s else Res.ok s).st = s := by
    intro b s; cases b <;> rfl
  simp only [e]
  split
  · exact h s _ _ _ _ _ _ s.meritTry s.nTry
  · exact h s _ _ _ s.fsTry _ s.gapTry s.meritTry s.nTry

theorem tryStep_frame (π : SQP P → A)
    (h : ∀ s data xsTry usTry fsTry c g m n, π (wTry s data xsTry usTry fsTry c g m n) = π s)
    (a : F) (s : SQP P) : π (tryStep a s).st = π s := by
  unfold tryStep
  have e : ∀ (b : Bool) (s : SQP P), (if b = true then Res.exn s else Res.ok s).st = s := by
    intro b s; cases b <;> rfl
  simp only []
  split
  · exact h s s.data s.xsTry s.usTry s.fsTry s.costTry s.gapTry s.meritTry _
  · have h1 := forUpR_proj π P.T (tryStage a)
      { s with nTry := s.nTry + 1, costTry := 0, meritTry := 0, gapTry := 0 }
      (tryStage_frame π h a)
    have h2 : π { s with nTry := s.nTry + 1, costTry := 0, meritTry := 0, gapTry := 0 } = π s :=
      h s s.data s.xsTry s.usTry s.fsTry 0 0 0 _
    rw [h2] at h1
    generalize hr : forUpR P.T (tryStage a)
      { s with nTry := s.nTry + 1, costTry := 0, meritTry := 0, gapTry := 0 } = r at h1 ⊢
    cases r with
    | exn s1 => exact h1
    | ok s1 =>
      rw [Res.bind_ok]
      unfold tryTerminal
      simp only [e]
      refine Eq.trans ?_ h1
      exact h s1 _ _ s1.usTry _ _ _ _ s1.nTry

theorem lineSearch_frame (π : SQP P → A)
    (h : ∀ s data xsTry usTry fsTry c g m n, π (wTry s data xsTry usTry fsTry c g m n) = π s)
    (h2 : ∀ (s : SQP P) a b xs us fe, π { s with steplength := a, isWorse := b, xs := xs, us := us, feas := fe } = π s)
    (as : List F) (s : SQP P) : π (lineSearch as s).2 = π s := by
  induction as generalizing s with
  | nil => rfl
  | cons a as ih =>
    unfold lineSearch
    have e := tryStep_frame π h a { s with steplength := a }
    have e2 : π { s with steplength := a } = π s := h2 s a s.isWorse s.xs s.us s.feas
    rw [e2] at e
    split
    · rename_i s1 hs1
      rw [hs1] at e
      rw [ih]; exact e
    · rename_i s1 hs1
      rw [hs1] at e
      change π s1 = π s at e
      simp only []
      have hw : ∀ b, π { s1 with isWorse := b } = π s1 := fun b =>
        h2 s1 s1.steplength b s1.xs s1.us s1.feas
      split
      · split
        · rw [ih, hw]; exact e
        · refine Eq.trans ?_ e
          exact h2 s1 s1.steplength _ _ _ _
      · split
        · refine Eq.trans ?_ e
          exact h2 s1 s1.steplength s1.isWorse _ _ _
        · rw [ih]; exact e

theorem search_frame (π : SQP P → A)
    (h : ∀ s data xsTry usTry fsTry c g m n, π (wTry s data xsTry usTry fsTry c g m n) = π s)
    (h2 : ∀ (s : SQP P) a b xs us fe, π { s with steplength := a, isWorse := b, xs := xs, us := us, feas := fe } = π s)
    (h3 : ∀ (s : SQP P) n, π { s with nRej := n } = π s)
    (s : SQP P) : π (search s) = π s := by
  unfold search
  have e := lineSearch_frame π h h2 s.par.alphas s
  simp only []
  split
  · exact e
  · rw [h3]; exact e

theorem updateReg_frame (π : SQP P → A) (h : ∀ (s : SQP P) p d, π { s with preg := p, dreg := d } = π s)
    (s : SQP P) : π (updateReg s).2 = π s := by
  unfold updateReg increaseReg decreaseReg
  simp only []
  split <;> split <;> simp [h]

/-- members written by the retry loop. -/
theorem retry_frame (π : SQP P → A)
    (h : ∀ s data cost fs gap merit bp dx du lam xg ug,
      π (wDir s data cost fs gap merit bp dx du lam xg ug) = π s)
    (h2 : ∀ (s : SQP P) p d, π { s with preg := p, dreg := d } = π s)
    (llt : LLT F) (fuel : ℕ) (r : Bool) (s : SQP P) (b : Bool) (s' : SQP P)
    (hr : retry llt fuel r s = some (b, s')) : π s' = π s := by
  induction fuel generalizing r s with
  | zero => cases hr
  | succ n ih =>
    unfold retry at hr
    have e := computeDirection_frame π h llt r s
    split at hr
    · rename_i s1 hs1
      rw [hs1] at e
      simp only [Option.some.injEq, Prod.mk.injEq] at hr
      rw [← hr.2]; exact e
    · rename_i s1 hs1
      rw [hs1] at e
      change π s1 = π s at e
      simp only [] at hr
      have e2 : π s1.increaseReg = π s1 := h2 s1 _ _
      split at hr
      · simp only [Option.some.injEq, Prod.mk.injEq] at hr
        rw [← hr.2, e2, e]
      · rw [ih _ _ hr, e2, e]

end SQP
end Mim
