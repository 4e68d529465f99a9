import Verif.Model.PySQP
import Verif.Lemmas.SQPTry
import Verif.Lemmas.BackwardExact

/-!
# The Python prototype: what each function writes
-/
set_option linter.unusedSectionVars false
set_option linter.unusedSimpArgs false

namespace Mim
open Spec Matrix

namespace PySQP
section
variable {F : Type} [Add F] [Sub F] [Mul F] [Div F] [Neg F] [Zero F] [One F] [FloatOps F] {P : Problem F}

/-- a running index is written by the loop, everything else is kept. -/
theorem forUp_update {β : ℕ → Type} (n : ℕ) (v : (t : ℕ) → β t) (f : (t : ℕ) → β t) :
    (∀ t, t < n → forUp n (fun t g => Function.update g t (v t)) f t = v t) ∧
    (∀ t, n ≤ t → forUp n (fun t g => Function.update g t (v t)) f t = f t) := by
  induction n with
  | zero => exact ⟨fun t h => by omega, fun t _ => rfl⟩
  | succ n ih =>
    refine ⟨fun t h => ?_, fun t h => ?_⟩
    · rw [forUp_succ]
      by_cases e : t = n
      · subst e; rw [Function.update_self]
      · rw [Function.update_of_ne e, ih.1 t (by omega)]
    · rw [forUp_succ, Function.update_of_ne (by omega), ih.2 t (by omega)]

theorem gaps_run (d : Data P) (xs : Traj P) (g : ℕ → Vec F P.ndx) (t : ℕ) (ht : t < P.T) :
    gaps d xs g t = P.diff (xs (t + 1)) (d.run t).xnext := (forUp_update P.T _ g).1 t ht

theorem gaps_ter (d : Data P) (xs : Traj P) (g : ℕ → Vec F P.ndx) : gaps d xs g P.T = g P.T :=
  (forUp_update P.T _ g).2 P.T le_rfl

/-- what `calc` leaves in the data. -/
theorem evaluate_fresh (p : PySQP P) :
    FreshCalc P p.evaluate.data p.xs p.us ∧ FreshDiff P p.evaluate.data p.xs p.us := by
  refine ⟨⟨fun t ht => ?_, rfl⟩, ⟨fun t ht => ?_, rfl⟩⟩
  · simp only [evaluate, Data.calcDiffAll, Data.calcAll, ht, if_true]
  · simp only [evaluate, Data.calcDiffAll, Data.calcAll, ht, if_true]

theorem evaluate_cost (p : PySQP P) : p.evaluate.cost = trajCost P p.xs p.us := by
  simp only [evaluate, Data.totalCost, Data.calcDiffAll, Data.calcAll]
  unfold trajCost
  congr 1
  exact sumUp_congr _ _ _ fun t ht => by simp only [ht, if_true]; rfl

theorem evaluate_gap (p : PySQP P) : (∀ t, t < P.T → p.evaluate.gap t = shootGap P p.xs p.us t) ∧
    p.evaluate.gap P.T = p.gap P.T := by
  refine ⟨fun t ht => ?_, gaps_ter _ _ _⟩
  have h := gaps_run p.evaluate.data p.xs p.gap t ht
  rw [(evaluate_fresh p).1.run t ht] at h
  exact h

theorem evaluate_gapNorm (p : PySQP P) :
    p.evaluate.gapNorm = shootGapNorm P p.xs p.us + norm1 (p.gap P.T) := by
  have : p.evaluate.gapNorm = rowsNorm p.evaluate.gap := rfl
  rw [this, rowsNorm, sumUp_succ, (evaluate_gap p).2]
  unfold shootGapNorm
  congr 1
  exact sumUp_congr _ _ _ fun t ht => by rw [(evaluate_gap p).1 t ht]

theorem evaluate_merit (p : PySQP P) : p.evaluate.merit = p.evaluate.cost + p.mu * p.evaluate.gapNorm := rfl

/-! ### backward pass -/

/-- the equations of one stage. -/
structure StageOK (llt : LLT F) (p : PySQP P) (t : ℕ) (H : Mat F (P.nu t) (P.nu t))
    (sol : Vec F (P.nu t) → Vec F (P.nu t)) : Prop where
  fac : llt (P.nu t) H = some sol
  hess : H = (p.data.rd t).Luu + mm (mm (p.data.rd t).Fu.transpose (p.S (t + 1))) (p.data.rd t).Fu
  L : p.L t = sm (lit (-1)) (solveCols sol
    ((p.data.rd t).Lxu.transpose + mm (mm (p.data.rd t).Fu.transpose (p.S (t + 1))) (p.data.rd t).Fx))
  l : p.l t = sv (lit (-1)) (sol ((p.data.rd t).Lu +
    mv (p.data.rd t).Fu.transpose (p.s (t + 1) + mv (p.S (t + 1)) (p.gap t))))
  S : p.S t = symm ((p.data.rd t).Lxx + mm (mm (p.data.rd t).Fx.transpose (p.S (t + 1))) (p.data.rd t).Fx -
    mm (mm (p.L t).transpose H) (p.L t))
  s : p.s t = (p.data.rd t).Lx + mv (p.data.rd t).Fx.transpose (mv (p.S (t + 1)) (p.gap t) + p.s (t + 1)) +
    mv ((p.data.rd t).Lxu.transpose + mm (mm (p.data.rd t).Fu.transpose (p.S (t + 1))) (p.data.rd t).Fx).transpose (p.l t) +
    mv (p.L t).transpose ((p.data.rd t).Lu + mv (p.data.rd t).Fu.transpose (p.s (t + 1) + mv (p.S (t + 1)) (p.gap t)) +
      mv H (p.l t))

/-- only `S`, `s`, `L`, `l` are written. -/
def OnlyBwd (p p' : PySQP P) : Prop :=
  ∃ S s L l, p' = { p with S := S, s := s, L := L, l := l }

theorem OnlyBwd.trans {p q r : PySQP P} (h : OnlyBwd p q) (h' : OnlyBwd q r) : OnlyBwd p r := by
  obtain ⟨S, s, L, l, rfl⟩ := h
  obtain ⟨S', s', L', l', rfl⟩ := h'
  exact ⟨S', s', L', l', rfl⟩

theorem stage_cases (llt : LLT F) (t : ℕ) (p : PySQP P) :
    let H := (p.data.rd t).Luu + mm (mm (p.data.rd t).Fu.transpose (p.S (t + 1))) (p.data.rd t).Fu
    (llt (P.nu t) H = none → backwardStage llt t p = .exn p) ∧
    (∀ sol, llt (P.nu t) H = some sol → ∃ p', backwardStage llt t p = .ok p' ∧ OnlyBwd p p' ∧ StageOK llt p' t H sol ∧
      (∀ j, j ≠ t → p'.S j = p.S j ∧ p'.s j = p.s j ∧ p'.L j = p.L j ∧ p'.l j = p.l j)) := by
  simp only []
  have hne : t + 1 ≠ t := Nat.succ_ne_self t
  constructor
  · intro h
    unfold backwardStage
    simp only [h]
  · intro sol h
    unfold backwardStage
    simp only [h]
    refine ⟨_, rfl, ⟨_, _, _, _, rfl⟩, ⟨h, ?_, ?_, ?_, ?_, ?_⟩, fun j hj => ?_⟩
    · simp only [Function.update_of_ne hne]
    · simp only [Function.update_self, Function.update_of_ne hne]
    · simp only [Function.update_self, Function.update_of_ne hne]
    · simp only [Function.update_self, Function.update_of_ne hne]
    · simp only [Function.update_self, Function.update_of_ne hne]
    · simp only [Function.update_of_ne hj, and_self]

theorem StageOK.congr {llt : LLT F} {p p' : PySQP P} {t : ℕ} {H : Mat F (P.nu t) (P.nu t)}
    {sol : Vec F (P.nu t) → Vec F (P.nu t)} (h : StageOK llt p t H sol) (hd : p'.data = p.data) (hg : p'.gap = p.gap)
    (h1 : p'.S t = p.S t ∧ p'.s t = p.s t ∧ p'.L t = p.L t ∧ p'.l t = p.l t)
    (h2 : p'.S (t + 1) = p.S (t + 1) ∧ p'.s (t + 1) = p.s (t + 1)) : StageOK llt p' t H sol := by
  obtain ⟨a1, a2, a3, a4⟩ := h1
  obtain ⟨b1, b2⟩ := h2
  refine ⟨h.fac, ?_, ?_, ?_, ?_, ?_⟩
  · rw [hd, b1]; exact h.hess
  · rw [hd, b1, a3]; exact h.L
  · rw [hd, b1, b2, a4, hg]; exact h.l
  · rw [hd, b1, a1, a3]; exact h.S
  · rw [hd, b1, b2, a2, a3, a4, hg]; exact h.s

/-- the backward pass. -/
theorem backwardPass_ok {llt : LLT F} {p p' : PySQP P} (h : backwardPass llt p = .ok p') :
    OnlyBwd p p' ∧ p'.S P.T = p.data.td.Lxx ∧ p'.s P.T = p.data.td.Lx ∧
    ∀ t, t < P.T → ∃ H sol, StageOK llt p' t H sol := by
  have key := forDownR_inv (fun n (p' : PySQP P) => OnlyBwd p p' ∧ p'.S P.T = p.data.td.Lxx ∧ p'.s P.T = p.data.td.Lx ∧
    ∀ t, n ≤ t → t < P.T → ∃ H sol, StageOK llt p' t H sol) P.T _ _ p' ?_ ?_ h
  · exact ⟨key.1, key.2.1, key.2.2.1, fun t ht => key.2.2.2 t (Nat.zero_le t) ht⟩
  · exact ⟨⟨_, _, _, _, rfl⟩, by simp, by simp, fun t h1 h2 => by omega⟩
  · rintro t ht q q' ⟨i1, i2, i3, i4⟩ hq
    obtain ⟨c1, c2⟩ := stage_cases llt t q
    cases hs : llt (P.nu t) ((q.data.rd t).Luu + mm (mm (q.data.rd t).Fu.transpose (q.S (t + 1))) (q.data.rd t).Fu) with
    | none => rw [c1 hs] at hq; cases hq
    | some sol =>
      obtain ⟨q2, e, o, k, f⟩ := c2 sol hs
      rw [e] at hq
      cases hq
      have hd : q'.data = q.data := by obtain ⟨_, _, _, _, rfl⟩ := o; rfl
      have hg : q'.gap = q.gap := by obtain ⟨_, _, _, _, rfl⟩ := o; rfl
      refine ⟨i1.trans o, by rw [(f P.T (by omega)).1, i2], by rw [(f P.T (by omega)).2.1, i3], fun j h1 h2 => ?_⟩
      by_cases ej : j = t
      · subst ej; exact ⟨_, _, k⟩
      · obtain ⟨H, sol', kj⟩ := i4 j (by omega) h2
        exact ⟨H, sol', kj.congr hd hg (f j ej) ⟨(f (j + 1) (by omega)).1, (f (j + 1) (by omega)).2.1⟩⟩

theorem backwardPass_exn {llt : LLT F} {p p' : PySQP P} (h : backwardPass llt p = .exn p') : OnlyBwd p p' := by
  have key := forDownR_inv_st (fun p' : PySQP P => OnlyBwd p p') P.T (backwardStage llt)
    { p with S := Function.update p.S P.T p.data.td.Lxx, s := Function.update p.s P.T p.data.td.Lx } ⟨_, _, _, _, rfl⟩
    fun t ht q hq => by
      obtain ⟨c1, c2⟩ := stage_cases llt t q
      cases hs : llt (P.nu t) ((q.data.rd t).Luu + mm (mm (q.data.rd t).Fu.transpose (q.S (t + 1))) (q.data.rd t).Fu) with
      | none => rw [c1 hs]; exact hq
      | some sol =>
        obtain ⟨q2, e, o, _⟩ := c2 sol hs
        rw [e]; exact hq.trans o
  unfold backwardPass at h
  rw [h] at key
  exact key

/-! ### computeUpdates -/

theorem computeUpdates_spec (p : PySQP P) :
    ∃ dx du lam xg ug, computeUpdates p = { p with dx := dx, du := du, lagMul := lam, xGrad := xg, uGrad := ug } ∧
      dx 0 = p.dx 0 ∧
      (∀ t, t < P.T → du t = mv (p.L t) (dx t) + p.l t) ∧
      (∀ t, t < P.T → dx (t + 1) = mv ((p.data.rd t).Fx + mm (p.data.rd t).Fu (p.L t)) (dx t) +
        mv (p.data.rd t).Fu (p.l t) + p.gap t) ∧
      (∀ t, t ≤ P.T → lam t = mv (p.S t) (dx t) + p.s t) := by
  have key : ∀ n, n ≤ P.T → ∃ dx du lam, forUp n updateStage p = { p with dx := dx, du := du, lagMul := lam } ∧
      dx 0 = p.dx 0 ∧
      (∀ t, t < n → du t = mv (p.L t) (dx t) + p.l t) ∧
      (∀ t, t < n → dx (t + 1) = mv ((p.data.rd t).Fx + mm (p.data.rd t).Fu (p.L t)) (dx t) +
        mv (p.data.rd t).Fu (p.l t) + p.gap t) ∧
      (∀ t, t < n → lam t = mv (p.S t) (dx t) + p.s t) := by
    intro n
    induction n with
    | zero => intro _; exact ⟨p.dx, p.du, p.lagMul, rfl, rfl, fun t h => by omega, fun t h => by omega, fun t h => by omega⟩
    | succ n ih =>
      intro hn
      obtain ⟨dx, du, lam, e, a0, a1, a2, a3⟩ := ih (by omega)
      refine ⟨_, _, _, by rw [forUp_succ, e]; rfl, ?_, ?_, ?_, ?_⟩
      · rw [Function.update_of_ne (by omega)]; exact a0
      · intro t ht
        rcases Nat.lt_succ_iff_lt_or_eq.mp ht with h | rfl
        · rw [Function.update_of_ne (by omega), Function.update_of_ne (by omega)]; exact a1 t h
        · rw [Function.update_self, Function.update_of_ne (by omega)]
      · intro t ht
        rcases Nat.lt_succ_iff_lt_or_eq.mp ht with h | rfl
        · rw [Function.update_of_ne (by omega), Function.update_of_ne (by omega)]; exact a2 t h
        · rw [Function.update_self, Function.update_of_ne (by omega)]
      · intro t ht
        rcases Nat.lt_succ_iff_lt_or_eq.mp ht with h | rfl
        · rw [Function.update_of_ne (by omega), Function.update_of_ne (by omega)]; exact a3 t h
        · rw [Function.update_self, Function.update_of_ne (by omega)]
  obtain ⟨dx, du, lam, e, a0, a1, a2, a3⟩ := key P.T le_rfl
  refine ⟨dx, du, _, _, _, by unfold computeUpdates; rw [e], a0, a1, a2, ?_⟩
  intro t ht
  rcases Nat.eq_or_lt_of_le ht with rfl | ht
  · simp only [Function.update_self]
  · simp only []
    rw [Function.update_of_ne (by omega)]; exact a3 t ht

/-- what a direction computation writes. -/
theorem computeDirection_ok {llt : LLT F} {p p' : PySQP P} (h : computeDirection llt p = .ok p') :
    ∃ q dx du lam xg ug, backwardPass llt p.evaluate = .ok q ∧ OnlyBwd p.evaluate q ∧
      p' = { q with dx := dx, du := du, lagMul := lam, xGrad := xg, uGrad := ug } ∧
      dx 0 = p.dx 0 ∧
      (∀ t, t < P.T → du t = mv (q.L t) (dx t) + q.l t) ∧
      (∀ t, t < P.T → dx (t + 1) = mv ((q.data.rd t).Fx + mm (q.data.rd t).Fu (q.L t)) (dx t) +
        mv (q.data.rd t).Fu (q.l t) + q.gap t) ∧
      (∀ t, t ≤ P.T → lam t = mv (q.S t) (dx t) + q.s t) := by
  obtain ⟨q, h1, h2⟩ := Res.thenDo_eq_ok h
  obtain ⟨dx, du, lam, xg, ug, e, a⟩ := computeUpdates_spec q
  have ho := (backwardPass_ok h1).1
  refine ⟨q, dx, du, lam, xg, ug, h1, ho, h2.trans e, ?_⟩
  obtain ⟨_, _, _, _, rfl⟩ := ho
  exact a

/-! ### tryStep -/

theorem trialPoint_spec (a : F) (p : PySQP P) :
    ∃ X U, trialPoint a p = { p with xsTry := X, usTry := U } ∧ (∀ t, t ≤ P.T → X t = stepX P p.xs p.dx a t) ∧
      ∀ t, t < P.T → U t = stepU P p.us p.du a t := by
  have key : ∀ n, ∃ X U, forUp n (fun t (p : PySQP P) => { p with
      xsTry := Function.update p.xsTry t (P.integrate (p.xs t) (sv a (p.dx t)))
      usTry := Function.update p.usTry t (p.us t + sv a (p.du t)) }) p = { p with xsTry := X, usTry := U } ∧
      (∀ t, t < n → X t = stepX P p.xs p.dx a t) ∧ ∀ t, t < n → U t = stepU P p.us p.du a t := by
    intro n
    induction n with
    | zero => exact ⟨p.xsTry, p.usTry, rfl, fun t h => by omega, fun t h => by omega⟩
    | succ n ih =>
      obtain ⟨X, U, e, a1, a2⟩ := ih
      refine ⟨_, _, by rw [forUp_succ, e], ?_, ?_⟩
      · intro t ht
        by_cases et : t = n
        · subst et; rw [Function.update_self]; rfl
        · rw [Function.update_of_ne et]; exact a1 t (by omega)
      · intro t ht
        by_cases et : t = n
        · subst et; rw [Function.update_self]; rfl
        · rw [Function.update_of_ne et]; exact a2 t (by omega)
  obtain ⟨X, U, e, a1, a2⟩ := key P.T
  refine ⟨_, U, by unfold trialPoint; simp only []; rw [e], ?_, a2⟩
  intro t ht
  rcases Nat.eq_or_lt_of_le ht with rfl | ht
  · simp only [Function.update_self]; rfl
  · simp only []
    rw [Function.update_of_ne (by omega)]; exact a1 t ht

theorem tryStep_spec (a : F) (p : PySQP P) :
    let X := stepX P p.xs p.dx a
    let U := stepU P p.us p.du a
    ∃ xt ut d g, tryStep a p = { p with
        xsTry := xt, usTry := ut, data := d, gapTry := g
        costTry := trajCost P X U, gapNormTry := shootGapNorm P X U + norm1 (p.gapTry P.T)
        meritTry := trajCost P X U + p.mu * (shootGapNorm P X U + norm1 (p.gapTry P.T)) } ∧
      (∀ t, t ≤ P.T → xt t = X t) ∧ (∀ t, t < P.T → ut t = U t) ∧ FreshCalc P d X U ∧ d.rd = p.data.rd ∧ d.td = p.data.td ∧
      g P.T = p.gapTry P.T := by
  simp only []
  obtain ⟨xt, ut, e, hx, hu⟩ := trialPoint_spec a { p with meritTry := 0, costTry := 0 }
  have key : ∀ n, n ≤ P.T → ∃ d g, forUp n tryNode ({ p with meritTry := 0, costTry := 0, xsTry := xt, usTry := ut } : PySQP P) =
      { p with
        meritTry := 0, xsTry := xt, usTry := ut, data := d, gapTry := g
        costTry := sumUp n (nodeCost P (stepX P p.xs p.dx a) (stepU P p.us p.du a)) } ∧
      (∀ t, t < n → d.run t = P.calcR t (stepX P p.xs p.dx a t) (stepU P p.us p.du a t)) ∧ d.rd = p.data.rd ∧
      d.td = p.data.td ∧ (∀ t, t < n → g t = shootGap P (stepX P p.xs p.dx a) (stepU P p.us p.du a) t) ∧
      ∀ t, n ≤ t → g t = p.gapTry t := by
    intro n
    induction n with
    | zero => intro _; exact ⟨p.data, p.gapTry, rfl, fun t h => by omega, rfl, rfl, fun t h => by omega, fun t _ => rfl⟩
    | succ n ih =>
      intro hn
      obtain ⟨d, g, e, a1, a2, a3, a4, a5⟩ := ih (by omega)
      have hxn := hx n (by omega)
      have hxn1 := hx (n + 1) (by omega)
      have hun := hu n (by omega)
      simp only [] at hxn hxn1 hun
      refine ⟨d.calcNode n (stepX P p.xs p.dx a n) (stepU P p.us p.du a n),
        Function.update g n (shootGap P (stepX P p.xs p.dx a) (stepU P p.us p.du a) n), ?_, ?_, a2, a3, ?_, ?_⟩
      · rw [forUp_succ, e, sumUp_succ]
        simp only [tryNode, hxn, hxn1, hun, Data.calcNode, Function.update_self]
        rfl
      · intro t ht
        simp only [Data.calcNode]
        by_cases et : t = n
        · subst et; rw [Function.update_self]
        · rw [Function.update_of_ne et]; exact a1 t (by omega)
      · intro t ht
        by_cases et : t = n
        · subst et; rw [Function.update_self]
        · rw [Function.update_of_ne et]; exact a4 t (by omega)
      · intro t ht
        rw [Function.update_of_ne (by omega)]; exact a5 t (by omega)
  obtain ⟨d, g, e2, a1, a2, a3, a4, a5⟩ := key P.T le_rfl
  have hxT := hx P.T le_rfl
  have hg : rowsNorm g = shootGapNorm P (stepX P p.xs p.dx a) (stepU P p.us p.du a) + norm1 (p.gapTry P.T) := by
    unfold rowsNorm shootGapNorm
    rw [sumUp_succ, a5 P.T le_rfl]
    congr 1
    exact sumUp_congr _ _ _ fun t ht => by rw [a4 t ht]
  refine ⟨xt, ut, d.calcTer (stepX P p.xs p.dx a P.T), g, ?_, hx, hu, ⟨a1, rfl⟩, a2, a3, a5 P.T le_rfl⟩
  unfold tryStep
  simp only []
  rw [e, e2]
  simp only [hg, hxT, Data.calcTer]
  rfl

end
end PySQP
end Mim
