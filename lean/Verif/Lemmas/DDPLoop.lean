import Verif.Lemmas.DDPLaws

/-!
# One iteration of a DDP-type solve and induction over the loop
-/
set_option linter.unusedSectionVars false
set_option linter.unusedSimpArgs false

namespace Mim.DDP
open Spec
variable {F : Type} [Add F] [Sub F] [Mul F] [Div F] [Neg F] [Zero F] [One F] [FloatOps F] {P : Problem F}
variable {k : Kind P} {llt : LLT F}

/-- the state at the tolerance test of an iteration whose direction computation ended in `s`. -/
abbrev checked (k : Kind P) (s : DDP P) : DDP P := (k.improve s).checkKKT

/-- the three ways an iteration ends. -/
inductive BodyCase (k : Kind P) (llt : LLT F) (fuel : ℕ) (s : DDP P) (r : Option Bool) (s' : DDP P) : Prop
  | gaveUp (hr : retry k llt fuel s = some (false, s')) (hb : r = some false)
  | converged (s1 : DDP P) (hr : retry k llt fuel s = some (true, s1))
      (hk : leb (checked k s1).m.KKT (checked k s1).c.tol = true) (hs : s' = checked k s1) (hb : r = some true)
  | stuck (s1 : DDP P) (hr : retry k llt fuel s = some (true, s1))
      (hk : leb (checked k s1).m.KKT (checked k s1).c.tol = false)
      (hu : (search k (k.push (checked k s1))).updateReg.1 = true)
      (hs : s' = (search k (k.push (checked k s1))).updateReg.2) (hb : r = some false)
  | next (s1 : DDP P) (hr : retry k llt fuel s = some (true, s1))
      (hk : leb (checked k s1).m.KKT (checked k s1).c.tol = false)
      (hu : (search k (k.push (checked k s1))).updateReg.1 = false)
      (hs : s' = (search k (k.push (checked k s1))).updateReg.2.stopping.callbacks) (hb : r = none)

theorem body_cases {fuel : ℕ} {s : DDP P} {r : Option Bool} {s' : DDP P}
    (h : body k llt fuel s = some (r, s')) : BodyCase k llt fuel s r s' := by
  unfold body at h
  split at h
  · cases h
  · rename_i s1 hs1
    simp only [Option.some.injEq, Prod.mk.injEq] at h
    obtain ⟨rfl, rfl⟩ := h
    exact .gaveUp hs1 rfl
  · rename_i s1 hs1
    simp only [] at h
    by_cases hk : leb (checked k s1).m.KKT (checked k s1).c.tol = true
    · rw [if_pos hk] at h
      simp only [Option.some.injEq, Prod.mk.injEq] at h
      obtain ⟨rfl, rfl⟩ := h
      exact .converged s1 hs1 hk rfl rfl
    · rw [if_neg hk] at h
      have hk' : leb (checked k s1).m.KKT (checked k s1).c.tol = false := by simpa using hk
      by_cases hs : (search k (k.push (checked k s1))).updateReg.1 = true
      · rw [if_pos hs] at h
        simp only [Option.some.injEq, Prod.mk.injEq] at h
        obtain ⟨rfl, rfl⟩ := h
        exact .stuck s1 hs1 hk' hs rfl rfl
      · rw [if_neg hs] at h
        simp only [Option.some.injEq, Prod.mk.injEq] at h
        obtain ⟨rfl, rfl⟩ := h
        exact .next s1 hs1 hk' (by simpa using hs) rfl rfl

/-- induction over the main loop: `I n s` is an invariant at the head of an iteration with `n` iterations left. -/
theorem iterate_inv (fuel : ℕ) (I : ℕ → DDP P → Prop) (Q : Bool → DDP P → Prop)
    (hstep : ∀ n s s', I (n + 1) s → body k llt fuel s = some (none, s') → I n { s' with iter := s'.iter + 1 })
    (hret : ∀ n s b s', I (n + 1) s → body k llt fuel s = some (some b, s') → Q b s')
    (n : ℕ) (s : DDP P) (h0 : I n s) (r : Option Bool) (s' : DDP P)
    (h : iterate k llt fuel n s = some (r, s')) :
    (r = none ∧ I 0 s') ∨ (∃ b, r = some b ∧ Q b s') := by
  induction n generalizing s with
  | zero =>
    simp only [iterate, Option.some.injEq, Prod.mk.injEq] at h
    obtain ⟨rfl, rfl⟩ := h
    exact .inl ⟨rfl, h0⟩
  | succ n ih =>
    unfold iterate at h
    split at h
    · cases h
    · rename_i b s1 hb
      simp only [Option.some.injEq, Prod.mk.injEq] at h
      obtain ⟨rfl, rfl⟩ := h
      exact .inr ⟨b, rfl, hret n s b s1 h0 hb⟩
    · rename_i s1 hb
      exact ih _ (hstep n s s1 h0 hb) h

/-- the two ways `solve` returns. -/
theorem solve_cases {fuel : ℕ} {xs : Option (Traj P)} {us : Option (Ctrls P)} {m : ℕ} {fe : Bool} {ri : F}
    {s : DDP P} {b : Bool} {s' : DDP P} (h : solve k llt fuel xs us m fe ri s = some (b, s')) :
    iterate k llt fuel m (s.start xs us fe ri) = some (some b, s') ∨
    (b = false ∧ iterate k llt fuel m (s.start xs us fe ri) = some (none, s')) := by
  unfold solve at h
  split at h
  · cases h
  · rename_i b1 s1 h1
    simp only [Option.some.injEq, Prod.mk.injEq] at h
    obtain ⟨rfl, rfl⟩ := h
    exact .inl h1
  · rename_i s1 h1
    simp only [Option.some.injEq, Prod.mk.injEq] at h
    obtain ⟨rfl, rfl⟩ := h
    exact .inr ⟨rfl, h1⟩

/-- invariant rule for `solve`. -/
theorem solve_inv {fuel : ℕ} {xs : Option (Traj P)} {us : Option (Ctrls P)} {m : ℕ} {fe : Bool} {ri : F}
    {s : DDP P} {b : Bool} {s' : DDP P} (I : ℕ → DDP P → Prop) (Q : Bool → DDP P → Prop)
    (hstep : ∀ n s s', I (n + 1) s → body k llt fuel s = some (none, s') → I n { s' with iter := s'.iter + 1 })
    (hret : ∀ n s b s', I (n + 1) s → body k llt fuel s = some (some b, s') → Q b s')
    (hend : ∀ s, I 0 s → Q false s)
    (h0 : I m (s.start xs us fe ri)) (h : solve k llt fuel xs us m fe ri s = some (b, s')) : Q b s' := by
  rcases solve_cases h with h1 | ⟨rfl, h1⟩
  · rcases iterate_inv fuel I Q hstep hret m _ h0 _ _ h1 with ⟨h2, _⟩ | ⟨b', h2, hq⟩
    · cases h2
    · cases h2; exact hq
  · rcases iterate_inv fuel I Q hstep hret m _ h0 _ _ h1 with ⟨_, h2⟩ | ⟨b', h2, _⟩
    · exact hend _ h2
    · cases h2

theorem evald_evald (r : Bool) (s : DDP P) : evald false (evald r s) = evald r s := rfl

/-- what the retry loop does. -/
theorem retry_spec (hk : k.Laws) {fuel : ℕ} {s : DDP P} {b : Bool} {s' : DDP P} (h : retry k llt fuel s = some (b, s')) :
    (∃ p q bp g r, s' = { evald s.recalc s with
      preg := p, dreg := q, recalc := r, e := { (evald s.recalc s).e with bp := bp, gap := g } }) ∧
    (b = true → (∃ s0, k.dir llt false s0 = .ok s' ∨ k.dir llt true s0 = .ok s') ∧
      ∃ b0, backwardPass llt s'.y.data s'.e.fs s'.feas s'.preg s'.dreg b0 = .ok s'.e.bp) ∧
    (b = false → eqb s'.preg s'.c.par.regMax = true) := by
  induction fuel generalizing s with
  | zero => cases h
  | succ n ih =>
    unfold retry at h
    obtain ⟨bp, g, e⟩ := hk.dir llt s.recalc s
    split at h
    · rename_i s1 hs1
      simp only [Option.some.injEq, Prod.mk.injEq] at h
      obtain ⟨rfl, rfl⟩ := h
      rw [hs1] at e
      change s1 = _ at e
      have hb := hk.dir_ok llt s.recalc s s1 hs1
      refine ⟨⟨s.preg, s.dreg, bp, g, s.recalc, ?_⟩, fun _ => ⟨⟨s, ?_⟩, s.e.bp, ?_⟩, fun h => by cases h⟩
      · rw [e]
        obtain ⟨fs, c, d, e'⟩ := evald_frame s.recalc s
        rw [e']
      · cases hr : s.recalc
        · rw [hr] at hs1; exact .inl hs1
        · rw [hr] at hs1; exact .inr hs1
      · obtain ⟨fs, c, d, e'⟩ := evald_frame s.recalc s
        rw [e'] at hb e
        rw [e] at hb ⊢
        exact hb
    · rename_i s1 hs1
      rw [hs1] at e
      change s1 = _ at e
      simp only [] at h
      set s2 : DDP P := ({ s1 with recalc := false } : DDP P).increaseReg with hs2
      have e2 : s2 = { evald s.recalc s with preg := s2.preg, dreg := s2.dreg, recalc := false
                                             e := { (evald s.recalc s).e with bp := bp, gap := g } } := by
        rw [hs2, e]; rfl
      by_cases hm : eqb s2.preg s2.c.par.regMax = true
      · rw [if_pos hm] at h
        simp only [Option.some.injEq, Prod.mk.injEq] at h
        obtain ⟨rfl, rfl⟩ := h
        exact ⟨⟨_, _, _, _, _, e2⟩, fun h => (by cases h), fun _ => hm⟩
      · rw [if_neg hm] at h
        obtain ⟨⟨p, q, bp', g', r, e3⟩, h2, h3⟩ := ih h
        refine ⟨⟨p, q, bp', g', r, ?_⟩, h2, h3⟩
        rw [e3]
        have hr2 : s2.recalc = false := by rw [e2]
        rw [hr2]
        change ({ s2 with preg := p, dreg := q, recalc := r, e := { s2.e with bp := bp', gap := g' } } : DDP P) = _
        rw [e2]

/-- regularization in the retry loop. -/
theorem retry_reg (hk : k.Laws) {fuel : ℕ} {s : DDP P} {b : Bool} {s' : DDP P} {I : F → Prop}
    (hinc : ∀ r, I r → I (incReg s.c.par r)) (h0 : I s.preg ∧ s.dreg = s.preg)
    (h : retry k llt fuel s = some (b, s')) : I s'.preg ∧ s'.dreg = s'.preg := by
  induction fuel generalizing s with
  | zero => cases h
  | succ n ih =>
    unfold retry at h
    obtain ⟨bp, g, e⟩ := hk.dir llt s.recalc s
    obtain ⟨fs, c, d, e'⟩ := evald_frame s.recalc s
    rw [e'] at e
    split at h
    · rename_i s1 hs1
      simp only [Option.some.injEq, Prod.mk.injEq] at h
      obtain ⟨rfl, rfl⟩ := h
      rw [hs1] at e
      change s1 = _ at e
      rw [e]; exact h0
    · rename_i s1 hs1
      rw [hs1] at e
      change s1 = _ at e
      simp only [] at h
      have hi : I ({ s1 with recalc := false } : DDP P).increaseReg.preg ∧
          ({ s1 with recalc := false } : DDP P).increaseReg.dreg = ({ s1 with recalc := false } : DDP P).increaseReg.preg := by
        rw [e]; exact ⟨hinc _ h0.1, rfl⟩
      split at h
      · simp only [Option.some.injEq, Prod.mk.injEq] at h
        obtain ⟨rfl, rfl⟩ := h
        exact hi
      · exact ih (by rw [e]; exact hinc) hi h

/-- the members no retry loop changes. -/
theorem retry_frame (hk : k.Laws) {fuel : ℕ} {s : DDP P} {b : Bool} {s' : DDP P} (h : retry k llt fuel s = some (b, s')) :
    ∃ p q e d r, s' = { s with preg := p, dreg := q, e := e, y := { s.y with data := d }, recalc := r } := by
  obtain ⟨⟨p, q, bp, g, r, e⟩, _⟩ := retry_spec hk h
  obtain ⟨fs, c, d, e'⟩ := evald_frame s.recalc s
  rw [e'] at e
  exact ⟨p, q, _, d, r, e⟩

/-- what a line search can change. -/
def LSFrame (s s' : DDP P) : Prop :=
  ∃ st x u f w y r n cst d0 d1 dv dV ex, s' = { s with
    steplength := st, xs := x, us := u, feas := f, wasFeas := w, y := y, recalc := r, nTry := n
    e := { s.e with cost := cst }
    m := { s.m with d0 := d0, d1 := d1, dv := dv, dV := dV, dVexp := ex } } ∧
    y.data.rd = s.y.data.rd ∧ y.data.td = s.y.data.td

theorem LSFrame.refl (s : DDP P) : LSFrame s s := ⟨_, _, _, _, _, _, _, _, _, _, _, _, _, _, rfl, rfl, rfl⟩

theorem LSFrame.trans {s s1 s2 : DDP P} (h1 : LSFrame s s1) (h2 : LSFrame s1 s2) : LSFrame s s2 := by
  obtain ⟨st, x, u, f, w, y, r, n, cst, d0, d1, dv, dV, ex, rfl, h3, h4⟩ := h1
  obtain ⟨st', x', u', f', w', y', r', n', cst', d0', d1', dv', dV', ex', rfl, h5, h6⟩ := h2
  exact ⟨st', x', u', f', w', y', r', n', cst', d0', d1', dv', dV', ex', rfl, h5.trans h3, h6.trans h4⟩

theorem trial_lsframe (hk : k.Laws) (a : F) (s : DDP P) :
    LSFrame s (k.trial a { s with steplength := a, nTry := s.nTry + 1 }).st := by
  obtain ⟨y, dV, e, h1, h2⟩ := hk.trial a { s with steplength := a, nTry := s.nTry + 1 }
  rw [e]
  exact ⟨_, _, _, _, _, _, _, _, _, _, _, _, _, _, rfl, h1, h2⟩

theorem test_lsframe (hk : k.Laws) (a : F) (s : DDP P) : LSFrame s (k.test a s).2 := by
  obtain ⟨dx, d0, d1, dv, ex, e⟩ := hk.test a s
  rw [e]
  exact ⟨_, _, _, _, _, _, _, _, _, _, _, _, _, _, rfl, rfl, rfl⟩

theorem commit_lsframe (hk : k.Laws) (a : F) (s : DDP P) : LSFrame s { k.commit a s with recalc := true } := by
  obtain ⟨f, w, c, e⟩ := hk.commit a s
  rw [e]
  exact ⟨_, _, _, _, _, _, _, _, _, _, _, _, _, _, rfl, rfl, rfl⟩

theorem lineSearch_lsframe (hk : k.Laws) (as : List F) (s : DDP P) : LSFrame s (lineSearch k as s).2 := by
  induction as generalizing s with
  | nil => exact .refl s
  | cons a as ih =>
    have ht := trial_lsframe hk a s
    unfold lineSearch
    split
    · rename_i s1 h1; rw [h1] at ht; exact ht.trans (ih s1)
    · rename_i s1 h1
      rw [h1] at ht
      simp only []
      have ht2 := ht.trans (test_lsframe hk a s1)
      split
      · exact ht2.trans (commit_lsframe hk a _)
      · exact ht2.trans (ih _)

theorem search_eq (s : DDP P) : search k s =
    if (lineSearch k s.c.par.alphas { s with recalc := false }).1 then (lineSearch k s.c.par.alphas { s with recalc := false }).2
    else { (lineSearch k s.c.par.alphas { s with recalc := false }).2 with
      nRej := (lineSearch k s.c.par.alphas { s with recalc := false }).2.nRej + 1 } := rfl

/-- what a whole line search can change: as `LSFrame`, and the counter of failures. -/
theorem search_frame (hk : k.Laws) (s : DDP P) : ∃ st x u f w y r n cst d0 d1 dv dV ex rej, search k s = { s with
    steplength := st, xs := x, us := u, feas := f, wasFeas := w, y := y, recalc := r, nTry := n, nRej := rej
    e := { s.e with cost := cst }
    m := { s.m with d0 := d0, d1 := d1, dv := dv, dV := dV, dVexp := ex } } ∧
    y.data.rd = s.y.data.rd ∧ y.data.td = s.y.data.td := by
  have h := lineSearch_lsframe hk s.c.par.alphas { s with recalc := false }
  rw [search_eq]
  obtain ⟨st, x, u, f, w, y, r, n, cst, d0, d1, dv, dV, ex, e, h1, h2⟩ := h
  rw [e]
  split
  · exact ⟨_, _, _, _, _, _, _, _, _, _, _, _, _, _, s.nRej, rfl, h1, h2⟩
  · exact ⟨_, _, _, _, _, _, _, _, _, _, _, _, _, _, _, rfl, h1, h2⟩

theorem updateReg_frame (s : DDP P) : ∃ p q, s.updateReg.2 = { s with preg := p, dreg := q } := by
  unfold updateReg
  simp only []
  split <;> split <;> exact ⟨_, _, rfl⟩

/-- regularization update. -/
theorem updateReg_reg {s : DDP P} {I : F → Prop} (hinc : ∀ r, I r → I (incReg s.c.par r))
    (hdec : ∀ r, I r → I (decReg s.c.par r)) (h0 : I s.preg ∧ s.dreg = s.preg) :
    I s.updateReg.2.preg ∧ s.updateReg.2.dreg = s.updateReg.2.preg := by
  unfold updateReg
  simp only []
  split <;> split
  · exact ⟨hinc _ (hdec _ h0.1), rfl⟩
  · exact ⟨hdec _ h0.1, rfl⟩
  · exact ⟨hinc _ h0.1, rfl⟩
  · exact h0

/-- The invariant of the loop: either the derivatives will be recomputed and (after iteration 0) the stored costs and next
states are those of the current trajectory, or the derivatives, gaps and cost are those of the current trajectory. -/
structure EvalFresh (s : DDP P) : Prop where
  diff : FreshDiff P s.y.data s.xs s.us
  gap0 : s.e.fs 0 = P.diff (s.xs 0) P.x0
  gaps : ∀ t, t < P.T → s.e.fs (t + 1) = shootGap P s.xs s.us t
  cost : s.e.cost = trajCost P s.xs s.us

def HeadInv (s : DDP P) : Prop :=
  (s.recalc = true ∧ (s.iter = 0 ∨ FreshCalc P s.y.data s.xs s.us)) ∨ (s.recalc = false ∧ EvalFresh s)

theorem calcDiff_evalFresh (s : DDP P) (h : s.iter = 0 ∨ FreshCalc P s.y.data s.xs s.us) : EvalFresh s.calcDiff := by
  have hfc : FreshCalc P s.calcDiff.y.data s.xs s.us := by
    unfold calcDiff
    simp only []
    split
    · exact ⟨fun t ht => by simp [Data.calcDiffAll, Data.calcAll, ht], rfl⟩
    · rename_i hi
      obtain ⟨h1, h2⟩ := h.resolve_left hi
      exact ⟨fun t ht => h1 t ht, h2⟩
  refine ⟨⟨fun t ht => ?_, rfl⟩, rfl, fun t ht => ?_, ?_⟩
  · unfold calcDiff; simp [Data.calcDiffAll, ht]
  · change P.diff (s.xs (t + 1)) (s.calcDiff.y.data.run t).xnext = _
    rw [hfc.run t ht]; rfl
  · change s.calcDiff.y.data.totalCost = _
    unfold Data.totalCost trajCost
    rw [hfc.ter]
    congr 1
    unfold sumUp
    have : ∀ n, n ≤ P.T → forUp n (fun t acc => acc + (s.calcDiff.y.data.run t).cost) 0 =
        forUp n (fun t acc => acc + nodeCost P s.calcDiff.xs s.calcDiff.us t) 0 := by
      intro n
      induction n with
      | zero => intro _; rfl
      | succ n ih =>
        intro hn
        rw [forUp_succ, forUp_succ, ih (by omega), hfc.run n (by omega)]; rfl
    exact this P.T le_rfl

theorem evald_evalFresh {s : DDP P} (h : HeadInv s) : EvalFresh (evald s.recalc s) := by
  rcases h with ⟨hr, h⟩ | ⟨hr, h⟩
  · rw [hr]; exact calcDiff_evalFresh s h
  · rw [hr]; exact h

theorem EvalFresh.congr {s s' : DDP P} (h : EvalFresh s) (h1 : s'.y.data.rd = s.y.data.rd) (h2 : s'.y.data.td = s.y.data.td)
    (h3 : s'.xs = s.xs) (h4 : s'.us = s.us) (h5 : s'.e.fs = s.e.fs) (h6 : s'.e.cost = s.e.cost) : EvalFresh s' := by
  obtain ⟨⟨a, b⟩, c, d, e⟩ := h
  refine ⟨⟨?_, ?_⟩, ?_, ?_, ?_⟩
  · rw [h1, h3, h4]; exact a
  · rw [h2, h3]; exact b
  · rw [h5, h3]; exact c
  · rw [h5, h3, h4]; exact d
  · rw [h6, h3, h4]; exact e

/-- every retry loop ends with fresh evaluations. -/
theorem retry_evalFresh (hk : k.Laws) {fuel : ℕ} {s : DDP P} {b : Bool} {s' : DDP P} (h : retry k llt fuel s = some (b, s'))
    (hI : HeadInv s) : EvalFresh s' := by
  obtain ⟨⟨p, q, bp, g, r, e⟩, _⟩ := retry_spec hk h
  rw [e]
  exact (evald_evalFresh hI).congr rfl rfl rfl rfl rfl rfl

/-- what a line search starting with `recalc = false` and fresh evaluations ends with. -/
theorem lineSearch_inv (hk : k.Laws) (as : List F) (s : DDP P) (hr : s.recalc = false) (hI : EvalFresh s) :
    let r := lineSearch k as s
    (r.1 = true ∧ r.2.recalc = true ∧ FreshCalc P r.2.y.data r.2.xs r.2.us) ∨
    (r.1 = false ∧ r.2.recalc = false ∧ EvalFresh r.2 ∧ r.2.xs = s.xs ∧ r.2.us = s.us ∧ r.2.feas = s.feas ∧
      r.2.wasFeas = s.wasFeas) := by
  induction as generalizing s with
  | nil => exact .inr ⟨rfl, hr, hI, rfl, rfl, rfl, rfl⟩
  | cons a as ih =>
    have hst : ∀ s1, (k.trial a { s with steplength := a, nTry := s.nTry + 1 }).st = s1 →
        s1.recalc = false ∧ EvalFresh s1 ∧ s1.xs = s.xs ∧ s1.us = s.us ∧ s1.feas = s.feas ∧ s1.wasFeas = s.wasFeas := by
      intro s1 h1
      obtain ⟨y, dV, e, h3, h4⟩ := hk.trial a { s with steplength := a, nTry := s.nTry + 1 }
      rw [h1] at e
      rw [e]
      exact ⟨hr, hI.congr h3 h4 rfl rfl rfl rfl, rfl, rfl, rfl, rfl⟩
    have hmono : ∀ s1 : DDP P, s1.xs = s.xs → s1.us = s.us → s1.feas = s.feas → s1.wasFeas = s.wasFeas →
        ((lineSearch k as s1).1 = true ∧ (lineSearch k as s1).2.recalc = true ∧
          FreshCalc P (lineSearch k as s1).2.y.data (lineSearch k as s1).2.xs (lineSearch k as s1).2.us) ∨
        ((lineSearch k as s1).1 = false ∧ (lineSearch k as s1).2.recalc = false ∧ EvalFresh (lineSearch k as s1).2 ∧
          (lineSearch k as s1).2.xs = s1.xs ∧ (lineSearch k as s1).2.us = s1.us ∧ (lineSearch k as s1).2.feas = s1.feas ∧
          (lineSearch k as s1).2.wasFeas = s1.wasFeas) →
        ((lineSearch k as s1).1 = true ∧ (lineSearch k as s1).2.recalc = true ∧
          FreshCalc P (lineSearch k as s1).2.y.data (lineSearch k as s1).2.xs (lineSearch k as s1).2.us) ∨
        ((lineSearch k as s1).1 = false ∧ (lineSearch k as s1).2.recalc = false ∧ EvalFresh (lineSearch k as s1).2 ∧
          (lineSearch k as s1).2.xs = s.xs ∧ (lineSearch k as s1).2.us = s.us ∧ (lineSearch k as s1).2.feas = s.feas ∧
          (lineSearch k as s1).2.wasFeas = s.wasFeas) := by
      intro s1 h1 h2 h3 h4 h
      rw [h1, h2, h3, h4] at h
      exact h
    simp only []
    unfold lineSearch
    split
    · rename_i s1 h1
      obtain ⟨i1, i2, i3, i4, i5, i6⟩ := hst s1 (by rw [h1]; rfl)
      exact hmono s1 i3 i4 i5 i6 (ih s1 i1 i2)
    · rename_i s1 h1
      obtain ⟨i1, i2, i3, i4, i5, i6⟩ := hst s1 (by rw [h1]; rfl)
      have hf := hk.trial_fresh _ _ _ h1
      obtain ⟨dx, d0, d1, dv, ex, e⟩ := hk.test a s1
      simp only []
      split
      · left
        obtain ⟨f, w, c, e'⟩ := hk.commit a (k.test a s1).2
        rw [e', e]
        exact ⟨rfl, rfl, hf⟩
      · rw [e]
        exact hmono _ i3 i4 i5 i6 (ih _ i1 (i2.congr rfl rfl rfl rfl rfl rfl))

/-- after a line search: accepted with fresh costs, or rejected with nothing but the trial memory changed. -/
theorem search_inv (hk : k.Laws) (s : DDP P) (hI : EvalFresh s) :
    ((search k s).nRej = s.nRej ∧ (search k s).recalc = true ∧
      FreshCalc P (search k s).y.data (search k s).xs (search k s).us) ∨
    ((search k s).nRej = s.nRej + 1 ∧ (search k s).recalc = false ∧ EvalFresh (search k s) ∧
      (search k s).xs = s.xs ∧ (search k s).us = s.us ∧ (search k s).feas = s.feas ∧ (search k s).wasFeas = s.wasFeas) := by
  have h := lineSearch_inv hk s.c.par.alphas { s with recalc := false } rfl (hI.congr rfl rfl rfl rfl rfl rfl)
  obtain ⟨st, x, u, f, w, y, r, n, cst, d0, d1, dv, dV, ex, e, h1, h2⟩ :=
    lineSearch_lsframe hk s.c.par.alphas { s with recalc := false }
  have hn : (lineSearch k s.c.par.alphas { s with recalc := false }).2.nRej = s.nRej := by rw [e]
  rw [search_eq]
  simp only [] at h
  rcases h with ⟨h1, h2, h3⟩ | ⟨h1, h2, h3, h4, h5, h6, h7⟩
  · left; rw [if_pos h1]; exact ⟨hn, h2, h3⟩
  · right
    rw [if_neg (by simp [h1])]
    exact ⟨by change _ + 1 = _; rw [hn], h2, h3.congr rfl rfl rfl rfl rfl rfl, h4, h5, h6, h7⟩

/-- the state handed to the line search. -/
theorem pushed_frame (hk : k.Laws) (s : DDP P) : ∃ d0 d1 dg dq kkt n g c h, k.push (checked k s) =
    { s with m := { s.m with d0 := d0, d1 := d1, dg := dg, dq := dq, KKT := kkt, gapList := g, costList := c }
             nKKT := n, hist := h } ∧ kkt = kktResidual s.y.data s.e.fs s.y.lagMul ∧ n = s.nKKT + 1 := by
  obtain ⟨d0, d1, dg, dq, e⟩ := hk.improve s
  obtain ⟨g, c, h, e'⟩ := hk.push (checked k s)
  rw [e']
  unfold checked
  rw [e]
  exact ⟨_, _, _, _, _, _, _, _, _, rfl, rfl, rfl⟩

theorem checked_frame (hk : k.Laws) (s : DDP P) : ∃ d0 d1 dg dq, checked k s =
    { s with m := { s.m with d0 := d0, d1 := d1, dg := dg, dq := dq, KKT := kktResidual s.y.data s.e.fs s.y.lagMul }
             nKKT := s.nKKT + 1 } := by
  obtain ⟨d0, d1, dg, dq, e⟩ := hk.improve s
  unfold checked
  rw [e]
  exact ⟨_, _, _, _, rfl⟩

/-- the members a whole iteration never changes. -/
theorem body_frame (hk : k.Laws) {fuel : ℕ} {s : DDP P} {r : Option Bool} {s' : DDP P} (h : body k llt fuel s = some (r, s')) :
    s'.c = s.c ∧ s'.iter = s.iter := by
  cases body_cases h with
  | gaveUp hr hb =>
    obtain ⟨p, q, e, d, r, e1⟩ := retry_frame hk hr
    rw [e1]; exact ⟨rfl, rfl⟩
  | converged s1 hr _ hs hb =>
    obtain ⟨p, q, e, d, r, e1⟩ := retry_frame hk hr
    obtain ⟨d0, d1, dg, dq, e2⟩ := checked_frame hk s1
    rw [hs, e2, e1]; exact ⟨rfl, rfl⟩
  | stuck s1 hr _ _ hs hb =>
    obtain ⟨p, q, e, d, r, e1⟩ := retry_frame hk hr
    obtain ⟨_, _, _, _, _, _, _, _, _, e2, _⟩ := pushed_frame hk s1
    obtain ⟨_, _, _, _, _, _, _, _, _, _, _, _, _, _, _, e3, _⟩ := search_frame hk (k.push (checked k s1))
    obtain ⟨_, _, e4⟩ := updateReg_frame (search k (k.push (checked k s1)))
    rw [hs, e4, e3, e2, e1]; exact ⟨rfl, rfl⟩
  | next s1 hr _ _ hs hb =>
    obtain ⟨p, q, e, d, r, e1⟩ := retry_frame hk hr
    obtain ⟨_, _, _, _, _, _, _, _, _, e2, _⟩ := pushed_frame hk s1
    obtain ⟨_, _, _, _, _, _, _, _, _, _, _, _, _, _, _, e3, _⟩ := search_frame hk (k.push (checked k s1))
    obtain ⟨_, _, e4⟩ := updateReg_frame (search k (k.push (checked k s1)))
    rw [hs, e4, e3, e2, e1]; exact ⟨rfl, rfl⟩

/-- the loop invariant is maintained. -/
theorem body_headInv (hk : k.Laws) {fuel : ℕ} {s s' : DDP P} (h : body k llt fuel s = some (none, s')) (hI : HeadInv s) :
    HeadInv { s' with iter := s'.iter + 1 } := by
  cases body_cases h with
  | gaveUp hr hb => cases hb
  | converged s1 hr _ hs hb => cases hb
  | stuck s1 hr _ _ hs hb => cases hb
  | next s1 hr _ _ hs hb =>
    have h1 := retry_evalFresh hk hr hI
    obtain ⟨_, _, _, _, _, _, _, _, _, e2, _⟩ := pushed_frame hk s1
    have h2 : EvalFresh (k.push (checked k s1)) := by rw [e2]; exact h1.congr rfl rfl rfl rfl rfl rfl
    obtain ⟨p, q, e4⟩ := updateReg_frame (search k (k.push (checked k s1)))
    rw [hs, e4]
    rcases search_inv hk _ h2 with ⟨_, h3, h4⟩ | ⟨_, h3, h4, _⟩
    · exact .inl ⟨h3, .inr h4⟩
    · exact .inr ⟨h3, h4.congr rfl rfl rfl rfl rfl rfl⟩

theorem start_headInv (s : DDP P) (xs : Option (Traj P)) (us : Option (Ctrls P)) (fe : Bool) (ri : F) :
    HeadInv (s.start xs us fe ri) := .inl ⟨rfl, .inl rfl⟩

theorem iterate_headInv (hk : k.Laws) {fuel : ℕ} (s : DDP P) (xs : Option (Traj P)) (us : Option (Ctrls P)) (fe : Bool)
    (ri : F) (n : ℕ) {s1 : DDP P} (h : iterate k llt fuel n (s.start xs us fe ri) = some (none, s1)) :
    HeadInv s1 ∧ s1.c = s.c ∧ s1.iter = n := by
  rcases iterate_inv fuel (fun j s1 => HeadInv s1 ∧ s1.c = s.c ∧ s1.iter + j = n) (fun _ _ => True)
    (fun j s2 s3 hI hb => ⟨body_headInv hk hb hI.1, (body_frame hk hb).1.trans hI.2.1, by
      have := (body_frame hk hb).2; have := hI.2.2; change s3.iter + 1 + j = n; omega⟩)
    (fun _ _ _ _ _ _ => trivial) n _ ⟨start_headInv s xs us fe ri, rfl, Nat.zero_add n⟩ none s1 h with ⟨_, h⟩ | ⟨_, h, _⟩
  · exact ⟨h.1, h.2.1, by simpa using h.2.2⟩
  · cases h

end Mim.DDP
