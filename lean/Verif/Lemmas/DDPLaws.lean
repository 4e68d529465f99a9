import Verif.Model.DDPSolve
import Verif.Spec.OCP

/-!
# What the parts of a DDP-type solve write and read
-/
set_option linter.unusedSectionVars false
set_option linter.unusedSimpArgs false

namespace Mim.DDP
open Spec
variable {F : Type} [Add F] [Sub F] [Mul F] [Div F] [Neg F] [Zero F] [One F] [FloatOps F] {P : Problem F}

/-- the state evaluated by `computeDirection(recalcDiff)`. -/
def evald (r : Bool) (s : DDP P) : DDP P := if r then s.calcDiff else s

/-- Frame and evaluation laws of the parts of `solve`. -/
structure Kind.Laws (k : Kind P) : Prop where
  dir : ∀ llt r s, ∃ b g, (k.dir llt r s).st = { evald r s with e := { (evald r s).e with bp := b, gap := g } }
  dir_ok : ∀ llt r s s', k.dir llt r s = .ok s' → backwardPass llt (evald r s).y.data (evald r s).e.fs s.feas s.preg s.dreg
    s.e.bp = .ok s'.e.bp
  dir_isOk : ∀ llt r s, (k.dir llt r s).isOk = (backwardPass llt (evald r s).y.data (evald r s).e.fs s.feas s.preg s.dreg
    s.e.bp).isOk
  improve : ∀ s, ∃ d0 d1 dg dq, k.improve s = { s with m := { s.m with d0 := d0, d1 := d1, dg := dg, dq := dq } }
  push : ∀ s, ∃ g c h, k.push s = { s with m := { s.m with gapList := g, costList := c }, hist := h }
  trial : ∀ a s, ∃ y dV, (k.trial a s).st = { s with y := y, m := { s.m with dV := dV } } ∧
    y.data.rd = s.y.data.rd ∧ y.data.td = s.y.data.td
  trial_bad : ∀ a s, (ltb 1 a || ltb a 0) = true → (k.trial a s).isOk = false
  trial_fresh : ∀ a s s', k.trial a s = .ok s' → FreshCalc P s'.y.data s'.y.xs s'.y.us
  test : ∀ a s, ∃ dx d0 d1 dv e, (k.test a s).2 =
    { s with y := { s.y with dx := dx }, m := { s.m with d0 := d0, d1 := d1, dv := dv, dVexp := e } }
  commit : ∀ a s, ∃ f w c, k.commit a s =
    { s with xs := s.y.xs, us := s.y.us, feas := f, wasFeas := w, e := { s.e with cost := c } }

theorem evald_frame (r : Bool) (s : DDP P) : ∃ fs c d, evald r s =
    { s with e := { s.e with fs := fs, cost := c }, y := { s.y with data := d } } := by
  unfold evald calcDiff
  cases r
  · exact ⟨s.e.fs, s.e.cost, s.y.data, rfl⟩
  · exact ⟨_, _, _, rfl⟩

/-! ### DDP -/

theorem stageDDP_st (a : F) (t : ℕ) (s : DDP P) : ∃ y, (stageDDP a t s).st = { s with y := y } ∧
    y.data.rd = s.y.data.rd ∧ y.data.td = s.y.data.td := by
  unfold stageDDP
  exact ⟨_, Res.throwIf_st _ _, rfl, rfl⟩

theorem finishDDP_st (s : DDP P) : ∃ y, (finishDDP s).st = { s with y := y } ∧
    y.data.rd = s.y.data.rd ∧ y.data.td = s.y.data.td := by
  unfold finishDDP
  exact ⟨_, Res.throwIf_st _ _, rfl, rfl⟩

theorem tryDDP_st (a : F) (s : DDP P) : ∃ y dV, (tryDDP a s).st = { s with y := y, m := { s.m with dV := dV } } ∧
    y.data.rd = s.y.data.rd ∧ y.data.td = s.y.data.td := by
  unfold tryDDP
  split
  · exact ⟨_, _, rfl, rfl, rfl⟩
  · have h1 := forUpR_inv_st (fun s' => ∃ y, s' = { s with y := y } ∧ y.data.rd = s.y.data.rd ∧ y.data.td = s.y.data.td)
      P.T (stageDDP a) { s with y := { s.y with cost := 0 } } ⟨_, rfl, rfl, rfl⟩ (by
        rintro t _ _ ⟨y, rfl, h1, h2⟩
        obtain ⟨y', e, h3, h4⟩ := stageDDP_st a t { s with y := y }
        exact ⟨y', e, h3.trans h1, h4.trans h2⟩)
    cases hf : forUpR P.T (stageDDP a) { s with y := { s.y with cost := 0 } } with
    | exn s1 =>
      rw [hf] at h1
      obtain ⟨y, e, h1, h2⟩ := h1
      exact ⟨y, s.m.dV, e, h1, h2⟩
    | ok s1 =>
      rw [hf] at h1
      obtain ⟨y, e, h1, h2⟩ := h1
      obtain ⟨y', e', h3, h4⟩ := finishDDP_st s1
      simp only [Res.bind_ok]
      change s1 = _ at e
      subst e
      cases hg : finishDDP { s with y := y } with
      | exn s2 =>
        rw [hg] at e'
        exact ⟨y', s.m.dV, e', h3.trans h1, h4.trans h2⟩
      | ok s2 =>
        rw [hg] at e'
        change s2 = _ at e'
        subst e'
        exact ⟨y', _, rfl, h3.trans h1, h4.trans h2⟩

/-- the datas of nodes `< n` are those of the trial trajectory. -/
def TryFresh (n : ℕ) (y : DTry P) : Prop := ∀ t, t < n → y.data.run t = P.calcR t (y.xs t) (y.us t)

theorem stageDDP_fresh {a : F} {t : ℕ} {s s' : DDP P} (h : stageDDP a t s = .ok s') (hf : TryFresh t s.y) :
    TryFresh (t + 1) s'.y := by
  unfold stageDDP at h
  obtain ⟨_, rfl⟩ := Res.throwIf_eq_ok h
  intro j hj
  rcases Nat.lt_succ_iff_lt_or_eq.mp hj with hj | rfl
  · have h1 : j ≠ t := by omega
    have h2 : j ≠ t + 1 := by omega
    simp only [nodeDDP, Data.calcNode, Function.update_of_ne h1, Function.update_of_ne h2]
    rw [hf j hj]
    split
    · rw [Function.update_of_ne h1]
    · rfl
  · simp only [nodeDDP, Data.calcNode, Function.update_self, Function.update_of_ne (Nat.succ_ne_self j).symm]

theorem tryDDP_fresh {a : F} {s s' : DDP P} (h : tryDDP a s = .ok s') : FreshCalc P s'.y.data s'.y.xs s'.y.us := by
  unfold tryDDP at h
  split at h
  · cases h
  · obtain ⟨s2, h2, h3⟩ := Res.bind_eq_ok h
    obtain ⟨s1, h1, h2⟩ := Res.bind_eq_ok h2
    have hf := forUpR_inv (fun n (s : DDP P) => TryFresh n s.y) P.T _ _ s1 (fun t ht => by omega)
      (fun t _ s s' hI h => stageDDP_fresh h hI) h1
    unfold finishDDP at h2
    obtain ⟨_, rfl⟩ := Res.throwIf_eq_ok h2
    cases h3
    exact ⟨hf, rfl⟩

theorem ddp_laws : (ddp P).Laws where
  dir llt r s := by
    change ∃ b g, (dirDDP llt r s).st = _
    unfold dirDDP
    have e : (if r = true then s.calcDiff else s) = evald r s := rfl
    simp only [e]
    cases backwardPass llt (evald r s).y.data (evald r s).e.fs (evald r s).feas (evald r s).preg (evald r s).dreg
      (evald r s).e.bp with
    | ok b => exact ⟨b, _, rfl⟩
    | exn b => exact ⟨b, _, rfl⟩
  dir_ok llt r s s' h := by
    change dirDDP llt r s = _ at h
    unfold dirDDP at h
    obtain ⟨b, h1, rfl⟩ := Res.map_eq_ok h
    obtain ⟨fs, c, d, e⟩ := evald_frame r s
    have e0 : (if r = true then s.calcDiff else s) = evald r s := rfl
    rw [e0] at h1
    have e1 : (evald r s).feas = s.feas ∧ (evald r s).preg = s.preg ∧ (evald r s).dreg = s.dreg ∧
      (evald r s).e.bp = s.e.bp := by rw [e]; exact ⟨rfl, rfl, rfl, rfl⟩
    rw [e1.1, e1.2.1, e1.2.2.1, e1.2.2.2] at h1
    exact h1
  dir_isOk llt r s := by
    change (dirDDP llt r s).isOk = _
    unfold dirDDP
    obtain ⟨fs, c, d, e⟩ := evald_frame r s
    have e0 : (if r = true then s.calcDiff else s) = evald r s := rfl
    simp only [e0]
    have e1 : (evald r s).feas = s.feas ∧ (evald r s).preg = s.preg ∧ (evald r s).dreg = s.dreg ∧
      (evald r s).e.bp = s.e.bp := by rw [e]; exact ⟨rfl, rfl, rfl, rfl⟩
    rw [e1.1, e1.2.1, e1.2.2.1, e1.2.2.2]
    cases backwardPass llt (evald r s).y.data (evald r s).e.fs s.feas s.preg s.dreg s.e.bp <;> rfl
  improve s := ⟨_, _, s.m.dg, s.m.dq, rfl⟩
  push s := ⟨s.m.gapList, s.m.costList, s.hist, rfl⟩
  trial := tryDDP_st
  trial_bad a s h := by
    change (tryDDP a s).isOk = _
    unfold tryDDP
    rw [if_pos h]; rfl
  trial_fresh a s s' h := tryDDP_fresh h
  test a s := ⟨s.y.dx, s.m.d0, s.m.d1, s.m.dv, _, rfl⟩
  commit a s := ⟨true, s.feas, _, rfl⟩

/-! ### FDDP -/

theorem stageFDDP_st (roll : Bool) (a : F) (t : ℕ) (s : DDP P) : ∃ y, (stageFDDP roll a t s).st = { s with y := y } ∧
    y.data.rd = s.y.data.rd ∧ y.data.td = s.y.data.td := by
  unfold stageFDDP
  exact ⟨_, Res.throwIf_st _ _, rfl, rfl⟩

theorem finishFDDP_st (roll : Bool) (a : F) (s : DDP P) : ∃ y, (finishFDDP roll a s).st = { s with y := y } ∧
    y.data.rd = s.y.data.rd ∧ y.data.td = s.y.data.td := by
  unfold finishFDDP
  exact ⟨_, Res.throwIf_st _ _, rfl, rfl⟩

theorem tryFDDP_st (a : F) (s : DDP P) : ∃ y dV, (tryFDDP a s).st = { s with y := y, m := { s.m with dV := dV } } ∧
    y.data.rd = s.y.data.rd ∧ y.data.td = s.y.data.td := by
  unfold tryFDDP
  split
  · exact ⟨_, _, rfl, rfl, rfl⟩
  · simp only []
    generalize (s.feas || eqb a 1) = roll
    have h1 := forUpR_inv_st (fun s' => ∃ y, s' = { s with y := y } ∧ y.data.rd = s.y.data.rd ∧ y.data.td = s.y.data.td)
      P.T (stageFDDP roll a) { s with y := { s.y with cost := 0, gap := 0, xnext := P.x0 } } ⟨_, rfl, rfl, rfl⟩ (by
        rintro t _ _ ⟨y, rfl, h1, h2⟩
        obtain ⟨y', e, h3, h4⟩ := stageFDDP_st roll a t { s with y := y }
        exact ⟨y', e, h3.trans h1, h4.trans h2⟩)
    cases hf : forUpR P.T (stageFDDP roll a) { s with y := { s.y with cost := 0, gap := 0, xnext := P.x0 } } with
    | exn s1 =>
      rw [hf] at h1
      obtain ⟨y, e, h1, h2⟩ := h1
      exact ⟨y, s.m.dV, e, h1, h2⟩
    | ok s1 =>
      rw [hf] at h1
      obtain ⟨y, e, h1, h2⟩ := h1
      obtain ⟨y', e', h3, h4⟩ := finishFDDP_st roll a s1
      simp only [Res.bind_ok]
      change s1 = _ at e
      subst e
      cases hg : finishFDDP roll a { s with y := y } with
      | exn s2 =>
        rw [hg] at e'
        exact ⟨y', s.m.dV, e', h3.trans h1, h4.trans h2⟩
      | ok s2 =>
        rw [hg] at e'
        change s2 = _ at e'
        subst e'
        exact ⟨y', _, rfl, h3.trans h1, h4.trans h2⟩

theorem stageFDDP_fresh {roll : Bool} {a : F} {t : ℕ} {s s' : DDP P} (h : stageFDDP roll a t s = .ok s')
    (hf : TryFresh t s.y) : TryFresh (t + 1) s'.y := by
  unfold stageFDDP at h
  obtain ⟨_, rfl⟩ := Res.throwIf_eq_ok h
  intro j hj
  rcases Nat.lt_succ_iff_lt_or_eq.mp hj with hj | rfl
  · have h1 : j ≠ t := by omega
    simp only [nodeFDDP, Data.calcNode, Function.update_of_ne h1]
    rw [hf j hj]
    split
    · rw [Function.update_of_ne h1]
    · rfl
  · simp only [nodeFDDP, Data.calcNode, Function.update_self]

theorem tryFDDP_fresh {a : F} {s s' : DDP P} (h : tryFDDP a s = .ok s') : FreshCalc P s'.y.data s'.y.xs s'.y.us := by
  unfold tryFDDP at h
  split at h
  · cases h
  · simp only [] at h
    obtain ⟨s2, h2, h3⟩ := Res.bind_eq_ok h
    obtain ⟨s1, h1, h2⟩ := Res.bind_eq_ok h2
    have hf := forUpR_inv (fun n (s : DDP P) => TryFresh n s.y) P.T _ _ s1 (fun t ht => by omega)
      (fun t _ s s' hI h => stageFDDP_fresh h hI) h1
    unfold finishFDDP at h2
    obtain ⟨_, rfl⟩ := Res.throwIf_eq_ok h2
    cases h3
    refine ⟨fun t ht => ?_, ?_⟩
    · simp only [Data.calcTer]
      rw [Function.update_of_ne (by omega)]
      exact hf t ht
    · simp only [Data.calcTer, Function.update_self]

theorem fddp_laws : (fddp P).Laws where
  dir llt r s := by
    change ∃ b g, (dirFDDP llt r s).st = _
    unfold dirFDDP
    have e : (if r = true then s.calcDiff else s) = evald r s := rfl
    simp only [e]
    cases backwardPass llt (evald r s).y.data (evald r s).e.fs (evald r s).feas (evald r s).preg (evald r s).dreg
      (evald r s).e.bp with
    | ok b => exact ⟨b, _, rfl⟩
    | exn b => exact ⟨b, _, rfl⟩
  dir_ok llt r s s' h := by
    change dirFDDP llt r s = _ at h
    unfold dirFDDP at h
    obtain ⟨b, h1, rfl⟩ := Res.map_eq_ok h
    obtain ⟨fs, c, d, e⟩ := evald_frame r s
    have e0 : (if r = true then s.calcDiff else s) = evald r s := rfl
    rw [e0] at h1
    have e1 : (evald r s).feas = s.feas ∧ (evald r s).preg = s.preg ∧ (evald r s).dreg = s.dreg ∧
      (evald r s).e.bp = s.e.bp := by rw [e]; exact ⟨rfl, rfl, rfl, rfl⟩
    simp only [e1.1, e1.2.1, e1.2.2.1, e1.2.2.2] at h1
    exact h1
  dir_isOk llt r s := by
    change (dirFDDP llt r s).isOk = _
    unfold dirFDDP
    obtain ⟨fs, c, d, e⟩ := evald_frame r s
    have e0 : (if r = true then s.calcDiff else s) = evald r s := rfl
    simp only [e0]
    have e1 : (evald r s).feas = s.feas ∧ (evald r s).preg = s.preg ∧ (evald r s).dreg = s.dreg ∧
      (evald r s).e.bp = s.e.bp := by rw [e]; exact ⟨rfl, rfl, rfl, rfl⟩
    rw [e1.1, e1.2.1, e1.2.2.1, e1.2.2.2]
    cases backwardPass llt (evald r s).y.data (evald r s).e.fs s.feas s.preg s.dreg s.e.bp <;> rfl
  improve s := ⟨s.m.d0, s.m.d1, _, _, rfl⟩
  push s := ⟨_, _, _, rfl⟩
  trial := tryFDDP_st
  trial_bad a s h := by
    change (tryFDDP a s).isOk = _
    unfold tryFDDP
    rw [if_pos h]; rfl
  trial_fresh a s s' h := tryFDDP_fresh h
  test a s := by
    change ∃ dx d0 d1 dv e, (testFDDP a s).2 = _
    unfold testFDDP
    split
    · exact ⟨s.y.dx, s.m.d0, s.m.d1, s.m.dv, s.m.dVexp, rfl⟩
    · exact ⟨_, _, _, _, _, rfl⟩
  commit a s := by
    change ∃ f w c, commitFDDP a s = _
    unfold commitFDDP
    split
    · exact ⟨false, s.wasFeas, s.e.cost, rfl⟩
    · exact ⟨_, _, _, rfl⟩

end Mim.DDP
