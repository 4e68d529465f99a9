import Verif.Model.Attributes
import Verif.Props.CSQPReturn
import Verif.Lemmas.SQPLoop
import Verif.Lemmas.DDPHist
import Verif.Lemmas.ProxReach
import Verif.Props.Setters
import Verif.Spec.Examples
import Verif.Spec.ExamplesC

/-!
# C100: a setting reads back as the last value that was accepted, whatever else was done with the solver

For every history of writes and solves.  `Holds` below is the specification: it names the last accepted write.
-/
set_option autoImplicit false
set_option linter.unusedSectionVars false
set_option linter.unusedSimpArgs false

namespace Mim

/-! ## specification -/

/-- after the history `ops` the attribute `a`, initially `v0`, reads `v`: the value of the last accepted write, or `v0` if
no write was accepted. -/
def Holds {A V Arg : Type} (Accepts : A → V → Prop) (ops : List (SOp A V Arg)) (a : A) (v0 v : V) : Prop :=
  (∃ pre w post, ops = pre ++ .write a w :: post ∧ Accepts a w ∧ (∀ u, .write a u ∈ post → ¬ Accepts a u) ∧ v = w) ∨
  ((∀ u, .write a u ∈ ops → ¬ Accepts a u) ∧ v = v0)

/-- what one write of `v` to `a` does: an accepted value is stored, every other attribute is unchanged; a rejected value
raises an exception and changes nothing. -/
def WriteOk {A V S : Type} (Accepts : A → V → Prop) (get : A → S → V) (a : A) (v : V) (s : S) (r : Res S) : Prop :=
  (Accepts a v ∧ r.isOk = true ∧ get a r.st = v ∧ ∀ b, b ≠ a → get b r.st = get b s) ∨ (¬ Accepts a v ∧ r = .exn s)

theorem holds_of_writes {A V Arg S : Type} {Accepts : A → V → Prop} {get : A → S → V} {set : A → V → S → Option (Res S)}
    {solve : Arg → S → Option S} (hw : ∀ a v s r, set a v s = some r → WriteOk Accepts get a v s r)
    (hs : ∀ x s s', solve x s = some s' → ∀ a, get a s' = get a s) (a : A) :
    ∀ (ops : List (SOp A V Arg)) (s s' : S), runOps set solve ops s = some s' → Holds Accepts ops a (get a s) (get a s') := by
  classical
  intro ops
  induction ops with
  | nil =>
    intro s s' h
    cases h
    exact .inr ⟨fun u hu => (by cases hu), rfl⟩
  | cons o l ih =>
    intro s s' h
    cases o with
    | solve x =>
      obtain ⟨s1, h1, h2⟩ := Option.bind_eq_some_iff.mp h
      rw [← hs x s s1 h1 a]
      rcases ih s1 s' h2 with ⟨pre, w, post, e, ha, hp, hv⟩ | ⟨hp, hv⟩
      · exact .inl ⟨_ :: pre, w, post, by rw [e]; rfl, ha, hp, hv⟩
      · refine .inr ⟨fun u hu => ?_, hv⟩
        rcases List.mem_cons.mp hu with e | hu
        · cases e
        · exact hp u hu
    | write b w =>
      obtain ⟨r, h1, h2⟩ := Option.bind_eq_some_iff.mp h
      rcases ih r.st s' h2 with ⟨pre, u, post, e, ha, hp, hv⟩ | ⟨hp, hv⟩
      · exact .inl ⟨_ :: pre, u, post, by rw [e]; rfl, ha, hp, hv⟩
      · by_cases hb : b = a
        · subst hb
          rcases hw b w s r h1 with ⟨hacc, -, hg, -⟩ | ⟨hacc, he⟩
          · exact .inl ⟨[], w, l, rfl, hacc, hp, hv.trans hg⟩
          · refine .inr ⟨fun u hu => ?_, ?_⟩
            · rcases List.mem_cons.mp hu with e | hu
              · cases e; exact hacc
              · exact hp u hu
            · rw [hv, he]; rfl
        · refine .inr ⟨fun u hu => ?_, ?_⟩
          · rcases List.mem_cons.mp hu with e | hu
            · cases e; exact absurd rfl hb
            · exact hp u hu
          · rcases hw b w s r h1 with ⟨-, -, -, ho⟩ | ⟨-, he⟩
            · rw [hv, ho a (Ne.symm hb)]
            · rw [hv, he]; rfl

section
variable {F : Type} [Add F] [Sub F] [Mul F] [Div F] [Neg F] [Zero F] [One F] [FloatOps F] {P : Problem F}

/-- the values each setting of `SolverDDP` accepts.  Comparisons are the C++ ones: a NaN is never rejected. -/
def BAttr.Accepts (a : BAttr) (v : SVal F) : Prop :=
  match a, v with
  | .regInc, .num v => leb v 1 = false
  | .regDec, .num v => leb v 1 = false
  | .regMin, .num v => ltb v 0 = false
  | .regMax, .num v => ltb v 0 = false
  | .thStepDec, .num v => leb v 0 = false ∧ ltb 1 v = false
  | .thStepInc, .num v => leb v 0 = false ∧ ltb 1 v = false
  | .thGrad, .num v => ltb v 0 = false
  | .alphas, .list l => ∀ i, (h : i + 1 < l.length) → leb l[i + 1] 0 = false ∧ leb l[i] l[i + 1] = false
  | _, _ => False

/-- the settings `SolverSQP` adds accept every value of their type. -/
def QAttr.Accepts (a : QAttr) (v : SVal F) : Prop :=
  match a, v with
  | .base b, v => b.Accepts v
  | .tol, .num _ | .mu, .num _ | .useFilter, .flag _ | .extra, .flag _ | .filterSize, .nat _ => True
  | _, _ => False

/-- `SolverDDP`. -/
def DAttr.Accepts (a : DAttr) (v : SVal F) : Prop :=
  match a, v with
  | .base b, v => b.Accepts v
  | .tol, .num _ => True
  | _, _ => False

/-- `SolverFDDP`: `th_acceptNegStep` must not be negative. -/
def FAttr.Accepts (a : FAttr) (v : SVal F) : Prop :=
  match a, v with
  | .base b, v => b.Accepts v
  | .thNeg, .num v => ltb v 0 = false
  | .tol, .num _ | .useFilter, .flag _ | .filterSize, .nat _ => True
  | _, _ => False

/-- `SolverCSQP`. -/
def CAttr.Accepts (a : CAttr) (v : SVal F) : Prop :=
  match a, v with
  | .base b, v => b.Accepts v
  | .tol, .num _ | .muDyn, .num _ | .muCon, .num _ | .lagCoef, .num _ | .sigma, .num _ | .alpha, .num _ | .epsAbs, .num _
  | .epsRel, .num _ | .maxTime, .num _ | .eqGuess, .flag _ | .useFilter, .flag _ | .extra, .flag _ | .resetY, .flag _
  | .resetRho, .flag _ | .heuristic, .flag _ | .removeReg, .flag _ | .maxQP, .nat _ | .interval, .nat _ | .filterSize, .nat _ => True
  | _, _ => False

/-- `SolverPROXQP`. -/
def PAttr.Accepts (a : PAttr) (v : SVal F) : Prop :=
  match a, v with
  | .base b, v => b.Accepts v
  | .tol, .num _ | .muDyn, .num _ | .muCon, .num _ | .useFilter, .flag _ | .filterSize, .nat _ => True
  | _, _ => False

/-! ## the settings all solvers share -/

theorem alphasLoop_iff_steps (l : List F) : ∀ a : F,
    alphasLoop a l = true ↔
      ∀ i, (h : i + 1 < (a :: l).length) → leb (a :: l)[i + 1] 0 = false ∧ leb (a :: l)[i] (a :: l)[i + 1] = false := by
  induction l with
  | nil => intro a; simp [alphasLoop]
  | cons b l ih =>
    intro a
    unfold alphasLoop
    constructor
    · intro h
      split at h
      · cases h
      · rename_i h1
        split at h
        · cases h
        · rename_i h2
          intro i hi
          cases i with
          | zero => exact ⟨by simpa using h1, by simpa using h2⟩
          | succ i => exact (ih b).mp h i (by simpa using hi)
    · intro h
      have h0 := h 0 (by simp)
      have e1 : leb b 0 = false := h0.1
      have e2 : leb a b = false := h0.2
      simp only [e1, e2, Bool.false_eq_true, if_false]
      exact (ih b).mpr fun i hi => h (i + 1) (by simpa using hi)

theorem BAttr.write (a : BAttr) (v : SVal F) (p : Params F) {r : Res (Params F)} (h : a.set v p = some r) :
    WriteOk BAttr.Accepts BAttr.get a v p r := by
  cases a <;> cases v <;>
    first
    | (cases h; exact .inr ⟨fun h => h, rfl⟩)
    | skip
  case alphas.list l =>
    cases l with
    | nil => cases h
    | cons x l =>
      simp only [BAttr.set, setAlphas, Option.some.injEq] at h
      by_cases hl : alphasLoop x l = true
      · rw [if_pos hl] at h
        subst h
        refine .inl ⟨(alphasLoop_iff_steps l x).mp hl, rfl, rfl, ?_⟩
        intro b hb
        cases b <;> first | rfl | exact absurd rfl hb
      · rw [if_neg hl] at h
        subst h
        exact .inr ⟨fun hc => hl ((alphasLoop_iff_steps l x).mpr hc), rfl⟩
  all_goals
    rename_i x
    simp only [BAttr.set, setRegIncfactor, setRegDecfactor, setRegMin, setRegMax, setThStepDec, setThStepInc, setThGrad,
      Option.some.injEq] at h
    split at h
    · rename_i hc
      subst h
      refine .inr ⟨fun hA => ?_, rfl⟩
      simp only [BAttr.Accepts] at hA
      simp_all
    · rename_i hc
      subst h
      refine .inl ⟨?_, rfl, rfl, ?_⟩
      · simp only [BAttr.Accepts]
        simpa using hc
      · intro b hb
        cases b <;> first | rfl | exact absurd rfl hb

theorem BAttr.set_none (a : BAttr) (v : SVal F) (p : Params F) : a.set v p = none ↔ a = .alphas ∧ v = .list [] := by
  cases a <;> cases v <;> simp [BAttr.set]
  case alphas.list l => cases l <;> simp [setAlphas]

/-- lifting the shared settings into a solver. -/
theorem WriteOk.lift {A S : Type} {Acc : A → SVal F → Prop} {get : A → S → SVal F} (inj : BAttr → A) (par : S → Params F)
    (upd : S → Params F → S) (hA : ∀ b v, Acc (inj b) v ↔ b.Accepts v) (hg : ∀ b s, get (inj b) s = b.get (par s))
    (hp : ∀ s p, par (upd s p) = p) (hu : ∀ s, upd s (par s) = s)
    (ho : ∀ a s p, (∀ b, a ≠ inj b) → get a (upd s p) = get a s)
    (b : BAttr) (v : SVal F) (s : S) {r : Res S} (h : (b.set v (par s)).map (Res.map (upd s)) = some r) :
    WriteOk Acc get (inj b) v s r := by
  obtain ⟨q, hq, rfl⟩ := Option.map_eq_some_iff.mp h
  rcases b.write v (par s) hq with ⟨h1, h2, h3, h4⟩ | ⟨h1, h2⟩
  · have hst : (Res.map (upd s) q).st = upd s q.st := by cases q <;> rfl
    refine .inl ⟨(hA b v).mpr h1, by cases q <;> exact h2, by rw [hst, hg, hp, h3], ?_⟩
    intro a ha
    rw [hst]
    by_cases hb : ∃ c, a = inj c
    · obtain ⟨c, rfl⟩ := hb
      rw [hg, hg, hp]
      exact h4 c fun e => ha (by rw [e])
    · exact ho a s q.st fun c e => hb ⟨c, e⟩
  · subst h2
    exact .inr ⟨fun hc => h1 ((hA b v).mp hc), by simp only [Res.map, hu]⟩

/-! ## one write -/

theorem QAttr.write (a : QAttr) (v : SVal F) (s : SQP P) {r : Res (SQP P)} (h : a.set v s = some r) :
    WriteOk QAttr.Accepts QAttr.get a v s r := by
  cases a with
  | base b =>
    exact WriteOk.lift QAttr.base (fun s : SQP P => s.par) (fun s p => { s with par := p }) (fun _ _ => Iff.rfl) (fun _ _ => rfl)
      (fun _ _ => rfl) (fun _ => rfl) (fun a s p ha => by cases a <;> first | rfl | exact absurd rfl (ha _)) b v s h
  | _ =>
    cases v <;> cases h <;>
      first
      | exact .inr ⟨fun h => h, rfl⟩
      | exact .inl ⟨trivial, rfl, rfl, fun b hb => by cases b <;> first | rfl | exact absurd rfl hb⟩

theorem DAttr.write (a : DAttr) (v : SVal F) (s : DDP P) {r : Res (DDP P)} (h : a.set v s = some r) :
    WriteOk DAttr.Accepts DAttr.get a v s r := by
  cases a with
  | base b =>
    exact WriteOk.lift DAttr.base (fun s : DDP P => s.c.par) (fun s p => { s with c := { s.c with par := p } }) (fun _ _ => Iff.rfl)
      (fun _ _ => rfl) (fun _ _ => rfl) (fun _ => rfl) (fun a s p ha => by cases a <;> first | rfl | exact absurd rfl (ha _)) b v s h
  | _ =>
    cases v <;> cases h <;>
      first
      | exact .inr ⟨fun h => h, rfl⟩
      | exact .inl ⟨trivial, rfl, rfl, fun b hb => by cases b <;> first | rfl | exact absurd rfl hb⟩

theorem FAttr.write (a : FAttr) (v : SVal F) (s : DDP P) {r : Res (DDP P)} (h : a.set v s = some r) :
    WriteOk FAttr.Accepts FAttr.get a v s r := by
  cases a with
  | base b =>
    exact WriteOk.lift FAttr.base (fun s : DDP P => s.c.par) (fun s p => { s with c := { s.c with par := p } }) (fun _ _ => Iff.rfl)
      (fun _ _ => rfl) (fun _ _ => rfl) (fun _ => rfl) (fun a s p ha => by cases a <;> first | rfl | exact absurd rfl (ha _)) b v s h
  | thNeg =>
    cases v with
    | num x =>
      simp only [FAttr.set, setThAcceptNegStep, Option.some.injEq] at h
      by_cases hx : ltb x 0 = true
      · rw [if_pos hx] at h
        subst h
        exact .inr ⟨fun hA => (by simp only [FAttr.Accepts] at hA; rw [hA] at hx; cases hx), rfl⟩
      · rw [if_neg hx] at h
        subst h
        exact .inl ⟨by simpa [FAttr.Accepts] using hx, rfl, rfl, fun b hb => by cases b <;> first | rfl | exact absurd rfl hb⟩
    | _ => cases h; exact .inr ⟨fun h => h, rfl⟩
  | _ =>
    cases v <;> cases h <;>
      first
      | exact .inr ⟨fun h => h, rfl⟩
      | exact .inl ⟨trivial, rfl, rfl, fun b hb => by cases b <;> first | rfl | exact absurd rfl hb⟩

theorem CAttr.write (a : CAttr) (v : SVal F) (s : CSQP P) {r : Res (CSQP P)} (h : a.set v s = some r) :
    WriteOk CAttr.Accepts CAttr.get a v s r := by
  cases a with
  | base b =>
    exact WriteOk.lift CAttr.base (fun s : CSQP P => s.c.par) (fun s p => { s with c := { s.c with par := p } }) (fun _ _ => Iff.rfl)
      (fun _ _ => rfl) (fun _ _ => rfl) (fun _ => rfl) (fun a s p ha => by cases a <;> first | rfl | exact absurd rfl (ha _)) b v s h
  | _ =>
    cases v <;> cases h <;>
      first
      | exact .inr ⟨fun h => h, rfl⟩
      | exact .inl ⟨trivial, rfl, rfl, fun b hb => by cases b <;> first | rfl | exact absurd rfl hb⟩

theorem PAttr.write (a : PAttr) (v : SVal F) (s : PROX P) {r : Res (PROX P)} (h : a.set v s = some r) :
    WriteOk PAttr.Accepts PAttr.get a v s r := by
  cases a with
  | base b =>
    exact WriteOk.lift PAttr.base (fun s : PROX P => s.c.par) (fun s p => { s with c := { s.c with par := p } }) (fun _ _ => Iff.rfl)
      (fun _ _ => rfl) (fun _ _ => rfl) (fun _ => rfl) (fun a s p ha => by cases a <;> first | rfl | exact absurd rfl (ha _)) b v s h
  | _ =>
    cases v <;> cases h <;>
      first
      | exact .inr ⟨fun h => h, rfl⟩
      | exact .inl ⟨trivial, rfl, rfl, fun b hb => by cases b <;> first | rfl | exact absurd rfl hb⟩

/-! ## histories -/

/-- **C100 (SolverSQP).**  A write stores an accepted value and touches no other setting, and rejects the others without any
effect; and after every history of writes and solves each setting reads as the last accepted write. -/
theorem C100_settings_sqp (llt : LLT F) (fuel : ℕ) :
    (∀ a v (s : SQP P) r, QAttr.set a v s = some r → WriteOk QAttr.Accepts QAttr.get a v s r) ∧
    ∀ (ops : List (SOp QAttr (SVal F) (Option (Traj P) × Option (Ctrls P) × ℕ × F))) (s s' : SQP P),
      runOps QAttr.set (fun x s => (SQP.solve llt fuel x.1 x.2.1 x.2.2.1 x.2.2.2 s).map (·.2)) ops s = some s' →
      ∀ a, Holds QAttr.Accepts ops a (a.get s) (a.get s') := by
  refine ⟨fun a v s r => a.write v s, fun ops s s' h a => holds_of_writes (fun a v s r => a.write v s) ?_ a ops s s' h⟩
  intro x s s' h a
  obtain ⟨⟨b, s1⟩, h1, rfl⟩ := Option.map_eq_some_iff.mp h
  cases a with
  | base b =>
    have : s1.par = s.par := SQP.solve_frame (fun s : SQP P => s.par) (by intros; rfl) (by intros; rfl) (by intros; rfl)
      (by intros; rfl) (by intros; rfl) (by intros; rfl) (by intros; rfl) (by intros; rfl) h1
    simp only [QAttr.get, this]
  | _ =>
    exact SQP.solve_frame (fun s : SQP P => QAttr.get _ s) (by intros; rfl) (by intros; rfl) (by intros; rfl)
      (by intros; rfl) (by intros; rfl) (by intros; rfl) (by intros; rfl) (by intros; rfl) h1

theorem DDP.solve_c {k : DDP.Kind P} (hk : k.Laws) {llt : LLT F} {fuel : ℕ} {xs : Option (Traj P)} {us : Option (Ctrls P)} {m : ℕ}
    {fe : Bool} {ri : F} {s : DDP P} {b : Bool} {s' : DDP P} (h : DDP.solve k llt fuel xs us m fe ri s = some (b, s')) :
    s'.c = s.c := by
  have h0 : (s.start xs us fe ri).c = s.c := rfl
  have hi := fun r s' (h : DDP.iterate k llt fuel m (s.start xs us fe ri) = some (r, s')) =>
    DDP.iterate_inv (k := k) (llt := llt) fuel (fun _ a => a.c = s.c) (fun _ a => a.c = s.c)
      (fun n a a' ha hb => (DDP.body_c hk hb).trans ha) (fun n a b a' ha hb => (DDP.body_c hk hb).trans ha) m _ h0 r s' h
  rcases DDP.solve_cases h with h1 | ⟨-, h1⟩
  · rcases hi _ _ h1 with ⟨e, -⟩ | ⟨b', -, e⟩
    · cases e
    · exact e
  · rcases hi _ _ h1 with ⟨-, e⟩ | ⟨b', e, -⟩
    · exact e
    · cases e

/-- **C100 (SolverDDP).** -/
theorem C100_settings_ddp (llt : LLT F) (fuel : ℕ) :
    (∀ a v (s : DDP P) r, DAttr.set a v s = some r → WriteOk DAttr.Accepts DAttr.get a v s r) ∧
    ∀ (ops : List (SOp DAttr (SVal F) (Option (Traj P) × Option (Ctrls P) × ℕ × Bool × F))) (s s' : DDP P),
      runOps DAttr.set (fun x s => (DDP.solve (DDP.ddp P) llt fuel x.1 x.2.1 x.2.2.1 x.2.2.2.1 x.2.2.2.2 s).map (·.2)) ops s = some s' →
      ∀ a, Holds DAttr.Accepts ops a (a.get s) (a.get s') := by
  refine ⟨fun a v s r => a.write v s, fun ops s s' h a => holds_of_writes (fun a v s r => a.write v s) ?_ a ops s s' h⟩
  intro x s s' h a
  obtain ⟨⟨b, s1⟩, h1, rfl⟩ := Option.map_eq_some_iff.mp h
  have hc : s1.c = s.c := DDP.solve_c DDP.ddp_laws h1
  cases a <;> simp only [DAttr.get, hc]

/-- **C100 (SolverFDDP).** -/
theorem C100_settings_fddp (llt : LLT F) (fuel : ℕ) :
    (∀ a v (s : DDP P) r, FAttr.set a v s = some r → WriteOk FAttr.Accepts FAttr.get a v s r) ∧
    ∀ (ops : List (SOp FAttr (SVal F) (Option (Traj P) × Option (Ctrls P) × ℕ × Bool × F))) (s s' : DDP P),
      runOps FAttr.set (fun x s => (DDP.solve (DDP.fddp P) llt fuel x.1 x.2.1 x.2.2.1 x.2.2.2.1 x.2.2.2.2 s).map (·.2)) ops s = some s' →
      ∀ a, Holds FAttr.Accepts ops a (a.get s) (a.get s') := by
  refine ⟨fun a v s r => a.write v s, fun ops s s' h a => holds_of_writes (fun a v s r => a.write v s) ?_ a ops s s' h⟩
  intro x s s' h a
  obtain ⟨⟨b, s1⟩, h1, rfl⟩ := Option.map_eq_some_iff.mp h
  have hc : s1.c = s.c := DDP.solve_c DDP.fddp_laws h1
  cases a <;> simp only [FAttr.get, hc]

/-- **C100 (SolverCSQP).**  Each solve may meet another clock (`World`). -/
theorem C100_settings_csqp [SqrtOps F] (fuel : ℕ) :
    (∀ a v (s : CSQP P) r, CAttr.set a v s = some r → WriteOk CAttr.Accepts CAttr.get a v s r) ∧
    ∀ (ops : List (SOp CAttr (SVal F) (World F × Option (Traj P) × Option (Ctrls P) × ℕ × F))) (s s' : CSQP P),
      runOps CAttr.set (fun x s => (CSQP.solve x.1 fuel x.2.1 x.2.2.1 x.2.2.2.1 x.2.2.2.2 s).map (·.2)) ops s = some s' →
      ∀ a, Holds CAttr.Accepts ops a (a.get s) (a.get s') := by
  refine ⟨fun a v s r => a.write v s, fun ops s s' h a => holds_of_writes (fun a v s r => a.write v s) ?_ a ops s s' h⟩
  intro x s s' h a
  obtain ⟨⟨b, s1⟩, h1, rfl⟩ := Option.map_eq_some_iff.mp h
  have hc : s1.c = s.c := (CSQP.solve_conf h1).1
  cases a <;> simp only [CAttr.get, hc]

theorem PROX.solve_c {qp : PSolve F} {fuel : ℕ} {xs : Option (Traj P)} {us : Option (Ctrls P)} {m : ℕ}
    {ri : F} {s : PROX P} {b : Bool} {s' : PROX P} (h : PROX.solve qp fuel xs us m ri s = some (b, s')) : s'.c = s.c := by
  have h0 : (s.start xs us ri).c = s.c := rfl
  have hi := PROX.iterate_inv qp fuel (fun a : PROX P => a.c = s.c) (fun _ a => a.c = s.c)
      (fun a a' ha hb => (PROX.body_iter hb).2.trans ha) (fun a b a' ha hb => (PROX.body_iter hb).2.trans ha) m _ h0
  unfold PROX.solve at h
  split at h
  · cases h
  · rename_i b1 s1 h1
    cases h
    rcases hi _ _ h1 with ⟨e, -⟩ | ⟨b', -, e⟩
    · cases e
    · exact e
  · rename_i s1 h1
    cases h
    rcases hi _ _ h1 with ⟨-, e⟩ | ⟨b', e, -⟩
    · exact e
    · cases e

/-- **C100 (SolverPROXQP).**  Each solve may meet another ProxSuite. -/
theorem C100_settings_prox (fuel : ℕ) :
    (∀ a v (s : PROX P) r, PAttr.set a v s = some r → WriteOk PAttr.Accepts PAttr.get a v s r) ∧
    ∀ (ops : List (SOp PAttr (SVal F) (PSolve F × Option (Traj P) × Option (Ctrls P) × ℕ × F))) (s s' : PROX P),
      runOps PAttr.set (fun x s => (PROX.solve x.1 fuel x.2.1 x.2.2.1 x.2.2.2.1 x.2.2.2.2 s).map (·.2)) ops s = some s' →
      ∀ a, Holds PAttr.Accepts ops a (a.get s) (a.get s') := by
  refine ⟨fun a v s r => a.write v s, fun ops s s' h a => holds_of_writes (fun a v s r => a.write v s) ?_ a ops s s' h⟩
  intro x s s' h a
  obtain ⟨⟨b, s1⟩, h1, rfl⟩ := Option.map_eq_some_iff.mp h
  have hc : s1.c = s.c := PROX.solve_c h1
  cases a <;> simp only [PAttr.get, hc]

/-- **C100 (undefined writes).**  The only write without a defined result is the empty list of step lengths. -/
theorem C100_undefined (v : SVal F) :
    (∀ a (s : SQP P), QAttr.set a v s = none ↔ a = .base .alphas ∧ v = .list []) ∧
    (∀ a (s : DDP P), DAttr.set a v s = none ↔ a = .base .alphas ∧ v = .list []) ∧
    (∀ a (s : DDP P), FAttr.set a v s = none ↔ a = .base .alphas ∧ v = .list []) ∧
    (∀ a (s : CSQP P), CAttr.set a v s = none ↔ a = .base .alphas ∧ v = .list []) ∧
    (∀ a (s : PROX P), PAttr.set a v s = none ↔ a = .base .alphas ∧ v = .list []) := by
  refine ⟨fun a s => ?_, fun a s => ?_, fun a s => ?_, fun a s => ?_, fun a s => ?_⟩
  · cases a with
    | base b => simp only [QAttr.set, Option.map_eq_none_iff, BAttr.set_none, QAttr.base.injEq]
    | _ => cases v <;> simp [QAttr.set]
  · cases a with
    | base b => simp only [DAttr.set, Option.map_eq_none_iff, BAttr.set_none, DAttr.base.injEq]
    | _ => cases v <;> simp [DAttr.set]
  · cases a with
    | base b => simp only [FAttr.set, Option.map_eq_none_iff, BAttr.set_none, FAttr.base.injEq]
    | _ => cases v <;> simp [FAttr.set]
  · cases a with
    | base b => simp only [CAttr.set, Option.map_eq_none_iff, BAttr.set_none, CAttr.base.injEq]
    | _ => cases v <;> simp [CAttr.set]
  · cases a with
    | base b => simp only [PAttr.set, Option.map_eq_none_iff, BAttr.set_none, PAttr.base.injEq]
    | _ => cases v <;> simp [PAttr.set]

end

/-! ## A history that meets the hypotheses -/

namespace Ex

/-- writes (one of them rejected, one of them of the wrong type), a solve that runs, another write, another solve. -/
def settingsOps : List (SOp QAttr (SVal ℚ) (Option (Traj lq) × Option (Ctrls lq) × ℕ × ℚ)) :=
  [.write .mu (.num 7), .write (.base .regInc) (.num (1 / 2)), .write .tol (.flag true), .solve (none, none, 5, 0),
   .write (.base .alphas) (.list [1, 1 / 2]), .write .mu (.num 9), .solve (none, none, 5, 0), .write (.base .alphas) (.list [1, 2])]

/-- the history runs to its end, and the reads are as C100 says. -/
example : (runOps QAttr.set (fun x s => (SQP.solve llt1 20 x.1 x.2.1 x.2.2.1 x.2.2.2 s).map (·.2)) settingsOps lqSolver).map
    (fun s => (s.mu, s.par.alphas, decide (s.par.regInc = lqSolver.par.regInc), decide (s.tol = lqSolver.tol)))
    = some (9, [1, 1 / 2], true, true) := by decide +kernel

example : BAttr.Accepts .alphas (.list [(1 : ℚ), 1 / 2]) := by
  intro i h
  have : i = 0 := by simp at h; omega
  subst this
  exact (by decide +kernel : leb (1 / 2 : ℚ) 0 = false ∧ leb (1 : ℚ) (1 / 2) = false)
example : ¬ BAttr.Accepts .regInc (.num (1 / 2 : ℚ)) := (by decide +kernel : ¬ leb (1 / 2 : ℚ) 1 = false)

/-- the same for `SolverCSQP`: after the two writes and a solve that ends (here with the exception of C66), the settings
are the written ones. -/
example : (runOps CAttr.set (fun x s => (CSQP.solve x.1 1 x.2.1 x.2.2.1 x.2.2.2.1 x.2.2.2.2 s).map (·.2))
    [.write .eqGuess (.flag true), .write .muCon (.num 3), .write .filterSize (.nat 4), .solve (world, none, none, 1, 0)]
    linSolver).map (fun s => (s.c.eqGuess, s.c.muCon, s.c.filterSize)) = some (true, 3, 4) := by decide +kernel

end Ex
end Mim
