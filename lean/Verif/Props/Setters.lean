import Verif.Model.Setters
import Verif.Model.CSQP
import Verif.Base.Dbl
import Verif.Lemmas.Reg
import Verif.Spec.Examples

/-!
# C35, C36: the parameter setters
-/
set_option linter.unusedSectionVars false
set_option linter.unusedSimpArgs false

namespace Mim

/-! ## Specification -/

/-- the scalar parameters of a solver, as the getters name them. -/
inductive PName | regInc | regDec | regMin | regMax | thGrad | thStepDec | thStepInc | thAccept
  deriving DecidableEq

/-- the getter of a parameter. -/
def Params.get {F : Type} (p : Params F) : PName → F
  | .regInc => p.regInc
  | .regDec => p.regDec
  | .regMin => p.regMin
  | .regMax => p.regMax
  | .thGrad => p.thGrad
  | .thStepDec => p.thStepDec
  | .thStepInc => p.thStepInc
  | .thAccept => p.thAccept

/-- the parameters a setter is documented to change. -/
def Setter.targets : Setter → List PName
  | .regIncfactor => [.regInc]
  | .regDecfactor => [.regDec]
  | .regfactor => [.regInc, .regDec]
  | .regMin => [.regMin]
  | .regMax => [.regMax]
  | .thStepDec => [.thStepDec]
  | .thStepInc => [.thStepInc]
  | .thGrad => [.thGrad]

section
variable {F : Type} [Add F] [Sub F] [Mul F] [Div F] [Neg F] [Zero F] [One F] [FloatOps F]

/-- the documented range of a setter's argument: factors exceed 1, regularization bounds and `th_grad` are not negative, step
thresholds lie in `(0, 1]`. -/
def Setter.Legal : Setter → F → Prop
  | .regIncfactor, v => ltb 1 v = true
  | .regDecfactor, v => ltb 1 v = true
  | .regfactor, v => ltb 1 v = true
  | .regMin, v => leb 0 v = true
  | .regMax, v => leb 0 v = true
  | .thStepDec, v => ltb 0 v = true ∧ leb v 1 = true
  | .thStepInc, v => ltb 0 v = true ∧ leb v 1 = true
  | .thGrad, v => leb 0 v = true

/-- the constants 0 and 1 are numbers. -/
class NumConst (F : Type) [Zero F] [One F] [FloatOps F] : Prop where
  zero : isnan (0 : F) = false
  one : isnan (1 : F) = false

instance {K : Type} [Field K] [LinearOrder K] [IsStrictOrderedRing K] : NumConst K := ⟨rfl, rfl⟩
instance {K : Type} [Field K] [LinearOrder K] [IsStrictOrderedRing K] : NumConst (Dbl K) := ⟨rfl, rfl⟩

/-- every entry after the first is positive and smaller than its predecessor. -/
def DecrPos (l : List F) : Prop :=
  ∀ i (h : i + 1 < l.length), ltb 0 l[i + 1] = true ∧ ltb l[i + 1] l[i] = true

/-- all parameters in their documented ranges. -/
structure Params.Legal (p : Params F) : Prop where
  regInc : ltb 1 p.regInc = true
  regDec : ltb 1 p.regDec = true
  regMin : leb 0 p.regMin = true
  regMax : leb 0 p.regMax = true
  thGrad : leb 0 p.thGrad = true
  thStepDec : ltb 0 p.thStepDec = true ∧ leb p.thStepDec 1 = true
  thStepInc : ltb 0 p.thStepInc = true ∧ leb p.thStepInc 1 = true
  alphas : DecrPos p.alphas
  nonempty : p.alphas ≠ []

/-- the arguments of a call are numbers. -/
def Call.NonNaN : Call F → Prop
  | .scalar _ v => isnan v = false
  | .alphas l => ∀ a ∈ l, isnan a = false

/-! ## C35 -/

theorem setRegfactor_eq (v : F) (p : Params F) :
    setRegfactor v p = if leb v 1 then .exn p else .ok { p with regInc := v, regDec := v } := by
  unfold setRegfactor setRegIncfactor setRegDecfactor
  split_ifs with h <;> rfl

/-- **C35.**  A setter either throws, with every parameter as before the call, or returns, and then exactly the documented
parameters have the new value and all others (step lengths included) are unchanged.  Any scalar type, NaN included. -/
theorem C35_setter_atomic (k : Setter) (v : F) (p : Params F) :
    k.run v p = .exn p ∨
    ∃ p', k.run v p = .ok p' ∧ (∀ n ∈ k.targets, p'.get n = v) ∧ (∀ n, n ∉ k.targets → p'.get n = p.get n) ∧ p'.alphas = p.alphas := by
  cases k <;>
    simp only [Setter.run, setRegIncfactor, setRegDecfactor, setRegfactor_eq, setRegMin, setRegMax, setThStepDec, setThStepInc, setThGrad,
      Setter.targets] <;>
    split_ifs with h <;>
    first
    | exact .inl rfl
    | (refine .inr ⟨_, rfl, ?_, ?_, rfl⟩
       · intro n hn; fin_cases hn <;> rfl
       · intro n hn; cases n <;> first | rfl | (exact absurd (by simp) hn))

variable [IEEE F] [NumConst F]

theorem leb_false_iff {a b : F} (ha : isnan a = false) (hb : isnan b = false) : leb a b = false ↔ ltb b a = true := by
  rw [IEEE.leb_not_ltb a b ha hb]; simp

theorem ltb_false_iff {a b : F} (ha : isnan a = false) (hb : isnan b = false) : ltb a b = false ↔ leb b a = true := by
  rw [IEEE.leb_not_ltb b a hb ha]; simp

/-- **C35.**  For an argument that is not NaN, a setter returns exactly when the argument is in the documented range. -/
theorem C35_setter_accepts_iff (k : Setter) (v : F) (p : Params F) (hv : isnan v = false) :
    (∃ p', k.run v p = .ok p') ↔ k.Legal v := by
  have h1 : leb v 1 = false ↔ ltb 1 v = true := leb_false_iff hv NumConst.one
  have h0 : ltb v 0 = false ↔ leb 0 v = true := ltb_false_iff hv NumConst.zero
  have h2 : leb v 0 = false ↔ ltb 0 v = true := leb_false_iff hv NumConst.zero
  have h3 : ltb 1 v = false ↔ leb v 1 = true := ltb_false_iff NumConst.one hv
  cases k <;>
    simp only [Setter.run, setRegIncfactor, setRegDecfactor, setRegfactor_eq, setRegMin, setRegMax, setThStepDec, setThStepInc, setThGrad,
      Setter.Legal, ← h1, ← h0, ← h2, ← h3] <;>
    split_ifs with h <;> simp_all <;>
    (intro h9; rcases h with h | h <;> simp_all)

/-- **C35.**  NaN passes every test: the setter stores it. -/
theorem C35_setter_nan (k : Setter) (v : F) (p : Params F) (hv : isnan v = true) :
    ∃ p', k.run v p = .ok p' ∧ ∀ n ∈ k.targets, p'.get n = v := by
  rcases C35_setter_atomic k v p with h | ⟨p', h, ht, _⟩
  · exfalso
    revert h
    cases k <;>
      simp [Setter.run, setRegIncfactor, setRegDecfactor, setRegfactor_eq, setRegMin, setRegMax, setThStepDec, setThStepInc, setThGrad,
        IEEE.leb_nan_left v _ hv, IEEE.ltb_nan_left v _ hv, IEEE.ltb_nan_right _ v hv, Res.bind]
  · exact ⟨p', h, ht⟩

/-- **C35 (FDDP).**  `set_th_acceptnegstep` is atomic and throws exactly on negative arguments (NaN is stored). -/
theorem C35_fddp_th_acceptnegstep (v : F) (c : DConf F) :
    (ltb v 0 = true ∧ setThAcceptNegStep v c = .exn c) ∨ (ltb v 0 = false ∧ setThAcceptNegStep v c = .ok { c with thNeg := v }) := by
  unfold setThAcceptNegStep
  cases h : ltb v 0 <;> simp

/-! ## C36 -/

theorem alphasLoop_iff (l : List F) : ∀ a : F, isnan a = false → (∀ x ∈ l, isnan x = false) →
    (alphasLoop a l = true ↔ DecrPos (a :: l)) := by
  induction l with
  | nil => intro a _ _; simp [alphasLoop, DecrPos]
  | cons b l ih =>
    intro a ha hl
    have hb := hl b (by simp)
    have ih := ih b hb (fun x hx => hl x (by simp [hx]))
    have e1 : leb b 0 = false ↔ ltb 0 b = true := leb_false_iff hb NumConst.zero
    have e2 : leb a b = false ↔ ltb b a = true := leb_false_iff ha hb
    have hs : alphasLoop a (b :: l) = true ↔ (leb b 0 = false ∧ leb a b = false ∧ alphasLoop b l = true) := by
      simp only [alphasLoop]; split_ifs <;> simp_all
    rw [hs, e1, e2, ih]
    constructor
    · rintro ⟨h1, h2, h3⟩ i hi
      cases i with
      | zero => exact ⟨h1, h2⟩
      | succ i => exact h3 i (by simpa using hi)
    · intro h
      refine ⟨(h 0 (by simp)).1, (h 0 (by simp)).2, fun i hi => ?_⟩
      exact h (i + 1) (by simpa using hi)

/-- **C36.**  On a non-empty list of numbers `set_alphas` stores the list, leaving all scalar parameters unchanged, if every entry
after the first is positive and smaller than its predecessor; otherwise it throws and nothing changes. -/
theorem C36_set_alphas (l : List F) (hne : l ≠ []) (hl : ∀ a ∈ l, isnan a = false) (p : Params F) :
    (DecrPos l ∧ setAlphas l p = some (.ok { p with alphas := l })) ∨ (¬ DecrPos l ∧ setAlphas l p = some (.exn p)) := by
  cases l with
  | nil => exact absurd rfl hne
  | cons a l =>
    have h := alphasLoop_iff l a (hl a (by simp)) (fun x hx => hl x (by simp [hx]))
    cases hb : alphasLoop a l with
    | true => exact .inl ⟨h.mp hb, by simp [setAlphas, hb]⟩
    | false => exact .inr ⟨fun hd => (by rw [h.mpr hd] at hb; cases hb), by simp [setAlphas, hb]⟩

/-- **C36.**  The call with an empty list reads `alphas[0]` of an empty vector. -/
theorem C36_empty_undefined (p : Params F) : setAlphas [] p = none := rfl

/-- **C36.**  The first entry is not checked: every one-entry list is stored, also `[0]`, `[-1]`, `[NaN]`. -/
theorem C36_singleton (a : F) (p : Params F) : setAlphas [a] p = some (.ok { p with alphas := [a] }) := rfl

/-- **C36.**  A list in which every entry is NaN is stored. -/
theorem C36_nan_list (l : List F) (hne : l ≠ []) (hl : ∀ a ∈ l, isnan a = true) (p : Params F) :
    setAlphas l p = some (.ok { p with alphas := l }) := by
  cases l with
  | nil => exact absurd rfl hne
  | cons a l =>
    have : ∀ (l : List F) (a : F), (∀ x ∈ l, isnan x = true) → alphasLoop a l = true := by
      intro l
      induction l with
      | nil => intro a _; rfl
      | cons b l ih =>
        intro a h
        have hb := h b (by simp)
        simp only [alphasLoop, IEEE.leb_nan_left b _ hb, IEEE.leb_nan_right _ b hb]
        simpa using ih b (fun x hx => h x (by simp [hx]))
    simp [setAlphas, this l a (fun x hx => hl x (by simp [hx]))]

/-! ## C35, C36: histories -/

/-- **C35, C36 (histories).**  However many setters are called in whatever order with arguments that are numbers, and however many
of the calls throw, the parameters stay in their documented ranges (the first step length excepted, see `C36_singleton`). -/
theorem C35_history (cs : List (Call F)) (hcs : ∀ c ∈ cs, c.NonNaN) {p p' : Params F} (hp : p.Legal) (h : runCalls cs p = some p') :
    p'.Legal := by
  induction cs generalizing p with
  | nil => simp [runCalls] at h; subst h; exact hp
  | cons c cs ih =>
    have hc := hcs c (by simp)
    simp only [runCalls] at h
    cases hr : c.run p with
    | none => simp [hr] at h
    | some q =>
      rw [hr] at h
      refine ih (fun c hc => hcs c (by simp [hc])) (p := q) ?_ h
      cases c with
      | alphas l =>
        simp only [Call.run, Option.map_eq_some_iff] at hr
        obtain ⟨r, hr, rfl⟩ := hr
        have hne : l ≠ [] := by rintro rfl; cases hr
        rcases C36_set_alphas l hne hc p with ⟨hd, e⟩ | ⟨_, e⟩
        · rw [e] at hr; cases hr
          exact { hp with alphas := hd, nonempty := hne }
        · rw [e] at hr; cases hr; exact hp
      | scalar k v =>
        simp only [Call.run, Option.some.injEq] at hr
        subst hr
        have hacc := C35_setter_accepts_iff k v p hc
        rcases C35_setter_atomic k v p with e | ⟨p', e, ht, hn, ha⟩
        · rw [e]; exact hp
        · have hl := hacc.mp ⟨p', e⟩
          rw [e]
          have g1 : p'.regInc = if PName.regInc ∈ k.targets then v else p.regInc := by
            split_ifs with h; exacts [ht _ h, hn _ h]
          have g2 : p'.regDec = if PName.regDec ∈ k.targets then v else p.regDec := by
            split_ifs with h; exacts [ht _ h, hn _ h]
          have g3 : p'.regMin = if PName.regMin ∈ k.targets then v else p.regMin := by
            split_ifs with h; exacts [ht _ h, hn _ h]
          have g4 : p'.regMax = if PName.regMax ∈ k.targets then v else p.regMax := by
            split_ifs with h; exacts [ht _ h, hn _ h]
          have g5 : p'.thGrad = if PName.thGrad ∈ k.targets then v else p.thGrad := by
            split_ifs with h; exacts [ht _ h, hn _ h]
          have g6 : p'.thStepDec = if PName.thStepDec ∈ k.targets then v else p.thStepDec := by
            split_ifs with h; exacts [ht _ h, hn _ h]
          have g7 : p'.thStepInc = if PName.thStepInc ∈ k.targets then v else p.thStepInc := by
            split_ifs with h; exacts [ht _ h, hn _ h]
          simp only [Res.st]
          constructor
          · rw [g1]; cases k <;> simp_all [Setter.targets, Setter.Legal, hp.regInc]
          · rw [g2]; cases k <;> simp_all [Setter.targets, Setter.Legal, hp.regDec]
          · rw [g3]; cases k <;> simp_all [Setter.targets, Setter.Legal, hp.regMin]
          · rw [g4]; cases k <;> simp_all [Setter.targets, Setter.Legal, hp.regMax]
          · rw [g5]; cases k <;> simp_all [Setter.targets, Setter.Legal, hp.thGrad]
          · rw [g6]; cases k <;> simp_all [Setter.targets, Setter.Legal, hp.thStepDec]
          · rw [g7]; cases k <;> simp_all [Setter.targets, Setter.Legal, hp.thStepInc]
          · rw [ha]; exact hp.alphas
          · rw [ha]; exact hp.nonempty

end

/-! ## A step length above 1 can never be taken -/
section Steps
variable {F : Type} [Add F] [Sub F] [Mul F] [Div F] [Neg F] [Zero F] [One F] [FloatOps F] {P : Problem F}

/-- **C36.**  A trial with a step length above 1 (or below 0) throws in every solver, in every state, so such an entry of the
stored list is never accepted by a line search. -/
theorem C36_step_above_one (a : F) (ha : ltb 1 a = true ∨ ltb a 0 = true) :
    (∀ s : SQP P, ∃ s1, SQP.tryStep a s = .exn s1) ∧ (∀ s : CSQP P, ∃ s1, CSQP.tryStep a s = .exn s1) ∧
    (∀ s : DDP P, ∃ s1, DDP.tryDDP a s = .exn s1) ∧ (∀ s : DDP P, ∃ s1, DDP.tryFDDP a s = .exn s1) := by
  have h : (ltb 1 a || ltb a 0) = true := by simpa using ha
  refine ⟨fun s => ⟨{ s with nTry := s.nTry + 1 }, ?_⟩, fun s => ⟨{ s with nTry := s.nTry + 1 }, ?_⟩, fun s => ?_, fun s => ?_⟩
  · simp only [SQP.tryStep, h, if_true]
  · simp only [CSQP.tryStep, h, if_true]
  · simp only [DDP.tryDDP, h, if_true]; exact ⟨_, rfl⟩
  · simp only [DDP.tryFDDP, h, if_true]; exact ⟨_, rfl⟩

/-- **C36.**  The search therefore just goes on with the rest of the list. -/
theorem C36_search_skips (a : F) (ha : ltb 1 a = true ∨ ltb a 0 = true) (l : List F) (s : SQP P) :
    SQP.lineSearch (a :: l) s = SQP.lineSearch l { s with steplength := a, nTry := s.nTry + 1 } := by
  have h : (ltb 1 a || ltb a 0) = true := by simpa using ha
  simp only [SQP.lineSearch, SQP.tryStep, h, if_true]

end Steps

/-! ## Exact arithmetic and witnesses -/
section Exact
variable {K : Type} [Field K] [LinearOrder K] [IsStrictOrderedRing K]

/-- **C36 (exact arithmetic).**  `set_alphas` accepts exactly the strictly decreasing lists whose entries after the first are
positive. -/
theorem C36_exact (l : List K) : DecrPos l ↔ l.Pairwise (· > ·) ∧ ∀ a ∈ l.tail, 0 < a := by
  have hc : DecrPos l ↔ l.IsChain (· > ·) ∧ ∀ a ∈ l.tail, 0 < a := by
    rw [List.isChain_iff_getElem]
    constructor
    · intro h
      refine ⟨fun i hi => by simpa using (h i hi).2, fun a ha => ?_⟩
      obtain ⟨i, hi, rfl⟩ := List.getElem_of_mem ha
      rw [List.length_tail] at hi
      simpa using (h i (by omega)).1
    · rintro ⟨h1, h2⟩ i hi
      refine ⟨?_, by simpa using h1 i hi⟩
      have : l[i + 1] ∈ l.tail := by
        have e : l.tail[i]'(by rw [List.length_tail]; omega) = l[i + 1] := by simp
        rw [← e]; exact List.getElem_mem _
      simpa using h2 _ this
  rw [hc, List.isChain_iff_pairwise]

end Exact

namespace Ex

/-- the default parameters are in the documented ranges, so `C35_history` applies to every constructed solver. -/
theorem default_legal : (Params.default : Params ℚ).Legal := by
  constructor <;> first | decide +kernel | skip
  rw [C36_exact]; decide +kernel

/-- a history with accepted and rejected calls. -/
example : runCalls [.scalar .regMin (1 / 2), .scalar .regfactor (1 / 2), .alphas [1, 2], .scalar .thStepDec 1, .alphas [3, 1 / 2]]
    (Params.default : Params ℚ) = some { (Params.default : Params ℚ) with regMin := 1 / 2, thStepDec := 1, alphas := [3, 1 / 2] } := by decide +kernel

/-- **C35.**  The setters do not keep `reg_min <= reg_max`: two accepted calls on default parameters break the hypothesis under which
the regularization stays in range (C10). -/
theorem C35_min_le_max_not_kept :
    ∃ p', runCalls [.scalar .regMin 2, .scalar .regMax 1] (Params.default : Params ℚ) = some p' ∧ p'.Legal ∧ ¬ RegOK p' :=
  ⟨{ (Params.default : Params ℚ) with regMin := 2, regMax := 1 }, rfl,
    C35_history [.scalar .regMin 2, .scalar .regMax 1] (by intro c _; cases c <;> simp [Call.NonNaN]) default_legal rfl,
    fun h => absurd h.min_le (by decide)⟩

/-- each setter accepts some and refuses some values. -/
example : (Setter.regMin.Legal (0 : ℚ)) ∧ ¬ Setter.regMin.Legal (-1 : ℚ) ∧ Setter.regfactor.Legal (2 : ℚ) ∧ ¬ Setter.regfactor.Legal (1 : ℚ) ∧
    Setter.thStepInc.Legal (1 : ℚ) ∧ ¬ Setter.thStepInc.Legal (0 : ℚ) := by
  simp [Setter.Legal]

/-- NaN exists in the extended numbers, and is stored e.g. as the increase factor. -/
example : setRegIncfactor (Dbl.nan : Dbl ℚ) Params.default = .ok { (Params.default : Params (Dbl ℚ)) with regInc := .nan } := rfl

/-- `[2, 1/2]` is accepted and a trial with its first entry throws. -/
example : setAlphas [2, 1 / 2] (Params.default : Params ℚ) = some (.ok { (Params.default : Params ℚ) with alphas := [2, 1 / 2] }) ∧
    ∃ s1, SQP.tryStep 2 lqSolver = .exn s1 :=
  ⟨by decide +kernel, (C36_step_above_one 2 (.inl (by decide))).1 _⟩

end Ex
end Mim
