import Verif.Model.CSQPQP
import Verif.Lemmas.BackwardExact

/-!
# The backward passes of SolverCSQP, stage by stage

`backwardPass`, `backwardPass_without_constraints` and `backwardPass_mt` are instances of one sweep that differs only in the
Q-terms and in the symmetrisation.  Its result satisfies the Riccati equations.
-/
set_option linter.unusedSectionVars false
set_option linter.unusedSimpArgs false

namespace Mim
open Matrix Spec

namespace QP
section
variable {F : Type} [Add F] [Sub F] [Mul F] [Div F] [Neg F] [Zero F] [One F] [FloatOps F] {P : Problem F}

/-- one stage of the common sweep. -/
def genStage (llt : LLT F) (fs : ℕ → Vec F P.ndx) (preg : F) (sym : Mat F P.ndx P.ndx → Mat F P.ndx P.ndx)
    (q : (t : ℕ) → QTerms F P.ndx (P.nu t)) (t : ℕ) (b : BP P) : Res (BP P) :=
  (computeGains llt t (stageQ (q t) (mv (b.Vxx (t + 1)) (fs (t + 1)) + b.Vx (t + 1)) (b.Vxx (t + 1)) b)).thenDo
    (stageV preg sym t)

variable {llt : LLT F} {fs : ℕ → Vec F P.ndx} {preg : F} {sym : Mat F P.ndx P.ndx → Mat F P.ndx P.ndx}
  {q : (t : ℕ) → QTerms F P.ndx (P.nu t)}

/-- a stage without controls. -/
theorem genStage_zero {t : ℕ} (h : P.nu t = 0) (b : BP P) : genStage llt fs preg sym q t b = .ok { b with
    Qx := Function.update b.Qx t ((q t).Qx (mv (b.Vxx (t + 1)) (fs (t + 1)) + b.Vx (t + 1)))
    Qxx := Function.update b.Qxx t ((q t).Qxx (b.Vxx (t + 1)))
    Vx := Function.update b.Vx t ((q t).Qx (mv (b.Vxx (t + 1)) (fs (t + 1)) + b.Vx (t + 1)))
    Vxx := Function.update b.Vxx t (regDiag preg (sym ((q t).Qxx (b.Vxx (t + 1))))) } := by
  unfold genStage stageQ computeGains stageV
  simp only [h, ne_eq, not_true_eq_false, if_false, lt_irrefl, Res.thenDo_ok, Function.update_self]

/-- what a stage with controls writes when the factorisation gives `s`. -/
def posStage (fs : ℕ → Vec F P.ndx) (preg : F) (sym : Mat F P.ndx P.ndx → Mat F P.ndx P.ndx)
    (q : (t : ℕ) → QTerms F P.ndx (P.nu t)) (t : ℕ) (s : Vec F (P.nu t) → Vec F (P.nu t)) (b : BP P) : BP P :=
  let V := b.Vxx (t + 1)
  let w := mv V (fs (t + 1)) + b.Vx (t + 1)
  let K := solveCols s ((q t).Qxu V).transpose
  { b with
    Qx := Function.update b.Qx t ((q t).Qx w)
    Qxx := Function.update b.Qxx t ((q t).Qxx V)
    Qu := Function.update b.Qu t ((q t).Qu w)
    Quu := Function.update b.Quu t ((q t).Quu V)
    Qxu := Function.update b.Qxu t ((q t).Qxu V)
    llt := Function.update b.llt t s
    K := Function.update b.K t K
    k := Function.update b.k t (s ((q t).Qu w))
    Vx := Function.update b.Vx t ((q t).Qx w - mv K.transpose ((q t).Qu w))
    Vxx := Function.update b.Vxx t (regDiag preg (sym ((q t).Qxx V - mm ((q t).Qxu V) K))) }

/-- a stage with controls. -/
theorem genStage_pos {t : ℕ} (h : 0 < P.nu t) (b : BP P) :
    (∀ s, llt (P.nu t) ((q t).Quu (b.Vxx (t + 1))) = some s →
      genStage llt fs preg sym q t b = .ok (posStage fs preg sym q t s b)) ∧
    (llt (P.nu t) ((q t).Quu (b.Vxx (t + 1))) = none → ∃ b', genStage llt fs preg sym q t b = .exn b') := by
  have hne : P.nu t ≠ 0 := by omega
  constructor
  · intro s hs
    unfold genStage stageQ computeGains
    simp only [hne, ne_eq, not_false_eq_true, if_true, h, Function.update_self, hs, Res.thenDo_ok, stageV, posStage]
  · intro hs
    unfold genStage stageQ computeGains
    simp only [hne, ne_eq, not_false_eq_true, if_true, h, Function.update_self, hs]
    exact ⟨_, rfl⟩

/-- cases of a successful stage. -/
theorem genStage_ok {t : ℕ} {b b' : BP P} (h : genStage llt fs preg sym q t b = .ok b') :
    (P.nu t = 0 ∧ b' = { b with
      Qx := Function.update b.Qx t ((q t).Qx (mv (b.Vxx (t + 1)) (fs (t + 1)) + b.Vx (t + 1)))
      Qxx := Function.update b.Qxx t ((q t).Qxx (b.Vxx (t + 1)))
      Vx := Function.update b.Vx t ((q t).Qx (mv (b.Vxx (t + 1)) (fs (t + 1)) + b.Vx (t + 1)))
      Vxx := Function.update b.Vxx t (regDiag preg (sym ((q t).Qxx (b.Vxx (t + 1))))) }) ∨
    (0 < P.nu t ∧ ∃ s, llt (P.nu t) ((q t).Quu (b.Vxx (t + 1))) = some s ∧ b' = posStage fs preg sym q t s b) := by
  rcases Nat.eq_zero_or_pos (P.nu t) with h0 | h0
  · rw [genStage_zero h0] at h
    cases h
    exact .inl ⟨h0, rfl⟩
  · obtain ⟨e1, e2⟩ := genStage_pos (llt := llt) (fs := fs) (preg := preg) (sym := sym) (q := q) h0 b
    cases hs : llt (P.nu t) ((q t).Quu (b.Vxx (t + 1))) with
    | none => obtain ⟨c, e⟩ := e2 hs; rw [e] at h; cases h
    | some s =>
      rw [e1 s hs] at h
      cases h
      exact .inr ⟨h0, s, rfl, rfl⟩

/-- the equations stage `t` of a successful pass satisfies: matrices. -/
structure MatStage (llt : LLT F) (preg : F) (sym : Mat F P.ndx P.ndx → Mat F P.ndx P.ndx)
    (q : (t : ℕ) → QTerms F P.ndx (P.nu t)) (b : BP P) (t : ℕ) : Prop where
  Qxx : b.Qxx t = (q t).Qxx (b.Vxx (t + 1))
  zero : P.nu t = 0 → b.Vxx t = regDiag preg (sym (b.Qxx t))
  Quu : 0 < P.nu t → b.Quu t = (q t).Quu (b.Vxx (t + 1))
  Qxu : 0 < P.nu t → b.Qxu t = (q t).Qxu (b.Vxx (t + 1))
  llt : 0 < P.nu t → llt (P.nu t) (b.Quu t) = some (b.llt t)
  K : 0 < P.nu t → b.K t = solveCols (b.llt t) (b.Qxu t).transpose
  pos : 0 < P.nu t → b.Vxx t = regDiag preg (sym (b.Qxx t - mm (b.Qxu t) (b.K t)))

/-- the equations stage `t` of a successful pass satisfies: vectors. -/
structure VecStage (fs : ℕ → Vec F P.ndx) (q : (t : ℕ) → QTerms F P.ndx (P.nu t)) (b : BP P) (t : ℕ) : Prop where
  Qx : b.Qx t = (q t).Qx (mv (b.Vxx (t + 1)) (fs (t + 1)) + b.Vx (t + 1))
  Qu : 0 < P.nu t → b.Qu t = (q t).Qu (mv (b.Vxx (t + 1)) (fs (t + 1)) + b.Vx (t + 1))
  zero : P.nu t = 0 → b.Vx t = b.Qx t
  k : 0 < P.nu t → b.k t = b.llt t (b.Qu t)
  pos : 0 < P.nu t → b.Vx t = b.Qx t - mv (b.K t).transpose (b.Qu t)

/-- stage `t` writes only index `t`. -/
theorem genStage_other {t : ℕ} {b b' : BP P} (h : genStage llt fs preg sym q t b = .ok b') (j : ℕ) (hj : j ≠ t) :
    b'.Vxx j = b.Vxx j ∧ b'.Vx j = b.Vx j ∧ b'.Qxx j = b.Qxx j ∧ b'.Qxu j = b.Qxu j ∧ b'.Quu j = b.Quu j ∧
    b'.Qx j = b.Qx j ∧ b'.Qu j = b.Qu j ∧ b'.K j = b.K j ∧ b'.k j = b.k j ∧ b'.llt j = b.llt j := by
  rcases genStage_ok h with ⟨_, rfl⟩ | ⟨_, s, _, rfl⟩ <;>
    simp only [posStage, Function.update_of_ne hj, and_self]

theorem genStage_mat {t : ℕ} {b b' : BP P} (h : genStage llt fs preg sym q t b = .ok b') :
    MatStage llt preg sym q b' t := by
  have hne : t + 1 ≠ t := Nat.succ_ne_self t
  rcases genStage_ok h with ⟨h0, rfl⟩ | ⟨h0, s, hs, rfl⟩
  · refine ⟨?_, fun _ => ?_, ?_, ?_, ?_, ?_, ?_⟩
    · simp only [Function.update_self, Function.update_of_ne hne]
    · simp only [Function.update_self, Function.update_of_ne hne]
    all_goals intro h; omega
  · refine ⟨?_, fun h => by omega, fun _ => ?_, fun _ => ?_, fun _ => ?_, fun _ => ?_, fun _ => ?_⟩ <;>
      simp only [posStage, Function.update_self, Function.update_of_ne hne]
    exact hs

theorem genStage_vec {t : ℕ} {b b' : BP P} (h : genStage llt fs preg sym q t b = .ok b') :
    VecStage fs q b' t := by
  have hne : t + 1 ≠ t := Nat.succ_ne_self t
  rcases genStage_ok h with ⟨h0, rfl⟩ | ⟨h0, s, hs, rfl⟩
  · refine ⟨?_, ?_, fun _ => ?_, ?_, ?_⟩
    · simp only [Function.update_self, Function.update_of_ne hne]
    · intro h; omega
    · simp only [Function.update_self, Function.update_of_ne hne]
    all_goals intro h; omega
  · refine ⟨?_, fun _ => ?_, fun h => by omega, fun _ => ?_, fun _ => ?_⟩ <;>
      simp only [posStage, Function.update_self, Function.update_of_ne hne]

theorem MatStage.congr {b b' : BP P} {t : ℕ} (h : MatStage llt preg sym q b t)
    (h1 : b'.Vxx (t + 1) = b.Vxx (t + 1)) (a1 : b'.Vxx t = b.Vxx t) (a2 : b'.Qxx t = b.Qxx t) (a3 : b'.Qxu t = b.Qxu t)
    (a4 : b'.Quu t = b.Quu t) (a5 : b'.K t = b.K t) (a6 : b'.llt t = b.llt t) : MatStage llt preg sym q b' t := by
  refine ⟨?_, ?_, ?_, ?_, ?_, ?_, ?_⟩
  · rw [h1, a2]; exact h.Qxx
  · rw [a1, a2]; exact h.zero
  · rw [a4, h1]; exact h.Quu
  · rw [a3, h1]; exact h.Qxu
  · rw [a4, a6]; exact h.llt
  · rw [a3, a6, a5]; exact h.K
  · rw [a1, a2, a3, a5]; exact h.pos

theorem VecStage.congr {b b' : BP P} {t : ℕ} (h : VecStage fs q b t)
    (h1 : b'.Vxx (t + 1) = b.Vxx (t + 1)) (h2 : b'.Vx (t + 1) = b.Vx (t + 1)) (a1 : b'.Vx t = b.Vx t) (a2 : b'.Qx t = b.Qx t)
    (a3 : b'.Qu t = b.Qu t) (a4 : b'.K t = b.K t) (a5 : b'.k t = b.k t) (a6 : b'.llt t = b.llt t) : VecStage fs q b' t := by
  refine ⟨?_, ?_, ?_, ?_, ?_⟩
  · rw [h1, h2, a2]; exact h.Qx
  · rw [h1, h2, a3]; exact h.Qu
  · rw [a1, a2]; exact h.zero
  · rw [a3, a5, a6]; exact h.k
  · rw [a1, a2, a3, a4]; exact h.pos

/-- everything a successful sweep computes. -/
theorem sweep_ok {b b' : BP P} (h : forDownR P.T (genStage llt fs preg sym q) b = .ok b') :
    b'.Vxx P.T = b.Vxx P.T ∧ b'.Vx P.T = b.Vx P.T ∧
    (∀ t, t < P.T → MatStage llt preg sym q b' t) ∧ ∀ t, t < P.T → VecStage fs q b' t := by
  have key := forDownR_inv (fun n (b' : BP P) => b'.Vxx P.T = b.Vxx P.T ∧ b'.Vx P.T = b.Vx P.T ∧
    ∀ t, n ≤ t → t < P.T → MatStage llt preg sym q b' t ∧ VecStage fs q b' t) P.T _ _ b' ?_ ?_ h
  · obtain ⟨k1, k2, k3⟩ := key
    exact ⟨k1, k2, fun t ht => (k3 t (Nat.zero_le t) ht).1, fun t ht => (k3 t (Nat.zero_le t) ht).2⟩
  · exact ⟨rfl, rfl, fun t h1 h2 => by omega⟩
  · rintro t ht b1 b2 ⟨i1, i2, i3⟩ hb
    have ho := genStage_other hb
    obtain ⟨o1, o2, _⟩ := ho P.T (by omega)
    refine ⟨by rw [o1, i1], by rw [o2, i2], fun j hj1 hj2 => ?_⟩
    by_cases e : j = t
    · subst e; exact ⟨genStage_mat hb, genStage_vec hb⟩
    · obtain ⟨m, v⟩ := i3 j (by omega) hj2
      obtain ⟨a1, a2, a3, a4, a5, a6, a7, a8, a9, a10⟩ := ho j e
      obtain ⟨c1, c2, _⟩ := ho (j + 1) (by omega)
      exact ⟨m.congr c1 a1 a3 a4 a5 a8 a10, v.congr c1 c2 a2 a6 a7 a8 a9 a10⟩

/-- `backwardPass` is the sweep (on the arrays of `SolverDDP`). -/
theorem fullStage_eq (E : QEnv P) (v : CVars P) (t : ℕ) (B : CBP P) :
    fullStage llt E v t B = (genStage llt E.fs E.preg symm (fullTerms E v) t B.bp).map
      fun b => ⟨b, Function.update B.vfs t (mv (B.bp.Vxx (t + 1)) (E.fs (t + 1)))⟩ := rfl

theorem plainStage_eq (E : QEnv P) (t : ℕ) (B : CBP P) :
    plainStage llt E t B = (genStage llt E.fs E.preg symm (plainTerms E) t B.bp).map fun b => { B with bp := b } := rfl

/-- `Vxx_fs_` after a pass. -/
def VfsOK (E : QEnv P) (B : CBP P) (t : ℕ) : Prop := B.vfs t = mv (B.bp.Vxx (t + 1)) (E.fs (t + 1))

/-- a sweep of stages that differ from the common stage only by writing `Vxx_fs_`. -/
theorem sweepC {E : QEnv P} {st : ℕ → CBP P → Res (CBP P)}
    (hst : ∀ t B, st t B = (genStage llt E.fs E.preg sym q t B.bp).map
      fun b => ⟨b, Function.update B.vfs t (mv (B.bp.Vxx (t + 1)) (E.fs (t + 1)))⟩)
    {n : ℕ} {B B' : CBP P} (h : forDownR n st B = .ok B') :
    forDownR n (genStage llt E.fs E.preg sym q) B.bp = .ok B'.bp ∧ ∀ t, t < n → VfsOK E B' t := by
  induction n generalizing B with
  | zero => cases h; exact ⟨rfl, fun t ht => by omega⟩
  | succ n ih =>
    obtain ⟨B1, h1, h2⟩ := Res.bind_eq_ok h
    rw [hst] at h1
    obtain ⟨b1, h3, h4⟩ := Res.map_eq_ok h1
    obtain ⟨i1, i2⟩ := ih h2
    rw [forDownR_succ, h3, Res.bind_ok]
    have hb : B1.bp = b1 := by rw [← h4]
    refine ⟨by rw [← hb]; exact i1, fun t ht => ?_⟩
    rcases Nat.lt_succ_iff_lt_or_eq.mp ht with ht | rfl
    · exact i2 t ht
    · -- later stages do not touch index `t`
      have hk := forDownR_inv (fun j (C : CBP P) => j ≤ t → C.vfs t = B1.vfs t ∧ C.bp.Vxx (t + 1) = B1.bp.Vxx (t + 1)) t _ _ B'
        (fun _ => ⟨rfl, rfl⟩) ?_ h2
      · obtain ⟨k1, k2⟩ := hk (Nat.zero_le t)
        unfold VfsOK
        rw [k1, k2, ← h4]
        simp only [Function.update_self]
        rw [(genStage_other h3 (t + 1) (by omega)).1]
      · intro j hj C C' hC hs hjt
        obtain ⟨c1, c2⟩ := hC (by omega)
        rw [hst] at hs
        obtain ⟨b2, h5, h6⟩ := Res.map_eq_ok hs
        rw [← h6]
        simp only []
        rw [Function.update_of_ne (by omega), (genStage_other h5 (t + 1) (by omega)).1]
        exact ⟨c1, c2⟩

/-- everything a successful `backwardPass` computes. -/
theorem fullPass_ok {E : QEnv P} {v : CVars P} {B B' : CBP P} (h : fullPass llt E v B = .ok B') :
    B'.bp.Vxx P.T = terVxx E v ∧ B'.bp.Vx P.T = terVx E v ∧
    (∀ t, t < P.T → MatStage llt E.preg symm (fullTerms E v) B'.bp t) ∧
    (∀ t, t < P.T → VecStage E.fs (fullTerms E v) B'.bp t) ∧ ∀ t, t < P.T → VfsOK E B' t := by
  obtain ⟨h1, h2⟩ := sweepC (fullStage_eq E v) h
  obtain ⟨k1, k2, k3, k4⟩ := sweep_ok h1
  refine ⟨?_, ?_, k3, k4, h2⟩
  · rw [k1]; simp only [Function.update_self]
  · rw [k2]; simp only [Function.update_self]

theorem plain_sweep {E : QEnv P} {n : ℕ} {B B' : CBP P} (h : forDownR n (plainStage llt E) B = .ok B') :
    forDownR n (genStage llt E.fs E.preg symm (plainTerms E)) B.bp = .ok B'.bp := by
  induction n generalizing B with
  | zero => cases h; rfl
  | succ n ih =>
    obtain ⟨B1, h1, h2⟩ := Res.bind_eq_ok h
    rw [plainStage_eq] at h1
    obtain ⟨b1, h3, h4⟩ := Res.map_eq_ok h1
    rw [forDownR_succ, h3, Res.bind_ok]
    have hb : B1.bp = b1 := by rw [← h4]
    rw [← hb]; exact ih h2

/-- everything a successful `backwardPass_without_constraints` computes. -/
theorem plainPass_ok {E : QEnv P} {B B' : CBP P} (h : plainPass llt E B = .ok B') :
    B'.bp.Vxx P.T = regDiag E.preg E.d.td.Lxx ∧ B'.bp.Vx P.T = E.d.td.Lx ∧
    (∀ t, t < P.T → MatStage llt E.preg symm (plainTerms E) B'.bp t) ∧
    (∀ t, t < P.T → VecStage E.fs (plainTerms E) B'.bp t) := by
  obtain ⟨k1, k2, k3, k4⟩ := sweep_ok (plain_sweep h)
  refine ⟨?_, ?_, k3, k4⟩
  · rw [k1]; simp only [Function.update_self]
  · rw [k2]; simp only [Function.update_self]

end

section
variable {K : Type} [Field K] [LinearOrder K] [IsStrictOrderedRing K] {P : Problem K}

/-- `q` are the Q-terms of the linear-quadratic problem `Q` (whose state Hessians include `preg`). -/
structure TermsOf (q : (t : ℕ) → QTerms K P.ndx (P.nu t)) (preg : K) (Q : LQ K P.T P.ndx P.nu) : Prop where
  sym : Q.Sym
  Qx : ∀ t, t < P.T → ∀ w, (q t).Qx w = Q.gx t + (Q.A t)ᵀ *ᵥ w
  Qu : ∀ t, t < P.T → ∀ w, (q t).Qu w = Q.gu t + (Q.B t)ᵀ *ᵥ w
  Qxx : ∀ t, t < P.T → ∀ V, (q t).Qxx V + preg • (1 : Matrix _ _ K) = Q.Hxx t + (Q.A t)ᵀ * V * Q.A t
  Quu : ∀ t, t < P.T → ∀ V, (q t).Quu V = Q.Huu t + (Q.B t)ᵀ * V * Q.B t
  Qxu : ∀ t, t < P.T → ∀ V, (q t).Qxu V = Q.Hxu t + (Q.A t)ᵀ * V * Q.B t

theorem regDiag_exact {n : ℕ} (r : K) (A : Mat K n n) : regDiag r A = A + r • (1 : Matrix _ _ K) := by
  unfold regDiag
  simp only [isnan_exact, Bool.false_eq_true, if_false, addDiag_exact]

/-- **The sweep computes the Riccati recursion.** -/
theorem sweep_riccati {llt : LLT K} (hllt : LLTExact llt) {q : (t : ℕ) → QTerms K P.ndx (P.nu t)} {preg : K}
    {Q : LQ K P.T P.ndx P.nu} (hq : TermsOf q preg Q) {sym : Mat K P.ndx P.ndx → Mat K P.ndx P.ndx} (hs : sym = symm)
    {b : BP P} (hT : b.Vxx P.T = Q.HT) (hvT : b.Vx P.T = Q.gT) (hm : ∀ t, t < P.T → MatStage llt preg sym q b t)
    (hv : ∀ t, t < P.T → VecStage Q.c q b t) :
    Riccati Q b.Vxx b.Vx b.K b.k b.Quu ∧ ∀ t, t < P.T → PosDef (b.Quu t) := by
  subst hs
  have hV : ∀ t, t ≤ P.T → (b.Vxx t)ᵀ = b.Vxx t := by
    intro t ht
    rcases Nat.eq_or_lt_of_le ht with rfl | ht
    · rw [hT, hq.sym.T]
    · have : ∀ A : Mat K P.ndx P.ndx, (regDiag preg (symm A))ᵀ = regDiag preg (symm A) := by
        intro A
        rw [regDiag_exact, Matrix.transpose_add, symm_transpose, sub_reg_transpose]
      rcases Nat.eq_zero_or_pos (P.nu t) with h0 | h0
      · rw [(hm t ht).zero h0, this]
      · rw [(hm t ht).pos h0, this]
  have hquu : ∀ t, t < P.T → b.Quu t = Q.Huu t + (Q.B t)ᵀ * b.Vxx (t + 1) * Q.B t := by
    intro t ht
    rcases Nat.eq_zero_or_pos (P.nu t) with h0 | h0
    · ext i; exact (Fin.cast h0 i).elim0
    · rw [(hm t ht).Quu h0, hq.Quu t ht]
  have hsu : ∀ t, t < P.T → (b.Quu t)ᵀ = b.Quu t := by
    intro t ht
    rw [hquu t ht]
    simp only [Matrix.transpose_add, hq.sym.uu t ht, Matrix.transpose_mul, Matrix.transpose_transpose,
      hV (t + 1) ht, Matrix.mul_assoc]
  have hgain : ∀ t, t < P.T → b.Quu t * b.K t = (Q.Hxu t + (Q.A t)ᵀ * b.Vxx (t + 1) * Q.B t)ᵀ := by
    intro t ht
    rcases Nat.eq_zero_or_pos (P.nu t) with h0 | h0
    · ext i; exact (Fin.cast h0 i).elim0
    · rw [(hm t ht).K h0, solveCols_mul (hllt.solves _ _ _ (hsu t ht) ((hm t ht).llt h0)), (hm t ht).Qxu h0, hq.Qxu t ht]
  have hw : ∀ t, b.Vx (t + 1) + b.Vxx (t + 1) *ᵥ Q.c (t + 1) = mv (b.Vxx (t + 1)) (Q.c (t + 1)) + b.Vx (t + 1) :=
    fun t => add_comm _ _
  refine ⟨⟨hT, hvT, hV, hsu, hquu, hgain, ?_, ?_, ?_⟩, ?_⟩
  · intro t ht
    rcases Nat.eq_zero_or_pos (P.nu t) with h0 | h0
    · ext i; exact (Fin.cast h0 i).elim0
    · rw [(hv t ht).k h0, hllt.solves _ _ _ (hsu t ht) ((hm t ht).llt h0), (hv t ht).Qu h0, hq.Qu t ht, hw]
  · intro t ht
    have hxx : ((q t).Qxx (b.Vxx (t + 1)))ᵀ = (q t).Qxx (b.Vxx (t + 1)) := by
      have e : (q t).Qxx (b.Vxx (t + 1)) =
          Q.Hxx t + (Q.A t)ᵀ * b.Vxx (t + 1) * Q.A t - preg • (1 : Matrix _ _ K) := by
        rw [← hq.Qxx t ht, add_sub_cancel_right]
      rw [e, Matrix.transpose_sub, sub_reg_transpose]
      simp only [Matrix.transpose_add, hq.sym.xx t ht, Matrix.transpose_mul, Matrix.transpose_transpose,
        hV (t + 1) ht, Matrix.mul_assoc]
    have hxk : ((Q.Hxu t + (Q.A t)ᵀ * b.Vxx (t + 1) * Q.B t) * b.K t)ᵀ =
        (Q.Hxu t + (Q.A t)ᵀ * b.Vxx (t + 1) * Q.B t) * b.K t := by
      have e : Q.Hxu t + (Q.A t)ᵀ * b.Vxx (t + 1) * Q.B t = (b.Quu t * b.K t)ᵀ := by
        rw [hgain t ht, Matrix.transpose_transpose]
      rw [e]
      simp only [Matrix.transpose_mul, Matrix.transpose_transpose, hsu t ht, Matrix.mul_assoc]
    rcases Nat.eq_zero_or_pos (P.nu t) with h0 | h0
    · have hz : (Q.Hxu t + (Q.A t)ᵀ * b.Vxx (t + 1) * Q.B t) * b.K t = 0 := by
        ext i j
        rw [Matrix.mul_apply]
        exact Finset.sum_eq_zero fun i' _ => (Fin.cast h0 i').elim0
      rw [(hm t ht).zero h0, (hm t ht).Qxx, symm_of_sym hxx, regDiag_exact, hq.Qxx t ht, hz, sub_zero]
    · rw [(hm t ht).pos h0, (hm t ht).Qxx, (hm t ht).Qxu h0, hq.Qxu t ht, mm_exact, symm_of_sym, regDiag_exact,
        ← hq.Qxx t ht]
      · abel
      · rw [Matrix.transpose_sub, hxx, hxk]
  · intro t ht
    rcases Nat.eq_zero_or_pos (P.nu t) with h0 | h0
    · have hz : ∀ x, (b.K t)ᵀ *ᵥ x = 0 := by
        intro x
        funext i
        rw [Matrix.mulVec, dotProduct]
        exact Finset.sum_eq_zero fun i' _ => (Fin.cast h0 i').elim0
      rw [(hv t ht).zero h0, (hv t ht).Qx, hz, sub_zero, hq.Qx t ht, hw]
    · rw [(hv t ht).pos h0, (hv t ht).Qx, (hv t ht).Qu h0, hq.Qx t ht, hq.Qu t ht, hw]
      rfl
  · intro t ht
    rcases Nat.eq_zero_or_pos (P.nu t) with h0 | h0
    · intro x hx
      exact absurd (funext fun i => (Fin.cast h0 i).elim0) hx
    · exact hllt.posDef _ _ _ (hsu t ht) ((hm t ht).llt h0)

end
end QP
end Mim
