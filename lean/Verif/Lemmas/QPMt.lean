import Verif.Lemmas.QPFast
import Verif.Lemmas.QPAug
import Mathlib.Data.List.Perm.Basic
import Mathlib.Data.List.Range
import Mathlib.Data.List.Nodup

/-!
# The multi-threaded backward passes
-/
set_option linter.unusedSectionVars false
set_option linter.unusedSimpArgs false

namespace Mim
namespace QP
section
variable {F : Type} [Add F] [Sub F] [Mul F] [Div F] [Neg F] [Zero F] [One F] [FloatOps F] {P : Problem F}
variable {llt : LLT F} {E : QEnv P} {v : CVars P}

/-- a parallel loop is schedule independent if the iterations commute. -/
theorem forList_perm {S : Type _} {f : ℕ → S → S} (hc : ∀ i j, i ≠ j → ∀ s, f i (f j s) = f j (f i s)) {l l' : List ℕ}
    (h : l.Perm l') (s : S) : forList l f s = forList l' f s := by
  induction h generalizing s with
  | nil => rfl
  | cons x _ ih => exact ih (f x s)
  | swap x y l =>
    unfold forList
    simp only [List.foldl_cons]
    by_cases e : x = y
    · subst e; rfl
    · rw [hc x y e]
  | trans _ _ i1 i2 => rw [i1, i2]

theorem forList_range {S : Type _} (f : ℕ → S → S) (n : ℕ) (s : S) : forList (List.range n) f s = forUp n f s := by
  induction n with
  | zero => rfl
  | succ n ih =>
    unfold forList at ih ⊢
    rw [List.range_succ, List.foldl_append, ih]
    rfl

theorem upd_comm {β : ℕ → Type} {i j : ℕ} (h : i ≠ j) (x : β i) (y : β j) (f : (t : ℕ) → β t) :
    Function.update (Function.update f j y) i x = Function.update (Function.update f i x) j y :=
  Function.update_comm (Ne.symm h) y x f

theorem mtInit_comm (i j : ℕ) (h : i ≠ j) (b : BP P) : mtInit E v i (mtInit E v j b) = mtInit E v j (mtInit E v i b) := by
  unfold mtInit
  by_cases hi : P.nu i = 0 <;> by_cases hj : P.nu j = 0 <;>
    simp only [hi, hj, ne_eq, not_true_eq_false, not_false_eq_true, if_true, if_false, BP.mk.injEq, true_and, and_true] <;>
    simp only [upd_comm h, and_self]

theorem mtFastInit_comm (i j : ℕ) (h : i ≠ j) (b : BP P) :
    mtFastInit E v i (mtFastInit E v j b) = mtFastInit E v j (mtFastInit E v i b) := by
  unfold mtFastInit
  by_cases hi : P.nu i = 0 <;> by_cases hj : P.nu j = 0 <;>
    simp only [hi, hj, ne_eq, not_true_eq_false, not_false_eq_true, if_true, if_false, BP.mk.injEq, true_and, and_true] <;>
    simp only [upd_comm h, and_self]

theorem mtSolve_comm (i j : ℕ) (h : i ≠ j) (b : BP P) : mtSolve i (mtSolve j b) = mtSolve j (mtSolve i b) := by
  unfold mtSolve
  simp only [upd_comm h]

/-- the loop-independent parts of the stages below `n` are in memory. -/
structure Inited (E : QEnv P) (v : CVars P) (b : BP P) (t : ℕ) : Prop where
  Qx : b.Qx t = locQx E v t
  Qxx : b.Qxx t = locQxx E v t
  Qu : 0 < P.nu t → b.Qu t = locQu E v t
  Quu : 0 < P.nu t → b.Quu t = regDiag E.dreg
    (if P.ng t ≠ 0 then addDiag (E.d.rd t).Luu E.c.sigma + rhoGuGu E v t else addDiag (E.d.rd t).Luu E.c.sigma)
  Qxu : 0 < P.nu t → b.Qxu t = locQxu E v t

/-- the Q-terms of `backwardPass_mt`: the regularization is added before `Fu' Vxx Fu`. -/
def mtTerms (E : QEnv P) (v : CVars P) (t : ℕ) : QTerms F P.ndx (P.nu t) :=
  { fullTerms E v t with
    Quu := fun V => regDiag E.dreg
      (if P.ng t ≠ 0 then addDiag (E.d.rd t).Luu E.c.sigma + rhoGuGu E v t else addDiag (E.d.rd t).Luu E.c.sigma) +
      mm (mm (E.d.rd t).Fu.transpose V) (E.d.rd t).Fu }

theorem mtInit_inited (t : ℕ) (b : BP P) : Inited E v (mtInit E v t b) t := by
  unfold mtInit
  rcases Nat.eq_zero_or_pos (P.nu t) with h0 | h0
  · simp only [h0, ne_eq, not_true_eq_false, if_false]
    exact ⟨Function.update_self .., Function.update_self .., fun h => by omega, fun h => by omega, fun h => by omega⟩
  · have hne : P.nu t ≠ 0 := by omega
    simp only [hne, ne_eq, not_false_eq_true, if_true]
    exact ⟨Function.update_self .., Function.update_self .., fun _ => Function.update_self .., fun _ => Function.update_self ..,
      fun _ => Function.update_self ..⟩

theorem Inited.congr {b b' : BP P} {t : ℕ} (h : Inited E v b t) (h1 : b'.Qx t = b.Qx t) (h2 : b'.Qxx t = b.Qxx t)
    (h3 : b'.Qu t = b.Qu t) (h4 : b'.Quu t = b.Quu t) (h5 : b'.Qxu t = b.Qxu t) : Inited E v b' t :=
  ⟨h1.trans h.Qx, h2.trans h.Qxx, fun h' => h3.trans (h.Qu h'), fun h' => h4.trans (h.Quu h'), fun h' => h5.trans (h.Qxu h')⟩

/-- `mtInit t` leaves everything else alone. -/
theorem mtInit_other (t : ℕ) (b : BP P) :
    (mtInit E v t b).Vxx = b.Vxx ∧ (mtInit E v t b).Vx = b.Vx ∧ (mtInit E v t b).K = b.K ∧ (mtInit E v t b).k = b.k ∧
    (mtInit E v t b).Quuk = b.Quuk ∧ (mtInit E v t b).llt = b.llt ∧
    ∀ j, j ≠ t → (mtInit E v t b).Qx j = b.Qx j ∧ (mtInit E v t b).Qxx j = b.Qxx j ∧ (mtInit E v t b).Qu j = b.Qu j ∧
      (mtInit E v t b).Quu j = b.Quu j ∧ (mtInit E v t b).Qxu j = b.Qxu j := by
  unfold mtInit
  by_cases h0 : P.nu t = 0 <;> simp only [h0, ne_eq, not_true_eq_false, not_false_eq_true, if_true, if_false, true_and] <;>
    intro j hj <;> simp only [Function.update_of_ne hj, and_self]

/-- state after the parallel loop. -/
theorem initUp_spec (n : ℕ) (b : BP P) :
    let b' := forUp n (mtInit E v) b
    (b'.Vxx = b.Vxx ∧ b'.Vx = b.Vx ∧ b'.K = b.K ∧ b'.k = b.k ∧ b'.Quuk = b.Quuk ∧ b'.llt = b.llt ∧
    ∀ j, n ≤ j → b'.Qx j = b.Qx j ∧ b'.Qxx j = b.Qxx j ∧ b'.Qu j = b.Qu j ∧ b'.Quu j = b.Quu j ∧ b'.Qxu j = b.Qxu j) ∧
    ∀ t, t < n → Inited E v b' t := by
  simp only []
  refine forUp_inv (fun n (b' : BP P) => (b'.Vxx = b.Vxx ∧ b'.Vx = b.Vx ∧ b'.K = b.K ∧ b'.k = b.k ∧ b'.Quuk = b.Quuk ∧
    b'.llt = b.llt ∧ ∀ j, n ≤ j → b'.Qx j = b.Qx j ∧ b'.Qxx j = b.Qxx j ∧ b'.Qu j = b.Qu j ∧ b'.Quu j = b.Quu j ∧
      b'.Qxu j = b.Qxu j) ∧ ∀ t, t < n → Inited E v b' t) n _ b ⟨⟨rfl, rfl, rfl, rfl, rfl, rfl, fun j _ =>
      ⟨rfl, rfl, rfl, rfl, rfl⟩⟩, fun t ht => by omega⟩ ?_
  rintro t ht b1 ⟨⟨i1, i2, i3, i4, i5, i6, i7⟩, i8⟩
  obtain ⟨o1, o2, o3, o4, o5, o6, o7⟩ := mtInit_other (E := E) (v := v) t b1
  refine ⟨⟨o1.trans i1, o2.trans i2, o3.trans i3, o4.trans i4, o5.trans i5, o6.trans i6, fun j hj => ?_⟩, fun j hj => ?_⟩
  · obtain ⟨a1, a2, a3, a4, a5⟩ := o7 j (by omega)
    obtain ⟨c1, c2, c3, c4, c5⟩ := i7 j (by omega)
    exact ⟨a1.trans c1, a2.trans c2, a3.trans c3, a4.trans c4, a5.trans c5⟩
  · by_cases e : j = t
    · subst e; exact mtInit_inited j b1
    · obtain ⟨a1, a2, a3, a4, a5⟩ := o7 j e
      exact (i8 j (by omega)).congr a1 a2 a3 a4 a5

/-- one stage of the sequential sweep of `backwardPass_mt` is the common stage. -/
theorem mtStage_eq {t : ℕ} {B : CBP P} (h : Inited E v B.bp t) :
    mtStage llt E t B = (genStage llt E.fs E.preg symmUpper (mtTerms E v) t B.bp).map
      fun b => ⟨b, Function.update B.vfs t (mv (B.bp.Vxx (t + 1)) (E.fs (t + 1)))⟩ := by
  unfold mtStage genStage stageQ
  rcases Nat.eq_zero_or_pos (P.nu t) with h0 | h0
  · simp only [h0, ne_eq, not_true_eq_false, if_false]
    rw [h.Qx, h.Qxx]
    rfl
  · have hne : P.nu t ≠ 0 := by omega
    simp only [hne, ne_eq, not_false_eq_true, if_true]
    rw [h.Qx, h.Qxx, h.Qu h0, h.Quu h0, h.Qxu h0]
    rfl

/-- two runs of the sweep that differ only in the Q-arrays of the stages not yet visited. -/
structure Ahead (n : ℕ) (b b' : BP P) : Prop where
  Vxx : b'.Vxx = b.Vxx
  Vx : b'.Vx = b.Vx
  K : b'.K = b.K
  k : b'.k = b.k
  Quuk : b'.Quuk = b.Quuk
  llt : b'.llt = b.llt
  Qx : ∀ j, n ≤ j → b'.Qx j = b.Qx j
  Qxx : ∀ j, n ≤ j → b'.Qxx j = b.Qxx j
  Qu : ∀ j, n ≤ j → b'.Qu j = b.Qu j
  Quu : ∀ j, n ≤ j → b'.Quu j = b.Quu j
  Qxu : ∀ j, n ≤ j → b'.Qxu j = b.Qxu j

theorem mat_empty {m n : ℕ} (h : m = 0) (A B : Mat F m n) : A = B := by
  ext i; exact (Fin.cast h i).elim0

theorem mat_empty' {m n : ℕ} (h : n = 0) (A B : Mat F m n) : A = B := by
  ext i j; exact (Fin.cast h j).elim0

theorem Ahead.eq {b b' : BP P} (h : Ahead 0 b b') : b' = b := by
  obtain ⟨h1, h2, h3, h4, h5, h6, h7, h8, h9, h10, h11⟩ := h
  cases b
  cases b'
  simp only [BP.mk.injEq]
  simp only at h1 h2 h3 h4 h5 h6 h7 h8 h9 h10 h11
  exact ⟨h1, h2, funext fun j => h8 j (Nat.zero_le j), funext fun j => h11 j (Nat.zero_le j),
    funext fun j => h10 j (Nat.zero_le j), funext fun j => h7 j (Nat.zero_le j), funext fun j => h9 j (Nat.zero_le j),
    h3, h4, h5, h6⟩

theorem upd_ahead {β : ℕ → Type} {f g : (j : ℕ) → β j} {n : ℕ} (x : β n) (h : ∀ j, n + 1 ≤ j → f j = g j) (j : ℕ)
    (hj : n ≤ j) : Function.update f n x j = Function.update g n x j := by
  by_cases e : j = n
  · subst e; simp only [Function.update_self]
  · rw [Function.update_of_ne e, Function.update_of_ne e]
    exact h j (by omega)

variable {sym : Mat F P.ndx P.ndx → Mat F P.ndx P.ndx} {q : (t : ℕ) → QTerms F P.ndx (P.nu t)} {fs : ℕ → Vec F P.ndx}
  {preg : F}

theorem genStage_ahead {n : ℕ} {b b' : BP P} (h : Ahead (n + 1) b b') :
    (∃ c c', genStage llt fs preg sym q n b = .ok c ∧ genStage llt fs preg sym q n b' = .ok c' ∧ Ahead n c c') ∨
    ∃ c c', genStage llt fs preg sym q n b = .exn c ∧ genStage llt fs preg sym q n b' = .exn c' := by
  rcases Nat.eq_zero_or_pos (P.nu n) with h0 | h0
  · left
    refine ⟨_, _, genStage_zero h0 b, genStage_zero h0 b', ?_⟩
    rw [h.Vxx, h.Vx]
    refine ⟨rfl, rfl, h.K, h.k, h.Quuk, h.llt, upd_ahead _ h.Qx, upd_ahead _ h.Qxx, fun j hj => ?_, fun j hj => ?_,
      fun j hj => ?_⟩
    · rcases Nat.eq_or_lt_of_le hj with rfl | hj
      · exact vec_empty h0 _ _
      · exact h.Qu j hj
    · rcases Nat.eq_or_lt_of_le hj with rfl | hj
      · exact mat_empty h0 _ _
      · exact h.Quu j hj
    · rcases Nat.eq_or_lt_of_le hj with rfl | hj
      · exact mat_empty' h0 _ _
      · exact h.Qxu j hj
  · obtain ⟨e1, e2⟩ := genStage_pos (llt := llt) (fs := fs) (preg := preg) (sym := sym) (q := q) h0 b
    obtain ⟨e3, e4⟩ := genStage_pos (llt := llt) (fs := fs) (preg := preg) (sym := sym) (q := q) h0 b'
    rw [h.Vxx] at e3 e4
    cases hs : llt (P.nu n) ((q n).Quu (b.Vxx (n + 1))) with
    | none =>
      obtain ⟨c, hc⟩ := e2 hs
      obtain ⟨c', hc'⟩ := e4 hs
      exact .inr ⟨c, c', hc, hc'⟩
    | some s =>
      refine .inl ⟨_, _, e1 s hs, e3 s hs, ?_⟩
      unfold posStage
      simp only []
      rw [h.Vxx, h.Vx, h.K, h.k, h.llt]
      exact ⟨rfl, rfl, rfl, rfl, h.Quuk, rfl, upd_ahead _ h.Qx, upd_ahead _ h.Qxx, upd_ahead _ h.Qu, upd_ahead _ h.Quu,
        upd_ahead _ h.Qxu⟩

/-- the whole sweep. -/
theorem sweep_ahead {n : ℕ} {b b' : BP P} (h : Ahead n b b') :
    (∃ c, forDownR n (genStage llt fs preg sym q) b = .ok c ∧ forDownR n (genStage llt fs preg sym q) b' = .ok c) ∨
    ∃ c c', forDownR n (genStage llt fs preg sym q) b = .exn c ∧ forDownR n (genStage llt fs preg sym q) b' = .exn c' := by
  induction n generalizing b b' with
  | zero => rw [h.eq]; exact .inl ⟨b, rfl, rfl⟩
  | succ n ih =>
    rw [forDownR_succ, forDownR_succ]
    rcases genStage_ahead (llt := llt) (fs := fs) (preg := preg) (sym := sym) (q := q) h with
      ⟨c, c', h1, h2, h3⟩ | ⟨c, c', h1, h2⟩
    · rw [h1, h2]; exact ih h3
    · rw [h1, h2]; exact .inr ⟨c, c', rfl, rfl⟩

/-- the sweeps on `CBP`. -/
theorem sweepC_ahead {st : ℕ → CBP P → Res (CBP P)}
    (hst : ∀ t B, st t B = (genStage llt E.fs E.preg sym q t B.bp).map
      fun b => ⟨b, Function.update B.vfs t (mv (B.bp.Vxx (t + 1)) (E.fs (t + 1)))⟩)
    {n : ℕ} {B B' : CBP P} (h : Ahead n B.bp B'.bp) (hv : B'.vfs = B.vfs) :
    (∃ C, forDownR n st B = .ok C ∧ forDownR n st B' = .ok C) ∨ ∃ C C', forDownR n st B = .exn C ∧ forDownR n st B' = .exn C' := by
  induction n generalizing B B' with
  | zero =>
    left
    refine ⟨B, rfl, ?_⟩
    have : B' = B := by
      cases B; cases B'
      simp only [CBP.mk.injEq]
      exact ⟨h.eq, hv⟩
    rw [this]; rfl
  | succ n ih =>
    rw [forDownR_succ, forDownR_succ, hst, hst]
    rcases genStage_ahead (llt := llt) (fs := E.fs) (preg := E.preg) (sym := sym) (q := q) h with
      ⟨c, c', h1, h2, h3⟩ | ⟨c, c', h1, h2⟩
    · rw [h1, h2]
      simp only [Res.map_ok, Res.bind_ok]
      exact ih h3 (by rw [hv, h.Vxx])
    · rw [h1, h2]; exact .inr ⟨_, _, rfl, rfl⟩

/-- the sequential sweep of `backwardPass_mt` as the common sweep. -/
theorem mtSweep_eq {n : ℕ} {B : CBP P} (h : ∀ t, t < n → Inited E v B.bp t) :
    forDownR n (mtStage llt E) B = forDownR n (fun t (B : CBP P) =>
      (genStage llt E.fs E.preg symmUpper (mtTerms E v) t B.bp).map
        fun b => (⟨b, Function.update B.vfs t (mv (B.bp.Vxx (t + 1)) (E.fs (t + 1)))⟩ : CBP P)) B := by
  induction n generalizing B with
  | zero => rfl
  | succ n ih =>
    rw [forDownR_succ, forDownR_succ, mtStage_eq (h n (Nat.lt_succ_self n))]
    cases hg : genStage llt E.fs E.preg symmUpper (mtTerms E v) n B.bp with
    | exn c => rfl
    | ok c =>
      simp only [Res.map_ok, Res.bind_ok]
      refine ih fun t ht => ?_
      obtain ⟨_, _, a3, a4, a5, a6, a7, _⟩ := genStage_other hg t (by omega)
      exact (h t (by omega)).congr a6 a3 a7 a5 a4

theorem fullPassMt_perm {l l' : List ℕ} (h : l.Perm l') (B : CBP P) : fullPassMt l llt E v B = fullPassMt l' llt E v B := by
  unfold fullPassMt
  simp only [forList_perm (fun i j hij b => mtInit_comm (E := E) (v := v) i j hij b) h]

theorem fastPassMt_perm {l l' m m' : List ℕ} (h : l.Perm l') (h' : m.Perm m') (B : CBP P) :
    fastPassMt l m E v B = fastPassMt l' m' E v B := by
  unfold fastPassMt
  simp only [forList_perm (fun i j hij b => mtFastInit_comm (E := E) (v := v) i j hij b) h,
    forList_perm (fun i j hij b => mtSolve_comm (P := P) i j hij b) h']

/-- `backwardPass_mt` as the common sweep started from the initial memory. -/
theorem fullPassMt_sweep {l : List ℕ} (hl : l.Perm (List.range P.T)) (B : CBP P) :
    let st := fun t (B : CBP P) => (genStage llt E.fs E.preg symmUpper (mtTerms E v) t B.bp).map
        fun b => (⟨b, Function.update B.vfs t (mv (B.bp.Vxx (t + 1)) (E.fs (t + 1)))⟩ : CBP P)
    let B0 : CBP P := { B with bp := { B.bp with Vxx := Function.update B.bp.Vxx P.T (terVxx E v)
                                                 Vx := Function.update B.bp.Vx P.T (terVx E v) } }
    (∃ C, forDownR P.T st B0 = .ok C ∧ fullPassMt l llt E v B = .ok C) ∨
    ∃ C C', forDownR P.T st B0 = .exn C ∧ fullPassMt l llt E v B = .exn C' := by
  simp only []
  rw [fullPassMt_perm hl]
  unfold fullPassMt
  simp only [forList_range]
  obtain ⟨⟨i1, i2, i3, i4, i5, i6, i7⟩, i8⟩ := initUp_spec (E := E) (v := v) P.T
    { B.bp with Vxx := Function.update B.bp.Vxx P.T (terVxx E v), Vx := Function.update B.bp.Vx P.T (terVx E v) }
  rw [mtSweep_eq (v := v) (fun t ht => i8 t ht)]
  refine sweepC_ahead (fun _ _ => rfl) ⟨i1, i2, i3, i4, i5, i6, fun j hj => (i7 j hj).1, fun j hj => (i7 j hj).2.1,
    fun j hj => (i7 j hj).2.2.1, fun j hj => (i7 j hj).2.2.2.1, fun j hj => (i7 j hj).2.2.2.2⟩ rfl

/-! ### the cheap pass -/

theorem mtFastInit_other (t : ℕ) (b : BP P) :
    mtFastInit E v t b = { b with
      Qx := Function.update b.Qx t (locQx E v t)
      Qu := if P.nu t ≠ 0 then Function.update b.Qu t (locQu E v t) else b.Qu } := by
  unfold mtFastInit
  by_cases h0 : P.nu t = 0 <;> simp only [h0, ne_eq, not_true_eq_false, not_false_eq_true, if_true, if_false]

theorem fastInit_spec (n : ℕ) (b : BP P) : ∃ qx : ℕ → Vec F P.ndx, ∃ qu : (t : ℕ) → Vec F (P.nu t),
    forUp n (mtFastInit E v) b = { b with Qx := qx, Qu := qu } ∧
    (∀ t, t < n → qx t = locQx E v t ∧ (0 < P.nu t → qu t = locQu E v t)) ∧
    ∀ t, n ≤ t → qx t = b.Qx t ∧ qu t = b.Qu t := by
  refine forUp_inv (fun n (b' : BP P) => ∃ qx : ℕ → Vec F P.ndx, ∃ qu : (t : ℕ) → Vec F (P.nu t),
    b' = { b with Qx := qx, Qu := qu } ∧ (∀ t, t < n → qx t = locQx E v t ∧ (0 < P.nu t → qu t = locQu E v t)) ∧
    ∀ t, n ≤ t → qx t = b.Qx t ∧ qu t = b.Qu t) n _ b ⟨_, _, rfl, fun t ht => by omega, fun t _ => ⟨rfl, rfl⟩⟩ ?_
  rintro t ht b1 ⟨qx, qu, rfl, h1, h2⟩
  refine ⟨_, _, mtFastInit_other t _, fun j hj => ⟨?_, fun hp => ?_⟩, fun j hj => ⟨?_, ?_⟩⟩
  · rcases Nat.lt_succ_iff_lt_or_eq.mp hj with hj | rfl
    · rw [Function.update_of_ne (by omega)]; exact (h1 j hj).1
    · rw [Function.update_self]
  · by_cases h0 : P.nu t = 0
    · simp only [h0, ne_eq, not_true_eq_false, if_false]
      have : j ≠ t := by rintro rfl; omega
      exact (h1 j (by omega)).2 hp
    · simp only [h0, ne_eq, not_false_eq_true, if_true]
      rcases Nat.lt_succ_iff_lt_or_eq.mp hj with hj | rfl
      · rw [Function.update_of_ne (by omega)]; exact (h1 j hj).2 hp
      · rw [Function.update_self]
  · rw [Function.update_of_ne (by omega)]; exact (h2 j (by omega)).1
  · by_cases h0 : P.nu t = 0
    · simp only [h0, ne_eq, not_true_eq_false, if_false]
      exact (h2 j (by omega)).2
    · simp only [h0, ne_eq, not_false_eq_true, if_true]
      rw [Function.update_of_ne (by omega)]; exact (h2 j (by omega)).2

theorem solveUp_spec (n : ℕ) (b : BP P) : ∃ k : (t : ℕ) → Vec F (P.nu t),
    forUp n mtSolve b = { b with k := k } ∧ (∀ t, t < n → k t = b.llt t (b.Qu t)) ∧ ∀ t, n ≤ t → k t = b.k t := by
  refine forUp_inv (fun n (b' : BP P) => ∃ k : (t : ℕ) → Vec F (P.nu t),
    b' = { b with k := k } ∧ (∀ t, t < n → k t = b.llt t (b.Qu t)) ∧ ∀ t, n ≤ t → k t = b.k t) n _ b
    ⟨_, rfl, fun t ht => by omega, fun t _ => rfl⟩ ?_
  rintro t ht b1 ⟨k, rfl, h1, h2⟩
  refine ⟨_, rfl, fun j hj => ?_, fun j hj => ?_⟩
  · rcases Nat.lt_succ_iff_lt_or_eq.mp hj with hj | rfl
    · simp only []; rw [Function.update_of_ne (by omega)]; exact h1 j hj
    · simp only [Function.update_self]
  · simp only []; rw [Function.update_of_ne (by omega)]; exact h2 j (by omega)

/-- relation between the sequential cheap sweep `B` and the multi-threaded one `c`, stages `≥ n` done. -/
structure FastRel (E : QEnv P) (v : CVars P) (n : ℕ) (B : CBP P) (c : BP P) : Prop where
  Vxx : c.Vxx = B.bp.Vxx
  Vx : c.Vx = B.bp.Vx
  K : c.K = B.bp.K
  Quuk : c.Quuk = B.bp.Quuk
  llt : c.llt = B.bp.llt
  Qxx : c.Qxx = B.bp.Qxx
  Quu : c.Quu = B.bp.Quu
  Qxu : c.Qxu = B.bp.Qxu
  Qx : ∀ j, n ≤ j → c.Qx j = B.bp.Qx j
  Qu : ∀ j, n ≤ j → c.Qu j = B.bp.Qu j
  locQx : ∀ j, j < n → c.Qx j = Mim.locQx E v j
  locQu : ∀ j, j < n → 0 < P.nu j → c.Qu j = Mim.locQu E v j
  k : ∀ j, j < n ∨ P.T ≤ j → c.k j = B.bp.k j
  done : ∀ j, n ≤ j → j < P.T → B.bp.k j = B.bp.llt j (B.bp.Qu j)

theorem fastRel_step {n : ℕ} (hn : n < P.T) {B : CBP P} {c : BP P} (h : FastRel E v (n + 1) B c) :
    FastRel E v n (fastStage E v n B) (mtFastStage E B.vfs n c) ∧ (fastStage E v n B).vfs = B.vfs := by
  have hq := h.locQx n (Nat.lt_succ_self n)
  rcases Nat.eq_zero_or_pos (P.nu n) with h0 | h0
  · have e1 : fastStage E v n B = { B with bp := { B.bp with
        Qx := Function.update B.bp.Qx n (Mim.locQx E v n + mv (E.d.rd n).Fx.transpose (B.vfs n + B.bp.Vx (n + 1)))
        k := Function.update B.bp.k n (B.bp.llt n (B.bp.Qu n))
        Vx := Function.update B.bp.Vx n
          (Mim.locQx E v n + mv (E.d.rd n).Fx.transpose (B.vfs n + B.bp.Vx (n + 1))) } } := by
      unfold fastStage
      simp only [h0, ne_eq, not_true_eq_false, if_false, Function.update_self]
    have e2 : mtFastStage E B.vfs n c = { c with
        Qx := Function.update c.Qx n (Mim.locQx E v n + mv (E.d.rd n).Fx.transpose (B.vfs n + B.bp.Vx (n + 1)))
        Vx := Function.update B.bp.Vx n
          (Mim.locQx E v n + mv (E.d.rd n).Fx.transpose (B.vfs n + B.bp.Vx (n + 1))) } := by
      unfold mtFastStage
      simp only [h0, ne_eq, not_true_eq_false, if_false, Function.update_self, hq, h.Vx]
    rw [e1, e2]
    refine ⟨⟨h.Vxx, rfl, h.K, h.Quuk, h.llt, h.Qxx, h.Quu, h.Qxu, upd_ahead _ h.Qx, fun j hj => ?_, fun j hj => ?_,
      fun j hj hp => h.locQu j (by omega) hp, fun j hj => ?_, fun j hj hT => ?_⟩, rfl⟩
    · rcases Nat.eq_or_lt_of_le hj with rfl | hj
      · exact vec_empty h0 _ _
      · exact h.Qu j hj
    · simp only []; rw [Function.update_of_ne (by omega)]; exact h.locQx j (by omega)
    · simp only []; rw [Function.update_of_ne (by omega)]; exact h.k j (by omega)
    · rcases Nat.eq_or_lt_of_le hj with rfl | hj
      · exact vec_empty h0 _ _
      · simp only []; rw [Function.update_of_ne (by omega)]; exact h.done j hj hT
  · have hne : P.nu n ≠ 0 := by omega
    have hu := h.locQu n (Nat.lt_succ_self n) h0
    have e1 : fastStage E v n B = { B with bp := { B.bp with
        Qx := Function.update B.bp.Qx n (Mim.locQx E v n + mv (E.d.rd n).Fx.transpose (B.vfs n + B.bp.Vx (n + 1)))
        Qu := Function.update B.bp.Qu n (Mim.locQu E v n + mv (E.d.rd n).Fu.transpose (B.vfs n + B.bp.Vx (n + 1)))
        k := Function.update B.bp.k n
          (B.bp.llt n (Mim.locQu E v n + mv (E.d.rd n).Fu.transpose (B.vfs n + B.bp.Vx (n + 1))))
        Vx := Function.update B.bp.Vx n
          (Mim.locQx E v n + mv (E.d.rd n).Fx.transpose (B.vfs n + B.bp.Vx (n + 1)) - mv (B.bp.K n).transpose
            (Mim.locQu E v n + mv (E.d.rd n).Fu.transpose (B.vfs n + B.bp.Vx (n + 1)))) } } := by
      unfold fastStage
      simp only [hne, ne_eq, not_false_eq_true, if_true, Function.update_self]
    have e2 : mtFastStage E B.vfs n c = { c with
        Qx := Function.update c.Qx n (Mim.locQx E v n + mv (E.d.rd n).Fx.transpose (B.vfs n + B.bp.Vx (n + 1)))
        Qu := Function.update c.Qu n (Mim.locQu E v n + mv (E.d.rd n).Fu.transpose (B.vfs n + B.bp.Vx (n + 1)))
        Vx := Function.update B.bp.Vx n
          (Mim.locQx E v n + mv (E.d.rd n).Fx.transpose (B.vfs n + B.bp.Vx (n + 1)) - mv (B.bp.K n).transpose
            (Mim.locQu E v n + mv (E.d.rd n).Fu.transpose (B.vfs n + B.bp.Vx (n + 1)))) } := by
      unfold mtFastStage
      simp only [hne, ne_eq, not_false_eq_true, if_true, Function.update_self, hq, hu, h.Vx, h.K, Function.update_idem]
    rw [e1, e2]
    refine ⟨⟨h.Vxx, rfl, h.K, h.Quuk, h.llt, h.Qxx, h.Quu, h.Qxu, upd_ahead _ h.Qx, upd_ahead _ h.Qu, fun j hj => ?_,
      fun j hj hp => ?_, fun j hj => ?_, fun j hj hT => ?_⟩, rfl⟩
    · simp only []; rw [Function.update_of_ne (by omega)]; exact h.locQx j (by omega)
    · simp only []; rw [Function.update_of_ne (by omega)]; exact h.locQu j (by omega) hp
    · simp only []; rw [Function.update_of_ne (by omega)]; exact h.k j (by omega)
    · rcases Nat.eq_or_lt_of_le hj with rfl | hj
      · simp only [Function.update_self]
      · simp only []; rw [Function.update_of_ne (by omega), Function.update_of_ne (by omega)]; exact h.done j hj hT

theorem fastRel_sweep {n : ℕ} (hn : n ≤ P.T) {B : CBP P} {c : BP P} (h : FastRel E v n B c) :
    FastRel E v 0 (forDown n (fastStage E v) B) (forDown n (mtFastStage E B.vfs) c) := by
  induction n generalizing B c with
  | zero => exact h
  | succ n ih =>
    obtain ⟨h1, h2⟩ := fastRel_step hn h
    rw [forDown_succ, forDown_succ]
    have := ih (by omega) h1
    rw [h2] at this
    exact this

theorem fastSweep_vfs (n : ℕ) (B : CBP P) : (forDown n (fastStage E v) B).vfs = B.vfs :=
  forDown_inv (fun _ (C : CBP P) => C.vfs = B.vfs) n _ B rfl fun t _ C h => by
    unfold fastStage
    by_cases h0 : P.nu t = 0 <;> simp only [h0, ne_eq, not_true_eq_false, not_false_eq_true, if_true, if_false, h]

/-- **the multi-threaded cheap pass equals the sequential one**, bit for bit, under every schedule. -/
theorem fastPassMt_eq {l l' : List ℕ} (hl : l.Perm (List.range P.T)) (hl' : l'.Perm (List.range P.T)) (B : CBP P) :
    fastPassMt l l' E v B = fastPass E v B := by
  rw [fastPassMt_perm hl hl']
  unfold fastPassMt fastPass
  simp only [forList_range]
  obtain ⟨qx, qu, e, h1, h2⟩ := fastInit_spec (E := E) (v := v) P.T { B.bp with Vx := Function.update B.bp.Vx P.T (terVx E v) }
  rw [e]
  have h := fastRel_sweep (E := E) (v := v) (n := P.T) le_rfl
    (B := { B with bp := { B.bp with Vx := Function.update B.bp.Vx P.T (terVx E v) } })
    (c := { B.bp with Vx := Function.update B.bp.Vx P.T (terVx E v), Qx := qx, Qu := qu })
    ⟨rfl, rfl, rfl, rfl, rfl, rfl, rfl, rfl, fun j hj => (h2 j hj).1, fun j hj => (h2 j hj).2, fun j hj => (h1 j hj).1,
      fun j hj => (h1 j hj).2, fun j _ => rfl, fun j hj hT => by omega⟩
  have hv := fastSweep_vfs (E := E) (v := v) P.T
    { B with bp := { B.bp with Vx := Function.update B.bp.Vx P.T (terVx E v) } }
  simp only [] at h hv
  generalize forDown P.T (mtFastStage E B.vfs)
    ({ B.bp with Vx := Function.update B.bp.Vx P.T (terVx E v), Qx := qx, Qu := qu } : BP P) = c at *
  generalize forDown P.T (fastStage E v)
    ({ B with bp := { B.bp with Vx := Function.update B.bp.Vx P.T (terVx E v) } } : CBP P) = C at *
  obtain ⟨k, ek, h3, h4⟩ := solveUp_spec P.T c
  rw [ek]
  obtain ⟨C1, C2⟩ := C
  simp only [] at h hv
  obtain ⟨r1, r2, r3, r4, r5, r6, r7, r8, r9, r10, r11, r12, r13, r14⟩ := h
  have e9 : c.Qx = C1.Qx := funext fun j => r9 j (Nat.zero_le j)
  have e10 : c.Qu = C1.Qu := funext fun j => r10 j (Nat.zero_le j)
  have ekk : k = C1.k := by
    funext j
    by_cases hj : j < P.T
    · rw [h3 j hj, r5, e10]; exact (r14 j (Nat.zero_le j) hj).symm
    · rw [h4 j (by omega)]; exact r13 j (.inr (by omega))
  simp only [CBP.mk.injEq]
  refine ⟨?_, hv.symm⟩
  rw [r1, r2, r3, r4, r5, r6, r7, r8, e9, e10, ekk]

end

section
variable {K : Type} [Field K] [LinearOrder K] [IsStrictOrderedRing K] {P : Problem K}

theorem symmUpper_exact {n : ℕ} : (symmUpper : Mat K n n → Mat K n n) = symm := by
  funext A
  ext i j
  unfold symmUpper
  simp only [Matrix.of_apply]
  split
  · rfl
  · have := congrFun (congrFun (symm_transpose A) i) j
    rw [Matrix.transpose_apply] at this
    exact this

theorem mtTerms_exact (E : QEnv P) (v : CVars P) : mtTerms E v = fullTerms E v := by
  funext t
  unfold mtTerms
  have : (fun V => regDiag E.dreg
      (if P.ng t ≠ 0 then addDiag (E.d.rd t).Luu E.c.sigma + rhoGuGu E v t else addDiag (E.d.rd t).Luu E.c.sigma) +
      mm (mm (E.d.rd t).Fu.transpose V) (E.d.rd t).Fu) = (fullTerms E v t).Quu := by
    funext V
    unfold fullTerms
    simp only [regDiag_exact]
    split <;> abel
  rw [this]

/-- **the multi-threaded full pass equals the sequential one** in exact arithmetic, under every schedule. -/
theorem fullPassMt_eq {llt : LLT K} {E : QEnv P} {v : CVars P} {l : List ℕ} (hl : l.Perm (List.range P.T)) (B : CBP P) :
    (∃ C, fullPass llt E v B = .ok C ∧ fullPassMt l llt E v B = .ok C) ∨
    ∃ C C', fullPass llt E v B = .exn C ∧ fullPassMt l llt E v B = .exn C' := by
  have h := fullPassMt_sweep (llt := llt) (E := E) (v := v) hl B
  rw [mtTerms_exact, symmUpper_exact] at h
  exact h

end
end QP
end Mim
