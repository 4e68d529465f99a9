import Verif.Lemmas.QPMt

/-!
# What the scratch memory of the backward passes can influence

`Ahead T b b'`: the two memories agree except in the Q-terms of the stages below `T`.  The passes turn such memories into equal ones,
or throw in both and leave memories related in the same way.
-/
set_option linter.unusedSectionVars false
set_option linter.unusedSimpArgs false

namespace Mim
namespace QP
section
variable {F : Type} [Add F] [Sub F] [Mul F] [Div F] [Neg F] [Zero F] [One F] [FloatOps F] {P : Problem F}
variable {llt : LLT F} {E : QEnv P} {v : CVars P}
variable {sym : Mat F P.ndx P.ndx → Mat F P.ndx P.ndx} {q : (t : ℕ) → QTerms F P.ndx (P.nu t)} {fs : ℕ → Vec F P.ndx}
  {preg : F}

theorem Ahead.refl (n : ℕ) (b : BP P) : Ahead n b b :=
  ⟨rfl, rfl, rfl, rfl, rfl, rfl, fun _ _ => rfl, fun _ _ => rfl, fun _ _ => rfl, fun _ _ => rfl, fun _ _ => rfl⟩

theorem Ahead.mono {m n : ℕ} (h : m ≤ n) {b b' : BP P} (a : Ahead m b b') : Ahead n b b' :=
  ⟨a.Vxx, a.Vx, a.K, a.k, a.Quuk, a.llt, fun j hj => a.Qx j (by omega), fun j hj => a.Qxx j (by omega), fun j hj => a.Qu j (by omega),
    fun j hj => a.Quu j (by omega), fun j hj => a.Qxu j (by omega)⟩

theorem Ahead.trans {n : ℕ} {a b c : BP P} (h : Ahead n a b) (h' : Ahead n b c) : Ahead n a c :=
  ⟨h'.Vxx.trans h.Vxx, h'.Vx.trans h.Vx, h'.K.trans h.K, h'.k.trans h.k, h'.Quuk.trans h.Quuk, h'.llt.trans h.llt,
    fun j hj => (h'.Qx j hj).trans (h.Qx j hj), fun j hj => (h'.Qxx j hj).trans (h.Qxx j hj),
    fun j hj => (h'.Qu j hj).trans (h.Qu j hj), fun j hj => (h'.Quu j hj).trans (h.Quu j hj),
    fun j hj => (h'.Qxu j hj).trans (h.Qxu j hj)⟩

/-- what a throwing stage leaves. -/
theorem genStage_none {t : ℕ} (h : 0 < P.nu t) (b : BP P) (hs : llt (P.nu t) ((q t).Quu (b.Vxx (t + 1))) = none) :
    genStage llt fs preg sym q t b =
      .exn (stageQ (q t) (mv (b.Vxx (t + 1)) (fs (t + 1)) + b.Vx (t + 1)) (b.Vxx (t + 1)) b) := by
  have hne : P.nu t ≠ 0 := by omega
  unfold genStage stageQ computeGains
  simp only [hne, ne_eq, not_false_eq_true, if_true, h, Function.update_self, hs, Res.thenDo_exn]

/-- as `genStage_ahead`, with what is left when the stage throws. -/
theorem genStage_scratch {n : ℕ} {b b' : BP P} (h : Ahead (n + 1) b b') :
    (∃ c c', genStage llt fs preg sym q n b = .ok c ∧ genStage llt fs preg sym q n b' = .ok c' ∧ Ahead n c c') ∨
    ∃ c c', genStage llt fs preg sym q n b = .exn c ∧ genStage llt fs preg sym q n b' = .exn c' ∧ Ahead n c c' := by
  rcases genStage_ahead (llt := llt) (fs := fs) (preg := preg) (sym := sym) (q := q) h with h1 | ⟨c, c', h1, h2⟩
  · exact .inl h1
  · right
    rcases Nat.eq_zero_or_pos (P.nu n) with h0 | h0
    · rw [genStage_zero h0] at h1; cases h1
    · cases hs : llt (P.nu n) ((q n).Quu (b.Vxx (n + 1))) with
      | some s =>
        rw [(genStage_pos (llt := llt) (fs := fs) (preg := preg) (sym := sym) (q := q) h0 b).1 s hs] at h1
        cases h1
      | none =>
        refine ⟨_, _, genStage_none h0 b hs, genStage_none h0 b' (by rw [h.Vxx]; exact hs), ?_⟩
        have hne : P.nu n ≠ 0 := by omega
        unfold stageQ
        simp only [hne, ne_eq, not_false_eq_true, if_true]
        rw [h.Vxx, h.Vx]
        exact ⟨rfl, rfl, h.K, h.k, h.Quuk, h.llt, upd_ahead _ h.Qx, upd_ahead _ h.Qxx, upd_ahead _ h.Qu, upd_ahead _ h.Quu,
          upd_ahead _ h.Qxu⟩

/-- the two memories agree except in the Q-terms of the stages below `T`. -/
structure SameB (B B' : CBP P) : Prop where
  bp : Ahead P.T B.bp B'.bp
  vfs : B'.vfs = B.vfs

theorem SameB.refl (B : CBP P) : SameB B B := ⟨Ahead.refl _ _, rfl⟩

theorem SameB.trans {A B C : CBP P} (h : SameB A B) (h' : SameB B C) : SameB A C := ⟨h.bp.trans h'.bp, h'.vfs.trans h.vfs⟩

/-- equal memories after normal returns, related ones after exceptions. -/
inductive SameRB : Res (CBP P) → Res (CBP P) → Prop
  | ok (C : CBP P) : SameRB (.ok C) (.ok C)
  | exn {C C' : CBP P} (h : SameB C C') : SameRB (.exn C) (.exn C')

theorem sweep_scratch {st : ℕ → CBP P → Res (CBP P)} {g : ℕ → CBP P → BP P → ℕ → Vec F P.ndx}
    (hst : ∀ t B, st t B = (genStage llt fs preg sym q t B.bp).map fun b => ⟨b, g t B b⟩)
    (hg : ∀ t (B B' : CBP P) b b', B'.vfs = B.vfs → B'.bp.Vxx = B.bp.Vxx → g t B' b' = g t B b)
    {n : ℕ} (hn : n ≤ P.T) {B B' : CBP P} (h : Ahead n B.bp B'.bp) (hv : B'.vfs = B.vfs) :
    SameRB (forDownR n st B) (forDownR n st B') := by
  induction n generalizing B B' with
  | zero =>
    have : B' = B := by
      cases B; cases B'
      simp only [CBP.mk.injEq]
      exact ⟨h.eq, hv⟩
    rw [this]; exact .ok _
  | succ n ih =>
    rw [forDownR_succ, forDownR_succ, hst, hst]
    rcases genStage_scratch (llt := llt) (fs := fs) (preg := preg) (sym := sym) (q := q) h with
      ⟨c, c', h1, h2, h3⟩ | ⟨c, c', h1, h2, h3⟩
    · rw [h1, h2]
      simp only [Res.map_ok, Res.bind_ok]
      exact ih (by omega) h3 (hg _ _ _ _ _ hv h.Vxx)
    · rw [h1, h2]
      exact .exn ⟨h3.mono (by omega), hg _ _ _ _ _ hv h.Vxx⟩

theorem SameB.start {B B' : CBP P} (h : SameB B B') (Vxx : Mat F P.ndx P.ndx) (Vx : Vec F P.ndx) :
    Ahead P.T ({ B.bp with Vxx := Function.update B.bp.Vxx P.T Vxx, Vx := Function.update B.bp.Vx P.T Vx } : BP P)
      { B'.bp with Vxx := Function.update B'.bp.Vxx P.T Vxx, Vx := Function.update B'.bp.Vx P.T Vx } :=
  ⟨by rw [h.bp.Vxx], by rw [h.bp.Vx], h.bp.K, h.bp.k, h.bp.Quuk, h.bp.llt, h.bp.Qx, h.bp.Qxx, h.bp.Qu, h.bp.Quu, h.bp.Qxu⟩

/-- the pass without constraints. -/
theorem plainPass_scratch {B B' : CBP P} (h : SameB B B') : SameRB (plainPass llt E B) (plainPass llt E B') := by
  unfold plainPass
  exact sweep_scratch (g := fun t B _ => B.vfs) (fs := E.fs) (preg := E.preg) (sym := symm) (q := plainTerms E) (llt := llt)
    (fun _ _ => rfl) (fun _ _ _ _ _ hv _ => hv) le_rfl (h.start _ _) h.vfs

/-- the full pass. -/
theorem fullPass_scratch {B B' : CBP P} (h : SameB B B') : SameRB (fullPass llt E v B) (fullPass llt E v B') := by
  unfold fullPass
  exact sweep_scratch (g := fun t B _ => Function.update B.vfs t (mv (B.bp.Vxx (t + 1)) (E.fs (t + 1))))
    (fs := E.fs) (preg := E.preg) (sym := symm) (q := fullTerms E v) (llt := llt)
    (fun _ _ => rfl) (fun _ _ _ _ _ hv hV => by rw [hv, hV]) le_rfl (h.start _ _) h.vfs

end

section
variable {K : Type} [Field K] [LinearOrder K] [IsStrictOrderedRing K] {P : Problem K}
variable {llt : LLT K} {E : QEnv P} {v : CVars P}

/-- the multi-threaded full pass and the sequential one from related memories. -/
theorem fullPassMt_scratch {l : List ℕ} (hl : l.Perm (List.range P.T)) {B B' : CBP P} (h : SameB B B') :
    SameRB (fullPass llt E v B) (fullPassMt l llt E v B') := by
  rw [fullPassMt_perm hl]
  unfold fullPassMt fullPass
  simp only [forList_range]
  obtain ⟨⟨i1, i2, i3, i4, i5, i6, i7⟩, i8⟩ := initUp_spec (E := E) (v := v) P.T
    { B'.bp with Vxx := Function.update B'.bp.Vxx P.T (terVxx E v), Vx := Function.update B'.bp.Vx P.T (terVx E v) }
  rw [mtSweep_eq (v := v) (fun t ht => i8 t ht), mtTerms_exact, symmUpper_exact]
  have ha : Ahead P.T _ (forUp P.T (mtInit E v)
      { B'.bp with Vxx := Function.update B'.bp.Vxx P.T (terVxx E v), Vx := Function.update B'.bp.Vx P.T (terVx E v) }) :=
    ⟨i1, i2, i3, i4, i5, i6, fun j hj => (i7 j hj).1, fun j hj => (i7 j hj).2.1,
    fun j hj => (i7 j hj).2.2.1, fun j hj => (i7 j hj).2.2.2.1, fun j hj => (i7 j hj).2.2.2.2⟩
  exact sweep_scratch (g := fun t B _ => Function.update B.vfs t (mv (B.bp.Vxx (t + 1)) (E.fs (t + 1))))
    (fs := E.fs) (preg := E.preg) (sym := symm) (q := fullTerms E v) (llt := llt)
    (fun _ _ => rfl) (fun _ _ _ _ _ hv hV => by rw [hv, hV]) le_rfl ((h.start _ _).trans ha) h.vfs

end
end QP
end Mim
