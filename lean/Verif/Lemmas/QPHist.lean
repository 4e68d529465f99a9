import Verif.Lemmas.DDPHist
import Verif.Lemmas.QPPass

/-!
# Two QP solver states that differ only in leftovers of earlier calls behave alike
-/
set_option linter.unusedSectionVars false
set_option linter.unusedSimpArgs false

namespace Mim
namespace QPH
variable {F : Type} [Add F] [Sub F] [Mul F] [Div F] [Neg F] [Zero F] [One F] [FloatOps F] {P : Problem F}
open QP Bwd

/-- the QP solver is shown the same problem. -/
structure EnvSame (E E' : QEnv P) : Prop where
  c : E.c = E'.c
  d : E.d.SameD E'.d
  fs : ∀ t, t ≤ P.T → E.fs t = E'.fs t
  preg : E.preg = E'.preg
  dreg : E.dreg = E'.dreg
  sched : E.sched = none
  sched' : E'.sched = none

/-- the ADMM variables read at the beginning of a QP iteration agree. -/
structure VIn (v v' : CVars P) : Prop where
  dx : ∀ t, t ≤ P.T → v.dx t = v'.dx t
  du : ∀ t, t < P.T → v.du t = v'.du t
  z : ∀ t, t ≤ P.T → v.z t = v'.z t
  y : ∀ t, t ≤ P.T → v.y t = v'.y t
  rho : ∀ t, t ≤ P.T → v.rho t = v'.rho t
  inv : ∀ t, t ≤ P.T → v.inv t = v'.inv t
  dxt0 : v.dxt 0 = v'.dxt 0

/-- so do the step computed by the forward pass. -/
structure VOut (v v' : CVars P) : Prop extends VIn v v' where
  dxt : ∀ t, t ≤ P.T → v.dxt t = v'.dxt t
  dut : ∀ t, t < P.T → v.dut t = v'.dut t

/-- the arrays of the backward pass agree from stage `t` on. -/
structure BA (t : ℕ) (b b' : BP P) : Prop where
  Vxx : ∀ j, t ≤ j → j ≤ P.T → b.Vxx j = b'.Vxx j
  Vx : ∀ j, t ≤ j → j ≤ P.T → b.Vx j = b'.Vx j
  Qxx : ∀ j, t ≤ j → j < P.T → b.Qxx j = b'.Qxx j
  Qxu : ∀ j, t ≤ j → j < P.T → b.Qxu j = b'.Qxu j
  Quu : ∀ j, t ≤ j → j < P.T → b.Quu j = b'.Quu j
  Qx : ∀ j, t ≤ j → j < P.T → b.Qx j = b'.Qx j
  Qu : ∀ j, t ≤ j → j < P.T → b.Qu j = b'.Qu j
  K : ∀ j, t ≤ j → j < P.T → b.K j = b'.K j
  k : ∀ j, t ≤ j → j < P.T → b.k j = b'.k j
  llt : ∀ j, t ≤ j → j < P.T → b.llt j = b'.llt j

structure CBA (t : ℕ) (B B' : CBP P) : Prop where
  bp : BA t B.bp B'.bp
  vfs : ∀ j, t ≤ j → j < P.T → B.vfs j = B'.vfs j

section
variable {llt : LLT F} {fs : ℕ → Vec F P.ndx} {preg : F} {sym : Mat F P.ndx P.ndx → Mat F P.ndx P.ndx}
  {q : (t : ℕ) → QTerms F P.ndx (P.nu t)}

theorem genStage_agree {t : ℕ} (ht : t < P.T) {b b' : BP P} (h : BA (t + 1) b b') :
    Res.Rel (BA t) (fun _ _ => True) (genStage llt fs preg sym q t b) (genStage llt fs preg sym q t b') := by
  have hW := h.Vxx (t + 1) le_rfl ht
  have hw := h.Vx (t + 1) le_rfl ht
  rcases Nat.eq_zero_or_pos (P.nu t) with h0 | h0
  · rw [genStage_zero h0, genStage_zero h0, ← hW, ← hw]
    refine .ok ⟨update_agree' h.Vxx, update_agree' h.Vx, update_agree h.Qxx, ?_, ?_, update_agree h.Qx, ?_, ?_, ?_, ?_⟩
    all_goals
      intro j hj hn
      by_cases e : j = t
      · subst e
        first
          | (funext i; exact (Fin.cast h0 i).elim0)
          | (ext i i'; exact (Fin.cast h0 i').elim0)
          | (ext i i'; exact (Fin.cast h0 i).elim0)
          | (funext v i; exact (Fin.cast h0 i).elim0)
      · first
          | exact h.Qxu j (by omega) hn
          | exact h.Quu j (by omega) hn
          | exact h.Qu j (by omega) hn
          | exact h.K j (by omega) hn
          | exact h.k j (by omega) hn
          | exact h.llt j (by omega) hn
  · have e1 := genStage_pos (llt := llt) (fs := fs) (preg := preg) (sym := sym) (q := q) h0 b
    have e2 := genStage_pos (llt := llt) (fs := fs) (preg := preg) (sym := sym) (q := q) h0 b'
    rw [← hW] at e2
    cases hs : llt (P.nu t) ((q t).Quu (b.Vxx (t + 1))) with
    | none =>
      obtain ⟨c1, e1⟩ := e1.2 hs
      obtain ⟨c2, e2⟩ := e2.2 hs
      rw [e1, e2]; exact .exn trivial
    | some s =>
      rw [e1.1 s hs, e2.1 s hs]
      unfold posStage
      simp only []
      rw [← hW, ← hw]
      exact .ok ⟨update_agree' h.Vxx, update_agree' h.Vx, update_agree h.Qxx, update_agree h.Qxu,
          update_agree h.Quu, update_agree h.Qx, update_agree h.Qu, update_agree h.K, update_agree h.k, update_agree h.llt⟩

/-- the sweep of a backward pass; `upd`: it stores `Vxx * fs`. -/
theorem sweep_agree {st : ℕ → CBP P → Res (CBP P)} (upd : Bool)
    (hst : ∀ t B, st t B = (genStage llt fs preg sym q t B.bp).map fun b =>
      ⟨b, if upd then Function.update B.vfs t (mv (B.bp.Vxx (t + 1)) (fs (t + 1))) else B.vfs⟩)
    (n : ℕ) (hn : n ≤ P.T) {B B' : CBP P} (h : BA n B.bp B'.bp) (hv : upd = true → ∀ j, n ≤ j → j < P.T → B.vfs j = B'.vfs j) :
    Res.Rel (fun B B' => BA 0 B.bp B'.bp ∧ (upd = true → ∀ j, j < P.T → B.vfs j = B'.vfs j)) (fun _ _ => True)
      (forDownR n st B) (forDownR n st B') := by
  induction n generalizing B B' with
  | zero => exact .ok ⟨h, fun e j hj => hv e j (by omega) hj⟩
  | succ n ih =>
    rw [forDownR_succ, forDownR_succ, hst, hst]
    have key := genStage_agree (llt := llt) (fs := fs) (preg := preg) (sym := sym) (q := q) hn h
    generalize genStage llt fs preg sym q n B.bp = r at key
    generalize genStage llt fs preg sym q n B'.bp = r' at key
    cases key with
    | exn _ => exact .exn trivial
    | ok k =>
      refine ih (by omega) k fun e => ?_
      simp only [e, if_true]
      rw [h.Vxx (n + 1) le_rfl hn]
      exact update_agree (hv e)

end

section
variable {E E' : QEnv P} {v v' : CVars P} {llt : LLT F}

theorem shift_same (hv : VIn v v') {t : ℕ} (ht : t ≤ P.T) : dualShift v t = dualShift v' t := by
  unfold dualShift; rw [hv.y t ht, hv.rho t ht, hv.z t ht]

theorem fullTerms_same (hE : EnvSame E E') (hv : VIn v v') {t : ℕ} (ht : t < P.T) : fullTerms E v t = fullTerms E' v' t := by
  unfold fullTerms locQx locQxx locQu locQxu rhoGuGu
  rw [hE.d.rd t ht, hE.c, shift_same hv ht.le, hv.dx t ht.le, hv.du t ht, hv.rho t ht.le, hE.dreg]

theorem plainTerms_same (hE : EnvSame E E') {t : ℕ} (ht : t < P.T) : plainTerms E t = plainTerms E' t := by
  unfold plainTerms
  rw [hE.d.rd t ht, hE.dreg]

theorem terVx_same (hE : EnvSame E E') (hv : VIn v v') : terVx E v = terVx E' v' := by
  unfold terVx; rw [hE.d.td, hE.c, shift_same hv le_rfl, hv.dx _ le_rfl]

theorem terVxx_same (hE : EnvSame E E') (hv : VIn v v') : terVxx E v = terVxx E' v' := by
  unfold terVxx; rw [hE.d.td, hE.c, hv.rho _ le_rfl, hE.preg]

theorem BA.init (b b' : BP P) (V : Mat F P.ndx P.ndx) (w : Vec F P.ndx) :
    BA P.T { b with Vxx := Function.update b.Vxx P.T V, Vx := Function.update b.Vx P.T w }
      { b' with Vxx := Function.update b'.Vxx P.T V, Vx := Function.update b'.Vx P.T w } := by
  refine ⟨?_, ?_, ?_, ?_, ?_, ?_, ?_, ?_, ?_, ?_⟩
  · intro j h1 h2
    obtain rfl : j = P.T := by omega
    simp
  · intro j h1 h2
    obtain rfl : j = P.T := by omega
    simp
  all_goals
    intro j h1 h2
    omega

theorem fullPass_alike (hE : EnvSame E E') (hv : VIn v v') (B B' : CBP P) :
    Res.Rel (CBA 0) (fun _ _ => True) (fullPass llt E v B) (fullPass llt E' v' B') := by
  have e : fullPass llt E' v' B' = fullPass llt E v B' := by
    unfold fullPass
    rw [terVxx_same hE hv, terVx_same hE hv]
    rw [forDownR_congr P.T (fullStage llt E' v') (fullStage llt E v) fun t ht => by
      funext B
      unfold fullStage
      rw [fullTerms_same hE hv ht, hE.fs (t + 1) ht, hE.preg]]
  rw [e]
  have key := sweep_agree (llt := llt) (fs := E.fs) (preg := E.preg) (sym := symm) (q := fullTerms E v) (st := fullStage llt E v) true
    (fun t B => rfl) P.T le_rfl
    (B := { B with bp := { B.bp with Vxx := Function.update B.bp.Vxx P.T (terVxx E v), Vx := Function.update B.bp.Vx P.T (terVx E v) } })
    (B' := { B' with bp := { B'.bp with Vxx := Function.update B'.bp.Vxx P.T (terVxx E v), Vx := Function.update B'.bp.Vx P.T (terVx E v) } })
    (BA.init _ _ _ _) (fun _ j h1 h2 => by omega)
  unfold fullPass
  generalize forDownR P.T (fullStage llt E v) _ = r at key ⊢
  generalize forDownR P.T (fullStage llt E v) _ = r' at key ⊢
  cases key with
  | exn _ => exact .exn trivial
  | ok k => exact .ok ⟨k.1, fun j _ hj => k.2 rfl j hj⟩

theorem plainPass_alike (hE : EnvSame E E') (B B' : CBP P) :
    Res.Rel (fun B B' => BA 0 B.bp B'.bp) (fun _ _ => True) (plainPass llt E B) (plainPass llt E' B') := by
  have e : plainPass llt E' B' = plainPass llt E B' := by
    unfold plainPass
    rw [hE.d.td, hE.preg]
    rw [forDownR_congr P.T (plainStage llt E') (plainStage llt E) fun t ht => by
      funext B
      unfold plainStage
      rw [plainTerms_same hE ht, hE.fs (t + 1) ht, hE.preg]]
  rw [e]
  have key := sweep_agree (llt := llt) (fs := E.fs) (preg := E.preg) (sym := symm) (q := plainTerms E) (st := plainStage llt E) false
    (fun t B => rfl) P.T le_rfl
    (B := { B with bp := { B.bp with Vxx := Function.update B.bp.Vxx P.T (regDiag E.preg E.d.td.Lxx), Vx := Function.update B.bp.Vx P.T E.d.td.Lx } })
    (B' := { B' with bp := { B'.bp with Vxx := Function.update B'.bp.Vxx P.T (regDiag E.preg E.d.td.Lxx), Vx := Function.update B'.bp.Vx P.T E.d.td.Lx } })
    (BA.init _ _ _ _) (fun e => by cases e)
  unfold plainPass
  generalize forDownR P.T (plainStage llt E) _ = r at key ⊢
  generalize forDownR P.T (plainStage llt E) _ = r' at key ⊢
  cases key with
  | exn _ => exact .exn trivial
  | ok k => exact .ok k.1

/-- one stage of the cheap backward pass. -/
theorem fastStage_alike (hE : EnvSame E E') (hv : VIn v v') {t : ℕ} (ht : t < P.T) {B B' : CBP P} (h : CBA 0 B B')
    : CBA 0 (fastStage E v t B) (fastStage E' v' t B') := by
  obtain ⟨⟨h1, h2, h3, h4, h5, h6, h7, h8, h9, h10⟩, h11⟩ := h
  have hq : locQx E v t = locQx E' v' t := by
    unfold locQx; rw [hE.d.rd t ht, hE.c, shift_same hv ht.le, hv.dx t ht.le]
  have hu : locQu E v t = locQu E' v' t := by
    unfold locQu; rw [hE.d.rd t ht, hE.c, shift_same hv ht.le, hv.du t ht]
  have hQx : locQx E v t + mv (E.d.rd t).Fx.transpose (B.vfs t + B.bp.Vx (t + 1)) =
      locQx E' v' t + mv (E'.d.rd t).Fx.transpose (B'.vfs t + B'.bp.Vx (t + 1)) := by
    rw [hq, hE.d.rd t ht, h11 t (by omega) ht, h2 (t + 1) (by omega) ht]
  have hQu : locQu E v t + mv (E.d.rd t).Fu.transpose (B.vfs t + B.bp.Vx (t + 1)) =
      locQu E' v' t + mv (E'.d.rd t).Fu.transpose (B'.vfs t + B'.bp.Vx (t + 1)) := by
    rw [hu, hE.d.rd t ht, h11 t (by omega) ht, h2 (t + 1) (by omega) ht]
  unfold fastStage
  by_cases hn : P.nu t = 0
  · simp only [hn, ne_eq, not_true_eq_false, if_false, Function.update_self]
    refine ⟨⟨h1, ?_, h3, h4, h5, ?_, h7, h8, ?_, h10⟩, h11⟩
    · exact fun j a b => update_same (p := fun j => j ≤ P.T) (fun j hj => h2 j (by omega) hj) hQx j b
    · exact fun j a b => update_same (p := fun j => j < P.T) (fun j hj => h6 j (by omega) hj) hQx j b
    · exact fun j a b => update_same (p := fun j => j < P.T) (fun j hj => h9 j (by omega) hj) (by rw [h10 t (by omega) ht, h7 t (by omega) ht]) j b
  · simp only [hn, ne_eq, not_false_eq_true, if_true, Function.update_self]
    refine ⟨⟨h1, ?_, h3, h4, h5, ?_, ?_, h8, ?_, h10⟩, h11⟩
    · exact fun j a b => update_same (p := fun j => j ≤ P.T) (fun j hj => h2 j (by omega) hj)
        (by rw [hQx, hQu, h8 t (by omega) ht]) j b
    · exact fun j a b => update_same (p := fun j => j < P.T) (fun j hj => h6 j (by omega) hj) hQx j b
    · exact fun j a b => update_same (p := fun j => j < P.T) (fun j hj => h7 j (by omega) hj) hQu j b
    · exact fun j a b => update_same (p := fun j => j < P.T) (fun j hj => h9 j (by omega) hj) (by rw [h10 t (by omega) ht, hQu]) j b

theorem forDown_rel {S : Type _} (R : S → S → Prop) (n : ℕ) (f f' : ℕ → S → S) (hf : ∀ t, t < n → ∀ a b, R a b → R (f t a) (f' t b))
    {a b : S} (h : R a b) : R (forDown n f a) (forDown n f' b) := by
  induction n generalizing a b with
  | zero => exact h
  | succ n ih => exact ih (fun t ht => hf t (by omega)) (hf n (by omega) _ _ h)

theorem fastPass_alike (hE : EnvSame E E') (hv : VIn v v') {B B' : CBP P} (h : CBA 0 B B') :
    CBA 0 (fastPass E v B) (fastPass E' v' B') := by
  unfold fastPass
  refine forDown_rel (CBA 0) P.T _ _ (fun t ht a b hab => fastStage_alike hE hv ht hab) ?_
  obtain ⟨⟨h1, h2, h3, h4, h5, h6, h7, h8, h9, h10⟩, h11⟩ := h
  exact ⟨⟨h1, fun j a b => update_same (p := fun j => j ≤ P.T) (fun j hj => h2 j (by omega) hj) (terVx_same hE hv) j b,
    h3, h4, h5, h6, h7, h8, h9, h10⟩, h11⟩

/-- the forward loop. -/
theorem fwdLoop_alike (hE : EnvSame E E') {b b' : BP P} (hb : BA 0 b b') {x x' : (ℕ → Vec F P.ndx) × ((t : ℕ) → Vec F (P.nu t))}
    (h0 : x.1 0 = x'.1 0) :
    (∀ t, t ≤ P.T → (fwdLoop E b x).1 t = (fwdLoop E' b' x').1 t) ∧ ∀ t, t < P.T → (fwdLoop E b x).2 t = (fwdLoop E' b' x').2 t := by
  have key := forUp_rel (fun n (x x' : (ℕ → Vec F P.ndx) × ((t : ℕ) → Vec F (P.nu t))) =>
      (∀ t, t < n + 1 → x.1 t = x'.1 t) ∧ ∀ t, t < n → x.2 t = x'.2 t) P.T (fwdStage E b) (fwdStage E' b') (a := x) (b := x')
    (fun t ht a c hac => by
      obtain ⟨k1, k2⟩ := hac
      have hdu : -(b.k t) - mv (b.K t) (a.1 t) = -(b'.k t) - mv (b'.K t) (c.1 t) := by
        rw [hb.k t (by omega) ht, hb.K t (by omega) ht, k1 t (by omega)]
      unfold fwdStage
      simp only []
      refine ⟨SQP.update_upTo k1 ?_, SQP.update_upTo k2 hdu⟩
      rw [hdu, hE.fs (t + 1) ht, hE.d.rd t ht, k1 t (by omega)])
    ⟨fun t ht => by obtain rfl : t = 0 := by omega
                    exact h0, fun t ht => by omega⟩
  exact ⟨fun t ht => key.1 t (by omega), key.2⟩

theorem forward_alike (hE : EnvSame E E') {q q' : CQP P} (hb : BA 0 q.b.bp q'.b.bp) (hv : VIn q.v q'.v) :
    VOut (q.forward E).v (q'.forward E').v := by
  obtain ⟨k1, k2⟩ := fwdLoop_alike hE hb (x := (q.v.dxt, q.v.dut)) (x' := (q'.v.dxt, q'.v.dut)) hv.dxt0
  exact ⟨⟨hv.dx, hv.du, hv.z, hv.y, hv.rho, hv.inv, k1 0 (by omega)⟩, k1, k2⟩

/-- one node of the multiplier update. -/
theorem lagStage_alike (hE : EnvSame E E') (i : ℕ) {t : ℕ} (ht : t < P.T) {s s' : CVars P × CNorms F} (h : VOut s.1 s'.1 ∧ s.2 = s'.2) :
    VOut (lagStage E i t s).1 (lagStage E' i t s').1 ∧ (lagStage E i t s).2 = (lagStage E' i t s').2 := by
  obtain ⟨v, n⟩ := s
  obtain ⟨v', n'⟩ := s'
  obtain ⟨⟨⟨h1, h2, h3, h4, h5, h6, h7⟩, h8, h9⟩, hn⟩ := h
  simp only [] at h1 h2 h3 h4 h5 h6 h7 h8 h9 hn
  subst hn
  unfold lagStage
  by_cases hg : P.ng t = 0
  · simp only [hg, if_true]
    refine ⟨⟨⟨?_, ?_, h3, h4, h5, h6, h7⟩, h8, h9⟩, trivial⟩
    · exact update_same (p := fun j => j ≤ P.T) h1 (h8 t ht.le)
    · exact update_same (p := fun j => j < P.T) h2 (h9 t ht)
  · simp only [hg, if_false]
    rw [← hE.c, ← hE.d.rd t ht, ← hE.d.run t ht, ← h8 t ht.le, ← h9 t ht, ← h3 t ht.le, ← h4 t ht.le, ← h5 t ht.le, ← h6 t ht.le]
    refine ⟨⟨⟨?_, ?_, ?_, ?_, h5, h6, h7⟩, h8, h9⟩, rfl⟩
    · exact update_same (p := fun j => j ≤ P.T) h1 rfl
    · exact update_same (p := fun j => j < P.T) h2 rfl
    · exact update_same (p := fun j => j ≤ P.T) h3 rfl
    · exact update_same (p := fun j => j ≤ P.T) h4 rfl

theorem lagTerm_alike (hE : EnvSame E E') (i : ℕ) {s s' : CVars P × CNorms F} (h : VOut s.1 s'.1 ∧ s.2 = s'.2) :
    VOut (lagTerm E i s).1 (lagTerm E' i s').1 ∧ (lagTerm E i s).2 = (lagTerm E' i s').2 := by
  obtain ⟨v, n⟩ := s
  obtain ⟨v', n'⟩ := s'
  obtain ⟨⟨⟨h1, h2, h3, h4, h5, h6, h7⟩, h8, h9⟩, hn⟩ := h
  simp only [] at h1 h2 h3 h4 h5 h6 h7 h8 h9 hn
  subst hn
  unfold lagTerm
  have le := le_refl P.T
  by_cases hg : P.ng P.T = 0
  · simp only [hg, ne_eq, not_true_eq_false, if_false]
    exact ⟨⟨⟨update_same (p := fun j => j ≤ P.T) h1 (h8 _ le), h2, h3, h4, h5, h6, h7⟩, h8, h9⟩, trivial⟩
  · simp only [hg, ne_eq, not_false_eq_true, if_true]
    rw [← hE.c, ← hE.d.td, ← hE.d.ter, ← h8 _ le, ← h3 _ le, ← h4 _ le, ← h5 _ le, ← h6 _ le]
    exact ⟨⟨⟨update_same (p := fun j => j ≤ P.T) h1 rfl, h2, update_same (p := fun j => j ≤ P.T) h3 rfl,
      update_same (p := fun j => j ≤ P.T) h4 rfl, h5, h6, h7⟩, h8, h9⟩, rfl⟩

theorem updateLag_alike (hE : EnvSame E E') {q q' : CQP P} (hi : q.qpIters = q'.qpIters) (hv : VOut q.v q'.v) :
    VOut (q.updateLag E).v (q'.updateLag E').v ∧ (q.updateLag E).n = (q'.updateLag E').n := by
  unfold CQP.updateLag
  simp only []
  rw [← hi]
  refine lagTerm_alike hE _ ?_
  exact forUp_rel (fun _ (s s' : CVars P × CNorms F) => VOut s.1 s'.1 ∧ s.2 = s'.2) P.T _ _
    (fun t ht a b hab => lagStage_alike hE _ ht hab) ⟨hv, rfl⟩

/-- a row whose bounds are crossed: `apply_rho_update` leaves its penalty alone. -/
def Crossed (lb ub : Option F) : Prop :=
  ∃ l u, lb = some l ∧ ub = some u ∧ leb (absf (l - u)) (lit (1 / 10 ^ 6)) = false ∧ ltb l u = false

/-- the penalties of rows with crossed bounds agree. -/
def HistRho (v v' : CVars P) : Prop :=
  ∀ t, t ≤ P.T → ∀ i, Crossed (P.lb t i) (P.ub t i) → v.rho t i = v'.rho t i ∧ v.inv t i = v'.inv t i

theorem rhoRow_same (rm r : F) (lb ub : Option F) {o o' : F × F} (h : Crossed lb ub → o = o') : rhoRow rm r lb ub o = rhoRow rm r lb ub o' := by
  unfold rhoRow
  cases lb with
  | none => cases ub <;> rfl
  | some l =>
    cases ub with
    | none => rfl
    | some u =>
      simp only []
      split
      · rfl
      · split
        · rfl
        · rename_i h1 h2
          exact h ⟨l, u, rfl, rfl, by simpa using h1, by simpa using h2⟩

theorem applyRho_same (c : CConf F) (r : F) (h : HistRho v v') (t : ℕ) (ht : t ≤ P.T) :
    (applyRho c r v).rho t = (applyRho c r v').rho t ∧ (applyRho c r v).inv t = (applyRho c r v').inv t := by
  unfold applyRho
  simp only [if_pos ht]
  constructor
  · funext i
    rw [rhoRow_same c.rhoMin r (P.lb t i) (P.ub t i) (o' := (v'.rho t i, v'.inv t i)) fun k => by
      obtain ⟨a, b⟩ := h t ht i k; rw [a, b]]
  · funext i
    rw [rhoRow_same c.rhoMin r (P.lb t i) (P.ub t i) (o' := (v'.rho t i, v'.inv t i)) fun k => by
      obtain ⟨a, b⟩ := h t ht i k; rw [a, b]]

theorem VIn.hist (h : VIn v v') : HistRho v v' := fun t ht i _ => ⟨congrFun (h.rho t ht) i, congrFun (h.inv t ht) i⟩

theorem VOut.applyRho (c : CConf F) (r : F) (h : VOut v v') : VOut (applyRho c r v) (applyRho c r v') :=
  ⟨⟨h.dx, h.du, h.z, h.y, fun t ht => (applyRho_same c r h.toVIn.hist t ht).1, fun t ht => (applyRho_same c r h.toVIn.hist t ht).2, h.dxt0⟩,
    h.dxt, h.dut⟩

/-- the time limit is never reached by a solve that began at `t0`, and was not. -/
def Tm (E : QEnv P) (q : CQP P) : Prop := q.reached = false ∧ ∀ i, leb E.c.maxTime (E.clock i - q.t0) = false

/-- what the QP solver reads at the beginning of an ADMM iteration agrees. -/
structure QIn (E E' : QEnv P) (q q' : CQP P) : Prop where
  v : VIn q.v q'.v
  rs : q.rhoSparse = q'.rhoSparse
  tm : Tm E q
  tm' : Tm E' q'

/-- at the head of the QP loop. -/
structure QAt (E E' : QEnv P) (q q' : CQP P) : Prop extends QIn E E' q q' where
  it : q.qpIters = q'.qpIters
  ex : q.exec = q'.exec
  b : isFull E.c.interval q.qpIters = true ∨ CBA 0 q.b q'.b

/-- after an ADMM iteration. -/
structure QOut (E E' : QEnv P) (q q' : CQP P) : Prop extends QIn E E' q q' where
  out : VOut q.v q'.v
  b : CBA 0 q.b q'.b
  n : q.n = q'.n
  it : q.qpIters = q'.qpIters
  ex : q.exec = q'.exec

variable [SqrtOps F]

theorem step_alike (hE : EnvSame E E') {q q' : CQP P} (h : QAt E E' q q') :
    Res.Rel (QOut E E') (QIn E E') (q.step llt E) (q'.step llt E') := by
  have hpass : Res.Rel (fun a a' => QIn E E' a a' ∧ CBA 0 a.b a'.b ∧ a.qpIters = a'.qpIters ∧ a.exec = a'.exec) (QIn E E')
      (q.pass llt E) (q'.pass llt E') := by
    unfold CQP.pass
    rw [hE.sched, hE.sched', ← hE.c, ← h.it]
    simp only []
    by_cases hf : isFull E.c.interval q.qpIters = true
    · rw [if_pos hf, if_pos hf]
      have key := fullPass_alike (llt := llt) hE h.v q.b q'.b
      generalize fullPass llt E q.v q.b = r at key
      generalize fullPass llt E' q'.v q'.b = r' at key
      cases key with
      | exn _ => exact .exn ⟨h.v, h.rs, h.tm, h.tm'⟩
      | ok k => exact .ok ⟨⟨h.v, h.rs, h.tm, h.tm'⟩, k, rfl, h.ex⟩
    · rw [if_neg hf, if_neg hf]
      have hb := h.b.resolve_left hf
      exact .ok ⟨⟨h.v, h.rs, h.tm, h.tm'⟩, fastPass_alike hE h.v hb, rfl, h.ex⟩
  unfold CQP.step
  generalize q.pass llt E = r at hpass
  generalize q'.pass llt E' = r' at hpass
  cases hpass with
  | exn k => exact .exn k
  | @ok a a' k =>
    obtain ⟨k1, k2, k3, k4⟩ := k
    simp only [Res.thenDo_ok]
    have f1 := forward_alike hE k2.bp k1.v
    have f2 := updateLag_alike hE (q := a.forward E) (q' := a'.forward E') k3 f1
    have hr : ((a.forward E).updateLag E).rhoSparse = ((a'.forward E').updateLag E').rhoSparse := k1.rs
    have hi : ((a.forward E).updateLag E).qpIters = ((a'.forward E').updateLag E').qpIters := k3
    have hb : CBA 0 ((a.forward E).updateLag E).b ((a'.forward E').updateLag E').b := k2
    have ht : Tm E ((a.forward E).updateLag E) := k1.tm
    have ht' : Tm E' ((a'.forward E').updateLag E') := k1.tm'
    obtain ⟨f2, f3⟩ := f2
    refine .ok ?_
    rw [k4]
    generalize (a.forward E).updateLag E = p at *
    generalize (a'.forward E').updateLag E' = p' at *
    unfold CQP.updateRho
    rw [← hE.c, ← f3, ← hr, ← hi]
    simp only []
    split
    · split
      · have f4 := f2.applyRho E.c (rhoEstimate E.c p.n p.rhoSparse)
        exact ⟨⟨f4.toVIn, rfl, ht, ht'⟩, f4, hb, rfl, rfl, rfl⟩
      · exact ⟨⟨f2.toVIn, rfl, ht, ht'⟩, f2, hb, rfl, rfl, rfl⟩
    · first
        | exact ⟨⟨f2.toVIn, rfl, ht, ht'⟩, f2, hb, rfl, rfl, rfl⟩
        | exact ⟨⟨f2.toVIn, hr, ht, ht'⟩, f2, hb, f3, hi, rfl⟩

theorem Tm.up {E : QEnv P} {q : CQP P} (h : Tm E q) : q.timeUp E = false := h.2 _

/-- the QP loop; `n = 0` only after an iteration. -/
theorem loop_alike (hE : EnvSame E E') (n : ℕ) {q q' : CQP P} (h : QAt E E' q q') (hn : n ≠ 0 ∨ QOut E E' q q') :
    Res.Rel (QOut E E') (QIn E E') (CQP.loop llt E n q) (CQP.loop llt E' n q') := by
  induction n generalizing q q' with
  | zero =>
    obtain ⟨⟨h1, h2, h3, h4⟩, h5, h6, h7, h8, h9⟩ := hn.resolve_left (by simp)
    exact .ok ⟨⟨h1, h2, h3, h4⟩, h5, h6, h7, h8, h9⟩
  | succ n ih =>
    unfold CQP.loop
    simp only [h.tm.up, h.tm'.up, Bool.false_eq_true, if_false]
    have hs : QAt E E' { q with tick := q.tick + 1 } { q' with tick := q'.tick + 1 } :=
      ⟨⟨h.v, h.rs, h.tm, h.tm'⟩, h.it, h.ex, h.b⟩
    have key := step_alike (llt := llt) hE hs
    refine key.bind fun a a' k => ?_
    rw [← hE.c, ← k.it]
    have hnext : ∀ b b' : CQP P, QOut E E' b b' → Res.Rel (QOut E E') (QIn E E')
        (CQP.loop llt E n { b with qpIters := b.qpIters + 1 }) (CQP.loop llt E' n { b' with qpIters := b'.qpIters + 1 }) := by
      intro b b' k
      refine ih ⟨⟨k.v, k.rs, k.tm, k.tm'⟩, by simp [k.it], k.ex, .inr k.b⟩ (.inr ⟨⟨k.v, k.rs, k.tm, k.tm'⟩, k.out, k.b, k.n, by simp [k.it], k.ex⟩)
    split
    · have k2 : QOut E E' (a.setTol E.c) (a'.setTol E.c) ∧ (a.setTol E.c).tolP = (a'.setTol E.c).tolP ∧ (a.setTol E.c).tolD = (a'.setTol E.c).tolD ∧
          (a.setTol E.c).qpIters = a.qpIters := by
        unfold CQP.setTol
        split
        · exact ⟨⟨⟨k.v, k.rs, k.tm, k.tm'⟩, k.out, k.b, k.n, k.it, k.ex⟩, rfl, rfl, rfl⟩
        · exact ⟨⟨⟨k.v, k.rs, k.tm, k.tm'⟩, k.out, k.b, k.n, k.it, k.ex⟩, by simp [k.n], by simp [k.n], rfl⟩
      obtain ⟨k2, k3, k4, k5⟩ := k2
      have hc : (a.setTol E.c).converged = (a'.setTol E.c).converged := by
        unfold CQP.converged; rw [k3, k4, k2.n]
      rw [← hc]
      split
      · exact .ok ⟨⟨k2.v, k2.rs, k2.tm, k2.tm'⟩, k2.out, k2.b, k2.n, k2.it, k2.ex⟩
      · exact hnext _ _ k2
    · have := hnext _ _ k
      rw [← k.it] at this
      exact this

/-- what `computeDirection` may find left over from earlier calls: it must agree where it is not overwritten. -/
structure QPre (c : CConf F) (v v' : CVars P) (r r' : F) : Prop where
  dx0 : v.dx 0 = v'.dx 0
  dxt0 : v.dxt 0 = v'.dxt 0
  y : c.resetY = true ∨ ∀ t, t ≤ P.T → v.y t = v'.y t
  step : c.eqGuess = true ∨ ((∀ t, t ≤ P.T → v.dx t = v'.dx t) ∧ ∀ t, t < P.T → v.du t = v'.du t)
  cross : HistRho v v'
  rho : c.resetRho = true ∨ (r = r' ∧ ∀ t, t ≤ P.T → v.rho t = v'.rho t ∧ v.inv t = v'.inv t)

theorem VIn.pre (h : VIn v v') {r r' : F} (hr : r = r') (c : CConf F) : QPre c v v' r r' :=
  ⟨h.dx 0 (by omega), h.dxt0, .inr h.y, .inr ⟨h.dx, h.du⟩, h.hist, .inr ⟨hr, fun t ht => ⟨h.rho t ht, h.inv t ht⟩⟩⟩

/-- after `resetParams`, only the step may still be a leftover. -/
structure QRe (c : CConf F) (q q' : CQP P) : Prop where
  dx0 : q.v.dx 0 = q'.v.dx 0
  dxt0 : q.v.dxt 0 = q'.v.dxt 0
  z : ∀ t, t ≤ P.T → q.v.z t = q'.v.z t
  y : ∀ t, t ≤ P.T → q.v.y t = q'.v.y t
  rho : ∀ t, t ≤ P.T → q.v.rho t = q'.v.rho t
  inv : ∀ t, t ≤ P.T → q.v.inv t = q'.v.inv t
  step : c.eqGuess = true ∨ ((∀ t, t ≤ P.T → q.v.dx t = q'.v.dx t) ∧ ∀ t, t < P.T → q.v.du t = q'.v.du t)
  rs : q.rhoSparse = q'.rhoSparse

theorem resetParams_alike (c : CConf F) {q q' : CQP P} (h : QPre c q.v q'.v q.rhoSparse q'.rhoSparse) :
    QRe c (q.resetParams c) (q'.resetParams c) := by
  unfold CQP.resetParams
  have hy : ∀ t, t ≤ P.T → (if c.resetY ∧ t ≤ P.T then zeroV F (P.ng t) else q.v.y t) = (if c.resetY ∧ t ≤ P.T then zeroV F (P.ng t) else q'.v.y t) := by
    intro t ht
    split
    · rfl
    · rename_i hc
      rcases h.y with e | e
      · exact absurd ⟨e, ht⟩ hc
      · exact e t ht
  by_cases hr : c.resetRho = true
  · simp only [hr, if_true]
    unfold CQP.resetRho
    refine ⟨h.dx0, h.dxt0, fun t ht => ?_, hy, fun t ht => (applyRho_same c _ h.cross t ht).1,
      fun t ht => (applyRho_same c _ h.cross t ht).2, h.step, rfl⟩
    simp only [if_pos ht]
  · simp only [hr, if_false]
    obtain ⟨e, k⟩ := h.rho.resolve_left hr
    refine ⟨h.dx0, h.dxt0, fun t ht => ?_, hy, fun t ht => (k t ht).1, fun t ht => (k t ht).2, h.step, e⟩
    simp only [if_pos ht]

/-- what is left of the agreement after an exception in the middle of `computeDirection`: enough to call it again. -/
structure QAgain (E E' : QEnv P) (q q' : CQP P) : Prop where
  pre : QPre E.c q.v q'.v q.rhoSparse q'.rhoSparse
  tm : Tm E q
  tm' : Tm E' q'

theorem QIn.again {q q' : CQP P} (h : QIn E E' q q') : QAgain E E' q q' := ⟨h.v.pre h.rs _, h.tm, h.tm'⟩

/-- **`computeDirection` depends on leftovers only as far as it does not overwrite them.** -/
theorem computeDirection_alike (hE : EnvSame E E') (hm : E.c.maxQP ≠ 0) {q q' : CQP P} (h : QAgain E E' q q') :
    Res.Rel (QOut E E') (QAgain E E') (q.computeDirection llt E) (q'.computeDirection llt E') := by
  have h0 := resetParams_alike E.c h.pre
  have tm : ∀ (c : CConf F), Tm E (q.resetParams c) := by
    intro c; unfold CQP.resetParams CQP.resetRho; split <;> exact h.tm
  have tm' : ∀ (c : CConf F), Tm E' (q'.resetParams c) := by
    intro c; unfold CQP.resetParams CQP.resetRho; split <;> exact h.tm'
  unfold CQP.computeDirection
  rw [← hE.c]
  replace tm := tm E.c
  replace tm' := tm' E.c
  generalize q.resetParams E.c = p at *
  generalize q'.resetParams E.c = p' at *
  have hw : Res.Rel (QIn E E') (QAgain E E') (p.warm llt E) (p'.warm llt E') := by
    unfold CQP.warm
    rw [← hE.c]
    split
    · rename_i he
      have key := plainPass_alike (llt := llt) hE p.b p'.b
      generalize plainPass llt E p.b = r at key
      generalize plainPass llt E' p'.b = r' at key
      cases key with
      | exn _ =>
        exact .exn ⟨⟨h0.dx0, h0.dxt0, .inr h0.y, h0.step, fun t ht i _ => ⟨congrFun (h0.rho t ht) i, congrFun (h0.inv t ht) i⟩,
          .inr ⟨h0.rs, fun t ht => ⟨h0.rho t ht, h0.inv t ht⟩⟩⟩, tm, tm'⟩
      | @ok b b' k =>
        simp only [Res.map_ok, Res.thenDo_ok]
        obtain ⟨k1, k2⟩ := fwdLoop_alike hE k (x := (p.v.dx, p.v.du)) (x' := (p'.v.dx, p'.v.du)) h0.dx0
        exact .ok ⟨⟨k1, k2, h0.z, h0.y, h0.rho, h0.inv, h0.dxt0⟩, h0.rs, tm, tm'⟩
    · rename_i he
      obtain ⟨k1, k2⟩ := h0.step.resolve_left he
      exact .ok ⟨⟨k1, k2, h0.z, h0.y, h0.rho, h0.inv, h0.dxt0⟩, h0.rs, tm, tm'⟩
  generalize p.warm llt E = r at hw
  generalize p'.warm llt E' = r' at hw
  cases hw with
  | exn k => exact .exn k
  | @ok a a' k =>
    simp only [Res.bind_ok]
    have key := loop_alike (llt := llt) hE E.c.maxQP (q := { a with qpIters := 1, exec := 0 }) (q' := { a' with qpIters := 1, exec := 0 })
      ⟨⟨k.v, k.rs, k.tm, k.tm'⟩, rfl, rfl, .inl (by
        unfold isFull
        by_cases h1 : E.c.interval = 1
        · simp [h1]
        · have : 1 % E.c.interval = 1 := by
            rcases Nat.eq_zero_or_pos E.c.interval with h2 | h2
            · rw [h2]
            · exact Nat.mod_eq_of_lt (by omega)
          simp [this])⟩ (.inl hm)
    generalize CQP.loop llt E E.c.maxQP _ = r at key ⊢
    generalize CQP.loop llt E' E.c.maxQP _ = r' at key ⊢
    cases key with
    | ok k => exact .ok k
    | exn k => exact .exn k.again
end
end QPH
end Mim
