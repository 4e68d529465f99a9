import Verif.Lemmas.QPPass

/-!
# The cheap backward pass

When the matrices in memory are those of the current penalties, `backwardPass` and `backwardPass_without_rho_update` do the
same, bit for bit.
-/
set_option linter.unusedSectionVars false
set_option linter.unusedSimpArgs false

namespace Mim
namespace QP
variable {F : Type} [Add F] [Sub F] [Mul F] [Div F] [Neg F] [Zero F] [One F] [FloatOps F] {P : Problem F}
variable {llt : LLT F} {E : QEnv P}

/-- the matrices, factorisations and `Vxx_fs_` in memory are those a full pass with the current penalties computes. -/
structure MatOK (llt : LLT F) (E : QEnv P) (v : CVars P) (B : CBP P) : Prop where
  ter : B.bp.Vxx P.T = terVxx E v
  st : ∀ t, t < P.T → MatStage llt E.preg symm (fullTerms E v) B.bp t
  vfs : ∀ t, t < P.T → VfsOK E B t

/-- only the penalties matter. -/
theorem fullTerms_congr {v v' : CVars P} (h : v'.rho = v.rho) (t : ℕ) :
    (fullTerms E v' t).Qxx = (fullTerms E v t).Qxx ∧ (fullTerms E v' t).Quu = (fullTerms E v t).Quu ∧
    (fullTerms E v' t).Qxu = (fullTerms E v t).Qxu := by
  unfold fullTerms locQxx locQxu rhoGuGu
  rw [h]
  exact ⟨rfl, rfl, rfl⟩

theorem MatOK.congr {v v' : CVars P} {B : CBP P} (h : MatOK llt E v B) (hr : v'.rho = v.rho) : MatOK llt E v' B := by
  refine ⟨?_, fun t ht => ?_, h.vfs⟩
  · rw [h.ter]; unfold terVxx; rw [hr]
  · have m := h.st t ht
    obtain ⟨e1, e2, e3⟩ := fullTerms_congr (E := E) hr t
    exact ⟨by rw [e1]; exact m.Qxx, m.zero, by rw [e2]; exact m.Quu, by rw [e3]; exact m.Qxu, m.llt, m.K, m.pos⟩

theorem matOK_full {v : CVars P} {B B' : CBP P} (h : fullPass llt E v B = .ok B') : MatOK llt E v B' := by
  obtain ⟨h1, _, h3, _, h5⟩ := fullPass_ok h
  exact ⟨h1, h3, h5⟩

/-- changing `Qx`, `Qu`, `k`, `Vx` does not affect `MatOK`. -/
theorem MatOK.fastStage {v : CVars P} {B : CBP P} (h : MatOK llt E v B) (t : ℕ) : MatOK llt E v (fastStage E v t B) := by
  refine ⟨?_, fun j hj => ?_, fun j hj => ?_⟩
  · unfold Mim.fastStage
    by_cases h0 : P.nu t = 0 <;> simp only [h0, ne_eq, not_true_eq_false, not_false_eq_true, if_true, if_false] <;> exact h.ter
  · have m := h.st j hj
    unfold Mim.fastStage
    by_cases h0 : P.nu t = 0 <;> simp only [h0, ne_eq, not_true_eq_false, not_false_eq_true, if_true, if_false] <;>
      exact m.congr rfl rfl rfl rfl rfl rfl rfl
  · have m := h.vfs j hj
    unfold VfsOK at m ⊢
    unfold Mim.fastStage
    by_cases h0 : P.nu t = 0 <;> simp only [h0, ne_eq, not_true_eq_false, not_false_eq_true, if_true, if_false] <;> exact m

theorem update_same {β : ℕ → Type} {f : (j : ℕ) → β j} {t : ℕ} {x : β t} (h : f t = x) : Function.update f t x = f := by
  rw [← h]; exact Function.update_eq_self t f

theorem vec_empty {n : ℕ} (h : n = 0) (a b : Vec F n) : a = b := funext fun i => (Fin.cast h i).elim0

/-- one stage: the full stage recomputes what is already there. -/
theorem fullStage_eq_fast {v : CVars P} {B : CBP P} (h : MatOK llt E v B) {t : ℕ} (ht : t < P.T) :
    fullStage llt E v t B = .ok (fastStage E v t B) := by
  have m := h.st t ht
  have hv := h.vfs t ht
  unfold VfsOK at hv
  rw [fullStage_eq]
  rcases Nat.eq_zero_or_pos (P.nu t) with h0 | h0
  · rw [genStage_zero h0, Res.map_ok]
    have e1 := m.Qxx
    have e2 := m.zero h0
    rw [e1] at e2
    unfold fastStage
    simp only [h0, ne_eq, not_true_eq_false, if_false, Function.update_self]
    rw [update_same hv, update_same e1, update_same e2, hv]
    have ek : Function.update B.bp.k t (B.bp.llt t (B.bp.Qu t)) = B.bp.k := update_same (vec_empty h0 _ _)
    rw [ek]
    rfl
  · have hs := m.llt h0
    rw [m.Quu h0] at hs
    rw [(genStage_pos h0 B.bp).1 _ hs, Res.map_ok]
    have hne : P.nu t ≠ 0 := by omega
    have e1 := m.Qxx
    have e2 := m.Quu h0
    have e3 := m.Qxu h0
    have e4 := m.K h0
    have e5 := m.pos h0
    rw [e3] at e4
    unfold posStage fastStage
    simp only [hne, ne_eq, not_false_eq_true, if_true, Function.update_self]
    rw [← e4]
    rw [e1, e3] at e5
    rw [update_same hv, update_same e1, update_same e2, update_same e3, update_same (rfl : B.bp.K t = _),
      update_same (rfl : B.bp.llt t = _), update_same e5, hv]
    rfl

theorem sweep_eq_fast {v : CVars P} (n : ℕ) (hn : n ≤ P.T) {B : CBP P} (h : MatOK llt E v B) :
    forDownR n (fullStage llt E v) B = .ok (forDown n (fastStage E v) B) := by
  induction n generalizing B with
  | zero => rfl
  | succ n ih =>
    rw [forDownR_succ, fullStage_eq_fast h hn, Res.bind_ok, forDown_succ]
    exact ih (by omega) (h.fastStage n)

theorem MatOK.init {v : CVars P} {B : CBP P} (h : MatOK llt E v B) (x : Vec F P.ndx) :
    MatOK llt E v { B with bp := { B.bp with Vx := Function.update B.bp.Vx P.T x } } :=
  ⟨h.ter, fun t ht => (h.st t ht).congr rfl rfl rfl rfl rfl rfl rfl, h.vfs⟩

/-- **the full pass and the cheap pass agree** whenever the matrices in memory belong to the current penalties. -/
theorem fullPass_eq_fast {v : CVars P} {B : CBP P} (h : MatOK llt E v B) : fullPass llt E v B = .ok (fastPass E v B) := by
  unfold fullPass fastPass
  rw [update_same h.ter]
  exact sweep_eq_fast P.T le_rfl (h.init _)

theorem MatOK.fast {v : CVars P} {B : CBP P} (h : MatOK llt E v B) : MatOK llt E v (fastPass E v B) :=
  matOK_full (fullPass_eq_fast h)

end QP

/-! ## along computeDirection -/

section
variable {F : Type} [Add F] [Sub F] [Mul F] [Div F] [Neg F] [Zero F] [One F] [FloatOps F] [SqrtOps F] {P : Problem F}
variable {llt : LLT F} {E : QEnv P}
open QP

theorem lagStage_rho (E : QEnv P) (it t : ℕ) (s : CVars P × CNorms F) : (lagStage E it t s).1.rho = s.1.rho := by
  unfold lagStage
  obtain ⟨v, n⟩ := s
  by_cases h : P.ng t = 0 <;> simp only [h, if_true, if_false]

theorem lagTerm_rho (E : QEnv P) (it : ℕ) (s : CVars P × CNorms F) : (lagTerm E it s).1.rho = s.1.rho := by
  unfold lagTerm
  obtain ⟨v, n⟩ := s
  by_cases h : P.ng P.T = 0 <;> simp only [h, ne_eq, not_true_eq_false, not_false_eq_true, if_true, if_false]

theorem updateLag_rho (E : QEnv P) (q : CQP P) : (q.updateLag E).v.rho = q.v.rho := by
  unfold CQP.updateLag
  simp only []
  rw [lagTerm_rho]
  exact forUp_inv (fun _ (s : CVars P × CNorms F) => s.1.rho = q.v.rho) P.T _ _ rfl fun t _ s h => by
    rw [lagStage_rho]; exact h

theorem forward_rho (E : QEnv P) (q : CQP P) : (q.forward E).v.rho = q.v.rho := rfl

theorem updateRho_rho (E : QEnv P) (q : CQP P) (h : q.qpIters % E.c.interval ≠ 0) : (q.updateRho E).v.rho = q.v.rho := by
  unfold CQP.updateRho
  simp only [if_neg h]

theorem updateRho_b (E : QEnv P) (q : CQP P) : (q.updateRho E).b = q.b ∧ (q.updateRho E).qpIters = q.qpIters := by
  unfold CQP.updateRho
  by_cases h : q.qpIters % E.c.interval = 0 <;> simp only [h, if_true, if_false, and_self]
  split <;> exact ⟨rfl, rfl⟩

theorem isFull_succ {i n : ℕ} (h : n % i = 0) : isFull i (n + 1) = true := by
  unfold isFull
  by_cases hi : i = 1
  · simp [hi]
  · rcases Nat.eq_zero_or_pos i with h0 | h0
    · subst h0
      rw [Nat.mod_zero] at h
      subst h
      rfl
    · have : (n + 1) % i = 1 := by
        rw [Nat.add_mod, h, Nat.zero_add, Nat.mod_mod, Nat.mod_eq_of_lt (by omega)]
      simp [this]

theorem isFull_one (i : ℕ) : isFull i 1 = true := isFull_succ (Nat.zero_mod i)

/-- what holds before each QP iteration of a single-threaded run: the next pass is a full one or the matrices are current. -/
def Current (llt : LLT F) (E : QEnv P) (q : CQP P) : Prop :=
  isFull E.c.interval q.qpIters = true ∨ MatOK llt E q.v q.b

/-- the pass of an iteration equals the full pass. -/
theorem pass_eq_full (hs : E.sched = none) {q : CQP P} (h : Current llt E q) :
    q.pass llt E = (fullPass llt E q.v q.b).map fun b => { q with b := b } := by
  unfold CQP.pass
  rw [hs]
  by_cases hf : isFull E.c.interval q.qpIters = true
  · simp only [hf, if_true]
  · rcases h with h | h
    · exact absurd h hf
    · simp only [hf, if_false, fullPass_eq_fast h]
      rfl

theorem step_current (hs : E.sched = none) {q q' : CQP P} (h : Current llt E q) (he : q.step llt E = .ok q') :
    Current llt E { q' with qpIters := q'.qpIters + 1 } := by
  unfold CQP.step at he
  obtain ⟨q1, h1, h2⟩ := Res.thenDo_eq_ok he
  rw [pass_eq_full hs h] at h1
  obtain ⟨b, h3, h4⟩ := Res.map_eq_ok h1
  subst h2
  have hb := matOK_full h3
  have hit : ((((q1.forward E).updateLag E).updateRho E)).qpIters = q.qpIters := by
    rw [(updateRho_b E _).2, ← h4]; rfl
  by_cases hi : q.qpIters % E.c.interval = 0
  · left
    simp only [hit]
    exact isFull_succ hi
  · right
    have e : ((((q1.forward E).updateLag E).updateRho E)).v.rho = q.v.rho := by
      rw [updateRho_rho, updateLag_rho, forward_rho, ← h4]
      rw [← h4]; exact hi
    simp only [(updateRho_b E _).1]
    have : ((q1.forward E).updateLag E).b = b := by rw [← h4]; rfl
    rw [this]
    exact hb.congr e

end
end Mim
