import Verif.Model.SQP
import Verif.Model.DDPSolve
import Verif.Model.CSQP
import Verif.Model.ProxQP
import Verif.Model.ParallelSolve

/-!
# C09: the number of attempts the model is allowed to follow the retry loops does not change a result
-/
set_option linter.unusedSectionVars false
set_option linter.unusedSimpArgs false
set_option autoImplicit false

namespace Mim

section
variable {F : Type} [Add F] [Sub F] [Mul F] [Div F] [Neg F] [Zero F] [One F] [FloatOps F] {P : Problem F}

namespace SQP

theorem retry_mono (llt : LLT F) : ∀ (n n' : ℕ), n ≤ n' → ∀ (b : Bool) (s : SQP P) r, retry llt n b s = some r → retry llt n' b s = some r
  | 0, _, _, _, _, _, h => by cases h
  | n + 1, 0, hn, _, _, _, _ => absurd hn (by omega)
  | n + 1, n' + 1, hn, b, s, r, h => by
    unfold retry at h ⊢
    cases hd : computeDirection llt b s with
    | ok q => rw [hd] at h; exact h
    | exn q =>
      rw [hd] at h
      simp only [] at h ⊢
      split at h
      · rename_i e; rw [if_pos e]; exact h
      · rename_i e; rw [if_neg e]; exact retry_mono llt n n' (by omega) _ _ _ h

theorem body_mono (llt : LLT F) {n n' : ℕ} (hn : n ≤ n') {s : SQP P} {r} (h : body llt n s = some r) : body llt n' s = some r := by
  unfold body at h ⊢
  cases hr : retry llt n true s with
  | none => rw [hr] at h; cases h
  | some x => rw [hr] at h; rw [retry_mono llt n n' hn _ _ _ hr]; exact h

theorem iterate_mono (llt : LLT F) {n n' : ℕ} (hn : n ≤ n') : ∀ (m : ℕ) (s : SQP P) r, iterate llt n m s = some r → iterate llt n' m s = some r
  | 0, _, _, h => h
  | m + 1, s, r, h => by
    unfold iterate at h ⊢
    cases hr : body llt n s with
    | none => rw [hr] at h; cases h
    | some x =>
      rw [hr] at h; rw [body_mono llt hn hr]
      obtain ⟨o, q⟩ := x
      cases o with
      | none => exact iterate_mono llt hn m _ _ h
      | some b => exact h

theorem extraIter_mono (llt : LLT F) {n n' : ℕ} (hn : n ≤ n') {s : SQP P} {r} (h : extraIter llt n s = some r) : extraIter llt n' s = some r := by
  unfold extraIter at h ⊢
  split at h
  · rename_i e
    rw [if_pos e]
    cases hr : retry llt n true s with
    | none => rw [hr] at h; cases h
    | some x => rw [hr] at h; rw [retry_mono llt n n' hn _ _ _ hr]; exact h
  · rename_i e; rw [if_neg e]; exact h

end SQP

/-- **C09.**  SolverSQP: how `solve` ends does not depend on how long the model is allowed to follow its retry loops: if a run ends within
`fuel` attempts per loop, it ends in the same way for every larger number. -/
theorem C09_sqp_fuel (llt : LLT F) {fuel fuel' : ℕ} (hf : fuel ≤ fuel') (xs : Option (Traj P)) (us : Option (Ctrls P)) (m : ℕ) (ri : F) (s : SQP P) {r}
    (h : SQP.solve llt fuel xs us m ri s = some r) : SQP.solve llt fuel' xs us m ri s = some r := by
  unfold SQP.solve at h ⊢
  cases hr : SQP.iterate llt fuel m (s.start xs us ri) with
  | none => rw [hr] at h; cases h
  | some x =>
    rw [hr] at h; rw [SQP.iterate_mono llt hf m _ _ hr]
    obtain ⟨o, q⟩ := x
    cases o with
    | none => exact SQP.extraIter_mono llt hf h
    | some b => exact h


namespace DDP

theorem retry_mono (k : Kind P) (llt : LLT F) : ∀ (n n' : ℕ), n ≤ n' → ∀ (s : DDP P) r, retry k llt n s = some r → retry k llt n' s = some r
  | 0, _, _, _, _, h => by cases h
  | n + 1, 0, hn, _, _, _ => absurd hn (by omega)
  | n + 1, n' + 1, hn, s, r, h => by
    unfold retry at h ⊢
    cases hd : k.dir llt s.recalc s with
    | ok q => rw [hd] at h; exact h
    | exn q =>
      rw [hd] at h
      simp only [] at h ⊢
      split at h
      · rename_i e; rw [if_pos e]; exact h
      · rename_i e; rw [if_neg e]; exact retry_mono k llt n n' (by omega) _ _ h

theorem iterate_mono (k : Kind P) (llt : LLT F) {n n' : ℕ} (hn : n ≤ n') :
    ∀ (m : ℕ) (s : DDP P) r, iterate k llt n m s = some r → iterate k llt n' m s = some r
  | 0, _, _, h => h
  | m + 1, s, r, h => by
    have hb : ∀ x, body k llt n s = some x → body k llt n' s = some x := by
      intro x hx
      unfold body at hx ⊢
      cases hr : retry k llt n s with
      | none => rw [hr] at hx; cases hx
      | some y => rw [hr] at hx; rw [retry_mono k llt n n' hn _ _ hr]; exact hx
    unfold iterate at h ⊢
    cases hr : body k llt n s with
    | none => rw [hr] at h; cases h
    | some x =>
      rw [hr] at h; rw [hb _ hr]
      obtain ⟨o, q⟩ := x
      cases o with
      | none => exact iterate_mono k llt hn m _ _ h
      | some b => exact h

end DDP

/-- **C09.**  SolverDDP and SolverFDDP: the same. -/
theorem C09_ddp_fuel (k : DDP.Kind P) (llt : LLT F) {fuel fuel' : ℕ} (hf : fuel ≤ fuel') (xs : Option (Traj P)) (us : Option (Ctrls P)) (m : ℕ)
    (feas : Bool) (ri : F) (s : DDP P) {r} (h : DDP.solve k llt fuel xs us m feas ri s = some r) : DDP.solve k llt fuel' xs us m feas ri s = some r := by
  unfold DDP.solve at h ⊢
  cases hr : DDP.iterate k llt fuel m (s.start xs us feas ri) with
  | none => rw [hr] at h; cases h
  | some x => rw [hr] at h; rw [DDP.iterate_mono k llt hf m _ _ hr]; exact h

end

section
variable {F : Type} [Add F] [Sub F] [Mul F] [Div F] [Neg F] [Zero F] [One F] [FloatOps F] {P : Problem F}

namespace PROX

theorem retry_mono (qp : PSolve F) : ∀ (n n' : ℕ), n ≤ n' → ∀ (b : Bool) (s : PROX P) r, retry qp n b s = some r → retry qp n' b s = some r
  | 0, _, _, _, _, _, h => by cases h
  | n + 1, 0, hn, _, _, _, _ => absurd hn (by omega)
  | n + 1, n' + 1, hn, b, s, r, h => by
    unfold retry at h ⊢
    cases hd : computeDirection qp b s with
    | ok q => rw [hd] at h; exact h
    | exn q =>
      rw [hd] at h
      simp only [] at h ⊢
      split at h
      · rename_i e; rw [if_pos e]; exact h
      · rename_i e; rw [if_neg e]; exact retry_mono qp n n' (by omega) _ _ _ h

theorem iterate_mono (qp : PSolve F) {n n' : ℕ} (hn : n ≤ n') :
    ∀ (m : ℕ) (s : PROX P) r, iterate qp n m s = some r → iterate qp n' m s = some r
  | 0, _, _, h => h
  | m + 1, s, r, h => by
    have hb : ∀ x, body qp n s = some x → body qp n' s = some x := by
      intro x hx
      unfold body at hx ⊢
      cases hr : retry qp n true { s with wasFeas := false } with
      | none => rw [hr] at hx; cases hx
      | some y => rw [hr] at hx; rw [retry_mono qp n n' hn _ _ _ hr]; exact hx
    unfold iterate at h ⊢
    cases hr : body qp n s with
    | none => rw [hr] at h; cases h
    | some x =>
      rw [hr] at h; rw [hb _ hr]
      obtain ⟨o, q⟩ := x
      cases o with
      | none => exact iterate_mono qp hn m _ _ h
      | some b => exact h

/-- **C09.**  SolverPROXQP: the same. -/
theorem C09_prox_fuel (qp : PSolve F) {fuel fuel' : ℕ} (hf : fuel ≤ fuel') (xs : Option (Traj P)) (us : Option (Ctrls P)) (m : ℕ)
    (ri : F) (s : PROX P) {r} (h : solve qp fuel xs us m ri s = some r) : solve qp fuel' xs us m ri s = some r := by
  unfold solve at h ⊢
  cases hr : iterate qp fuel m (s.start xs us ri) with
  | none => rw [hr] at h; cases h
  | some x => rw [hr] at h; rw [iterate_mono qp hf m _ _ hr]; exact h

end PROX
end

section
variable {F : Type} [Add F] [Sub F] [Mul F] [Div F] [Neg F] [Zero F] [One F] [FloatOps F] [SqrtOps F] {P : Problem F}

namespace CSQP

theorem retry_mono (W : World F) (c : Bool) : ∀ (n n' : ℕ), n ≤ n' → ∀ (s : CSQP P) r, retry W c n s = some r → retry W c n' s = some r
  | 0, _, _, _, _, h => by cases h
  | n + 1, 0, hn, _, _, _ => absurd hn (by omega)
  | n + 1, n' + 1, hn, s, r, h => by
    unfold retry at h ⊢
    split at h
    · rename_i e; rw [if_pos e]; exact h
    · rename_i e
      rw [if_neg e]
      cases hd : dir W s with
      | ok q => rw [hd] at h; exact h
      | exn q =>
        rw [hd] at h
        simp only [] at h ⊢
        split at h
        · rename_i e; rw [if_pos e]; exact h
        · rename_i e; rw [if_neg e]; exact retry_mono W c n n' (by omega) _ _ h

theorem direction_mono (W : World F) (c : Bool) {n n' : ℕ} (hn : n ≤ n') {s : CSQP P} {r} (h : direction W n c s = some r) :
    direction W n' c s = some r := by
  unfold direction at h ⊢
  split at h
  · rename_i e; rw [if_pos e]; exact h
  · rename_i e
    rw [if_neg e]
    cases hr : retry W c n s with
    | none => rw [hr] at h; cases h
    | some x => rw [hr] at h; rw [retry_mono W c n n' hn _ _ hr]; exact h

theorem body_mono (W : World F) {n n' : ℕ} (hn : n ≤ n') {s : CSQP P} {r} (h : body W n s = some r) : body W n' s = some r := by
  unfold body at h ⊢
  simp only [] at h ⊢
  split at h
  · rename_i e; rw [if_pos e]; exact h
  · rename_i e
    rw [if_neg e]
    cases hr : direction W n true (prepare { s with q := { s.q with tick := s.q.tick + 1 } }) with
    | none => rw [hr] at h; cases h
    | some x => rw [hr] at h; rw [direction_mono W true hn hr]; exact h

theorem iterate_mono (W : World F) {n n' : ℕ} (hn : n ≤ n') :
    ∀ (m : ℕ) (s : CSQP P) r, iterate W n m s = some r → iterate W n' m s = some r
  | 0, _, _, h => h
  | m + 1, s, r, h => by
    unfold iterate at h ⊢
    cases hr : body W n s with
    | none => rw [hr] at h; cases h
    | some x =>
      rw [hr] at h; rw [body_mono W hn hr]
      obtain ⟨o, q⟩ := x
      cases o with
      | next => exact iterate_mono W hn m _ _ h
      | brk => exact h
      | fin o => exact h

theorem extraIter_mono (W : World F) {n n' : ℕ} (hn : n ≤ n') {s : CSQP P} {r} (h : extraIter W n s = some r) : extraIter W n' s = some r := by
  unfold extraIter at h ⊢
  split at h
  · rename_i e
    rw [if_pos e]
    cases hr : direction W n false s.calcEval with
    | none => rw [hr] at h; cases h
    | some x => rw [hr] at h; rw [direction_mono W false hn hr]; exact h
  · rename_i e; rw [if_neg e]; exact h

/-! the multi-threaded solver -/
variable {n : ℕ}

theorem retryMt_mono (M : MtWorld n F) (c : Bool) : ∀ (k k' : ℕ), k ≤ k' → ∀ (s : CSQP P), retryMt M c k s ≠ .running →
    retryMt M c k' s = retryMt M c k s
  | 0, _, _, _, h => absurd rfl h
  | k + 1, 0, hk, _, _ => absurd hk (by omega)
  | k + 1, k' + 1, hk, s, h => by
    unfold retryMt at h ⊢
    split at h
    · rename_i e; rw [if_pos e, if_pos e]
    · rename_i e
      rw [if_neg e, if_neg e]
      cases hd : dirMt M s with
      | none => rfl
      | some x =>
        cases x with
        | ok q => rfl
        | exn q =>
          rw [hd] at h
          simp only [] at h ⊢
          split at h
          · rename_i e; rw [if_pos e, if_pos e]
          · rename_i e; rw [if_neg e, if_neg e]; exact retryMt_mono M c k k' (by omega) _ h

theorem directionMt_mono (M : MtWorld n F) (c : Bool) {k k' : ℕ} (hk : k ≤ k') {s : CSQP P} (h : directionMt M k c s ≠ .running) :
    directionMt M k' c s = directionMt M k c s := by
  unfold directionMt at h ⊢
  split at h
  · rename_i e; rw [if_pos e, if_pos e]
  · rename_i e
    rw [if_neg e, if_neg e]
    rw [retryMt_mono M c k k' hk]
    intro e
    rw [e] at h
    exact h rfl

theorem bodyMt_mono (M : MtWorld n F) {k k' : ℕ} (hk : k ≤ k') {s : CSQP P} (h : bodyMt M k s ≠ .running) : bodyMt M k' s = bodyMt M k s := by
  unfold bodyMt at h ⊢
  simp only [] at h ⊢
  split at h
  · rename_i e; rw [if_pos e, if_pos e]
  · rename_i e
    rw [if_neg e, if_neg e]
    rw [directionMt_mono M true hk]
    intro e
    rw [e] at h
    exact h rfl

theorem iterateMt_mono (M : MtWorld n F) {k k' : ℕ} (hk : k ≤ k') :
    ∀ (m : ℕ) (s : CSQP P), iterateMt M k m s ≠ .running → iterateMt M k' m s = iterateMt M k m s
  | 0, _, _ => rfl
  | m + 1, s, h => by
    unfold iterateMt at h ⊢
    rw [bodyMt_mono M hk (fun e => h (by rw [e]))]
    cases hr : bodyMt M k s with
    | running => rfl
    | dead => rfl
    | val x =>
      rw [hr] at h
      obtain ⟨o, q⟩ := x
      cases o with
      | next => exact iterateMt_mono M hk m _ h
      | brk => rfl
      | fin o => rfl

end CSQP

/-- **C09.**  SolverCSQP: the same. -/
theorem C09_csqp_fuel (W : World F) {fuel fuel' : ℕ} (hf : fuel ≤ fuel') (xs : Option (Traj P)) (us : Option (Ctrls P)) (m : ℕ) (ri : F)
    (s : CSQP P) {r} (h : CSQP.solve W fuel xs us m ri s = some r) : CSQP.solve W fuel' xs us m ri s = some r := by
  unfold CSQP.solve at h ⊢
  cases hr : CSQP.iterate W fuel m (s.start W xs us m ri) with
  | none => rw [hr] at h; cases h
  | some x =>
    rw [hr] at h; rw [CSQP.iterate_mono W hf m _ _ hr]
    obtain ⟨o, q⟩ := x
    cases o with
    | none => exact CSQP.extraIter_mono W hf h
    | some b => exact h

/-- **C09.**  … and multi-threaded: if the run ends or the program is terminated, then in the same way for every larger number. -/
theorem C09_csqp_mt_fuel {n : ℕ} (M : MtWorld n F) {fuel fuel' : ℕ} (hf : fuel ≤ fuel') (xs : Option (Traj P)) (us : Option (Ctrls P)) (m : ℕ)
    (ri : F) (s : CSQP P) (h : CSQP.solveMt M fuel xs us m ri s ≠ .running) :
    CSQP.solveMt M fuel' xs us m ri s = CSQP.solveMt M fuel xs us m ri s := by
  unfold CSQP.solveMt at h ⊢
  rw [CSQP.iterateMt_mono M hf m _ (fun e => h (by rw [e]))]
  cases hr : CSQP.iterateMt M fuel m (s.start ⟨M.llt, M.clock, some M.pass⟩ xs us m ri) with
  | running => rfl
  | dead => rfl
  | val x =>
    rw [hr] at h
    obtain ⟨o, q⟩ := x
    cases o with
    | some o => rfl
    | none =>
      simp only [] at h ⊢
      unfold CSQP.extraIterMt at h ⊢
      split at h
      · rename_i e
        rw [if_pos e, if_pos e]
        rw [CSQP.directionMt_mono M false hf]
        intro e
        rw [e] at h
        exact h rfl
      · rename_i e; rw [if_neg e, if_neg e]

end
end Mim
