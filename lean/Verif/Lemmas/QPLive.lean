import Verif.Spec.AugCurv
import Verif.Lemmas.QPAug
import Verif.Lemmas.QPMt
import Verif.Lemmas.BackwardLive
import Verif.Props.CSQPNoCon
import Verif.Props.CSQPReg
import Verif.Props.QPStep

/-!
# When the backward passes of SolverCSQP succeed
-/
set_option linter.unusedSectionVars false
set_option linter.unusedSimpArgs false

namespace Mim
open Matrix Spec
namespace QP
variable {K : Type} [Field K] [LinearOrder K] [IsStrictOrderedRing K] {P : Problem K}

/-- a sweep that starts with the terminal Hessian of a problem with a Riccati recursion succeeds. -/
theorem sweep_live {llt : LLT K} (hllt : LLTExact llt) {q : (t : ℕ) → QTerms K P.ndx (P.nu t)} {preg : K}
    {Q : LQ K P.T P.ndx P.nu} (hq : TermsOf q preg Q) {fs : ℕ → Vec K P.ndx}
    {V : ℕ → Mat K P.ndx P.ndx} {v : ℕ → Vec K P.ndx} {G : (t : ℕ) → Mat K (P.nu t) P.ndx}
    {k : (t : ℕ) → Vec K (P.nu t)} {Quu : (t : ℕ) → Mat K (P.nu t) (P.nu t)} (hR : Riccati Q V v G k Quu)
    (hpd : ∀ t, t < P.T → PosDef (Quu t)) :
    ∀ n, n ≤ P.T → ∀ b : BP P, b.Vxx n = V n → (forDownR n (genStage llt fs preg symm q) b).isOk = true := by
  intro n
  induction n with
  | zero => intro _ b _; rfl
  | succ n ih =>
    intro hn b hb
    have ht : n < P.T := hn
    have hxx : ((q n).Qxx (V (n + 1)))ᵀ = (q n).Qxx (V (n + 1)) := by
      have e : (q n).Qxx (V (n + 1)) = Q.Hxx n + (Q.A n)ᵀ * V (n + 1) * Q.A n - preg • (1 : Matrix _ _ K) := by
        rw [← hq.Qxx n ht, add_sub_cancel_right]
      rw [e, Matrix.transpose_sub, sub_reg_transpose]
      simp only [Matrix.transpose_add, hq.sym.xx n ht, Matrix.transpose_mul, Matrix.transpose_transpose,
        hR.sym (n + 1) hn, Matrix.mul_assoc]
    rw [forDownR_succ]
    rcases Nat.eq_zero_or_pos (P.nu n) with h0 | h0
    · rw [genStage_zero h0, Res.bind_ok]
      apply ih (by omega)
      simp only [Function.update_self]
      have hz : (Q.Hxu n + (Q.A n)ᵀ * V (n + 1) * Q.B n) * G n = 0 := by
        ext i j
        rw [Matrix.mul_apply]
        exact Finset.sum_eq_zero fun i' _ => (Fin.cast h0 i').elim0
      rw [hb, symm_of_sym hxx, regDiag_exact, hq.Qxx n ht, hR.hess n ht, hz, sub_zero]
    · have eU : (q n).Quu (b.Vxx (n + 1)) = Quu n := by rw [hb, hq.Quu n ht, hR.quu n ht]
      obtain ⟨s, hs⟩ := hllt.complete _ (Quu n) (hR.symU n ht) (hpd n ht)
      have hsol := hllt.solves _ _ _ (hR.symU n ht) hs
      rw [(genStage_pos (llt := llt) (fs := fs) (preg := preg) (sym := symm) (q := q) h0 b).1 s (by rw [eU]; exact hs), Res.bind_ok]
      apply ih (by omega)
      simp only [posStage, Function.update_self]
      have eX := hq.Qxu n ht (V (n + 1))
      have eK : solveCols s ((q n).Qxu (V (n + 1))).transpose = G n := by
        apply posDef_cancel (hpd n ht)
        rw [solveCols_mul hsol, eX, hR.gain n ht]
      have sXG : ((q n).Qxu (V (n + 1)) * G n)ᵀ = (q n).Qxu (V (n + 1)) * G n := by
        have e2 : (q n).Qxu (V (n + 1)) = (Quu n * G n)ᵀ := by rw [hR.gain n ht, Matrix.transpose_transpose, eX]
        rw [e2]
        simp only [Matrix.transpose_mul, Matrix.transpose_transpose, hR.symU n ht, Matrix.mul_assoc]
      rw [hb, eK, mm_exact, symm_of_sym (by rw [Matrix.transpose_sub, hxx, sXG]), regDiag_exact, hR.hess n ht, eX,
        ← hq.Qxx n ht]
      abel

theorem full_sweep_isOk {llt : LLT K} {E : QEnv P} {v : CVars P} (n : ℕ) (B : CBP P) :
    (forDownR n (fullStage llt E v) B).isOk = (forDownR n (genStage llt E.fs E.preg symm (fullTerms E v)) B.bp).isOk := by
  induction n generalizing B with
  | zero => rfl
  | succ n ih =>
    rw [forDownR_succ, forDownR_succ, fullStage_eq]
    cases genStage llt E.fs E.preg symm (fullTerms E v) n B.bp with
    | ok b => exact ih _
    | exn b => rfl

theorem isOk_iff {S : Type _} {r : Res S} : r.isOk = true ↔ ∃ s, r = .ok s := by
  cases r with
  | ok s => exact ⟨fun _ => ⟨s, rfl⟩, fun _ => rfl⟩
  | exn s => exact ⟨fun h => (by cases h), fun ⟨_, h⟩ => (by cases h)⟩

/-- the full pass succeeds exactly if the augmented problem has positive curvature. -/
theorem full_iff {llt : LLT K} (hllt : LLTExact llt) {E : QEnv P} {v : CVars P} (hsym : SymHess E.d) (B : CBP P) :
    (fullPass llt E v B).isOk = true ↔ (fullLQ E v).PosCurv := by
  constructor
  · intro h
    obtain ⟨B', h⟩ := isOk_iff.mp h
    obtain ⟨hR, hpd⟩ := full_riccati hllt hsym h
    exact hR.posCurv hpd
  · intro h
    obtain ⟨V, vv, G, k, Quu, hR, hpd⟩ := exists_riccati P.T _ (fullLQ_sym E v hsym) h
    unfold fullPass
    rw [full_sweep_isOk]
    refine sweep_live hllt (full_termsOf E v hsym) hR hpd P.T le_rfl _ ?_
    simp only [Function.update_self]
    rw [hR.VT, terVxx_exact]

/-- the pass without constraints succeeds exactly if the quadratic model has positive curvature. -/
theorem plain_iff [SqrtOps K] {llt : LLT K} (hllt : LLTExact llt) {E : QEnv P} (hsym : SymHess E.d) (B : CBP P) :
    (plainPass llt E B).isOk = true ↔ (lqOf E.d E.fs E.preg E.dreg).PosCurv := by
  constructor
  · intro h
    obtain ⟨B', h⟩ := isOk_iff.mp h
    obtain ⟨k1, k2, k3, k4⟩ := plainPass_ok h
    obtain ⟨hR, hpd⟩ := sweep_riccati hllt (plain_termsOf E hsym) rfl (by rw [k1, regDiag_exact]; rfl) k2 k3 k4
    exact hR.posCurv hpd
  · intro h
    obtain ⟨V, vv, G, k, Quu, hR, hpd⟩ := exists_riccati P.T _ (plain_termsOf E hsym).sym h
    unfold plainPass
    rw [plain_sweep_isOk]
    refine sweep_live hllt (plain_termsOf E hsym) hR hpd P.T le_rfl _ ?_
    simp only [Function.update_self]
    rw [hR.VT, regDiag_exact]
    rfl

/-- the curvature of the augmented problem along a step that starts with zero. -/
theorem full_curv (E : QEnv P) (v : CVars P) {x : ℕ → Vec K P.ndx} (u : (t : ℕ) → Vec K (P.nu t)) (h0 : x 0 = 0) :
    (fullLQ E v).curv x u = augCurv E.d E.preg E.dreg E.c.sigma v.rho x u := by
  have hp : ∀ {m : ℕ} (r c : Vec K m), penCurv r c = c ⬝ᵥ (Matrix.diagonal r *ᵥ c) := by
    intro m r c
    unfold penCurv dotProduct
    refine Finset.sum_congr rfl fun i _ => ?_
    rw [Matrix.mulVec_diagonal]
    ring
  have hst : ∀ t, x t ⬝ᵥ ((fullLQ E v).Hxx t *ᵥ x t) + 2 * (x t ⬝ᵥ ((fullLQ E v).Hxu t *ᵥ u t)) + u t ⬝ᵥ ((fullLQ E v).Huu t *ᵥ u t) =
      (x t ⬝ᵥ ((lqOf E.d 0 E.preg E.dreg).Hxx t *ᵥ x t) + 2 * (x t ⬝ᵥ ((lqOf E.d 0 E.preg E.dreg).Hxu t *ᵥ u t)) +
        u t ⬝ᵥ ((lqOf E.d 0 E.preg E.dreg).Huu t *ᵥ u t)) + E.c.sigma * (x t ⬝ᵥ x t) + E.c.sigma * (u t ⬝ᵥ u t) +
        penCurv (v.rho t) (conLin E.d t (x t) (u t)) := by
    intro t
    rw [hp]
    unfold conLin
    simp only [Matrix.mulVec_add, dotProduct_add, add_dotProduct]
    rw [quad_comm (v.rho t) (E.d.rd t).Gx (E.d.rd t).Gu, quad_gram, quad_gram, quad_gram]
    unfold fullLQ lqOf
    simp only [Matrix.add_mulVec, dotProduct_add, Matrix.smul_mulVec, Matrix.one_mulVec, dotProduct_smul, smul_eq_mul]
    by_cases ht : 0 < t
    · simp only [if_pos ht]; ring
    · obtain rfl : t = 0 := by omega
      rw [h0]
      simp only [if_neg ht, Matrix.mulVec_zero, zero_dotProduct, dotProduct_zero, Matrix.zero_mulVec]
      ring
  unfold LQ.curv augCurv LQ.curv sqX sqU
  simp only [hst, Finset.sum_add_distrib, ← Finset.mul_sum]
  have hT : x P.T ⬝ᵥ ((fullLQ E v).HT *ᵥ x P.T) = x P.T ⬝ᵥ ((lqOf E.d 0 E.preg E.dreg).HT *ᵥ x P.T) + E.c.sigma * (x P.T ⬝ᵥ x P.T) +
      penCurv (v.rho P.T) (E.d.td.Gx *ᵥ x P.T) := by
    rw [hp, quad_gram]
    unfold fullLQ lqOf
    simp only [Matrix.add_mulVec, dotProduct_add, Matrix.smul_mulVec, Matrix.one_mulVec, dotProduct_smul, smul_eq_mul]
    ring
  rw [hT]
  ring

theorem full_posCurv_iff (E : QEnv P) (v : CVars P) :
    (fullLQ E v).PosCurv ↔ AugPos E.d E.preg E.dreg E.c.sigma v.rho := by
  constructor
  · intro h x u hd hu
    rw [← full_curv E v u hd.init]
    exact h x u ⟨hd.init, hd.step⟩ hu
  · intro h x u hd hu
    rw [full_curv E v u hd.init]
    exact h x u ⟨hd.init, hd.step⟩ hu

theorem penCurv_nonneg {m : ℕ} {r c : Vec K m} (h : ∀ i, 0 ≤ r i) : 0 ≤ penCurv r c :=
  Finset.sum_nonneg fun i _ => mul_nonneg (h i) (sq_nonneg _)

/-- the penalties and `σ` add curvature. -/
theorem augPos_of_posCurv {d : Data P} {fs : ℕ → Vec K P.ndx} {preg dreg sigma : K} {rho : (t : ℕ) → Vec K (P.ng t)}
    (hs : 0 ≤ sigma) (hr : ∀ t, t ≤ P.T → ∀ i, 0 ≤ rho t i) (h : (lqOf d fs preg dreg).PosCurv) : AugPos d preg dreg sigma rho := by
  intro x u hd hu
  have h1 : 0 < (lqOf d 0 preg dreg).curv x u := h x u ⟨hd.init, hd.step⟩ hu
  unfold augCurv
  have h2 := mul_nonneg hs (add_nonneg (sqX_nonneg P.T x) (sqU_pos P.T hu).le)
  have h3 : 0 ≤ ∑ t ∈ Finset.range P.T, penCurv (rho t) (conLin d t (x t) (u t)) :=
    Finset.sum_nonneg fun t ht => penCurv_nonneg (hr t (Finset.mem_range.mp ht).le)
  have h4 : 0 ≤ penCurv (rho P.T) (d.td.Gx *ᵥ x P.T) := penCurv_nonneg (hr P.T le_rfl)
  linarith

/-- with `σ > 0` convex costs suffice. -/
theorem augPos_of_convex {d : Data P} {preg dreg sigma : K} {rho : (t : ℕ) → Vec K (P.ng t)} (hs : 0 < sigma)
    (hr : ∀ t, t ≤ P.T → ∀ i, 0 ≤ rho t i) (hp : 0 ≤ preg) (hq : 0 ≤ dreg)
    (stage : ∀ t, t < P.T → ∀ (x : Vec K P.ndx) (u : Vec K (P.nu t)),
      0 ≤ x ⬝ᵥ ((d.rd t).Lxx *ᵥ x) + 2 * (x ⬝ᵥ ((d.rd t).Lxu *ᵥ u)) + u ⬝ᵥ ((d.rd t).Luu *ᵥ u))
    (term : ∀ x : Vec K P.ndx, 0 ≤ x ⬝ᵥ (d.td.Lxx *ᵥ x)) : AugPos d preg dreg sigma rho := by
  intro x u hd hu
  have h1 := (posCurv_of_convexData (d := d) (fs := 0) (p := preg + sigma) (q := dreg + sigma) (by linarith) (by linarith) stage term
    (.inr (by linarith))) x u ⟨hd.init, hd.step⟩ hu
  rw [curv_reg] at h1
  unfold augCurv
  rw [curv_reg]
  have h3 : 0 ≤ ∑ t ∈ Finset.range P.T, penCurv (rho t) (conLin d t (x t) (u t)) :=
    Finset.sum_nonneg fun t ht => penCurv_nonneg (hr t (Finset.mem_range.mp ht).le)
  have h4 : 0 ≤ penCurv (rho P.T) (d.td.Gx *ᵥ x P.T) := penCurv_nonneg (hr P.T le_rfl)
  linarith

end QP

namespace QP
variable {K : Type} [Field K] [LinearOrder K] [IsStrictOrderedRing K] {P : Problem K} [SqrtOps K] {llt : LLT K} {E : QEnv P}

theorem bind_isOk {S : Type _} {r : Res S} {f : S → Res S} :
    (r.bind f).isOk = true ↔ ∃ s, r = .ok s ∧ (f s).isOk = true := by
  cases r with
  | ok s => exact ⟨fun h => ⟨s, rfl, h⟩, fun ⟨_, h1, h2⟩ => by cases h1; exact h2⟩
  | exn s => exact ⟨fun h => (by cases h), fun ⟨_, h1, _⟩ => (by cases h1)⟩

theorem map_isOk {S S' : Type _} {r : Res S} {f : S → S'} : (r.map f).isOk = r.isOk := by cases r <;> rfl
theorem thenDo_isOk {S : Type _} {r : Res S} {f : S → S} : (r.thenDo f).isOk = r.isOk := by cases r <;> rfl

/-- one QP iteration throws only if the function it minimises lacks positive curvature. -/
theorem step_live (hllt : LLTExact llt) (hsym : SymHess E.d) (hs : ∀ l, E.sched = some l → SchedOK P l) {q : CQP P}
    (h : AugPos E.d E.preg E.dreg E.c.sigma q.v.rho) : (q.step llt E).isOk = true := by
  have hf := (full_iff hllt (v := q.v) hsym q.b).mpr ((full_posCurv_iff E q.v).mpr h)
  unfold CQP.step
  rw [thenDo_isOk]
  unfold CQP.pass
  split
  · rw [map_isOk]
    split
    · exact hf
    · rename_i l hl
      rcases fullPassMt_eq (llt := llt) (E := E) (v := q.v) (hs l hl q.tick) q.b with ⟨C, e1, e2⟩ | ⟨C, C', e1, e2⟩
      · rw [e2]; rfl
      · rw [e1] at hf; cases hf
  · rfl

/-- the loop of `computeDirection` does not throw if the function of every iteration has positive curvature. -/
theorem loop_live (hllt : LLTExact llt) (hsym : SymHess E.d) (hs : ∀ l, E.sched = some l → SchedOK P l) {q0 : CQP P}
    (hA : ∀ q, AtIter llt E q0 q → AugPos E.d E.preg E.dreg E.c.sigma q.v.rho) (n : ℕ) {q : CQP P} (h : AtIter llt E q0 q) :
    (CQP.loop llt E n q).isOk = true := by
  induction n generalizing q with
  | zero => rfl
  | succ n ih =>
    unfold CQP.loop
    simp only []
    cases ht : q.timeUp E with
    | true => rfl
    | false =>
      simp only [Bool.false_eq_true, if_false]
      obtain ⟨q1, h1⟩ := isOk_iff.mp (step_live (q := { q with tick := q.tick + 1 }) hllt hsym hs (hA q h))
      rw [h1, Res.bind_ok]
      by_cases hi : q1.qpIters % E.c.interval = 0
      · simp only [hi, if_true]
        cases hc : (q1.setTol E.c).converged with
        | true => rfl
        | false =>
          simp only [Bool.false_eq_true, if_false]
          have e : ({ q1.setTol E.c with qpIters := (q1.setTol E.c).qpIters + 1 } : CQP P) = q1.between E := by
            unfold CQP.between
            simp only [hi, if_true, setTol_qpIters]
          rw [e]
          exact ih (AtIter.next h ht h1 fun _ => hc)
      · simp only [hi, if_false]
        have e : ({ q1 with qpIters := q1.qpIters + 1 } : CQP P) = q1.between E := by
          unfold CQP.between
          simp only [hi, if_false]
        rw [e]
        exact ih (AtIter.next h ht h1 fun e => absurd e hi)

/-- the warm start throws only if the quadratic model lacks positive curvature. -/
theorem warm_iff (hllt : LLTExact llt) (hsym : SymHess E.d) (hg : E.c.eqGuess = true) (q : CQP P) :
    (q.warm llt E).isOk = true ↔ (lqOf E.d E.fs E.preg E.dreg).PosCurv := by
  unfold CQP.warm
  rw [if_pos hg, thenDo_isOk, map_isOk]
  exact plain_iff hllt hsym q.b

theorem computeDirection_live (hllt : LLTExact llt) (hsym : SymHess E.d) (hs : ∀ l, E.sched = some l → SchedOK P l) {q0 : CQP P}
    (hw : E.c.eqGuess = true → (lqOf E.d E.fs E.preg E.dreg).PosCurv)
    (hA : ∀ q, AtIter llt E q0 q → AugPos E.d E.preg E.dreg E.c.sigma q.v.rho) : (q0.computeDirection llt E).isOk = true := by
  unfold CQP.computeDirection
  have hwm : ((q0.resetParams E.c).warm llt E).isOk = true := by
    cases hg : E.c.eqGuess with
    | true => exact (warm_iff hllt hsym hg _).mpr (hw hg)
    | false => unfold CQP.warm; rw [hg]; rfl
  obtain ⟨q1, h1⟩ := isOk_iff.mp hwm
  rw [h1, Res.bind_ok]
  exact loop_live hllt hsym hs hA _ (AtIter.first h1)

theorem computeDirection_warm (hllt : LLTExact llt) (hsym : SymHess E.d) (hg : E.c.eqGuess = true) {q0 : CQP P}
    (h : (q0.computeDirection llt E).isOk = true) : (lqOf E.d E.fs E.preg E.dreg).PosCurv := by
  unfold CQP.computeDirection at h
  obtain ⟨q1, h1, _⟩ := bind_isOk.mp h
  exact (warm_iff hllt hsym hg _).mp (by rw [h1]; rfl)

end QP
end Mim
