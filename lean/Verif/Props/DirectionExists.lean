import Verif.Lemmas.BackwardLive
import Verif.Lemmas.Curvature
import Verif.Props.SQPAffine
import Verif.Props.SQPReg
import Verif.Props.DDPReturn

/-!
# When a direction exists (C57)

`computeDirection` of SQP, DDP and FDDP solves a linear-quadratic problem `Q` (`lqOf`: derivatives at the current point, current
gaps, regularized Hessians) by a backward pass that throws when a Cholesky factorization fails or a value is NaN, infinite or
at least `1e30`.  In exact arithmetic it succeeds **exactly** if `Q` has positive curvature along its directions – the second order
condition for `Q` to have a unique minimiser – and the value function of `Q` stays below `1e30`.
-/
set_option linter.unusedSectionVars false
set_option linter.unusedSimpArgs false

namespace Mim
open Matrix Spec
variable {K : Type} [Field K] [LinearOrder K] [IsStrictOrderedRing K] {P : Problem K}

/-- the value function `½ x'V_t x + w_t'x` (`w_t` the gradient after the gap) of the problem stays below `1e30`. -/
def Spec.LQ.InRange {T n : ℕ} {m : ℕ → ℕ} (Q : LQ K T n m) : Prop :=
  ∀ V v G k Quu, Riccati Q V v G k Quu → ∀ t, t < T →
    (∀ i, |(v t + V t *ᵥ Q.c t) i| < 10 ^ 30) ∧ ∀ i j, |V t i j| < 10 ^ 30

theorem exactNormInf_lt {n : ℕ} (x : Fin n → K) {c : K} (hc : 0 < c) : exactNormInf x < c ↔ ∀ i, |x i| < c := by
  constructor
  · intro h i
    exact lt_of_le_of_lt (((exactNormInf_le x _).mp le_rfl).2 i) h
  · intro h
    by_contra hn
    have hn := not_lt.mp hn
    rcases Nat.eq_zero_or_pos n with rfl | hpos
    · have : exactNormInf x = 0 := (exactNormInf_eq_zero x).mpr (funext fun i => i.elim0)
      rw [this] at hn
      exact absurd hc (not_lt.mpr hn)
    · obtain ⟨j, _, hj⟩ := Finset.exists_max_image Finset.univ (fun i => |x i|) ⟨(⟨0, hpos⟩ : Fin n), Finset.mem_univ _⟩
      have : exactNormInf x ≤ |x j| := (exactNormInf_le x _).mpr ⟨abs_nonneg _, fun i => hj i (Finset.mem_univ i)⟩
      exact absurd (h j) (not_lt.mpr (hn.trans this))

theorem badStage_exact {n : ℕ} (w : Vec K n) (V : Mat K n n) :
    badStage w V = false ↔ (∀ i, |w i| < 10 ^ 30) ∧ ∀ i j, |V i j| < 10 ^ 30 := by
  have h30 : (0 : K) < 10 ^ 30 := by positivity
  have hb : ∀ x : K, bad x = false ↔ x < 10 ^ 30 := by intro x; simp [bad, exactOps]
  unfold badStage
  rw [Bool.or_eq_false_iff, hb, hb, normInf_exact, normInf_exact, exactNormInf_lt _ h30, exactNormInf_lt _ h30]
  refine and_congr Iff.rfl (forall_congr' fun i => ?_)
  rw [normInf_exact, abs_of_nonneg (exactNormInf_nonneg _), exactNormInf_lt _ h30]

/-- **The backward pass succeeds exactly on problems with positive curvature whose value function stays in range.** -/
theorem C57_backward_iff {llt : LLT K} (hllt : LLTExact llt) {d : Data P} (hsym : SymHess d) {fs : ℕ → Vec K P.ndx} {feas : Bool}
    {preg dreg : K} (b : BP P) :
    (∃ b', backwardPass llt d fs feas preg dreg b = .ok b') ↔
      (lqOf d (fun t => if feas then 0 else fs t) preg dreg).PosCurv ∧ (lqOf d (fun t => if feas then 0 else fs t) preg dreg).InRange := by
  have hQ : (lqOf d (fun t => if feas then 0 else fs t) preg dreg).Sym :=
    ⟨fun t ht => by simp only [lqOf, Matrix.transpose_add, sub_reg_transpose, hsym.xx t ht],
     fun t ht => by simp only [lqOf, Matrix.transpose_add, sub_reg_transpose, hsym.uu t ht],
     by simp only [lqOf, Matrix.transpose_add, sub_reg_transpose, hsym.T]⟩
  constructor
  · rintro ⟨b', h⟩
    obtain ⟨hR, hpd⟩ := backward_riccati hllt hsym h
    simp only [] at hR
    obtain ⟨_, _, h3⟩ := Bwd.backwardPass_ok h
    refine ⟨hR.posCurv hpd, fun V v G k Quu h' t ht => ?_⟩
    obtain ⟨e1, e2⟩ := hR.unique hpd h' (P.T - t) (by omega)
    rw [show P.T - (P.T - t) = t by omega] at e1 e2
    have hg := (badStage_exact _ _).mp (h3 t ht).good
    rw [← e1, ← e2]
    have e : b'.Vx t - b'.Vxx t *ᵥ (if feas then 0 else fs t) + b'.Vxx t *ᵥ
      (lqOf d (fun t => if feas = true then 0 else fs t) preg dreg).c t = b'.Vx t := sub_add_cancel _ _
    rw [e]
    exact hg
  · rintro ⟨hc, hr⟩
    obtain ⟨V, v, G, k, Quu, hR, hpd⟩ := exists_riccati P.T _ hQ hc
    exact backward_live hllt hsym (fun _ => rfl) hR hpd (fun t ht => (badStage_exact _ _).mpr (hr _ _ _ _ _ hR t ht)) b

/-! ### the three solvers -/

/-- **C57 (SQP).** -/
theorem C57_sqp_direction_iff {llt : LLT K} (hllt : LLTExact llt) (hP : SymProblem P) {s : SQP P} (hf : s.feas = false) :
    (∃ s1, SQP.computeDirection llt true s = .ok s1) ↔
      (lqOf s.calcDiff.data s.calcDiff.fs s.preg s.dreg).PosCurv ∧ (lqOf s.calcDiff.data s.calcDiff.fs s.preg s.dreg).InRange := by
  have hd : FreshDiff P s.calcDiff.data s.xs s.us := by
    unfold SQP.calcDiff
    exact ⟨fun t ht => by simp [Data.calcDiffAll, ht], rfl⟩
  have hf' : s.calcDiff.feas = false := hf
  have key := C57_backward_iff (fs := s.calcDiff.fs) (feas := false) (preg := s.preg) (dreg := s.dreg) hllt (symHess_of_fresh hP hd)
    s.calcDiff.bp
  simp only [Bool.false_eq_true, if_false] at key
  rw [← key]
  have e : SQP.computeDirection llt true s = match backwardPass llt s.calcDiff.data s.calcDiff.fs s.calcDiff.feas s.preg s.dreg s.calcDiff.bp with
      | .ok b => .ok (SQP.forwardPass { s.calcDiff with
          gap := gapNorm s.calcDiff.fs, merit := s.calcDiff.cost + s.mu * gapNorm s.calcDiff.fs, bp := b })
      | .exn b => .exn { s.calcDiff with
          gap := gapNorm s.calcDiff.fs, merit := s.calcDiff.cost + s.mu * gapNorm s.calcDiff.fs, bp := b } := rfl
  rw [e, hf']
  cases backwardPass llt s.calcDiff.data s.calcDiff.fs false s.preg s.dreg s.calcDiff.bp with
  | ok b => exact ⟨fun _ => ⟨b, rfl⟩, fun _ => ⟨_, rfl⟩⟩
  | exn b => exact ⟨fun ⟨_, h⟩ => (by cases h), fun ⟨_, h⟩ => (by cases h)⟩

/-- **C57 (DDP, FDDP).**  On a feasible trajectory the gaps do not enter. -/
theorem C57_ddp_direction_iff {k : DDP.Kind P} (hk : DDP.IsSolver k) {llt : LLT K} (hllt : LLTExact llt) (hP : SymProblem P) {s : DDP P} :
    (∃ s1, k.dir llt true s = .ok s1) ↔
      (lqOf s.calcDiff.y.data (fun t => if s.feas then 0 else s.calcDiff.e.fs t) s.preg s.dreg).PosCurv ∧
      (lqOf s.calcDiff.y.data (fun t => if s.feas then 0 else s.calcDiff.e.fs t) s.preg s.dreg).InRange := by
  have hd : SymHess s.calcDiff.y.data := by
    unfold DDP.calcDiff
    exact symHess_of_fresh (xs := s.xs) (us := s.us) hP ⟨fun t ht => by simp [Data.calcDiffAll, ht], rfl⟩
  have key := C57_backward_iff (fs := s.calcDiff.e.fs) (feas := s.feas) (preg := s.preg) (dreg := s.dreg) hllt hd s.calcDiff.e.bp
  rw [← key]
  rcases hk with rfl | rfl
  · have e : (DDP.ddp P).dir llt true s = (backwardPass llt s.calcDiff.y.data s.calcDiff.e.fs s.feas s.preg s.dreg s.calcDiff.e.bp).map
        fun b => { s.calcDiff with e := { s.calcDiff.e with bp := b } } := rfl
    rw [e]
    cases backwardPass llt s.calcDiff.y.data s.calcDiff.e.fs s.feas s.preg s.dreg s.calcDiff.e.bp with
    | ok b => exact ⟨fun _ => ⟨b, rfl⟩, fun _ => ⟨_, rfl⟩⟩
    | exn b => exact ⟨fun ⟨_, h⟩ => (by cases h), fun ⟨_, h⟩ => (by cases h)⟩
  · have e : (DDP.fddp P).dir llt true s = (backwardPass llt s.calcDiff.y.data s.calcDiff.e.fs s.feas s.preg s.dreg s.calcDiff.e.bp).map
        fun b => { s.calcDiff with e := { s.calcDiff.e with gap := gapNorm s.calcDiff.e.fs, bp := b } } := rfl
    rw [e]
    cases backwardPass llt s.calcDiff.y.data s.calcDiff.e.fs s.feas s.preg s.dreg s.calcDiff.e.bp with
    | ok b => exact ⟨fun _ => ⟨b, rfl⟩, fun _ => ⟨_, rfl⟩⟩
    | exn b => exact ⟨fun ⟨_, h⟩ => (by cases h), fun ⟨_, h⟩ => (by cases h)⟩

/-! ### convex problems: the first attempt succeeds -/

theorem posCurv_of_convex {P : Problem K} (hC : ConvexProblem P) {d : Data P} {xs : Traj P} {us : Ctrls P} (hd : FreshDiff P d xs us)
    {fs : ℕ → Vec K P.ndx} {p q : K} (hp : 0 ≤ p) (hq : 0 ≤ q) (hs : StrictControls P ∨ 0 < q) : (lqOf d fs p q).PosCurv := by
  obtain ⟨h1, h2⟩ := hd
  refine posCurv_of_convexData hp hq (fun t ht x u => ?_) (fun x => ?_) ?_
  · rw [h1 t ht]; exact hC.stage t ht _ _ _ _
  · rw [h2]; exact hC.term _ _
  · refine hs.imp (fun h t ht => ?_) id
    rw [h1 t ht]; exact h t ht _ _

/-- **C57 (convex, SQP).**  With convex costs, strictly convex in the controls or regularized, the first attempt gives a direction –
the only thing that can go wrong is a value function reaching `1e30`. -/
theorem C57_sqp_convex {llt : LLT K} (hllt : LLTExact llt) (hP : SymProblem P) (hC : ConvexProblem P) {s : SQP P} (hf : s.feas = false)
    (hp : 0 ≤ s.preg) (hq : 0 ≤ s.dreg) (hs : StrictControls P ∨ 0 < s.dreg)
    (hr : (lqOf s.calcDiff.data s.calcDiff.fs s.preg s.dreg).InRange) (fuel : ℕ) :
    ∃ s1, SQP.retry llt (fuel + 1) true s = some (true, s1) ∧ s1.preg = s.preg ∧ s1.dreg = s.dreg := by
  have hd : FreshDiff P s.calcDiff.data s.xs s.us := by
    unfold SQP.calcDiff
    exact ⟨fun t ht => by simp [Data.calcDiffAll, ht], rfl⟩
  obtain ⟨s1, h1⟩ := (C57_sqp_direction_iff hllt hP hf).mpr ⟨posCurv_of_convex hC hd hp hq hs, hr⟩
  have hreg := computeDirection_reg (llt := llt) true s
  rw [h1] at hreg
  refine ⟨s1, ?_, hreg.1, hreg.2.1⟩
  unfold SQP.retry
  rw [h1]

/-- **C57 (convex, DDP and FDDP).** -/
theorem C57_ddp_convex {k : DDP.Kind P} (hk : DDP.IsSolver k) {llt : LLT K} (hllt : LLTExact llt) (hP : SymProblem P)
    (hC : ConvexProblem P) {s : DDP P} (hrec : s.recalc = true)
    (hp : 0 ≤ s.preg) (hq : 0 ≤ s.dreg) (hs : StrictControls P ∨ 0 < s.dreg)
    (hr : (lqOf s.calcDiff.y.data (fun t => if s.feas then 0 else s.calcDiff.e.fs t) s.preg s.dreg).InRange) (fuel : ℕ) :
    ∃ s1, DDP.retry k llt (fuel + 1) s = some (true, s1) ∧ s1.preg = s.preg ∧ s1.dreg = s.dreg := by
  have hd : FreshDiff P s.calcDiff.y.data s.xs s.us := by
    unfold DDP.calcDiff
    exact ⟨fun t ht => by simp [Data.calcDiffAll, ht], rfl⟩
  obtain ⟨s1, h1⟩ := (C57_ddp_direction_iff hk hllt hP (s := s)).mpr ⟨posCurv_of_convex hC hd hp hq hs, hr⟩
  obtain ⟨b, g, e⟩ := hk.laws.dir llt true s
  rw [h1] at e
  have e : s1 = _ := e
  refine ⟨s1, ?_, by rw [e]; rfl, by rw [e]; rfl⟩
  unfold DDP.retry
  rw [hrec, h1]

/-! ### non-convex problems: raising the regularization cures a failed direction -/

/-- the direction of SQP without a new evaluation. -/
theorem sqp_direction_iff_stored {llt : LLT K} (hllt : LLTExact llt) {s : SQP P} (hsym : SymHess s.data) (hf : s.feas = false) :
    (∃ s1, SQP.computeDirection llt false s = .ok s1) ↔
      (lqOf s.data s.fs s.preg s.dreg).PosCurv ∧ (lqOf s.data s.fs s.preg s.dreg).InRange := by
  have key := C57_backward_iff (fs := s.fs) (feas := false) (preg := s.preg) (dreg := s.dreg) hllt hsym s.bp
  simp only [Bool.false_eq_true, if_false] at key
  rw [← key]
  have e : SQP.computeDirection llt false s = match backwardPass llt s.data s.fs s.feas s.preg s.dreg s.bp with
      | .ok b => .ok (SQP.forwardPass { s with gap := gapNorm s.fs, merit := s.cost + s.mu * gapNorm s.fs, bp := b })
      | .exn b => .exn { s with gap := gapNorm s.fs, merit := s.cost + s.mu * gapNorm s.fs, bp := b } := rfl
  rw [e, hf]
  cases backwardPass llt s.data s.fs false s.preg s.dreg s.bp with
  | ok b => exact ⟨fun _ => ⟨b, rfl⟩, fun _ => ⟨_, rfl⟩⟩
  | exn b => exact ⟨fun ⟨_, h⟩ => (by cases h), fun ⟨_, h⟩ => (by cases h)⟩

theorem sqp_direction_exn {llt : LLT K} {s s1 : SQP P} (h : SQP.computeDirection llt false s = .exn s1) :
    s1.data = s.data ∧ s1.fs = s.fs ∧ s1.feas = s.feas ∧ s1.preg = s.preg ∧ s1.dreg = s.dreg ∧ s1.par = s.par := by
  have e : SQP.computeDirection llt false s = match backwardPass llt s.data s.fs s.feas s.preg s.dreg s.bp with
      | .ok b => .ok (SQP.forwardPass { s with gap := gapNorm s.fs, merit := s.cost + s.mu * gapNorm s.fs, bp := b })
      | .exn b => .exn { s with gap := gapNorm s.fs, merit := s.cost + s.mu * gapNorm s.fs, bp := b } := rfl
  rw [e] at h
  cases hb : backwardPass llt s.data s.fs s.feas s.preg s.dreg s.bp with
  | ok b => rw [hb] at h; cases h
  | exn b => rw [hb] at h; cases h; exact ⟨rfl, rfl, rfl, rfl, rfl, rfl⟩

theorem sqp_retry_cures {llt : LLT K} (hllt : LLTExact llt) {H B : K} :
    ∀ (n : ℕ) (s : SQP P), SymHess s.data → s.feas = false → hessSum s.data ≤ H → s.dreg = s.preg → 0 < s.preg → 1 < s.par.regInc →
      s.preg ≤ B → H * s.par.regInc ≤ B → B < s.par.regMax → H < s.preg * s.par.regInc ^ n →
      (∀ i, s.preg * s.par.regInc ^ i ≤ B → (lqOf s.data s.fs (s.preg * s.par.regInc ^ i) (s.preg * s.par.regInc ^ i)).PosCurv →
        (lqOf s.data s.fs (s.preg * s.par.regInc ^ i) (s.preg * s.par.regInc ^ i)).InRange) →
      ∃ s1, SQP.retry llt (n + 1) false s = some (true, s1) ∧ s1.preg ≤ B ∧ s1.dreg = s1.preg := by
  intro n
  induction n with
  | zero =>
    intro s h1 h2 h3 h4 h5 h6 h7 h8 h9 h10 h11
    have hlive : H < s.preg → (lqOf s.data s.fs s.preg s.dreg).PosCurv ∧ (lqOf s.data s.fs s.preg s.dreg).InRange := fun hh => by
      have hp : (lqOf s.data s.fs s.preg s.preg).PosCurv := posCurv_of_large (h3.trans hh.le) (lt_of_le_of_lt h3 hh)
      have h0 := h11 0
      rw [pow_zero, mul_one] at h0
      rw [h4]
      exact ⟨hp, h0 h7 hp⟩
    rw [pow_zero, mul_one] at h10
    obtain ⟨s1, e⟩ := (sqp_direction_iff_stored hllt h1 h2).mpr (hlive h10)
    have hreg := computeDirection_reg (llt := llt) false s
    rw [e] at hreg
    refine ⟨s1, ?_, hreg.1.le.trans h7, by rw [show s1.dreg = _ from hreg.2.1, show s1.preg = _ from hreg.1, h4]⟩
    unfold SQP.retry
    rw [e]
  | succ n ih =>
    intro s h1 h2 h3 h4 h5 h6 h7 h8 h9 h10 h11
    have hlive : H < s.preg → (lqOf s.data s.fs s.preg s.dreg).PosCurv ∧ (lqOf s.data s.fs s.preg s.dreg).InRange := fun hh => by
      have hp : (lqOf s.data s.fs s.preg s.preg).PosCurv := posCurv_of_large (h3.trans hh.le) (lt_of_le_of_lt h3 hh)
      have h0 := h11 0
      rw [pow_zero, mul_one] at h0
      rw [h4]
      exact ⟨hp, h0 h7 hp⟩
    cases e : SQP.computeDirection llt false s with
    | ok s1 =>
      have hreg := computeDirection_reg (llt := llt) false s
      rw [e] at hreg
      refine ⟨s1, ?_, hreg.1.le.trans h7, by rw [show s1.dreg = _ from hreg.2.1, show s1.preg = _ from hreg.1, h4]⟩
      unfold SQP.retry
      rw [e]
    | exn s1 =>
      have hle : s.preg ≤ H := by
        by_contra hn
        have hn := not_le.mp hn
        obtain ⟨s2, e2⟩ := (sqp_direction_iff_stored hllt h1 h2).mpr (hlive hn)
        rw [e2] at e
        cases e
      obtain ⟨c1, c2, c3, c4, c5, c6⟩ := sqp_direction_exn e
      have hB : s.preg * s.par.regInc ≤ B := (mul_le_mul_of_nonneg_right hle (by linarith)).trans h8
      have hn : incReg s1.par s1.preg = s.preg * s.par.regInc := by
        rw [incReg_exact, c4, c6, min_eq_right (hB.trans h9.le)]
      obtain ⟨s2, g1, g2, g3⟩ := ih s1.increaseReg (by change SymHess s1.data; rw [c1]; exact h1) (by change s1.feas = _; rw [c3, h2])
        (by change hessSum s1.data ≤ H; rw [c1]; exact h3) rfl (by change 0 < incReg s1.par s1.preg; rw [hn]; exact mul_pos h5 (by linarith))
        (by change 1 < s1.par.regInc; rw [c6]; exact h6) (by change incReg s1.par s1.preg ≤ B; rw [hn]; exact hB)
        (by change H * s1.par.regInc ≤ B; rw [c6]; exact h8) (by change B < s1.par.regMax; rw [c6]; exact h9)
        (by change H < incReg s1.par s1.preg * s1.par.regInc ^ n; rw [hn, c6, mul_assoc, ← pow_succ']; exact h10)
        (by
          intro i
          change incReg s1.par s1.preg * s1.par.regInc ^ i ≤ B → (lqOf s1.data s1.fs (incReg s1.par s1.preg * s1.par.regInc ^ i)
            (incReg s1.par s1.preg * s1.par.regInc ^ i)).PosCurv → (lqOf s1.data s1.fs (incReg s1.par s1.preg * s1.par.regInc ^ i)
            (incReg s1.par s1.preg * s1.par.regInc ^ i)).InRange
          rw [c1, c2, hn, c6, mul_assoc, ← pow_succ']
          exact h11 (i + 1))
      refine ⟨s2, ?_, g2, g3⟩
      unfold SQP.retry
      rw [e]
      have hne : eqb s1.increaseReg.preg s1.increaseReg.par.regMax = false := by
        have : s1.increaseReg.preg ≠ s1.increaseReg.par.regMax := by
          change incReg s1.par s1.preg ≠ s1.par.regMax
          rw [hn, c6]
          exact ne_of_lt (lt_of_le_of_lt hB h9)
        simpa using this
      simp only [hne]
      exact g1

/-- **C57 (cure, SQP).**  Whatever the problem, the solver finds a direction after finitely many increases of the regularization if the
entries of the Hessians at the current point sum up to less than `reg_max / reg_incfactor` and the value functions stay in range; the
regularization used is at most `reg_incfactor` times that sum (or the value it had). -/
theorem C57_sqp_retry_cures {llt : LLT K} (hllt : LLTExact llt) (hP : SymProblem P) {s : SQP P} (hf : s.feas = false)
    (hreg : s.dreg = s.preg) (hpos : 0 < s.preg) (hlt : s.preg < s.par.regMax) (hinc : 1 < s.par.regInc)
    (hmax : hessSum s.calcDiff.data * s.par.regInc < s.par.regMax) {n : ℕ} (hn : hessSum s.calcDiff.data < s.preg * s.par.regInc ^ n)
    (hr : ∀ i r, r = s.preg * s.par.regInc ^ i → r ≤ max s.preg (hessSum s.calcDiff.data * s.par.regInc) →
      (lqOf s.calcDiff.data s.calcDiff.fs r r).PosCurv → (lqOf s.calcDiff.data s.calcDiff.fs r r).InRange) :
    ∃ s1, SQP.retry llt (n + 1) true s = some (true, s1) ∧
      s1.preg ≤ max s.preg (hessSum s.calcDiff.data * s.par.regInc) ∧ s1.dreg = s1.preg := by
  have hd : FreshDiff P s.calcDiff.data s.xs s.us := by
    unfold SQP.calcDiff
    exact ⟨fun t ht => by simp [Data.calcDiffAll, ht], rfl⟩
  have e : SQP.retry llt (n + 1) true s = SQP.retry llt (n + 1) false s.calcDiff := rfl
  rw [e]
  exact sqp_retry_cures hllt n s.calcDiff (symHess_of_fresh hP hd) hf le_rfl hreg hpos hinc (le_max_left _ _) (le_max_right _ _)
    (max_lt hlt hmax) hn (fun i => hr i _ rfl)

/-- the gaps used by the backward pass of DDP and FDDP. -/
def DDP.usedGaps (s : DDP P) : ℕ → Vec K P.ndx := fun t => if s.feas then 0 else s.e.fs t

theorem ddp_direction_iff_stored {k : DDP.Kind P} (hk : DDP.IsSolver k) {llt : LLT K} (hllt : LLTExact llt) {s : DDP P}
    (hsym : SymHess s.y.data) : (k.dir llt false s).isOk = true ↔
      (lqOf s.y.data s.usedGaps s.preg s.dreg).PosCurv ∧ (lqOf s.y.data s.usedGaps s.preg s.dreg).InRange := by
  have key := C57_backward_iff (fs := s.e.fs) (feas := s.feas) (preg := s.preg) (dreg := s.dreg) hllt hsym s.e.bp
  unfold DDP.usedGaps
  rw [← key, hk.laws.dir_isOk]
  change (backwardPass llt s.y.data s.e.fs s.feas s.preg s.dreg s.e.bp).isOk = true ↔ _
  cases backwardPass llt s.y.data s.e.fs s.feas s.preg s.dreg s.e.bp with
  | ok b => exact ⟨fun _ => ⟨b, rfl⟩, fun _ => rfl⟩
  | exn b => exact ⟨fun h => (by cases h), fun ⟨_, h⟩ => (by cases h)⟩

theorem ddp_retry_cures {k : DDP.Kind P} (hk : DDP.IsSolver k) {llt : LLT K} (hllt : LLTExact llt) {H B : K} :
    ∀ (n : ℕ) (s : DDP P), s.recalc = false → SymHess s.y.data → hessSum s.y.data ≤ H → s.dreg = s.preg → 0 < s.preg →
      1 < s.c.par.regInc → s.preg ≤ B → H * s.c.par.regInc ≤ B → B < s.c.par.regMax → H < s.preg * s.c.par.regInc ^ n →
      (∀ i, s.preg * s.c.par.regInc ^ i ≤ B → (lqOf s.y.data s.usedGaps (s.preg * s.c.par.regInc ^ i) (s.preg * s.c.par.regInc ^ i)).PosCurv →
        (lqOf s.y.data s.usedGaps (s.preg * s.c.par.regInc ^ i) (s.preg * s.c.par.regInc ^ i)).InRange) →
      ∃ s1, DDP.retry k llt (n + 1) s = some (true, s1) ∧ s1.preg ≤ B ∧ s1.dreg = s1.preg := by
  intro n
  induction n with
  | zero =>
    intro s h1 h2 h3 h4 h5 h6 h7 h8 h9 h10 h11
    have hlive : H < s.preg → (lqOf s.y.data s.usedGaps s.preg s.dreg).PosCurv ∧ (lqOf s.y.data s.usedGaps s.preg s.dreg).InRange := fun hh => by
      have hp : (lqOf s.y.data s.usedGaps s.preg s.preg).PosCurv := posCurv_of_large (h3.trans hh.le) (lt_of_le_of_lt h3 hh)
      have h0 := h11 0
      rw [pow_zero, mul_one] at h0
      rw [h4]
      exact ⟨hp, h0 h7 hp⟩
    rw [pow_zero, mul_one] at h10
    have hok := (ddp_direction_iff_stored hk hllt h2).mpr (hlive h10)
    obtain ⟨b, g, e⟩ := hk.laws.dir llt false s
    cases hd : k.dir llt false s with
    | ok s1 =>
      rw [hd] at e
      have e : s1 = _ := e
      refine ⟨s1, by unfold DDP.retry; rw [h1, hd], by rw [e]; exact h7, by rw [e]; exact h4⟩
    | exn s1 => rw [hd] at hok; cases hok
  | succ n ih =>
    intro s h1 h2 h3 h4 h5 h6 h7 h8 h9 h10 h11
    have hlive : H < s.preg → (lqOf s.y.data s.usedGaps s.preg s.dreg).PosCurv ∧ (lqOf s.y.data s.usedGaps s.preg s.dreg).InRange := fun hh => by
      have hp : (lqOf s.y.data s.usedGaps s.preg s.preg).PosCurv := posCurv_of_large (h3.trans hh.le) (lt_of_le_of_lt h3 hh)
      have h0 := h11 0
      rw [pow_zero, mul_one] at h0
      rw [h4]
      exact ⟨hp, h0 h7 hp⟩
    obtain ⟨b, g, e⟩ := hk.laws.dir llt false s
    cases hd : k.dir llt false s with
    | ok s1 =>
      rw [hd] at e
      have e : s1 = _ := e
      refine ⟨s1, by unfold DDP.retry; rw [h1, hd], by rw [e]; exact h7, by rw [e]; exact h4⟩
    | exn s1 =>
      have hle : s.preg ≤ H := by
        by_contra hn
        have hn := not_le.mp hn
        have hok := (ddp_direction_iff_stored hk hllt h2).mpr (hlive hn)
        rw [hd] at hok
        cases hok
      rw [hd] at e
      have e : s1 = { s with e := { s.e with bp := b, gap := g } } := e
      have hB : s.preg * s.c.par.regInc ≤ B := (mul_le_mul_of_nonneg_right hle (by linarith)).trans h8
      have hn : incReg s.c.par s.preg = s.preg * s.c.par.regInc := by
        rw [incReg_exact, min_eq_right (hB.trans h9.le)]
      obtain ⟨s2, g1, g2, g3⟩ := ih ({ s1 with recalc := false } : DDP P).increaseReg rfl (by rw [e]; exact h2) (by rw [e]; exact h3) rfl
        (by rw [e]; change 0 < incReg s.c.par s.preg; rw [hn]; exact mul_pos h5 (by linarith)) (by rw [e]; exact h6)
        (by rw [e]; change incReg s.c.par s.preg ≤ B; rw [hn]; exact hB) (by rw [e]; exact h8) (by rw [e]; exact h9)
        (by rw [e]; change H < incReg s.c.par s.preg * s.c.par.regInc ^ n; rw [hn, mul_assoc, ← pow_succ']; exact h10)
        (by
          intro i
          rw [e]
          change incReg s.c.par s.preg * s.c.par.regInc ^ i ≤ B → (lqOf s.y.data s.usedGaps (incReg s.c.par s.preg * s.c.par.regInc ^ i)
            (incReg s.c.par s.preg * s.c.par.regInc ^ i)).PosCurv → (lqOf s.y.data s.usedGaps (incReg s.c.par s.preg * s.c.par.regInc ^ i)
            (incReg s.c.par s.preg * s.c.par.regInc ^ i)).InRange
          rw [hn, mul_assoc, ← pow_succ']
          exact h11 (i + 1))
      refine ⟨s2, ?_, g2, g3⟩
      unfold DDP.retry
      rw [h1, hd]
      have hne : eqb ({ s1 with recalc := false } : DDP P).increaseReg.preg ({ s1 with recalc := false } : DDP P).increaseReg.c.par.regMax
          = false := by
        have : ({ s1 with recalc := false } : DDP P).increaseReg.preg ≠ ({ s1 with recalc := false } : DDP P).increaseReg.c.par.regMax := by
          rw [e]
          change incReg s.c.par s.preg ≠ s.c.par.regMax
          rw [hn]
          exact ne_of_lt (lt_of_le_of_lt hB h9)
        simpa using this
      simp only [hne]
      exact g1

theorem ddp_dir_recalc {k : DDP.Kind P} (hk : DDP.IsSolver k) (llt : LLT K) (s : DDP P) :
    k.dir llt false { s.calcDiff with recalc := false } = (k.dir llt true s).map fun s => { s with recalc := false } := by
  rcases hk with rfl | rfl
  · change (backwardPass llt s.calcDiff.y.data s.calcDiff.e.fs s.feas s.preg s.dreg s.calcDiff.e.bp).map _ =
      ((backwardPass llt s.calcDiff.y.data s.calcDiff.e.fs s.feas s.preg s.dreg s.calcDiff.e.bp).map _).map _
    cases backwardPass llt s.calcDiff.y.data s.calcDiff.e.fs s.feas s.preg s.dreg s.calcDiff.e.bp <;> rfl
  · change (backwardPass llt s.calcDiff.y.data s.calcDiff.e.fs s.feas s.preg s.dreg s.calcDiff.e.bp).map _ =
      ((backwardPass llt s.calcDiff.y.data s.calcDiff.e.fs s.feas s.preg s.dreg s.calcDiff.e.bp).map _).map _
    cases backwardPass llt s.calcDiff.y.data s.calcDiff.e.fs s.feas s.preg s.dreg s.calcDiff.e.bp <;> rfl

/-- **C57 (cure, DDP and FDDP).** -/
theorem C57_ddp_retry_cures {k : DDP.Kind P} (hk : DDP.IsSolver k) {llt : LLT K} (hllt : LLTExact llt) (hP : SymProblem P) {s : DDP P}
    (hrec : s.recalc = true) (hreg : s.dreg = s.preg) (hpos : 0 < s.preg) (hlt : s.preg < s.c.par.regMax) (hinc : 1 < s.c.par.regInc)
    (hmax : hessSum s.calcDiff.y.data * s.c.par.regInc < s.c.par.regMax) {n : ℕ}
    (hn : hessSum s.calcDiff.y.data < s.preg * s.c.par.regInc ^ n)
    (hr : ∀ i r, r = s.preg * s.c.par.regInc ^ i → r ≤ max s.preg (hessSum s.calcDiff.y.data * s.c.par.regInc) →
      (lqOf s.calcDiff.y.data s.calcDiff.usedGaps r r).PosCurv → (lqOf s.calcDiff.y.data s.calcDiff.usedGaps r r).InRange) :
    ∃ s1, DDP.retry k llt (n + 1) s = some (true, s1) ∧
      s1.preg ≤ max s.preg (hessSum s.calcDiff.y.data * s.c.par.regInc) ∧ s1.dreg = s1.preg := by
  have hd : FreshDiff P s.calcDiff.y.data s.xs s.us := by
    unfold DDP.calcDiff
    exact ⟨fun t ht => by simp [Data.calcDiffAll, ht], rfl⟩
  have main := ddp_retry_cures (B := max s.preg (hessSum s.calcDiff.y.data * s.c.par.regInc)) hk hllt n
    ({ s.calcDiff with recalc := false } : DDP P) rfl (symHess_of_fresh hP hd) le_rfl hreg hpos hinc (le_max_left _ _)
    (le_max_right _ _) (max_lt hlt hmax) hn (fun i => hr i _ rfl)
  obtain ⟨s1, g1, g2, g3⟩ := main
  unfold DDP.retry at g1 ⊢
  rw [hrec]
  have hr0 := ddp_dir_recalc hk llt s
  cases hd : k.dir llt true s with
  | ok s2 =>
    rw [hd] at hr0
    simp only [] at g1
    rw [hr0] at g1
    have g1 : some (true, ({ s2 with recalc := false } : DDP P)) = some (true, s1) := g1
    cases g1
    exact ⟨s2, rfl, g2, g3⟩
  | exn s2 =>
    rw [hd] at hr0
    simp only [] at g1
    rw [hr0] at g1
    exact ⟨s1, g1, g2, g3⟩

/-! ### examples -/

namespace Ex

theorem m1_form (a : ℚ) (ξ υ : Fin 1 → ℚ) : ξ ⬝ᵥ (m1 a *ᵥ υ) = a * (ξ 0 * υ 0) := by
  simp only [dotProduct, Matrix.mulVec, m1, Fin.sum_univ_one, Matrix.of_apply]
  ring

theorem m1_convex (a b : ℚ) (ha : 0 ≤ a) (hb : 0 ≤ b) (ξ υ : Fin 1 → ℚ) :
    0 ≤ ξ ⬝ᵥ (m1 a *ᵥ ξ) + 2 * (ξ ⬝ᵥ (m1 (0 : ℚ) *ᵥ υ)) + υ ⬝ᵥ (m1 b *ᵥ υ) := by
  rw [m1_form, m1_form, m1_form]
  nlinarith [mul_self_nonneg (ξ 0), mul_self_nonneg (υ 0), mul_nonneg ha (mul_self_nonneg (ξ 0)), mul_nonneg hb (mul_self_nonneg (υ 0))]

theorem m1_pos (a : ℚ) (ha : 0 < a) : PosDef (m1 a) := by
  intro υ hυ
  have h0 : υ 0 ≠ 0 := fun h => hυ (funext fun i => by rw [Fin.fin_one_eq_zero i]; exact h)
  rw [m1_form]
  exact mul_pos ha (mul_self_pos.mpr h0)

theorem lq_convex : ConvexProblem lq where
  stage _ _ _ _ ξ υ := m1_convex 1 1 zero_le_one zero_le_one ξ υ
  term _ ξ := by
    have h : ξ ⬝ᵥ (m1 (1 : ℚ) *ᵥ ξ) = _ := m1_form 1 ξ ξ
    change 0 ≤ ξ ⬝ᵥ (m1 (1 : ℚ) *ᵥ ξ)
    rw [h, one_mul]
    exact mul_self_nonneg _

theorem lq_strict : StrictControls lq := fun _ _ _ _ => m1_pos 1 one_pos

theorem scalar_sym (T : ℕ) (q r qT x0 : ℚ) : SymProblem (scalar T q r qT x0) := by
  have : ∀ a : ℚ, (m1 a)ᵀ = m1 a := fun a => by ext i j; rfl
  exact ⟨fun _ _ _ _ => this _, fun _ _ _ _ => this _, fun _ => this _⟩

theorem inRange_of_ok {P : Problem ℚ} (hP : SymProblem P) {s : SQP P} (hf : s.feas = false)
    (h : (SQP.computeDirection llt1 true s).isOk = true) :
    (lqOf s.calcDiff.data s.calcDiff.fs s.preg s.dreg).PosCurv ∧ (lqOf s.calcDiff.data s.calcDiff.fs s.preg s.dreg).InRange := by
  refine (C57_sqp_direction_iff llt1_exact hP hf).mp ?_
  cases e : SQP.computeDirection llt1 true s with
  | ok s1 => exact ⟨s1, rfl⟩
  | exn s1 => rw [e] at h; cases h

/-- **C57, the convex case is met**: `lq` from the cold start, without regularization. -/
theorem C57_convex_example : SymProblem lq ∧ ConvexProblem lq ∧ StrictControls lq ∧ (lqSolver.start none none 0).feas = false ∧
    (lqOf (lqSolver.start none none 0).calcDiff.data (lqSolver.start none none 0).calcDiff.fs 0 0).InRange :=
  ⟨scalar_sym _ _ _ _ _, lq_convex, lq_strict, rfl,
    (inRange_of_ok (s := lqSolver.start none none 0) (scalar_sym _ _ _ _ _) rfl (by decide +kernel)).2⟩

/-- a solver on the non-convex problem `concave` that starts with regularization `1/10`. -/
def cured : SQP concave := (SQP.new (Data.zero concave)).start none none (1 / 10)

theorem cured_sum : hessSum cured.calcDiff.data = 4 := by decide +kernel

theorem cured_not : ¬ (lqOf cured.calcDiff.data cured.calcDiff.fs (1 / 10) (1 / 10)).PosCurv := by
  intro h
  have := h (fun t => if t = 2 then fun _ => (1 : ℚ) else 0) (fun t => if t = 1 then fun _ => (1 : ℚ) else 0)
    ⟨by decide +kernel, by decide +kernel⟩ ⟨1, by decide +kernel, by decide +kernel⟩
  revert this
  decide +kernel

/-- **C57, the cure is met**: on `concave` the first attempt (`1/10`) fails, and all hypotheses of `C57_sqp_retry_cures` hold with
`n = 2`. -/
theorem C57_cure_example : (SQP.computeDirection llt1 true cured).isOk = false ∧ cured.feas = false ∧ cured.dreg = cured.preg ∧
    0 < cured.preg ∧ cured.preg < cured.par.regMax ∧ 1 < cured.par.regInc ∧
    hessSum cured.calcDiff.data * cured.par.regInc < cured.par.regMax ∧ hessSum cured.calcDiff.data < cured.preg * cured.par.regInc ^ 2 ∧
    ∀ i r, r = cured.preg * cured.par.regInc ^ i → r ≤ max cured.preg (hessSum cured.calcDiff.data * cured.par.regInc) →
      (lqOf cured.calcDiff.data cured.calcDiff.fs r r).PosCurv → (lqOf cured.calcDiff.data cured.calcDiff.fs r r).InRange := by
  refine ⟨by decide +kernel, rfl, rfl, by decide +kernel, by decide +kernel, by decide +kernel, by rw [cured_sum]; decide +kernel,
    by rw [cured_sum]; decide +kernel, ?_⟩
  intro i r hr hB hp
  rw [cured_sum] at hB
  have e1 : cured.preg = 1 / 10 := rfl
  have e2 : cured.par.regInc = 10 := by decide +kernel
  rw [e1, e2] at hr
  rw [e1, e2] at hB
  have hB : r ≤ 40 := hB.trans (by norm_num)
  match i, hr with
  | 0, hr =>
    rw [pow_zero, mul_one] at hr
    subst hr
    exact absurd hp cured_not
  | 1, hr =>
    have hr : r = 1 := hr.trans (by norm_num)
    subst hr
    exact (inRange_of_ok (s := { cured with preg := 1, dreg := 1 }) (scalar_sym _ _ _ _ _) rfl (by decide +kernel)).2
  | 2, hr =>
    have hr : r = 10 := hr.trans (by norm_num)
    subst hr
    exact (inRange_of_ok (s := { cured with preg := 10, dreg := 10 }) (scalar_sym _ _ _ _ _) rfl (by decide +kernel)).2
  | i + 3, hr =>
    exfalso
    have : (1 : ℚ) ≤ 10 ^ i := one_le_pow₀ (by norm_num)
    rw [pow_add] at hr
    linarith

end Ex
end Mim
