import Verif.Props.ProxFilter
import Verif.Props.CSQPRecognise

/-!
# C67 (PROXQP): the solver recognises an exact solution it is started at
-/
set_option linter.unusedSectionVars false
set_option linter.unusedSimpArgs false

namespace Mim
open Matrix Spec QP
variable {K : Type} [Field K] [LinearOrder K] [IsStrictOrderedRing K] {P : Problem K}

theorem stageCost_half {T n : ℕ} {m : ℕ → ℕ} (Q : LQ K T n m) (t : ℕ) (x : Vec K n) (u : Vec K (m t)) :
    Q.stageCost t ((2⁻¹ : K) • x) ((2⁻¹ : K) • u) = Q.stageCost t x u / 2 -
      (x ⬝ᵥ (Q.Hxx t *ᵥ x) + 2 * (x ⬝ᵥ (Q.Hxu t *ᵥ u)) + u ⬝ᵥ (Q.Huu t *ᵥ u)) / 8 := by
  simp only [LQ.stageCost, mulVec_smul, smul_dotProduct, dotProduct_smul, smul_eq_mul]
  ring

/-- the cost at half a step. -/
theorem cost_half {T n : ℕ} {m : ℕ → ℕ} (Q : LQ K T n m) (x : ℕ → Vec K n) (u : (t : ℕ) → Vec K (m t)) :
    Q.cost (fun t => (2⁻¹ : K) • x t) (fun t => (2⁻¹ : K) • u t) = Q.cost x u / 2 - Q.curv x u / 8 := by
  unfold LQ.cost LQ.curv
  rw [Finset.sum_congr rfl fun t _ => stageCost_half Q t (x t) (u t), Finset.sum_sub_distrib, ← Finset.sum_div, ← Finset.sum_div]
  simp only [mulVec_smul, smul_dotProduct, dotProduct_smul, smul_eq_mul]
  ring

/-- a convex QP with positive curvature that is solved by the zero step has no other solution. -/
theorem zero_unique {d : Data P} {fs : ℕ → Vec K P.ndx} (hs : SymHess d) (hc : Convex d 0 0) (hp : (lqOf d fs 0 0).PosCurv)
    {lam lam' : ℕ → Vec K P.ndx} {y y' : (t : ℕ) → Vec K (P.ng t)} {x : ℕ → Vec K P.ndx} {u : (t : ℕ) → Vec K (P.nu t)}
    (h0 : QPKKT d fs 0 0 (fun _ => 0) (fun _ => 0) lam y) (h : QPKKT d fs 0 0 x u lam' y') :
    (∀ t, t ≤ P.T → x t = 0) ∧ ∀ t, t < P.T → u t = 0 := by
  have hfs : ∀ t, t < P.T → fs (t + 1) = 0 := by
    intro t ht
    have := h0.feas.dyn t ht
    simpa using this.symm
  have hz : (lqOf d fs 0 0).cost (fun _ => 0) (fun _ => 0) = 0 := by
    unfold LQ.cost LQ.stageCost
    simp
  have hu : ∀ t, t < P.T → u t = 0 := by
    by_contra hne
    push Not at hne
    have hdir : (lqOf d fs 0 0).Direction x u := ⟨h.feas.start, fun t ht => by
      have := h.feas.dyn t ht
      rw [hfs t ht, add_zero] at this
      exact this⟩
    have hcv := hp x u hdir hne
    have hbox : ∀ {n : ℕ} {lb ub : Fin n → Option K} {g c : Vec K n}, InBox lb ub (g + 0) → InBox lb ub (g + c) →
        InBox lb ub (g + (2⁻¹ : K) • c) := by
      intro n lb ub g c h1 h2 i
      have a1 := h1 i
      have a2 := h2 i
      refine ⟨fun l hl => ?_, fun w hw => ?_⟩
      · have b1 := a1.1 l hl
        have b2 := a2.1 l hl
        simp only [Pi.add_apply, Pi.zero_apply, add_zero, Pi.smul_apply, smul_eq_mul] at b1 b2 ⊢
        linarith
      · have b1 := a1.2 w hw
        have b2 := a2.2 w hw
        simp only [Pi.add_apply, Pi.zero_apply, add_zero, Pi.smul_apply, smul_eq_mul] at b1 b2 ⊢
        linarith
    have hcl0 : ∀ t, conLin d t 0 0 = 0 := by intro t; unfold conLin; simp
    have hclh : ∀ t, conLin d t ((2⁻¹ : K) • x t) ((2⁻¹ : K) • u t) = (2⁻¹ : K) • conLin d t (x t) (u t) := by
      intro t; unfold conLin; rw [mulVec_smul, mulVec_smul, smul_add]
    have hfeas : QPFeasible d fs (fun t => (2⁻¹ : K) • x t) (fun t => (2⁻¹ : K) • u t) := by
      refine ⟨?_, fun t ht => ?_, fun t ht => ?_, ?_⟩
      · simp only [h.feas.start, smul_zero]
      · change (2⁻¹ : K) • x (t + 1) = (d.rd t).Fx *ᵥ ((2⁻¹ : K) • x t) + (d.rd t).Fu *ᵥ ((2⁻¹ : K) • u t) + fs (t + 1)
        rw [h.feas.dyn t ht, hfs t ht, add_zero, add_zero, mulVec_smul, mulVec_smul, smul_add]
      · have := hbox (by have := h0.feas.con t ht; rw [hcl0] at this; exact this) (h.feas.con t ht)
        change InBox _ _ ((d.run t).g + conLin d t ((2⁻¹ : K) • x t) ((2⁻¹ : K) • u t))
        rw [hclh]
        exact this
      · have := hbox (by have := h0.feas.conT; rw [mulVec_zero] at this; exact this) h.feas.conT
        change InBox _ _ (d.ter.g + d.td.Gx *ᵥ ((2⁻¹ : K) • x P.T))
        rw [mulVec_smul]
        exact this
    have g1 := QPKKT.global hs hc h0 hfeas
    have g2 := QPKKT.global hs hc h h0.feas
    rw [cost_half, hz] at g1
    rw [hz] at g2
    linarith
  refine ⟨fun t => ?_, hu⟩
  induction t with
  | zero => intro _; exact h.feas.start
  | succ t ih =>
    intro ht
    rw [h.feas.dyn t ht, ih (by omega), hu t ht, hfs t ht]
    simp

namespace PROX
variable {qp : PSolve K} {fuel : ℕ} {m : ℕ} {ri : K} {s0 : PROX P}

/-- at a point that satisfies the optimality conditions exactly the zero step solves the QP. -/
theorem zeroKKT {s : PROX P} (he : Evald s) {lam : ℕ → Vec K P.ndx} {y : (t : ℕ) → Vec K (P.ng t)}
    (hk : IsPKKT P 0 s.xs s.us lam y) (hc : Complementary P s.xs s.us y) :
    QPKKT s.data s.e.fs 0 0 (fun _ => 0) (fun _ => 0) lam y := by
  have z : ∀ {n : ℕ} {v : Vec K n}, (∀ i, |v i| ≤ 0) → v = 0 := fun h => funext fun i => abs_nonpos_iff.mp (h i)
  obtain ⟨b1, b2⟩ := inBox_of_violation hk.feas
  have hcl0 : ∀ t, conLin s.data t 0 0 = 0 := by intro t; unfold conLin; simp
  refine ⟨⟨rfl, fun t ht => ?_, fun t ht => ?_, ?_⟩, fun t h0 ht => ?_, fun t ht => ?_, ?_, fun t ht => ?_, ?_⟩
  · rw [he.fs t ht, z (hk.gaps t ht)]; simp
  · rw [hcl0, add_zero, he.fresh.run t ht]; exact b1 t ht
  · rw [mulVec_zero, add_zero, he.fresh.ter]; exact b2
  · have := z (hk.stat_x t h0 ht)
    simp only [mulVec_zero, smul_zero, add_zero, zero_add]
    rw [he.diff.run t ht, ← sub_eq_zero, ← this]; abel
  · have := z (hk.stat_u t ht)
    simp only [mulVec_zero, smul_zero, add_zero, zero_add]
    rw [he.diff.run t ht]; exact this
  · have := z hk.stat_T
    simp only [mulVec_zero, smul_zero, add_zero, zero_add]
    rw [he.diff.ter, ← sub_eq_zero, ← this]; abel
  · rw [hcl0, add_zero, he.fresh.run t ht]; exact hc.1 t ht
  · rw [mulVec_zero, add_zero, he.fresh.ter]; exact hc.2

/-- the multipliers of a QP that is solved by the zero step have residual zero. -/
theorem residual_zero {s : PROX P} (he : Evald s) {x lam : ℕ → Vec K P.ndx} {u : (t : ℕ) → Vec K (P.nu t)} {y : (t : ℕ) → Vec K (P.ng t)}
    (hx : ∀ t, t ≤ P.T → x t = 0) (hu : ∀ t, t < P.T → u t = 0) (hT : 0 < P.T) (h : QPKKT s.data s.e.fs 0 0 x u lam y)
    (hv : s.e.con ≤ 0) : residual s.data s.e.fs lam y s.e.con ≤ 0 := by
  rw [C05_prox_residual_meaning _ _ _ _ _ _ le_rfl]
  have z : ∀ {n : ℕ} {v : Vec K n}, v = 0 → ∀ i, |v i| ≤ 0 := fun h i => by rw [h]; simp
  refine ⟨fun t h0 ht => z ?_, fun t ht => z ?_, z ?_, fun t ht => z ?_, hv⟩
  · have := h.stat_x t h0 ht
    rw [hx t ht.le, hu t ht] at this
    simp only [mulVec_zero, smul_zero, add_zero, zero_add] at this
    rw [← sub_eq_zero] at this
    rw [← this]; abel
  · have := h.stat_u t ht
    rw [hx t ht.le, hu t ht] at this
    simp only [mulVec_zero, smul_zero, add_zero, zero_add] at this
    exact this
  · have := h.stat_T
    rw [hx _ le_rfl] at this
    simp only [mulVec_zero, smul_zero, add_zero, zero_add] at this
    rw [← sub_eq_zero] at this
    rw [← this]; abel
  · have := h.feas.dyn t ht
    rw [hx _ ht, hx t ht.le, hu t ht] at this
    simpa using this.symm

/-- the first attempt succeeds. -/
theorem retry_first (hf : 0 < fuel) {s : PROX P} {a : PAns K} (ha : qp s.nQP (head s).m = some a) :
    retry qp fuel true { s with wasFeas := false } = some (true, readAnswer a (asked (head s) 0)) := by
  obtain ⟨n, rfl⟩ : ∃ n, fuel = n + 1 := ⟨fuel - 1, by omega⟩
  rw [retry_true_eq, retry_false_step]
  have ha' : qp (head s).nQP (head s).m = some a := ha
  change (match qp (head s).nQP (head s).m with | some a => _ | none => _) = _
  rw [ha']

/-- the regularization does not end the iteration when it is far from its upper bound. -/
theorem updateReg_far {s : PROX P} (hp : RegOK s.c.par) (h0 : 0 ≤ s.preg) (h1 : s.preg * s.c.par.regInc < s.c.par.regMax)
    (h2 : s.c.par.regMin * s.c.par.regInc < s.c.par.regMax) : s.updateReg.1 = false := by
  have hi : ∀ r, r * s.c.par.regInc < s.c.par.regMax → eqb (incReg s.c.par r) s.c.par.regMax = false := by
    intro r hr
    rw [incReg_exact, min_eq_right hr.le]
    simpa using hr.ne
  have hinc : (0 : K) ≤ s.c.par.regInc := by have := hp.inc; linarith
  have hd : decReg s.c.par s.preg * s.c.par.regInc < s.c.par.regMax := by
    rw [decReg_exact]
    rcases max_choice s.c.par.regMin (s.preg / s.c.par.regDec) with e | e <;> rw [e]
    · exact h2
    · refine lt_of_le_of_lt (mul_le_mul_of_nonneg_right ?_ hinc) h1
      exact div_le_self h0 hp.dec.le
  unfold updateReg
  by_cases hs : ltb s.c.par.thStepDec s.steplength = true
  · simp only [hs, if_true]
    split
    · exact hi _ hd
    · rfl
  · simp only [hs, if_false, Bool.false_eq_true]
    split
    · exact hi _ h1
    · rfl

/-- **C67 (PROXQP).**  In exact arithmetic, on a convex problem with costs that are strictly convex in the controls, with an exact QP
solver that answers the QPs of the first two iterations: if `solve` is started at a trajectory that satisfies the optimality conditions of the
constrained problem exactly, it returns true in its first or second iteration with the trajectory unchanged - whatever multipliers the
solver holds from before, whatever step lengths, filter or merit function it uses - provided the initial regularization is not within
one increase of its upper bound. -/
theorem C67_prox_recognises (hr : Reachable s0) (hT : 0 < P.T) (hcols : ColsOK P) (hqp : QPExact P.nVars P.nEq P.nIn qp)
    (hp : Spec.SymProblem P) (hC : ConvexProblem P) (hS : StrictControls P) (hint : ∀ x : P.X, P.integrate x 0 = x)
    (hreg : RegOK s0.c.par) (hri : 0 ≤ ri) (hmax : max s0.c.par.regMin ri * s0.c.par.regInc < s0.c.par.regMax)
    (htol : 0 ≤ s0.c.tol) (hm : 2 ≤ m) (hf : 0 < fuel)
    {xs : Traj P} {us : Ctrls P} (hx0 : xs 0 = P.x0) {lam : ℕ → Vec K P.ndx} {y : (t : ℕ) → Vec K (P.ng t)} (hk : IsPKKT P 0 xs us lam y)
    (hcomp : Complementary P xs us y)
    (hans : ∀ s, AtHead qp fuel (some xs) (some us) m ri s0 s → s.iter ≤ 1 → ∃ a, qp s.nQP (head s).m = some a) :
    ∃ s', solve qp fuel (some xs) (some us) m ri s0 = some (true, s') ∧ s'.iter ≤ 1 ∧ (∀ t, t ≤ P.T → s'.xs t = xs t) ∧
      (∀ t, t < P.T → s'.us t = us t) := by
  have hinc : (0 : K) ≤ s0.c.par.regInc := by have := hreg.inc; linarith
  have hfar1 : ri * s0.c.par.regInc < s0.c.par.regMax := lt_of_le_of_lt (mul_le_mul_of_nonneg_right (le_max_right _ _) hinc) hmax
  have hfar2 : s0.c.par.regMin * s0.c.par.regInc < s0.c.par.regMax :=
    lt_of_le_of_lt (mul_le_mul_of_nonneg_right (le_max_left _ _) hinc) hmax
  obtain ⟨m, rfl⟩ : ∃ k, m = k + 2 := ⟨m - 2, by omega⟩
  set s1 := s0.start (some xs) (some us) ri with hs1
  have hxs1 : s1.xs = xs := by
    change Function.update (β := fun _ => P.X) xs 0 P.x0 = xs
    rw [← hx0]; exact Function.update_eq_self 0 xs
  have hus1 : s1.us = us := rfl
  have hhead : AtHead qp fuel (some xs) (some us) (m + 2) ri s0 s1 := .start
  obtain ⟨a, ha⟩ := hans s1 hhead (Nat.zero_le 1)
  have hret := retry_first hf ha
  obtain ⟨_, hdiff, hkk⟩ := C40_prox_direction_kkt hr hT hcols hqp hhead hret
  obtain ⟨k1, k2, k3, k4, k5, k6, k7⟩ := retry_keeps hret
  set s2 := readAnswer a (asked (head s1) 0) with hs2
  have hsx : s2.xs = xs := k3.trans hxs1
  have hsu : s2.us = us := k4.trans hus1
  have hsym : SymHess s2.data := ⟨fun t ht => by rw [k5.diff.run t ht]; exact hp.xx t ht _ _, fun t ht => by
    rw [k5.diff.run t ht]; exact hp.uu t ht _ _, by rw [k5.diff.ter]; exact hp.T _⟩
  have hcx : Convex s2.data 0 0 := ⟨fun t ht x u => by
      rw [k5.diff.run t ht]; have := hC.stage t ht (s2.xs t) (s2.us t) x u; simpa using this, fun x => by
      rw [k5.diff.ter]; have := hC.term (s2.xs P.T) x; simpa using this⟩
  have hpc : (lqOf s2.data s2.e.fs 0 0).PosCurv := posCurv_of_convexData le_rfl le_rfl
    (fun t ht x u => by rw [k5.diff.run t ht]; exact hC.stage t ht _ _ x u) (fun x => by rw [k5.diff.ter]; exact hC.term _ x)
    (.inl fun t ht => by rw [k5.diff.run t ht]; exact hS t ht _ _)
  have hzero := zeroKKT (s := s2) k5 (lam := lam) (y := y) (by rw [hsx, hsu]; exact hk) (by rw [hsx, hsu]; exact hcomp)
  obtain ⟨zx, zu⟩ := zero_unique hsym hcx hpc hzero hkk
  have hc2 : s2.c = s0.c := by simp only [fpart, Prod.mk.injEq] at k1; exact k1.1
  -- the first iteration
  unfold solve
  rw [← hs1]
  have hbody : body qp fuel s1 = if leb s2.KKT s2.c.tol then some (some true, s2.callbacks)
      else some (none, s2.pushFilter.search.updateReg.2.callbacks) := by
    unfold body
    rw [hret]
    simp only []
    have hu : s2.pushFilter.search.updateReg.1 = false := by
      obtain ⟨d, w, iw, n, r, xs, us, fe, ac, sl, _, _, e⟩ := search_set s2.pushFilter
      have hp2 : s2.pushFilter.search.preg = ri := by
        rw [e]
        change initReg s0.c.par ri = ri
        exact initReg_exact _ _
      have hc3 : s2.pushFilter.search.c = s0.c := by rw [e]; exact hc2
      refine updateReg_far ?_ ?_ ?_ ?_
      · rw [hc3]; exact hreg
      · rw [hp2]; exact hri
      · rw [hp2, hc3]; exact hfar1
      · rw [hc3]; exact hfar2
    rw [hu]
    rfl
  unfold iterate
  rw [hbody]
  by_cases hkt : leb s2.KKT s2.c.tol = true
  · rw [if_pos hkt]
    refine ⟨_, rfl, ?_, fun t ht => ?_, fun t ht => ?_⟩
    · change s2.iter ≤ 1; rw [k2]; exact Nat.zero_le 1
    · change s2.xs t = _; rw [hsx]
    · change s2.us t = _; rw [hsu]
  · rw [if_neg hkt]
    simp only []
    -- the second iteration
    set s3 : PROX P := { s2.pushFilter.search.updateReg.2.callbacks with iter := s2.pushFilter.search.updateReg.2.callbacks.iter + 1 } with hs3
    have hhead3 : AtHead qp fuel (some xs) (some us) (m + 2) ri s0 s3 := by
      refine .next hhead ?_ (by rw [hbody, if_neg hkt])
      change 0 < m + 2
      omega
    obtain ⟨p, dr, e2⟩ := updateReg_set s2.pushFilter.search
    have e3 : s3.xs = s2.pushFilter.search.xs ∧ s3.us = s2.pushFilter.search.us ∧ s3.lam = s2.pushFilter.search.lam ∧
        s3.y = s2.pushFilter.search.y ∧ s3.iter = s2.pushFilter.search.iter + 1 ∧ s3.c = s2.pushFilter.search.c := by
      rw [hs3, e2]; exact ⟨rfl, rfl, rfl, rfl, rfl, rfl⟩
    obtain ⟨d, w, iw, n, r, xs', us', fe, ac, sl, _, _, e⟩ := search_set s2.pushFilter
    have e4 : s3.lam = s2.lam ∧ s3.y = s2.y ∧ s3.iter = 1 ∧ s3.c = s0.c := by
      obtain ⟨_, _, a1, a2, a3, a4⟩ := e3
      rw [a1, a2, a3, a4, e]
      refine ⟨rfl, rfl, ?_, hc2⟩
      change s2.iter + 1 = 1
      rw [k2]; rfl
    have hx3 : (∀ t, t ≤ P.T → s3.xs t = xs t) ∧ ∀ t, t < P.T → s3.us t = us t := by
      rw [e3.1, e3.2.1]
      rcases C16_prox_first_acceptable s2.pushFilter with ⟨pre, b, post, _, _, _, q4, q5, _⟩ | ⟨_, q3, q4, _⟩
      · refine ⟨fun t ht => ?_, fun t ht => ?_⟩
        · rw [q4 t ht]
          change P.integrate (s2.xs t) (sv b (s2.dx t)) = _
          rw [zx t ht, sv_exact, smul_zero, hint, hsx]
        · rw [q5 t ht]
          change s2.us t + sv b (s2.du t) = _
          rw [zu t ht, sv_exact, smul_zero, add_zero, hsu]
      · rw [q3, q4]
        exact ⟨fun t _ => by change s2.xs t = _; rw [hsx], fun t _ => by change s2.us t = _; rw [hsu]⟩
    obtain ⟨a', ha'⟩ := hans s3 hhead3 e4.2.2.1.le
    have hret3 := retry_first hf ha'
    have he3 := head_evald s3
    have hK : residual (head s3).data (head s3).e.fs s3.lam s3.y (head s3).e.con ≤ 0 := by
      -- the optimality conditions with the multipliers of the first QP
      have hr2 : s2.e.con ≤ 0 := by
        letI : SqrtOps K := ⟨id⟩
        rw [k5.con, conViol_exact, hsx, hsu]; exact hk.feas
      have h1 := residual_zero (s := s2) k5 zx zu hT hkk hr2
      rw [C05_prox_residual_meaning _ _ _ _ _ _ le_rfl] at h1 ⊢
      obtain ⟨c1, c2, c3, c4, c5⟩ := h1
      have er : ∀ t, t < P.T → (head s3).data.rd t = s2.data.rd t := by
        intro t ht
        rw [he3.diff.run t ht, k5.diff.run t ht]
        change P.calcDiffR t (s3.xs t) (s3.us t) = _
        rw [hx3.1 t ht.le, hx3.2 t ht, hsx, hsu]
      have et : (head s3).data.td = s2.data.td := by
        rw [he3.diff.ter, k5.diff.ter]
        change P.calcDiffT (s3.xs P.T) = _
        rw [hx3.1 _ le_rfl, hsx]
      have ef : ∀ t, t < P.T → (head s3).e.fs (t + 1) = s2.e.fs (t + 1) := by
        intro t ht
        rw [he3.fs t ht, k5.fs t ht]
        change P.diff (s3.xs (t + 1)) (P.calcR t (s3.xs t) (s3.us t)).xnext = P.diff (s2.xs (t + 1)) (P.calcR t (s2.xs t) (s2.us t)).xnext
        rw [hx3.1 _ ht, hx3.1 t ht.le, hx3.2 t ht, hsx, hsu]
      have ec : (head s3).e.con = s2.e.con := by
        rw [he3.con, k5.con]
        obtain ⟨_, _, _, e4, _⟩ := CSQP.eval_congr (P := P) (xs := (head s3).xs) (us := (head s3).us) (xs' := s2.xs) (us' := s2.us)
          (fun t ht => by change s3.xs t = _; rw [hx3.1 t ht, hsx]) (fun t ht => by change s3.us t = _; rw [hx3.2 t ht, hsu])
        exact e4
      rw [e4.1, e4.2.1, et, ec]
      refine ⟨fun t h0 ht => ?_, fun t ht => ?_, c3, fun t ht => ?_, c5⟩
      · rw [er t ht]; exact c1 t h0 ht
      · rw [er t ht]; exact c2 t ht
      · rw [ef t ht]; exact c4 t ht
    have hbody3 : body qp fuel s3 = some (some true, (readAnswer a' (asked (head s3) 0)).callbacks) := by
      unfold body
      rw [hret3]
      simp only []
      rw [if_pos]
      change leb (residual (head s3).data (head s3).e.fs s3.lam s3.y (head s3).e.con) s3.c.tol = true
      rw [e4.2.2.2]
      simpa using hK.trans htol
    unfold iterate
    rw [hbody3]
    refine ⟨_, rfl, ?_, fun t ht => ?_, fun t ht => ?_⟩
    · change s3.iter ≤ 1; rw [e4.2.2.1]
    · exact hx3.1 t ht
    · exact hx3.2 t ht

end PROX

/-! ## non-vacuity and limits -/
namespace Ex
open PROX

/-- the minimum of `clq 1 1 1 1 1`: `u = -1/2`. -/
def solX : Traj (clq 1 1 1 1 1) := fun t => if t = 0 then (1 : ℚ) else (1 / 2 : ℚ)
def solU : Ctrls (clq 1 1 1 1 1) := fun _ _ => -1 / 2
def solLam : ℕ → Vec ℚ 1 := fun _ _ => 1 / 2
def solY : (t : ℕ) → Vec ℚ ((clq 1 1 1 1 1).ng t) := fun _ _ => 0

theorem sol_kkt : IsPKKT (clq 1 1 1 1 1) 0 solX solU solLam solY := by
  refine ⟨fun t h0 ht => ?_, fun t ht => ?_, ?_, fun t ht => ?_, ?_⟩
  · have : t < 1 := ht
    omega
  · obtain rfl : t = 0 := by have : t < 1 := ht; omega
    decide +kernel
  · decide +kernel
  · obtain rfl : t = 0 := by have : t < 1 := ht; omega
    decide +kernel
  · decide +kernel

theorem sol_compl : Complementary (clq 1 1 1 1 1) solX solU solY :=
  ⟨fun t _ i => ⟨fun h => absurd h (lt_irrefl _), fun h => absurd h (lt_irrefl _)⟩,
   fun i => ⟨fun h => absurd h (lt_irrefl _), fun h => absurd h (lt_irrefl _)⟩⟩

/-- **C67 (PROXQP), limits.**  Started at the exact solution of a strictly convex problem with the multipliers of a new solver (zero),
the first check fails: with `maxiter = 1` the return value is false, with `maxiter = 2` it is true, and with the regularization at its
upper bound it is false whatever `maxiter` is. -/
theorem C67_prox_cold_multipliers :
    (PROX.solve qp2 5 (some solX) (some solU) 1 0 pNew).map (fun r => (r.1, r.2.iter, r.2.nTry)) = some (false, 1, 10) ∧
    (PROX.solve qp2 5 (some solX) (some solU) 2 0 pNew).map (fun r => (r.1, r.2.iter, r.2.nTry)) = some (true, 1, 10) ∧
    (PROX.solve qp2 5 (some solX) (some solU) 100 (10 ^ 9) pNew).map (fun r => (r.1, r.2.iter, r.2.nTry)) = some (false, 0, 10) := by
  refine ⟨?_, ?_, ?_⟩ <;> decide +kernel

theorem clq1_sym : Spec.SymProblem (clq 1 1 1 1 1) :=
  ⟨fun _ _ _ _ => by change (m1 1)ᵀ = m1 1; ext i j; rfl, fun _ _ _ _ => by change (m1 1)ᵀ = m1 1; ext i j; rfl,
   fun _ => by change (m1 1)ᵀ = m1 1; ext i j; rfl⟩

theorem clq1_convex : ConvexProblem (clq 1 1 1 1 1) := by
  refine ⟨fun t ht (x : ℚ) (u : Vec ℚ 1) (ξ : Vec ℚ 1) (υ : Vec ℚ 1) => ?_, fun (x : ℚ) (ξ : Vec ℚ 1) => ?_⟩
  · change 0 ≤ ξ ⬝ᵥ (m1 1 *ᵥ ξ) + 2 * (ξ ⬝ᵥ (m1 0 *ᵥ υ)) + υ ⬝ᵥ (m1 1 *ᵥ υ)
    rw [dot1, dot1, dot1, mul1, mul1, mul1]
    have := mul_self_nonneg (ξ 0)
    have := mul_self_nonneg (υ 0)
    linarith
  · change 0 ≤ ξ ⬝ᵥ (m1 1 *ᵥ ξ)
    rw [dot1, mul1]
    have := mul_self_nonneg (ξ 0)
    linarith

theorem clq1_strict : StrictControls (clq 1 1 1 1 1) := by
  intro t ht (x : ℚ) (u : Vec ℚ 1) (υ : Vec ℚ 1) hυ
  change 0 < υ ⬝ᵥ (m1 1 *ᵥ υ)
  rw [dot1, mul1, one_mul]
  refine mul_self_pos.mpr fun h => hυ ?_
  funext i
  obtain rfl := fin1 i
  exact h

/-- the QPs of the first two iterations are answered. -/
theorem sol_answered : ∀ s, AtHead qp2 5 (some solX) (some solU) 2 0 pNew s → s.iter ≤ 1 → ∃ a, qp2 s.nQP (head s).m = some a := by
  have h0 : (qp2 (pNew.start (some solX) (some solU) 0).nQP (head (pNew.start (some solX) (some solU) 0)).m).isSome = true := by
    decide +kernel
  have h1 : (body qp2 5 (pNew.start (some solX) (some solU) 0)).map (fun r => (qp2 r.2.nQP (head { r.2 with iter := r.2.iter + 1 }).m).isSome) =
      some true := by decide +kernel
  intro s hs hi
  cases hs with
  | start => exact Option.isSome_iff_exists.mp h0
  | @next s s' h hi' hb =>
    cases h with
    | start =>
      rw [hb] at h1
      simp only [Option.map_some, Option.some.injEq] at h1
      exact Option.isSome_iff_exists.mp h1
    | @next s2 s3 h2 _ hb2 =>
      have e := (body_iter hb).1
      change s'.iter + 1 ≤ 1 at hi
      change s'.iter = s3.iter + 1 at e
      omega

/-- **the theorem applied**: a new solver, zero multipliers. -/
theorem C67_prox_example : ∃ s', PROX.solve qp2 5 (some solX) (some solU) 2 0 pNew = some (true, s') ∧ s'.iter ≤ 1 ∧
    (∀ t, t ≤ 1 → s'.xs t = solX t) ∧ ∀ t, t < 1 → s'.us t = solU t :=
  C67_prox_recognises (s0 := pNew) (.new _) Nat.zero_lt_one (ColsOK.of_const (n := 1) fun _ => rfl) qp2_exact clq1_sym clq1_convex clq1_strict
    (fun (x : ℚ) => add_zero x) RegOK.default le_rfl (by decide +kernel) (by decide +kernel) le_rfl (by decide) rfl sol_kkt sol_compl sol_answered

end Ex
end Mim
