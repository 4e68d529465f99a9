import Verif.Spec.Units

/-!
# Simulation: SQP on a problem and on the same problem with other cost units
-/
set_option autoImplicit false
set_option linter.unusedSectionVars false
set_option linter.unusedSimpArgs false

namespace Mim
namespace Units

section
variable {K : Type} [Field K] [LinearOrder K] [IsStrictOrderedRing K]
attribute [local instance 2000] noScreen

theorem mv_eq {m n : ℕ} (A : Mat K m n) (x : Vec K n) (i : Fin m) : mv A x i = ∑ j, A i j * x j := rfl
theorem mm_eq {l m n : ℕ} (A : Mat K l m) (B : Mat K m n) (i : Fin l) (k : Fin n) : mm A B i k = ∑ j, A i j * B j k := rfl

theorem mv_sm {m n : ℕ} (c : K) (A : Mat K m n) (x : Vec K n) : mv (sm c A) x = sv c (mv A x) := by
  funext i
  simp only [sv, mv_eq, Finset.mul_sum]
  exact Finset.sum_congr rfl fun j _ => by simp only [sm, Matrix.of_apply]; ring
theorem mv_sv {m n : ℕ} (c : K) (A : Mat K m n) (x : Vec K n) : mv A (sv c x) = sv c (mv A x) := by
  funext i
  simp only [sv, mv_eq, Finset.mul_sum]
  exact Finset.sum_congr rfl fun j _ => by ring
theorem mm_sm_l {l m n : ℕ} (c : K) (A : Mat K l m) (B : Mat K m n) : mm (sm c A) B = sm c (mm A B) := by
  ext i k
  simp only [sm, mm_eq, Matrix.of_apply, Finset.mul_sum]
  exact Finset.sum_congr rfl fun j _ => by ring
theorem mm_sm_r {l m n : ℕ} (c : K) (A : Mat K l m) (B : Mat K m n) : mm A (sm c B) = sm c (mm A B) := by
  ext i k
  simp only [sm, mm_eq, Matrix.of_apply, Finset.mul_sum]
  exact Finset.sum_congr rfl fun j _ => by ring
theorem tr_sm {m n : ℕ} (c : K) (A : Mat K m n) : (sm c A).transpose = sm c A.transpose := rfl
theorem sm_add {m n : ℕ} (c : K) (A B : Mat K m n) : sm c A + sm c B = sm c (A + B) := by
  ext i k; simp only [sm, Matrix.of_apply, Matrix.add_apply]; ring
theorem sm_sub {m n : ℕ} (c : K) (A B : Mat K m n) : sm c A - sm c B = sm c (A - B) := by
  ext i k; simp only [sm, Matrix.of_apply, Matrix.sub_apply]; ring
theorem sv_add {n : ℕ} (c : K) (x y : Vec K n) : sv c x + sv c y = sv c (x + y) := by
  funext i; simp only [sv, Pi.add_apply]; ring
theorem sv_sub {n : ℕ} (c : K) (x y : Vec K n) : sv c x - sv c y = sv c (x - y) := by
  funext i; simp only [sv, Pi.sub_apply]; ring
theorem addDiag_sm {n : ℕ} (c r : K) (A : Mat K n n) : addDiag (sm c A) (c * r) = sm c (addDiag A r) := by
  ext i j; simp only [addDiag, sm, Matrix.of_apply]; split <;> ring
theorem symm_sm {n : ℕ} (c : K) (A : Mat K n n) : symm (sm c A) = sm c (symm A) := by
  unfold symm
  rw [tr_sm, sm_add]
  ext i j
  simp only [sm, Matrix.of_apply]
  ring

theorem normInf_sv {n : ℕ} {c : K} (hc : 0 < c) (x : Vec K n) : normInf (sv c x) = c * normInf x := by
  change exactNormInf _ = c * exactNormInf _
  unfold exactNormInf
  have : ∀ (l : List (Fin n)) (a : K), l.foldl (fun m i => max m |sv c x i|) (c * a) = c * l.foldl (fun m i => max m |x i|) a := by
    intro l
    induction l with
    | nil => intro a; rfl
    | cons i l ih =>
      intro a
      simp only [List.foldl_cons]
      have e : max (c * a) |sv c x i| = c * max a |x i| := by
        simp only [sv, abs_mul, abs_of_pos hc, mul_max_of_nonneg _ _ hc.le]
      rw [e, ih]
  have h := this (List.finRange n) 0
  rwa [mul_zero] at h

theorem ns_ltb (a b : K) : ltb a b = decide (a < b) := rfl
theorem ns_leb (a b : K) : leb a b = decide (a ≤ b) := rfl
theorem ns_eqb (a b : K) : eqb a b = decide (a = b) := rfl
theorem ns_cppMax (a b : K) : cppMax a b = max a b := cppMax_exact a b
theorem ns_bad (a : K) : bad a = false := rfl
theorem ns_isnan (a : K) : isnan a = false := rfl

theorem ltb_mul {c : K} (hc : 0 < c) (a b : K) : ltb (c * a) (c * b) = ltb a b := by
  simp only [ns_ltb, mul_lt_mul_iff_right₀ hc]
theorem eqb_mul {c : K} (hc : 0 < c) (a b : K) : eqb (c * a) (c * b) = eqb a b := by
  simp only [ns_eqb, mul_right_inj' hc.ne']
theorem ltb_aff {c : K} (hc : 0 < c) (d a b : K) : ltb (c * a + d) (c * b + d) = ltb a b := by
  simp only [ns_ltb, add_lt_add_iff_right, mul_lt_mul_iff_right₀ hc]
theorem leb_aff {c : K} (hc : 0 < c) (d a b : K) : leb (c * a + d) (c * b + d) = leb a b := by
  simp only [ns_leb, add_le_add_iff_right, mul_le_mul_iff_right₀ hc]

theorem incReg_recost {c : K} (hc : 0 < c) (p : Params K) (r : K) : incReg (p.recost c) (c * r) = c * incReg p r := by
  unfold incReg
  simp only [Params.recost, mul_assoc, ltb_mul hc]
  split <;> rfl
theorem decReg_recost {c : K} (hc : 0 < c) (p : Params K) (r : K) : decReg (p.recost c) (c * r) = c * decReg p r := by
  unfold decReg
  simp only [Params.recost, mul_div_assoc, ltb_mul hc]
  split <;> rfl

/-! ## datas -/

variable {P : Problem K} {c : K} {D : ℕ → K}

/-- costs and next states. -/
structure DRel (c : K) (D : ℕ → K) (d : Data P) (d' : Data (P.recost c D)) : Prop where
  cost : ∀ t, t < P.T → (d'.run t).cost = c * (d.run t).cost + D t
  xnext : ∀ t, t < P.T → (d'.run t).xnext = (d.run t).xnext
  ter : d'.ter.cost = c * d.ter.cost + D P.T

/-- and the derivatives. -/
structure DRelD (c : K) (D : ℕ → K) (d : Data P) (d' : Data (P.recost c D)) : Prop extends DRel c D d d' where
  rd : ∀ t, t < P.T → d'.rd t = (d.rd t).recost c
  td : d'.td = d.td.recost c

/-- the sum of all offsets. -/
def total (P : Problem K) (D : ℕ → K) : K := sumUp P.T D + D P.T

theorem sumUp_aff (n : ℕ) (f g : ℕ → K) (h : ∀ t, t < n → g t = c * f t + D t) : sumUp n g = c * sumUp n f + sumUp n D := by
  induction n with
  | zero => simp [sumUp, forUp]
  | succ n ih =>
    have e : ∀ f : ℕ → K, sumUp (n + 1) f = sumUp n f + f n := fun _ => rfl
    rw [e, e, e, ih fun t ht => h t (by omega), h n (by omega)]
    ring

theorem DRel.total {d : Data P} {d' : Data (P.recost c D)} (h : DRel c D d d') : d'.totalCost = c * d.totalCost + total P D := by
  unfold Data.totalCost Units.total
  rw [sumUp_aff (c := c) (D := D) P.T (fun t => (d.run t).cost) _ h.cost, h.ter]
  ring

theorem DRel.gaps {d : Data P} {d' : Data (P.recost c D)} (h : DRel c D d d') {xs : Traj P} {xs' : Traj (P.recost c D)}
    (hx : ∀ t, t ≤ P.T → xs' t = xs t) (t : ℕ) (ht : t ≤ P.T) : gapsOf d' xs' t = gapsOf d xs t := by
  cases t with
  | zero => rw [gapsOf, gapsOf, hx 0 (by omega)]
  | succ t => rw [gapsOf, gapsOf, hx _ ht, h.xnext t (by omega)]

theorem calcAll_rel (d : Data P) (d' : Data (P.recost c D)) {xs : Traj P} {xs' : Traj (P.recost c D)} {us : Ctrls P}
    {us' : Ctrls (P.recost c D)} (hx : ∀ t, t ≤ P.T → xs' t = xs t) (hu : ∀ t, t < P.T → us' t = us t) :
    DRel c D (d.calcAll xs us) (d'.calcAll xs' us') := by
  refine ⟨fun t ht => ?_, fun t ht => ?_, ?_⟩
  · simp only [Data.calcAll, if_pos ht]; rw [hx t ht.le, hu t ht]
  · simp only [Data.calcAll, if_pos ht]; rw [hx t ht.le, hu t ht]
  · simp only [Data.calcAll]; rw [hx _ le_rfl]

theorem calcDiffAll_rel {d : Data P} {d' : Data (P.recost c D)} (h : DRel c D d d') {xs : Traj P} {xs' : Traj (P.recost c D)} {us : Ctrls P}
    {us' : Ctrls (P.recost c D)} (hx : ∀ t, t ≤ P.T → xs' t = xs t) (hu : ∀ t, t < P.T → us' t = us t) :
    DRelD c D (d.calcDiffAll xs us) (d'.calcDiffAll xs' us') := by
  refine ⟨⟨h.cost, h.xnext, h.ter⟩, fun t ht => ?_, ?_⟩
  · simp only [Data.calcDiffAll, if_pos ht]; rw [hx t ht.le, hu t ht]
  · simp only [Data.calcDiffAll]; rw [hx _ le_rfl]

theorem gapNorm_rel {fs : ℕ → Vec K P.ndx} {fs' : ℕ → Vec K (P.recost c D).ndx} (h : ∀ t, t ≤ P.T → fs' t = fs t) :
    gapNorm (P := P.recost c D) fs' = gapNorm (P := P) fs := gapNorm_same (P := P) h

/-- the residual: the stationarity part scales, the gap part does not. -/
theorem kkt_rel (hc : 0 < c) {d : Data P} {d' : Data (P.recost c D)} (h : DRelD c D d d') {fs lam : ℕ → Vec K P.ndx}
    {fs' lam' : ℕ → Vec K (P.recost c D).ndx} (hf : ∀ t, t ≤ P.T → fs' t = fs t) (hl : ∀ t, t ≤ P.T → lam' t = sv c (lam t)) :
    ∃ a g, 0 ≤ a ∧ 0 ≤ g ∧ kktResidual d fs lam = max a g ∧ kktResidual d' fs' lam' = max (c * a) g := by
  unfold kktResidual
  simp only [ns_cppMax]
  have hloop : forUp P.T (fun t K1 => max (max K1 (normInf ((d'.rd t).Lx + mv (d'.rd t).Fx.transpose (lam' (t + 1)) - lam' t)))
        (normInf ((d'.rd t).Lu + mv (d'.rd t).Fu.transpose (lam' (t + 1))))) 0
      = c * forUp P.T (fun t K1 => max (max K1 (normInf ((d.rd t).Lx + mv (d.rd t).Fx.transpose (lam (t + 1)) - lam t)))
        (normInf ((d.rd t).Lu + mv (d.rd t).Fu.transpose (lam (t + 1))))) 0 ∧
      0 ≤ forUp P.T (fun t K1 => max (max K1 (normInf ((d.rd t).Lx + mv (d.rd t).Fx.transpose (lam (t + 1)) - lam t)))
        (normInf ((d.rd t).Lu + mv (d.rd t).Fu.transpose (lam (t + 1))))) 0 := by
    refine forUp_rel (fun _ (a b : K) => a = c * b ∧ 0 ≤ b) P.T _ _ ?_ ⟨(mul_zero c).symm, le_rfl⟩
    rintro t ht a b ⟨rfl, hb⟩
    refine ⟨?_, le_max_of_le_left (le_max_of_le_left hb)⟩
    simp only [h.rd t ht, RunDiff.recost]
    rw [hl (t + 1) (by omega), hl t ht.le, mv_sv, mv_sv, sv_add, sv_sub, sv_add, normInf_sv hc, normInf_sv hc,
      mul_max_of_nonneg _ _ hc.le, mul_max_of_nonneg _ _ hc.le]
  have hg : forUp (P.T + 1) (fun t m => max m (normInf (fs' t))) (0 : K) = forUp (P.T + 1) (fun t m => max m (normInf (fs t))) 0 ∧
      0 ≤ forUp (P.T + 1) (fun t m => max m (normInf (fs t))) (0 : K) := by
    refine forUp_rel (fun _ (a b : K) => a = b ∧ 0 ≤ b) (P.T + 1) _ _ ?_ ⟨rfl, le_rfl⟩
    rintro t ht a b ⟨rfl, hb⟩
    exact ⟨by rw [hf t (by omega)], le_max_of_le_left hb⟩
  have hter : normInf (d'.td.Lx - lam' P.T) = c * normInf (d.td.Lx - lam P.T) := by
    rw [hl _ le_rfl, h.td]
    simp only [TerDiff.recost]
    rw [sv_sub, normInf_sv hc]
  refine ⟨_, _, le_max_of_le_left hloop.2, hg.2, rfl, ?_⟩
  rw [hg.1, mul_max_of_nonneg _ _ hc.le, ← hter]
  congr 2
  exact hloop.1

/-! ## backward pass -/

/-- the value function scales, the gains are the same, from stage `t` on. -/
structure BRel (c : K) (D : ℕ → K) (t : ℕ) (b : BP P) (b' : BP (P.recost c D)) : Prop where
  Vxx : ∀ j, t ≤ j → j ≤ P.T → b'.Vxx j = sm c (b.Vxx j)
  Vx : ∀ j, t ≤ j → j ≤ P.T → b'.Vx j = sv c (b.Vx j)
  K : ∀ j, t ≤ j → j < P.T → b'.K j = b.K j
  k : ∀ j, t ≤ j → j < P.T → b'.k j = b.k j

theorem update_rel {β γ : ℕ → Type} (R : (j : ℕ) → β j → γ j → Prop) {f : (j : ℕ) → β j} {g : (j : ℕ) → γ j} {t n : ℕ} {x : β t} {y : γ t}
    (h : ∀ j, t + 1 ≤ j → j < n → R j (f j) (g j)) (hxy : R t x y) (j : ℕ) (hj : t ≤ j) (hn : j < n) :
    R j (Function.update f t x j) (Function.update g t y j) := by
  by_cases e : j = t
  · subst e; simpa using hxy
  · rw [Function.update_of_ne e, Function.update_of_ne e]; exact h j (by omega) hn

theorem update_next {β : ℕ → Type} {f : (j : ℕ) → β j} {t : ℕ} {x : β t} : Function.update f t x (t + 1) = f (t + 1) :=
  Function.update_of_ne (by omega) _ _

theorem stage_rel {llt : LLT K} (hL : llt.Unitless c) {d : Data P} {d' : Data (P.recost c D)} {fs : ℕ → Vec K P.ndx}
    {fs' : ℕ → Vec K (P.recost c D).ndx} (feas : Bool) (preg dreg : K) {t : ℕ} (ht : t < P.T) (hr : d'.rd t = (d.rd t).recost c)
    (hf : fs' t = fs t) {b : BP P} {b' : BP (P.recost c D)} (h : BRel c D (t + 1) b b') :
    Res.Rel (BRel c D t) (fun _ _ => True) (backwardStage llt d fs feas preg dreg t b)
      (backwardStage llt d' fs' feas (c * preg) (c * dreg) t b') := by
  have eV := h.Vxx (t + 1) le_rfl ht
  have ev := h.Vx (t + 1) le_rfl ht
  by_cases hn : P.nu t = 0
  · have h1 : computeGains llt t (qTerms d dreg t b) = .ok (qTerms d dreg t b) := by
      unfold computeGains; rw [if_neg (by omega)]
    have h2 : computeGains llt t (qTerms d' (c * dreg) t b') = .ok (qTerms d' (c * dreg) t b') := by
      unfold computeGains; rw [if_neg (by change ¬ 0 < P.nu t; omega)]
    unfold backwardStage
    rw [h1, h2]
    simp only [Res.bind, badStage, ns_bad, Bool.or_self, Bool.false_eq_true, if_false]
    have hn' : ¬ (P.nu t ≠ 0) := by simp [hn]
    refine .ok ⟨?_, ?_, ?_, ?_⟩
    · intro j hj hjT
      refine update_rel (β := fun _ => Mat K P.ndx P.ndx) (γ := fun _ => Mat K P.ndx P.ndx) (fun _ a a' => a' = sm c a) (n := P.T + 1)
        ?_ ?_ j hj (by omega)
      · intro j hj hjT
        simp only [qTerms, if_neg hn']
        exact h.Vxx j hj (by omega)
      · simp only [qTerms, vTerms, if_neg hn', Function.update_self, ns_isnan, Bool.false_eq_true, if_false, hr, RunDiff.recost, eV]
        simp only [mm_sm_r, mm_sm_l, sm_add, symm_sm, addDiag_sm]
    · intro j hj hjT
      refine update_rel (β := fun _ => Vec K P.ndx) (γ := fun _ => Vec K P.ndx) (fun _ a a' => a' = sv c a) (n := P.T + 1)
        ?_ ?_ j hj (by omega)
      · intro j hj hjT
        simp only [qTerms, if_neg hn']
        exact h.Vx j hj (by omega)
      · simp only [qTerms, vTerms, if_neg hn', Function.update_self, ns_isnan, Bool.false_eq_true, if_false, hr, RunDiff.recost, eV, ev, hf]
        simp only [mm_sm_r, mm_sm_l, sm_add, symm_sm, addDiag_sm, mv_sv, mv_sm, sv_add]
        split <;> simp only [sv_add]
    · intro j hj hjT
      simp only [qTerms, vTerms, if_neg hn']
      by_cases e : j = t
      · subst e
        ext i _
        exact absurd i.isLt (by change ¬ _ < P.nu j; omega)
      · exact h.K j (by omega) hjT
    · intro j hj hjT
      simp only [qTerms, vTerms, if_neg hn']
      by_cases e : j = t
      · subst e
        ext i
        exact absurd i.isLt (by change ¬ _ < P.nu j; omega)
      · exact h.k j (by omega) hjT
  · have hQuu : (qTerms d' (c * dreg) t b').Quu t = sm c ((qTerms d dreg t b).Quu t) := by
      simp only [qTerms, if_pos hn, ne_eq, hn, not_false_eq_true, if_true, Function.update_self, ns_isnan, Bool.false_eq_true, if_false, hr,
        RunDiff.recost, eV]
      simp only [mm_sm_r, mm_sm_l, sm_add, addDiag_sm]
    have hQu : (qTerms d' (c * dreg) t b').Qu t = sv c ((qTerms d dreg t b).Qu t) := by
      simp only [qTerms, ne_eq, hn, not_false_eq_true, if_true, Function.update_self, hr, RunDiff.recost, ev]
      simp only [mv_sv, sv_add]
    have hQxu : (qTerms d' (c * dreg) t b').Qxu t = sm c ((qTerms d dreg t b).Qxu t) := by
      simp only [qTerms, ne_eq, hn, not_false_eq_true, if_true, Function.update_self, hr, RunDiff.recost, eV]
      simp only [mm_sm_r, mm_sm_l, sm_add]
    have hQxx : (qTerms d' (c * dreg) t b').Qxx t = sm c ((qTerms d dreg t b).Qxx t) := by
      simp only [qTerms, ne_eq, hn, not_false_eq_true, if_true, Function.update_self, hr, RunDiff.recost, eV]
      simp only [mm_sm_r, mm_sm_l, sm_add]
    have hQx : (qTerms d' (c * dreg) t b').Qx t = sv c ((qTerms d dreg t b).Qx t) := by
      simp only [qTerms, ne_eq, hn, not_false_eq_true, if_true, Function.update_self, hr, RunDiff.recost, ev]
      simp only [mv_sv, sv_add]
    have hq : BRel c D (t + 1) (qTerms d dreg t b) (qTerms d' (c * dreg) t b') := by
      simp only [qTerms, ne_eq, hn, not_false_eq_true, if_true]
      exact ⟨h.Vxx, h.Vx, h.K, h.k⟩
    unfold backwardStage
    generalize qTerms d dreg t b = q at *
    generalize qTerms d' (c * dreg) t b' = q' at *
    unfold computeGains
    rw [if_pos (by omega), if_pos (by change 0 < P.nu t; omega)]
    have hL' := hL (P.nu t) (q.Quu t)
    rw [← hQuu] at hL'
    rcases hL' with ⟨e1, e2⟩ | ⟨s, s', e1, e2, hs⟩
    · rw [e1]
      have e2' : llt ((P.recost c D).nu t) (q'.Quu t) = none := e2
      rw [e2']
      exact .exn trivial
    · have e2' : llt ((P.recost c D).nu t) (q'.Quu t) = some s' := e2
      rw [e1, e2']
      have hK : solveCols s' (q'.Qxu t).transpose = solveCols s (q.Qxu t).transpose := by
        rw [hQxu, tr_sm]
        ext i j
        simp only [solveCols, Matrix.of_apply]
        exact congrFun (hs fun i' => (q.Qxu t).transpose i' j) i
      have hk : s' (q'.Qu t) = s (q.Qu t) := by rw [hQu, hs]
      simp only [Res.bind, badStage, ns_bad, Bool.or_self, Bool.false_eq_true, if_false]
      have hVxx : (if isnan (c * preg) = true then symm (q'.Qxx t - mm (q'.Qxu t) (solveCols s' (q'.Qxu t).transpose))
            else addDiag (symm (q'.Qxx t - mm (q'.Qxu t) (solveCols s' (q'.Qxu t).transpose))) (c * preg)) =
          sm c (addDiag (symm (q.Qxx t - mm (q.Qxu t) (solveCols s (q.Qxu t).transpose))) preg) := by
        simp only [ns_isnan, Bool.false_eq_true, if_false]
        rw [hK, hQxx, hQxu, mm_sm_l, sm_sub, symm_sm, addDiag_sm]
      refine .ok ⟨?_, ?_, ?_, ?_⟩
      · intro j hj hjT
        refine update_rel (β := fun _ => Mat K P.ndx P.ndx) (γ := fun _ => Mat K P.ndx P.ndx) (fun _ a a' => a' = sm c a) (n := P.T + 1)
          (fun j hj hjT => hq.Vxx j hj (by omega)) ?_ j hj (by omega)
        simp only [ne_eq, hn, not_false_eq_true, if_true, Function.update_self]
        rw [hVxx]
        simp only [ns_isnan, Bool.false_eq_true, if_false]
      · intro j hj hjT
        refine update_rel (β := fun _ => Vec K P.ndx) (γ := fun _ => Vec K P.ndx) (fun _ a a' => a' = sv c a) (n := P.T + 1)
          (fun j hj hjT => hq.Vx j hj (by omega)) ?_ j hj (by omega)
        simp only [ne_eq, hn, not_false_eq_true, if_true, Function.update_self]
        rw [hVxx, hK, hQx, hQu, hf]
        simp only [ns_isnan, Bool.false_eq_true, if_false, mv_sv, mv_sm, sv_sub, sv_add]
        split <;> rfl
      · intro j hj hjT
        exact update_rel (β := fun j => Mat K (P.nu j) P.ndx) (γ := fun j => Mat K (P.nu j) P.ndx) (fun _ a a' => a' = a) hq.K hK j hj hjT
      · intro j hj hjT
        exact update_rel (β := fun j => Vec K (P.nu j)) (γ := fun j => Vec K (P.nu j)) (fun _ a a' => a' = a) hq.k hk j hj hjT

theorem backwardPass_rel {llt : LLT K} (hL : llt.Unitless c) {d : Data P} {d' : Data (P.recost c D)} (h : DRelD c D d d')
    {fs : ℕ → Vec K P.ndx} {fs' : ℕ → Vec K (P.recost c D).ndx} (hf : ∀ t, t ≤ P.T → fs' t = fs t)
    (feas : Bool) (preg dreg : K) (b : BP P) (b' : BP (P.recost c D)) :
    Res.Rel (BRel c D 0) (fun _ _ => True) (backwardPass llt d fs feas preg dreg b) (backwardPass llt d' fs' feas (c * preg) (c * dreg) b') := by
  have hinit : BRel c D P.T (backwardInit d fs feas preg b) (backwardInit d' fs' feas (c * preg) b') := by
    refine ⟨fun j hj hjT => ?_, fun j hj hjT => ?_, fun j hj hjT => by omega, fun j hj hjT => by omega⟩
    · obtain rfl : j = P.T := by omega
      simp only [backwardInit, Function.update_self, ns_isnan, Bool.false_eq_true, if_false, h.td, TerDiff.recost, addDiag_sm]
    · obtain rfl : j = P.T := by omega
      simp only [backwardInit, Function.update_self, ns_isnan, Bool.false_eq_true, if_false, h.td, TerDiff.recost, addDiag_sm, mv_sm,
        hf _ le_rfl]
      split
      · rfl
      · rw [sv_add]
  unfold backwardPass
  have : ∀ n, n ≤ P.T → ∀ (x : BP P) (x' : BP (P.recost c D)), BRel c D n x x' → Res.Rel (BRel c D 0) (fun _ _ => True)
      (forDownR n (backwardStage llt d fs feas preg dreg) x) (forDownR n (backwardStage llt d' fs' feas (c * preg) (c * dreg)) x') := by
    intro n
    induction n with
    | zero => intro _ x x' hx; exact .ok hx
    | succ n ih =>
      intro hn x x' hx
      exact (stage_rel hL feas preg dreg hn (h.rd n hn) (hf n (by omega)) hx).bind fun a b hab => ih (by omega) a b hab
  exact this P.T le_rfl _ _ hinit

/-! ## solver states -/

open SQP

/-- configuration and regularization of `s'` are those of `s` in the new unit; the cost memory holds the last `n` costs of this solve. -/
structure Conf (c : K) (D : ℕ → K) (n : ℕ) (s : SQP P) (s' : SQP (P.recost c D)) : Prop where
  par : s'.par = s.par.recost c
  mu : s'.mu = c * s.mu
  useFilter : s'.useFilter = s.useFilter
  filterSize : s'.filterSize = s.filterSize
  extra : s'.extra = s.extra
  preg : s'.preg = c * s.preg
  dreg : s'.dreg = c * s.dreg
  iter : s'.iter = s.iter
  feas : s'.feas = s.feas
  gapList : s'.gapList = s.gapList
  costs : ∃ old old' h, s.costList.Holds s.filterSize old h ∧ s'.costList.Holds s.filterSize old' (h.map fun x => c * x + total P D) ∧
    h.length = n

/-- the same candidate. -/
structure UAlike (c : K) (D : ℕ → K) (n : ℕ) (s : SQP P) (s' : SQP (P.recost c D)) : Prop where
  conf : Conf c D n s s'
  xs : ∀ t, t ≤ P.T → s'.xs t = s.xs t
  us : ∀ t, t < P.T → s'.us t = s.us t
  dx0 : s'.dx 0 = s.dx 0

/-- at the head of an iteration. -/
structure UHead (c : K) (D : ℕ → K) (s : SQP P) (s' : SQP (P.recost c D)) : Prop extends UAlike c D s.iter s s' where
  data : s.iter = 0 ∨ DRel c D s.data s'.data

/-- after `calcDiff`. -/
structure UEval (c : K) (D : ℕ → K) (s : SQP P) (s' : SQP (P.recost c D)) : Prop extends UAlike c D s.iter s s' where
  data : DRelD c D s.data s'.data
  cost : s'.cost = c * s.cost + total P D
  fs : ∀ t, t ≤ P.T → s'.fs t = s.fs t

/-- after a direction was computed. -/
structure UDir (c : K) (D : ℕ → K) (s : SQP P) (s' : SQP (P.recost c D)) : Prop extends UEval c D s s' where
  gap : s'.gap = s.gap
  merit : s'.merit = c * s.merit + total P D
  bp : BRel c D 0 s.bp s'.bp
  dx : ∀ t, t ≤ P.T → s'.dx t = s.dx t
  du : ∀ t, t < P.T → s'.du t = s.du t
  lag : ∀ t, t ≤ P.T → s'.lagMul t = sv c (s.lagMul t)

variable {s : SQP P} {s' : SQP (P.recost c D)}

theorem calcDiff_rel (h : UHead c D s s') : UEval c D s.calcDiff s'.calcDiff := by
  have hi := h.conf.iter
  have hd : DRel c D (if s.iter = 0 then s.data.calcAll s.xs s.us else s.data) (if s'.iter = 0 then s'.data.calcAll s'.xs s'.us else s'.data) := by
    rw [hi]
    by_cases h0 : s.iter = 0
    · rw [if_pos h0, if_pos h0]; exact calcAll_rel _ _ h.xs h.us
    · rw [if_neg h0, if_neg h0]; exact h.data.resolve_left h0
  have hD := calcDiffAll_rel hd h.xs h.us
  obtain ⟨c1, c2, c3, c4, c5, c6, c7, c8, c9, c10, c11⟩ := h.conf
  exact ⟨⟨⟨c1, c2, c3, c4, c5, c6, c7, c8, c9, c10, c11⟩, h.xs, h.us, h.dx0⟩, hD, hD.toDRel.total, fun t ht => hD.toDRel.gaps h.xs t ht⟩

/-- part of the step known after `n` nodes of the forward pass. -/
structure UFwd (c : K) (D : ℕ → K) (n : ℕ) (s : SQP P) (s' : SQP (P.recost c D)) : Prop extends UEval c D s s' where
  gap : s'.gap = s.gap
  merit : s'.merit = c * s.merit + total P D
  bp : BRel c D 0 s.bp s'.bp
  dx : ∀ t, t ≤ n → s'.dx t = s.dx t
  du : ∀ t, t < n → s'.du t = s.du t
  lag : ∀ t, t < n → s'.lagMul t = sv c (s.lagMul t)

theorem upTo_rel {β γ : ℕ → Type} (R : (j : ℕ) → β j → γ j → Prop) {f : (j : ℕ) → β j} {g : (j : ℕ) → γ j} {n : ℕ} {x : β n} {y : γ n}
    (h : ∀ t, t < n → R t (f t) (g t)) (hxy : R n x y) (t : ℕ) (ht : t < n + 1) : R t (Function.update f n x t) (Function.update g n y t) := by
  by_cases e : t = n
  · subst e; simpa using hxy
  · rw [Function.update_of_ne e, Function.update_of_ne e]; exact h t (by omega)

theorem forwardStage_rel {n : ℕ} (hn : n < P.T) (h : UFwd c D n s s') : UFwd c D (n + 1) (forwardStage n s) (forwardStage n s') := by
  have e1 := h.bp.Vxx n (by omega) hn.le
  have e2 := h.bp.Vx n (by omega) hn.le
  have e3 := h.bp.K n (by omega) hn
  have e4 := h.bp.k n (by omega) hn
  have e5 := h.data.rd n hn
  have e6 := h.fs n hn.le
  have e7 := h.fs (n + 1) hn
  have e8 := h.dx n le_rfl
  have edu : mv (-(s'.bp.K n)) (s'.dx n) - s'.bp.k n = mv (-(s.bp.K n)) (s.dx n) - s.bp.k n := by rw [e3, e4, e8]
  obtain ⟨c1, c2, c3, c4, c5, c6, c7, c8, c9, c10, c11⟩ := h.conf
  refine ⟨⟨⟨⟨c1, c2, c3, c4, c5, c6, c7, c8, c9, c10, c11⟩, h.xs, h.us, ?_⟩, h.data, h.cost, h.fs⟩, h.gap, h.merit, h.bp, ?_, ?_, ?_⟩
  · simp only [forwardStage]
    rw [Function.update_of_ne (by omega), Function.update_of_ne (by omega)]; exact h.dx0
  · intro t ht
    simp only [forwardStage]
    refine upTo_rel (β := fun _ => Vec K P.ndx) (γ := fun _ => Vec K P.ndx) (fun _ a a' => a' = a) (n := n + 1)
      (fun t ht => h.dx t (by omega)) ?_ t (by omega)
    rw [edu, e5, e7, e8]; rfl
  · simp only [forwardStage]
    exact upTo_rel (β := fun j => Vec K (P.nu j)) (γ := fun j => Vec K (P.nu j)) (fun _ a a' => a' = a) h.du edu
  · simp only [forwardStage]
    refine upTo_rel (β := fun _ => Vec K P.ndx) (γ := fun _ => Vec K P.ndx) (fun _ a a' => a' = sv c a) h.lag ?_
    rw [e1, e2, e6, e8, mv_sm, sv_add]

theorem forwardPass_rel (h : UEval c D s s') (hg : s'.gap = s.gap) (hm : s'.merit = c * s.merit + total P D) (hb : BRel c D 0 s.bp s'.bp) :
    UDir c D s.forwardPass s'.forwardPass := by
  obtain ⟨c1, c2, c3, c4, c5, c6, c7, c8, c9, c10, c11⟩ := h.conf
  have h0 : UFwd c D 0 { s with xGrad := 0, uGrad := 0 } { s' with xGrad := 0, uGrad := 0 } :=
    ⟨⟨⟨⟨c1, c2, c3, c4, c5, c6, c7, c8, c9, c10, c11⟩, h.xs, h.us, h.dx0⟩, h.data, h.cost, h.fs⟩, hg, hm, hb,
      fun t ht => by obtain rfl : t = 0 := by omega
                     exact h.dx0, fun t ht => by omega, fun t ht => by omega⟩
  have h1 := forUp_rel (UFwd c D) P.T forwardStage forwardStage (fun t ht a b => forwardStage_rel ht) h0
  unfold forwardPass
  generalize forUp P.T forwardStage { s with xGrad := 0, uGrad := 0 } = a at *
  generalize hB : forUp (P.recost c D).T forwardStage { s' with xGrad := 0, uGrad := 0 } = b
  have h1 : UFwd c D P.T a b := by rw [← hB]; exact h1
  obtain ⟨c1, c2, c3, c4, c5, c6, c7, c8, c9, c10, c11⟩ := h1.conf
  refine ⟨⟨⟨⟨c1, c2, c3, c4, c5, c6, c7, c8, c9, c10, c11⟩, h1.xs, h1.us, h1.dx0⟩, h1.data, h1.cost, h1.fs⟩, h1.gap, h1.merit, h1.bp, h1.dx, h1.du, ?_⟩
  intro t ht
  refine upTo_rel (β := fun _ => Vec K P.ndx) (γ := fun _ => Vec K P.ndx) (fun _ a a' => a' = sv c a) h1.lag ?_ t (by omega)
  have e1 := h1.bp.Vx P.T (by omega) le_rfl
  have e2 := h1.bp.Vxx P.T (by omega) le_rfl
  have e3 := h1.dx P.T le_rfl
  have e4 := h1.fs P.T le_rfl
  change b.bp.Vx P.T + mv (b.bp.Vxx P.T) (b.dx P.T - b.fs P.T) = _
  rw [e1, e2, e3, e4, mv_sm, sv_add]

theorem computeDirection_rel {llt : LLT K} (hL : llt.Unitless c) (r : Bool) (h : if r then UHead c D s s' else UEval c D s s') :
    Res.Rel (UDir c D) (UEval c D) (s.computeDirection llt r) (s'.computeDirection llt r) := by
  have he : UEval c D (if r then s.calcDiff else s) (if r then s'.calcDiff else s') := by
    cases r with
    | true => exact calcDiff_rel h
    | false => exact h
  unfold computeDirection
  generalize (if r then s.calcDiff else s) = a at *
  generalize (if r then s'.calcDiff else s') = b at *
  simp only []
  obtain ⟨c1, c2, c3, c4, c5, c6, c7, c8, c9, c10, c11⟩ := he.conf
  have eg : gapNorm (P := P.recost c D) b.fs = gapNorm (P := P) a.fs := gapNorm_rel he.fs
  have hb := backwardPass_rel hL he.data he.fs a.feas a.preg a.dreg a.bp b.bp
  have e : backwardPass llt b.data b.fs b.feas b.preg b.dreg b.bp =
      backwardPass llt b.data b.fs a.feas (c * a.preg) (c * a.dreg) b.bp := by rw [c9, c6, c7]
  rw [← e] at hb
  clear e
  generalize backwardPass llt a.data a.fs a.feas a.preg a.dreg a.bp = x at *
  generalize backwardPass llt b.data b.fs b.feas b.preg b.dreg b.bp = y at *
  cases hb with
  | @ok u v hb =>
    refine .ok (forwardPass_rel ⟨⟨⟨c1, c2, c3, c4, c5, c6, c7, c8, c9, c10, c11⟩, he.xs, he.us, he.dx0⟩, he.data, he.cost, he.fs⟩ eg ?_ hb)
    simp only []
    rw [he.cost, c2, eg]; ring
  | @exn u v hb =>
    exact .exn ⟨⟨⟨c1, c2, c3, c4, c5, c6, c7, c8, c9, c10, c11⟩, he.xs, he.us, he.dx0⟩, he.data, he.cost, he.fs⟩

theorem Conf.reg {n : ℕ} (h : Conf c D n s s') {p q p' q' : K} (hp : p' = c * p) (hq : q' = c * q) :
    Conf c D n { s with preg := p, dreg := q } { s' with preg := p', dreg := q' } := by
  obtain ⟨c1, c2, c3, c4, c5, c6, c7, c8, c9, c10, c11⟩ := h
  exact ⟨c1, c2, c3, c4, c5, hp, hq, c8, c9, c10, c11⟩

theorem UEval.inc (hc : 0 < c) (h : UEval c D s s') : UEval c D s.increaseReg s'.increaseReg := by
  have e : incReg s'.par s'.preg = c * incReg s.par s.preg := by rw [h.conf.par, h.conf.preg, incReg_recost hc]
  exact ⟨⟨h.conf.reg e e, h.xs, h.us, h.dx0⟩, h.data, h.cost, h.fs⟩

theorem regMax_rel (hc : 0 < c) {n : ℕ} (h : Conf c D n s s') : eqb s'.preg s'.par.regMax = eqb s.preg s.par.regMax := by
  rw [h.par, h.preg]; exact eqb_mul hc _ _

/-- the retry loop. -/
theorem retry_rel (hc : 0 < c) {llt : LLT K} (hL : llt.Unitless c) (fuel : ℕ) (r : Bool) (h : if r then UHead c D s s' else UEval c D s s') :
    (retry llt fuel r s = none ∧ retry llt fuel r s' = none) ∨
    (∃ a b, retry llt fuel r s = some (true, a) ∧ retry llt fuel r s' = some (true, b) ∧ UDir c D a b) ∨
    ∃ a b, retry llt fuel r s = some (false, a) ∧ retry llt fuel r s' = some (false, b) ∧ UEval c D a b := by
  induction fuel generalizing r s s' with
  | zero => exact .inl ⟨rfl, rfl⟩
  | succ n ih =>
    have hd := computeDirection_rel hL r h
    unfold retry
    generalize s.computeDirection llt r = x at *
    generalize s'.computeDirection llt r = y at *
    cases hd with
    | @ok a b h => exact .inr (.inl ⟨a, b, rfl, rfl, h⟩)
    | @exn a b h =>
      have h' := h.inc hc
      have hp := regMax_rel hc h'.conf
      simp only [hp]
      split
      · exact .inr (.inr ⟨_, _, rfl, rfl, h'⟩)
      · exact ih false h'

end
end Units
end Mim
