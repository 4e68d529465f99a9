import Verif.Props.PyCppSQP
import Verif.Props.SQPConvex

/-!
# The Python class `SQP_CPP` on linear-quadratic problems (C80, C81)

From a feasible guess the first iteration reaches the exact optimum; the second one recognises it (residual zero) but makes a line
search along the old direction before it looks at the result.
-/
set_option linter.unusedSectionVars false
set_option linter.unusedSimpArgs false

namespace Mim
open Spec Matrix

section
variable {K : Type} [Field K] [LinearOrder K] [IsStrictOrderedRing K] {P : Problem K}

/-- moving twice along the same direction. -/
theorem stepX_add {φ : P.X → Vec K P.ndx} (hE : Euclid P φ) (X : Traj P) (dx : ℕ → Vec K P.ndx) (a b : K) :
    stepX P (stepX P X dx a) dx b = stepX P X dx (a + b) := by
  funext t
  apply hE.inj
  unfold stepX
  rw [hE.integrate, hE.integrate, hE.integrate, sv_exact, sv_exact, sv_exact, add_smul]
  abel

theorem stepU_add (U : Ctrls P) (du : (t : ℕ) → Vec K (P.nu t)) (a b : K) :
    stepU P (stepU P U du a) du b = stepU P U du (a + b) := by
  funext t
  unfold stepU
  rw [sv_exact, sv_exact, sv_exact, add_smul]
  abel

/-- half the curvature of the cost along the Newton direction. -/
def gainSq {m : ℕ → ℕ} (T : ℕ) (k : (t : ℕ) → Vec K (m t)) (Quu : (t : ℕ) → Mat K (m t) (m t)) : K :=
  ∑ t ∈ Finset.range T, (k t ⬝ᵥ (Quu t *ᵥ k t)) / 2

/-- the cost along the direction computed at a feasible trajectory of a linear-quadratic problem is a parabola with its minimum at
step length `1`. -/
theorem line_cost {φ : P.X → Vec K P.ndx} (hE : Euclid P φ) (hC : QuadCost P φ) {d : Data P} {fs : ℕ → Vec K P.ndx} {X : Traj P}
    {U : Ctrls P} (f2 : FreshDiff P d X U) (hfs : ∀ t, t < P.T → fs (t + 1) = 0) {V : ℕ → Mat K P.ndx P.ndx} {v : ℕ → Vec K P.ndx}
    {G : (t : ℕ) → Mat K (P.nu t) P.ndx} {k : (t : ℕ) → Vec K (P.nu t)} {Quu : (t : ℕ) → Mat K (P.nu t) (P.nu t)}
    (hR : Riccati (lqOf d fs 0 0) V v G k Quu) {dx : ℕ → Vec K P.ndx} {du : (t : ℕ) → Vec K (P.nu t)}
    (hd : (lqOf d fs 0 0).Dyn dx du) (h0 : dx 0 = 0) (hu : ∀ t, t < P.T → du t = -(G t *ᵥ dx t) - k t) (a : K) :
    trajCost P (stepX P X dx a) (stepU P U du a) = trajCost P X U + ((1 - a) ^ 2 - 1) * gainSq P.T k Quu := by
  rw [trajCost_model hC (fs := fs) f2]
  have hx : (fun t => φ (stepX P X dx a t) - φ (X t)) = fun t => a • dx t := by
    funext t; unfold stepX; rw [hE.integrate, sv_exact]; abel
  have hU : (fun t => stepU P U du a t - U t) = fun t => a • du t := by
    funext t; unfold stepU; rw [sv_exact]; abel
  rw [hx, hU]
  have hda : ∀ a : K, (lqOf d fs 0 0).Dyn (fun t => a • dx t) (fun t => a • du t) := by
    intro a t ht
    have := hd t ht
    have hc : (lqOf d fs 0 0).c (t + 1) = 0 := hfs t ht
    rw [hc, add_zero] at this ⊢
    simp only [this, Matrix.mulVec_smul, smul_add]
  have hsq : ∀ a : K, (lqOf d fs 0 0).cost (fun t => a • dx t) (fun t => a • du t) =
      ∑ t ∈ Finset.range P.T, Riccati.offset (lqOf d fs 0 0) V v k Quu t + (1 - a) ^ 2 * gainSq P.T k Quu := by
    intro a
    rw [hR.cost_sq (hda a), h0]
    simp only [smul_zero, Matrix.mulVec_zero, dotProduct_zero, zero_dotProduct, zero_div, add_zero, zero_add]
    congr 1
    unfold gainSq
    rw [Finset.mul_sum]
    refine Finset.sum_congr rfl fun t ht => ?_
    have e : a • du t + G t *ᵥ (a • dx t) + k t = (1 - a) • k t := by
      rw [hu t (Finset.mem_range.mp ht), Matrix.mulVec_smul]
      funext i
      simp only [Pi.add_apply, Pi.smul_apply, Pi.sub_apply, Pi.neg_apply, smul_eq_mul]
      ring
    rw [e, Matrix.mulVec_smul, smul_dotProduct, dotProduct_smul]
    simp only [smul_eq_mul]
    ring
  have hz : (lqOf d fs 0 0).cost (fun t => (0 : K) • dx t) (fun t => (0 : K) • du t) = 0 := by
    unfold LQ.cost LQ.stageCost
    simp
  have h1 := hsq a
  have h2 := hsq 0
  rw [hz] at h2
  rw [h1]
  have h3 : ∑ t ∈ Finset.range P.T, Riccati.offset (lqOf d fs 0 0) V v k Quu t = - gainSq P.T k Quu := by
    rw [sub_zero, one_pow, one_mul] at h2
    linarith
  rw [h3]
  ring

/-- all trials along that direction are feasible. -/
theorem line_gap {φ : P.X → Vec K P.ndx} (hE : Euclid P φ) (hA : AffineDyn P φ) {d : Data P} {fs : ℕ → Vec K P.ndx} {X : Traj P}
    {U : Ctrls P} (f2 : FreshDiff P d X U) (hfs : ∀ t, t < P.T → fs (t + 1) = 0) (hg : ∀ t, t < P.T → shootGap P X U t = 0)
    {dx : ℕ → Vec K P.ndx} {du : (t : ℕ) → Vec K (P.nu t)} (hd : (lqOf d fs 0 0).Dyn dx du) (a : K) :
    shootGapNorm P (stepX P X dx a) (stepU P U du a) = 0 := by
  unfold shootGapNorm
  apply sumUp_zero_of
  intro t ht
  have key := gap_contraction hE hA X U dx du (fun t ht => by
    have := hd t ht
    simp only [lqOf, f2.run t ht, hfs t ht] at this
    rw [hg t ht]; exact this) a t ht
  rw [key, hg t ht, smul_zero]
  simp

/-- curvature zero means no movement at all. -/
theorem gainSq_pos {m : ℕ → ℕ} {T : ℕ} {k : (t : ℕ) → Vec K (m t)} {Quu : (t : ℕ) → Mat K (m t) (m t)}
    (hpd : ∀ t, t < T → PosDef (Quu t)) : 0 ≤ gainSq T k Quu ∧ (gainSq T k Quu = 0 → ∀ t, t < T → k t = 0) := by
  have hn : ∀ t ∈ Finset.range T, 0 ≤ (k t ⬝ᵥ (Quu t *ᵥ k t)) / 2 := by
    intro t ht
    by_cases hk : k t = 0
    · rw [hk]; simp
    · exact div_nonneg (hpd t (Finset.mem_range.mp ht) _ hk).le zero_le_two
  refine ⟨Finset.sum_nonneg hn, fun h t ht => ?_⟩
  by_contra hk
  have h1 := (Finset.sum_eq_zero_iff_of_nonneg hn).1 h t (Finset.mem_range.mpr ht)
  have h2 := hpd t ht _ hk
  linarith [div_pos h2 (zero_lt_two (α := K))]

end

namespace SQPCpp
section
variable {K : Type} [Field K] [LinearOrder K] [IsStrictOrderedRing K] {P : Problem K} {llt : LLT K}

/-- a search whose first trial is acceptable takes it. -/
theorem search_first {iter : ℕ} {p : SQPCpp P} (h : Good p iter (PySQP.halve 0)) :
    ∃ q, search iter 10 (PySQP.halve 0) p = (.accepted, PySQP.halve 0, q) ∧ Took p (PySQP.halve 0) q := by
  obtain ⟨r, a, q, e⟩ : ∃ r a q, search iter 10 (PySQP.halve 0) p = (r, a, q) := ⟨_, _, _, rfl⟩
  rcases search_spec iter 10 (Trials.refl p) 0 e with ⟨rfl, k, -, -, -, ka, -, kn, et⟩ | ⟨-, -, -, hn, -⟩ | ⟨-, -, -, -, hn, -⟩
  · have hk : k = 0 := by
      by_contra hk
      exact kn 0 le_rfl (by omega) h
    subst hk
    subst ka
    exact ⟨q, e, et⟩
  · exact absurd h (hn 0 le_rfl (by omega))
  · exact absurd h (hn 0 le_rfl (by omega))

/-- a search with the merit function none of whose trials is acceptable gives up and leaves the candidate. -/
theorem search_none {iter : ℕ} {p : SQPCpp P} (hf : p.useFilter = false) (h : ∀ i, ¬ Good p iter (PySQP.halve i)) :
    ∃ a q, search iter 10 (PySQP.halve 0) p = (.gaveUp, a, q) ∧ Trials p q := by
  obtain ⟨r, a, q, e⟩ : ∃ r a q, search iter 10 (PySQP.halve 0) p = (r, a, q) := ⟨_, _, _, rfl⟩
  rcases search_spec iter 10 (Trials.refl p) 0 e with ⟨-, k, -, -, -, ka, kg, -, -⟩ | ⟨-, h1, -⟩ | ⟨rfl, -, -, -, -, et⟩
  · rw [ka] at kg; exact absurd kg (h k)
  · rcases h1 with h1 | h1
    · rw [hf] at h1; cases h1
    · omega
  · exact ⟨a, q, e, et⟩

/-- no entry of the gap memory is negative. -/
def GapsNonneg (s : SQPCpp P) : Prop := ∀ x ∈ s.gapList.items, 0 ≤ x

theorem GapsNonneg.push {s : SQPCpp P} (h : GapsNonneg s) (hg : 0 ≤ s.gapNorm) : GapsNonneg s.pushFilter := by
  intro x hx
  simp only [pushFilter, CBuf.push] at hx
  split at hx
  · exact h x hx
  · split at hx
    · simp only [List.mem_append, List.mem_singleton] at hx
      rcases hx with hx | rfl
      · exact h x (List.mem_of_mem_tail hx)
      · exact hg
    · simp only [List.mem_append, List.mem_singleton] at hx
      rcases hx with hx | rfl
      · exact h x hx
      · exact hg

theorem GapsNonneg.start (xs : Option (Traj P)) (us : Option (Ctrls P)) (s : SQPCpp P) : GapsNonneg (s.start xs us) := by
  intro x hx
  simp only [SQPCpp.start, infDeque, List.mem_replicate] at hx
  rw [hx.2]
  have : (negInf : K) = -1 := rfl
  rw [this, neg_neg]
  exact zero_le_one

/-- a feasible trial is always acceptable to the filter. -/
theorem good_of_feasible {iter : ℕ} {p : SQPCpp P} (hf : p.useFilter = true) (hg : GapsNonneg p) {a : K} (h : trialGap p a = 0) :
    Good p iter a := by
  unfold Good
  rw [if_pos hf, h]
  rintro ⟨j, -, -, -, h2⟩
  simp only [ltb_exact, decide_eq_true_eq] at h2
  refine absurd h2 (not_lt.mpr ?_)
  unfold CBuf.get
  rw [List.getD_eq_getElem?_getD]
  cases e : p.gapList.items[p.filterSize - 1 - j]? with
  | none => exact le_rfl
  | some x => exact hg x (List.mem_of_getElem? e)

/-- what the main theorems assume: a linear-quadratic problem in exact arithmetic, a solver object in any reachable state with
positive tolerance, and a guess that starts at the initial state and that the stored multipliers do not already certify. -/
structure LQStart (llt : LLT K) (φ : P.X → Vec K P.ndx) (s : SQPCpp P) (X : Traj P) (U : Ctrls P) (s1 : SQPCpp P) : Prop where
  exact_ : LLTExact llt
  euclid : Euclid P φ
  dyn : AffineDyn P φ
  grad : QuadGrad P φ
  cost : QuadCost P φ
  sym : SymProblem P
  reach : Reachable s
  tol : 0 < s.tol
  x0 : X 0 = P.x0
  fresh : ¬ IsKKT P s.tol X U s.lagMul
  dir : computeDirection llt (s.start (some X) (some U)) = .ok s1

/-- the same with a dynamically feasible guess. -/
structure LQRun (llt : LLT K) (φ : P.X → Vec K P.ndx) (s : SQPCpp P) (X : Traj P) (U : Ctrls P) (s1 : SQPCpp P) : Prop
    extends LQStart llt φ s X U s1 where
  feas : Feasible P X U

variable {φ : P.X → Vec K P.ndx} {s s1 : SQPCpp P} {X : Traj P} {U : Ctrls P}

theorem LQStart.start_xs (h : LQStart llt φ s X U s1) : (s.start (some X) (some U)).xs = X := by
  change Function.update X 0 P.x0 = X
  rw [← h.x0, Function.update_eq_self]

/-- the first direction computation, any guess. -/
structure First0 (P : Problem K) (X : Traj P) (U : Ctrls P) (s1 : SQPCpp P) : Prop where
  xs : s1.xs = X
  us : s1.us = U
  gap : ∀ (a : K) (t : ℕ), t < P.T → shootGap P (stepX P X s1.dx a) (stepU P U s1.du a) t = (1 - a) • shootGap P X U t
  kkt : IsKKT P 0 (stepX P X s1.dx 1) (stepU P U s1.du 1) s1.lagMul

theorem LQStart.first0 (h : LQStart llt φ s X U s1) : First0 P X U s1 ∧ ¬ s1.KKT < s.tol ∧ s1.gapTry P.T = 0 ∧
    s1.tol = s.tol ∧ s1.useFilter = s.useFilter ∧ s1.filterSize = s.filterSize ∧ 0 ≤ s1.gapNorm ∧ GapsNonneg s1 ∧
    s1.gapList.Full s1.filterSize ∧ s1.costList.Full s1.filterSize := by
  have hx := h.start_xs
  have hu : (s.start (some X) (some U)).us = U := rfl
  have hc := direction_checked h.dir
  have hkeep := keep_all hc.keep
  obtain ⟨c1, c2, c3, c4⟩ := h.reach.clean
  obtain ⟨g0, g1⟩ := hc.gaps
  rw [hx, hu] at g1
  have hnk : ¬ s1.KKT < s.tol := by
    intro hlt
    have := (hc.residual.2 s.tol h.tol.le).1 hlt.le
    rw [hx, hu] at this
    exact h.fresh this
  have f2 : FreshDiff P s1.data X U := by have := hc.diff; rw [hx, hu] at this; exact this
  obtain ⟨r1, r2, r3, r4, r5⟩ := direction_riccati h.exact_ h.dir hnk c1 c2 (symHess_of_fresh h.sym f2)
  have hdx0 : s1.dx 0 = 0 := hkeep.2.2.2.2.2.2.1.trans c3
  refine ⟨⟨by rw [hc.xs, hx], by rw [hc.us, hu], fun a => ?_, ?_⟩, hnk, hkeep.2.2.2.2.2.2.2.trans c4, hkeep.2.1, hkeep.2.2.1,
    hkeep.2.2.2.1, ?_, ?_, ?_, ?_⟩
  · refine gap_contraction h.euclid h.dyn X U s1.dx s1.du (fun t ht => ?_) a
    have := r3 t ht
    simp only [lqOf, f2.run t ht, g1 t ht] at this
    exact this
  · exact full_step_kkt h.euclid h.dyn h.grad f2 (fun t ht => g1 t ht) (r1.kkt r3 r4 r5) h.x0 hdx0
  · rw [hc.gapNorm]
    unfold rowsNorm
    rw [sumUp_exact]
    exact Finset.sum_nonneg fun t _ => by rw [norm1_exact]; exact Finset.sum_nonneg fun _ _ => abs_nonneg _
  · intro x hxm
    rw [hc.cLists.2] at hxm
    exact GapsNonneg.start _ _ s x hxm
  · rw [hc.cLists.2, hkeep.2.2.2.1]; exact ⟨rfl, by simp [SQPCpp.start, infDeque]⟩
  · rw [hc.cLists.1, hkeep.2.2.2.1]; exact ⟨rfl, by simp [SQPCpp.start, infDeque]⟩

/-- the first direction computation. -/
structure First (P : Problem K) (φ : P.X → Vec K P.ndx) (X : Traj P) (U : Ctrls P) (s1 : SQPCpp P) (S : K) : Prop where
  xs : s1.xs = X
  us : s1.us = U
  cost : s1.cost = trajCost P X U
  gapNorm : s1.gapNorm = 0
  merit : s1.merit = trajCost P X U
  line : ∀ a : K, trajCost P (stepX P X s1.dx a) (stepU P U s1.du a) = trajCost P X U + ((1 - a) ^ 2 - 1) * S
  gap : ∀ a : K, shootGapNorm P (stepX P X s1.dx a) (stepU P U s1.du a) = 0
  kkt : IsKKT P 0 (stepX P X s1.dx 1) (stepU P U s1.du 1) s1.lagMul
  nonneg : 0 ≤ S
  still : S = 0 → IsKKT P 0 X U s1.lagMul

theorem LQRun.first (h : LQRun llt φ s X U s1) : (∃ S, First P φ X U s1 S) ∧ ¬ s1.KKT < s.tol ∧ s1.gapTry P.T = 0 ∧
    s1.tol = s.tol ∧ s1.useFilter = s.useFilter ∧ s1.mu = s.mu ∧ GapsNonneg s1 := by
  have hx := h.start_xs
  have hu : (s.start (some X) (some U)).us = U := rfl
  have hz : ∀ {n : ℕ} {v : Vec K n}, v = 0 → ∀ i, |v i| ≤ 0 := fun h i => by rw [h]; simp
  have hc := direction_checked h.dir
  have hkeep := keep_all hc.keep
  obtain ⟨c1, c2, c3, c4⟩ := h.reach.clean
  have hg : ∀ t, t < P.T → shootGap P X U t = 0 := fun t ht => by
    unfold shootGap; rw [h.euclid.diff, h.feas.2 t ht, sub_self]
  obtain ⟨g0, g1⟩ := hc.gaps
  rw [hx, hu] at g1
  rw [hx] at g0
  have hfs : ∀ t, t < P.T → s1.fs (t + 1) = 0 := fun t ht => by rw [g1 t ht, hg t ht]
  have hfs0 : s1.fs 0 = 0 := by rw [g0, h.feas.1, h.euclid.diff, sub_self]
  have hnk : ¬ s1.KKT < s.tol := by
    intro hlt
    have := (hc.residual.2 s.tol h.tol.le).1 hlt.le
    rw [hx, hu] at this
    exact h.fresh this
  have f2 : FreshDiff P s1.data X U := by have := hc.diff; rw [hx, hu] at this; exact this
  have hsym := symHess_of_fresh h.sym f2
  obtain ⟨r1, r2, r3, r4, r5⟩ := direction_riccati h.exact_ h.dir hnk c1 c2 hsym
  have hdx0 : s1.dx 0 = 0 := hkeep.2.2.2.2.2.2.1.trans c3
  have hgn : s1.gapNorm = 0 := by
    rw [hc.gapNorm]
    refine rowsNorm_zero fun t ht => ?_
    cases t with
    | zero => exact hfs0
    | succ t => exact hfs t ht
  have hcost : s1.cost = trajCost P X U := by rw [hc.cost, hx, hu]
  have hkkt := full_step_kkt h.euclid h.dyn h.grad f2 (fun t ht => g1 t ht) (r1.kkt r3 r4 r5) h.feas.1 hdx0
  obtain ⟨p1, p2⟩ := gainSq_pos (k := s1.bp.k) r2
  refine ⟨⟨gainSq P.T s1.bp.k s1.bp.Quu, ?_, ?_, hcost, hgn, ?_, ?_, ?_, hkkt, p1, ?_⟩, hnk, hkeep.2.2.2.2.2.2.2.trans c4, hkeep.2.1,
    hkeep.2.2.1, hkeep.1, ?_⟩
  · rw [hc.xs, hx]
  · rw [hc.us, hu]
  · rw [hc.merit, hgn, hcost, mul_zero, add_zero]
  · exact fun a => line_cost h.euclid h.cost f2 hfs r1 r3 hdx0 r4 a
  · exact fun a => line_gap h.euclid h.dyn f2 hfs hg r3 a
  · intro hS
    have hk := p2 hS
    have hd : ∀ t, t ≤ P.T → s1.dx t = 0 := by
      intro t
      induction t with
      | zero => exact fun _ => hdx0
      | succ t ih =>
        intro ht
        have e := r3 t ht
        have e2 : s1.du t = 0 := by rw [r4 t ht, hk t ht, ih (by omega)]; simp
        rw [e, ih (by omega), e2]
        have : (lqOf s1.data s1.fs 0 0).c (t + 1) = 0 := hfs t ht
        rw [this]
        simp
    have hdu : ∀ t, t < P.T → s1.du t = 0 := fun t ht => by rw [r4 t ht, hk t ht, hd t ht.le]; simp
    have ex : ∀ t, t ≤ P.T → stepX P X s1.dx 1 t = X t := fun t ht => h.euclid.inj _ _ (by
      unfold stepX; rw [h.euclid.integrate, hd t ht, sv_exact, smul_zero, add_zero])
    have eu : ∀ t, t < P.T → stepU P U s1.du 1 t = U t := fun t ht => by
      unfold stepU; rw [hdu t ht, sv_exact, smul_zero, add_zero]
    refine ⟨?_, ?_, ?_, ?_, ?_⟩
    · intro t ht; have := hkkt.stat_x t ht; rw [ex t ht.le, eu t ht] at this; exact this
    · intro t ht; have := hkkt.stat_u t ht; rw [ex t ht.le, eu t ht] at this; exact this
    · have := hkkt.stat_T; rw [ex P.T le_rfl] at this; exact this
    · have := hkkt.init; rw [ex 0 (Nat.zero_le _)] at this; exact this
    · intro t ht; have := hkkt.gaps t ht; rw [shootGap_congr P ex eu t ht] at this; exact this
  · intro x hxm
    rw [hc.cLists.2] at hxm
    exact GapsNonneg.start _ _ s x hxm

/-- the second direction computation after a full step: the residual of the multipliers is zero and nothing is computed. -/
theorem LQStart.second (h : LQStart llt φ s X U s1) (hF : First0 P X U s1) (htol : s1.tol = s.tol) {q : SQPCpp P}
    (ht : Took s1.pushFilter (PySQP.halve 0) q) :
    ∃ q1, computeDirection llt q = .ok q1 ∧ q1.KKT = 0 ∧ Checked q q1 ∧ q1.dx = s1.dx ∧ q1.du = s1.du ∧ q1.lagMul = s1.lagMul ∧
      (∀ t, t ≤ P.T → q1.xs t = stepX P X s1.dx 1 t) ∧ (∀ t, t < P.T → q1.us t = stepU P U s1.du 1 t) ∧
      q.gapTry P.T = s1.gapTry P.T := by
  have h1 : (PySQP.halve 0 : K) = 1 := by simp [PySQP.halve]
  have hxs : ∀ t, t ≤ P.T → q.xs t = stepX P X s1.dx 1 t := fun t htt => by
    rw [ht.xs t htt, h1]; change stepX P s1.xs s1.dx 1 t = _; rw [hF.xs]
  have hus : ∀ t, t < P.T → q.us t = stepU P U s1.du 1 t := fun t htt => by
    rw [ht.us t htt, h1]; change stepU P s1.us s1.du 1 t = _; rw [hF.us]
  obtain ⟨e1, e2, e3, e4, e5⟩ : q.dx = s1.dx ∧ q.du = s1.du ∧ q.lagMul = s1.lagMul ∧ q.tol = s1.tol ∧ q.gapTry P.T = s1.gapTry P.T := by
    obtain ⟨_, _, _, _, _, _, _, _, _, _, rfl, -, -, h3⟩ := ht.frame
    exact ⟨rfl, rfl, rfl, rfl, h3⟩
  have hkkt : IsKKT P 0 q.xs q.us q.lagMul := by
    rw [e3]
    refine ⟨?_, ?_, ?_, ?_, ?_⟩
    · intro t htt; rw [hxs t htt.le, hus t htt]; exact hF.kkt.stat_x t htt
    · intro t htt; rw [hxs t htt.le, hus t htt]; exact hF.kkt.stat_u t htt
    · rw [hxs P.T le_rfl]; exact hF.kkt.stat_T
    · rw [hxs 0 (Nat.zero_le _)]; exact hF.kkt.init
    · intro t htt; rw [shootGap_congr P hxs hus t htt]; exact hF.kkt.gaps t htt
  have hzero : ∀ {r : SQPCpp P}, Checked q r → r.KKT = 0 := fun hc =>
    le_antisymm ((hc.residual.2 0 le_rfl).2 hkkt) hc.residual.1
  have hpos : 0 < q.tol := by rw [e4, htol]; exact h.tol
  have hcase := direction_cases llt q
  generalize hr : computeDirection llt q = r at hcase
  cases hcase with
  | @stop q1 hq hk hd hu hl hn =>
    exact ⟨q1, rfl, hzero hq, hq, hd.trans e1, hu.trans e2, hl.trans e3, fun t htt => by rw [hq.xs]; exact hxs t htt,
      fun t htt => by rw [hq.us]; exact hus t htt, e5⟩
  | go hq hk => rw [hzero hq] at hk; simp only [ltb_exact, decide_eq_false_iff_not] at hk; exact absurd hpos hk
  | fail hq hk => rw [hzero hq] at hk; simp only [ltb_exact, decide_eq_false_iff_not] at hk; exact absurd hpos hk

/-- **C80.**  Linear-quadratic problem, exact arithmetic, filter line search (the default), any filter size, any reachable solver
object: started from any dynamically feasible guess that the stored multipliers do not certify already, with at least two iterations,
`solve` returns true with residual zero, and what it returns is the **mirror image of the guess** through the exact KKT point
`(X*, U*)`: in coordinates `2 X* - X`, `2 U* - U`.  Its cost is the cost of the guess. -/
theorem C80_cpp_mirror (h : LQRun llt φ s X U s1) (hf : s.useFilter = true) (m : ℕ) :
    ∃ s', solve llt (some X) (some U) (m + 2) s = (.ret true, s') ∧ s'.KKT = 0 ∧
      ∃ (X' : Traj P) (U' : Ctrls P), IsKKT P 0 X' U' s'.lagMul ∧
        (∀ t, t ≤ P.T → φ (s'.xs t) = 2 • φ (X' t) - φ (X t)) ∧ (∀ t, t < P.T → s'.us t = 2 • U' t - U t) ∧
        trajCost P s'.xs s'.us = trajCost P X U := by
  have h1 : (PySQP.halve 0 : K) = 1 := by simp [PySQP.halve]
  obtain ⟨⟨S, hF⟩, hnk, hgT, htol, huf, hmu, hnn⟩ := h.first
  have hp1 : GapsNonneg s1.pushFilter := hnn.push (by rw [hF.gapNorm])
  have hgap1 : trialGap s1.pushFilter (PySQP.halve 0) = 0 := by
    unfold trialGap
    change (shootGapNorm P (stepX P s1.xs s1.dx _) (stepU P s1.us s1.du _) + norm1 (s1.gapTry P.T)) / _ = 0
    rw [hF.xs, hF.us, hF.gap, hgT]
    simp
  obtain ⟨q, es, et⟩ := search_first (iter := 0) (good_of_feasible (by change s1.useFilter = true; rw [huf, hf]) hp1 hgap1)
  obtain ⟨q1, ed, hk1, hc1, d1, d2, d3, x1, u1, hgq⟩ := h.toLQStart.second h.toLQStart.first0.1 htol et
  have hqk : q.KKT = s1.KKT ∧ q.tol = s1.tol ∧ q.useFilter = s1.useFilter ∧ q.gapList = s1.pushFilter.gapList := by
    obtain ⟨_, _, _, _, _, _, _, _, _, _, rfl, -⟩ := et.frame
    exact ⟨rfl, rfl, rfl, rfl⟩
  have hkq1 := keep_all hc1.keep
  have hgapn : q1.gapNorm = 0 := by
    rw [hc1.gapNorm]
    refine rowsNorm_zero fun t ht => ?_
    have hkk := hF.kkt
    obtain ⟨g0, g1⟩ := hc1.gaps
    have x1' : ∀ t, t ≤ P.T → q.xs t = stepX P X s1.dx 1 t := fun t ht => by rw [← hc1.xs]; exact x1 t ht
    have u1' : ∀ t, t < P.T → q.us t = stepU P U s1.du 1 t := fun t ht => by rw [← hc1.us]; exact u1 t ht
    cases t with
    | zero => rw [g0, x1' 0 (Nat.zero_le _)]; exact funext fun i => abs_nonpos_iff.mp (hkk.init i)
    | succ t => rw [g1 t ht, shootGap_congr P x1' u1' t ht]; exact funext fun i => abs_nonpos_iff.mp (hkk.gaps t ht i)
  have hp2 : GapsNonneg q1.pushFilter := by
    refine GapsNonneg.push (fun x hx => ?_) (by rw [hgapn])
    rw [hc1.cLists.2, hqk.2.2.2] at hx
    exact hp1 x hx
  have hmove : stepX P (stepX P X s1.dx 1) s1.dx 1 = stepX P X s1.dx 2 ∧ stepU P (stepU P U s1.du 1) s1.du 1 = stepU P U s1.du 2 := by
    rw [stepX_add h.euclid, stepU_add]
    norm_num
  have hX2 : ∀ t, t ≤ P.T → stepX P q1.xs q1.dx 1 t = stepX P X s1.dx 2 t := fun t ht => by
    rw [d1, ← hmove.1]; unfold stepX; rw [x1 t ht]; rfl
  have hU2 : ∀ t, t < P.T → stepU P q1.us q1.du 1 t = stepU P U s1.du 2 t := fun t ht => by
    rw [d2, ← hmove.2]; unfold stepU; rw [u1 t ht]; rfl
  have hgap2 : trialGap q1.pushFilter (PySQP.halve 0) = 0 := by
    unfold trialGap
    rw [h1]
    change (shootGapNorm P (stepX P q1.xs q1.dx _) (stepU P q1.us q1.du _) + norm1 (q1.gapTry P.T)) / _ = 0
    rw [shootGapNorm_congr P hX2 hU2, hF.gap, hkq1.2.2.2.2.2.2.2, hgq, hgT]
    simp
  obtain ⟨s', es', et'⟩ := search_first (iter := 1)
    (good_of_feasible (by change q1.useFilter = true; rw [hkq1.2.2.1, hqk.2.2.1, huf, hf]) hp2 hgap2)
  have hs' : s'.KKT = q1.KKT ∧ s'.tol = q1.tol ∧ s'.lagMul = q1.lagMul := by
    obtain ⟨_, _, _, _, _, _, _, _, _, _, rfl, -⟩ := et'.frame
    exact ⟨rfl, rfl, rfl⟩
  have hxf : ∀ t, t ≤ P.T → s'.xs t = stepX P X s1.dx 2 t := fun t ht => by
    rw [et'.xs t ht, h1]; exact hX2 t ht
  have huf' : ∀ t, t < P.T → s'.us t = stepU P U s1.du 2 t := fun t ht => by
    rw [et'.us t ht, h1]; exact hU2 t ht
  refine ⟨s', ?_, hs'.1.trans hk1, stepX P X s1.dx 1, stepU P U s1.du 1, ?_, ?_, ?_, ?_⟩
  · unfold solve iterate
    rw [h.dir]
    simp only []
    rw [show (lit 1 : K) = PySQP.halve 0 from rfl, es]
    simp only []
    rw [if_neg (by rw [hqk.1, hqk.2.1, htol]; simpa using hnk)]
    unfold iterate
    rw [ed]
    simp only []
    rw [show (lit 1 : K) = PySQP.halve 0 from rfl, es']
    simp only []
    rw [if_pos (by rw [hs'.1, hs'.2.1, hk1, hkq1.2.1, hqk.2.1, htol]; simpa using h.tol)]
  · rw [hs'.2.2, d3]; exact hF.kkt
  · intro t ht
    rw [hxf t ht]
    unfold stepX
    rw [h.euclid.integrate, h.euclid.integrate, sv_exact, sv_exact, one_smul, two_smul, two_smul]
    abel
  · intro t ht
    rw [huf' t ht]
    unfold stepU
    rw [sv_exact, sv_exact, one_smul, two_smul, two_smul]
    abel
  · rw [trajCost_congr P hxf huf', hF.line]
    norm_num

/-- **C80 (consequence).**  The returned trajectory is therefore the unique optimum only if the guess was. -/
theorem C80_cpp_not_optimal (h : LQRun llt φ s X U s1) (hf : s.useFilter = true) (m : ℕ)
    (hX : ¬ OptimalTraj P X U) : ∃ s', solve llt (some X) (some U) (m + 2) s = (.ret true, s') ∧ s'.KKT = 0 ∧
      ¬ OptimalTraj P s'.xs s'.us := by
  obtain ⟨s', e, hk, X', U', hkkt, hx, hu, hc⟩ := C80_cpp_mirror h hf m
  refine ⟨s', e, hk, fun hopt => hX ?_⟩
  obtain ⟨h1, h2⟩ := hopt.2 X U h.feas
  obtain ⟨e1, e2⟩ := h2 hc.symm
  refine ⟨h.feas, fun X'' U'' hf'' => ?_⟩
  obtain ⟨g1, g2⟩ := hopt.2 X'' U'' hf''
  rw [← hc]
  exact ⟨g1, fun he => ⟨fun t ht => ((g2 he).1 t ht).trans (e1 t ht).symm, fun t ht => ((g2 he).2 t ht).trans (e2 t ht).symm⟩⟩

/-- **C81.**  Linear-quadratic problem, exact arithmetic, merit-function line search, any reachable solver object: started from any
dynamically feasible guess that the stored multipliers do not certify already, with at least two iterations, `solve` reaches the exact
KKT point - and returns false there. -/
theorem C81_cpp_merit_false (h : LQRun llt φ s X U s1) (hf : s.useFilter = false) (m : ℕ) :
    ∃ s', solve llt (some X) (some U) (m + 2) s = (.ret false, s') ∧ IsKKT P 0 s'.xs s'.us s'.lagMul := by
  have h1 : (PySQP.halve 0 : K) = 1 := by simp [PySQP.halve]
  obtain ⟨⟨S, hF⟩, hnk, hgT, htol, huf, hmu, hnn⟩ := h.first
  have hgood : ∀ a : K, Good s1.pushFilter 0 a ↔ ((1 - a) ^ 2 - 1) * S < 0 := by
    intro a
    have e1 : trialGap s1.pushFilter a = 0 := by
      unfold trialGap
      change (shootGapNorm P (stepX P s1.xs s1.dx _) (stepU P s1.us s1.du _) + norm1 (s1.gapTry P.T)) / _ = 0
      rw [hF.xs, hF.us, hF.gap, hgT]
      simp
    have e2 : trialCost s1.pushFilter a = trajCost P X U + ((1 - a) ^ 2 - 1) * S := by
      unfold trialCost
      change trajCost P (stepX P s1.xs s1.dx a) (stepU P s1.us s1.du a) = _
      rw [hF.xs, hF.us, hF.line]
    unfold Good
    rw [if_neg (by change ¬ s1.useFilter = true; rw [huf, hf]; exact Bool.false_ne_true), e1, e2, mul_zero, add_zero]
    change ltb _ s1.merit = true ↔ _
    rw [hF.merit, ltb_exact, decide_eq_true_eq]
    exact add_lt_iff_neg_left
  rcases hF.nonneg.lt_or_eq with hS | hS
  · obtain ⟨q, es, et⟩ := search_first (iter := 0) (p := s1.pushFilter) ((hgood _).2 (by rw [h1]; norm_num; exact hS))
    obtain ⟨q1, ed, hk1, hc1, d1, d2, d3, x1, u1, hgq⟩ := h.toLQStart.second h.toLQStart.first0.1 htol et
    have hqk : q.KKT = s1.KKT ∧ q.tol = s1.tol ∧ q.useFilter = s1.useFilter := by
      obtain ⟨_, _, _, _, _, _, _, _, _, _, rfl, -⟩ := et.frame
      exact ⟨rfl, rfl, rfl⟩
    have hkq1 := keep_all hc1.keep
    have x1' : ∀ t, t ≤ P.T → q.xs t = stepX P X s1.dx 1 t := fun t ht => by rw [← hc1.xs]; exact x1 t ht
    have u1' : ∀ t, t < P.T → q.us t = stepU P U s1.du 1 t := fun t ht => by rw [← hc1.us]; exact u1 t ht
    have hgapn : q1.gapNorm = 0 := by
      rw [hc1.gapNorm]
      refine rowsNorm_zero fun t ht => ?_
      have hkk := hF.kkt
      obtain ⟨g0, g1⟩ := hc1.gaps
      cases t with
      | zero => rw [g0, x1' 0 (Nat.zero_le _)]; exact funext fun i => abs_nonpos_iff.mp (hkk.init i)
      | succ t => rw [g1 t ht, shootGap_congr P x1' u1' t ht]; exact funext fun i => abs_nonpos_iff.mp (hkk.gaps t ht i)
    have hbad : ∀ i, ¬ Good q1.pushFilter 1 (PySQP.halve i) := by
      intro i hg
      generalize (PySQP.halve i : K) = a at hg
      have hX2 : ∀ t, t ≤ P.T → stepX P q1.xs q1.dx a t = stepX P X s1.dx (1 + a) t := fun t ht => by
        rw [d1, ← stepX_add h.euclid]; unfold stepX; rw [x1 t ht]; rfl
      have hU2 : ∀ t, t < P.T → stepU P q1.us q1.du a t = stepU P U s1.du (1 + a) t := fun t ht => by
        rw [d2, ← stepU_add]; unfold stepU; rw [u1 t ht]; rfl
      have e1 : trialGap q1.pushFilter a = 0 := by
        unfold trialGap
        change (shootGapNorm P (stepX P q1.xs q1.dx _) (stepU P q1.us q1.du _) + norm1 (q1.gapTry P.T)) / _ = 0
        rw [shootGapNorm_congr P hX2 hU2, hF.gap, hkq1.2.2.2.2.2.2.2, hgq, hgT]
        simp
      have e2 : trialCost q1.pushFilter a = trajCost P X U + ((1 - (1 + a)) ^ 2 - 1) * S := by
        unfold trialCost
        change trajCost P (stepX P q1.xs q1.dx a) (stepU P q1.us q1.du a) = _
        rw [trajCost_congr P hX2 hU2, hF.line]
      unfold Good at hg
      rw [if_neg (by change ¬ q1.useFilter = true; rw [hkq1.2.2.1, hqk.2.2, huf, hf]; exact Bool.false_ne_true), e1, e2, mul_zero,
        add_zero] at hg
      have hm : q1.pushFilter.merit = trajCost P X U + ((1 - 1) ^ 2 - 1) * S := by
        change q1.merit = _
        rw [hc1.merit, hgapn, mul_zero, add_zero, hc1.cost, trajCost_congr P x1' u1', hF.line]
      rw [hm, ltb_exact, decide_eq_true_eq] at hg
      have : 0 ≤ a ^ 2 * S := mul_nonneg (sq_nonneg a) hF.nonneg
      have e3 : (1 - (1 + a)) ^ 2 = a ^ 2 := by ring
      rw [e3] at hg
      have e4 : (a ^ 2 - 1) * S = a ^ 2 * S - S := by ring
      rw [e4] at hg
      have e5 : (((1 : K) - 1) ^ 2 - 1) * S = - S := by ring
      rw [e5] at hg
      linarith
    obtain ⟨a, s', es', et'⟩ := search_none (iter := 1) (p := q1.pushFilter)
      (by change q1.useFilter = false; rw [hkq1.2.2.1, hqk.2.2, huf, hf]) hbad
    have hs' : s'.xs = q1.xs ∧ s'.us = q1.us ∧ s'.lagMul = q1.lagMul := by
      obtain ⟨_, _, _, _, _, _, _, _, rfl, -⟩ := et'
      exact ⟨rfl, rfl, rfl⟩
    refine ⟨s', ?_, ?_⟩
    · unfold solve iterate
      rw [h.dir]
      simp only []
      rw [show (lit 1 : K) = PySQP.halve 0 from rfl, es]
      simp only []
      rw [if_neg (by rw [hqk.1, hqk.2.1, htol]; simpa using hnk)]
      unfold iterate
      rw [ed]
      simp only []
      rw [show (lit 1 : K) = PySQP.halve 0 from rfl, es']
    · have hkk := hF.kkt
      rw [hs'.2.2, d3]
      rw [hs'.1, hs'.2.1]
      refine ⟨?_, ?_, ?_, ?_, ?_⟩
      · intro t ht; rw [x1 t ht.le, u1 t ht]; exact hkk.stat_x t ht
      · intro t ht; rw [x1 t ht.le, u1 t ht]; exact hkk.stat_u t ht
      · rw [x1 P.T le_rfl]; exact hkk.stat_T
      · rw [x1 0 (Nat.zero_le _)]; exact hkk.init
      · intro t ht; rw [shootGap_congr P x1 u1 t ht]; exact hkk.gaps t ht
  · have hbad : ∀ i, ¬ Good s1.pushFilter 0 (PySQP.halve i) := fun i hg => by
      have := (hgood _).1 hg
      rw [← hS, mul_zero] at this
      exact lt_irrefl _ this
    obtain ⟨a, s', es', et'⟩ := search_none (iter := 0) (p := s1.pushFilter) (by change s1.useFilter = false; rw [huf, hf]) hbad
    have hs' : s'.xs = s1.xs ∧ s'.us = s1.us ∧ s'.lagMul = s1.lagMul := by
      obtain ⟨_, _, _, _, _, _, _, _, rfl, -⟩ := et'
      exact ⟨rfl, rfl, rfl⟩
    refine ⟨s', ?_, ?_⟩
    · unfold solve iterate
      rw [h.dir]
      simp only []
      rw [show (lit 1 : K) = PySQP.halve 0 from rfl, es']
    · rw [hs'.1, hs'.2.1, hs'.2.2, hF.xs, hF.us]
      exact hF.still hS.symm

end
end SQPCpp
end Mim
