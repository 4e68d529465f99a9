import Verif.Props.DirectionExists
import Verif.Spec.Rollout

/-!
# Convex linear-quadratic problems: KKT points are global minimisers, ranges depend on the horizon only
-/
set_option linter.unusedSectionVars false
set_option linter.unusedSimpArgs false

namespace Mim
open Spec Matrix
variable {K : Type} [Field K] [LinearOrder K] [IsStrictOrderedRing K] {P : Problem K}

/-- the change of the total cost is the cost of the quadratic model. -/
theorem trajCost_model {φ : P.X → Vec K P.ndx} (hC : QuadCost P φ) {d : Data P} {fs : ℕ → Vec K P.ndx} {X : Traj P} {U : Ctrls P}
    (f2 : FreshDiff P d X U) (X' : Traj P) (U' : Ctrls P) :
    trajCost P X' U' = trajCost P X U + (lqOf d fs 0 0).cost (fun t => φ (X' t) - φ (X t)) (fun t => U' t - U t) := by
  unfold trajCost LQ.cost
  rw [sumUp_exact, sumUp_exact, hC.ter (X P.T) (X' P.T)]
  have e : ∑ t ∈ Finset.range P.T, nodeCost P X' U' t = ∑ t ∈ Finset.range P.T, nodeCost P X U t +
      ∑ t ∈ Finset.range P.T, (lqOf d fs 0 0).stageCost t (φ (X' t) - φ (X t)) (U' t - U t) := by
    rw [← Finset.sum_add_distrib]
    refine Finset.sum_congr rfl fun t ht => ?_
    have ht := Finset.mem_range.mp ht
    unfold nodeCost LQ.stageCost
    rw [hC.run t ht (X t) (U t)]
    simp only [lqOf, f2.run t ht, zero_smul, add_zero]
    ring
  rw [e]
  simp only [lqOf, f2.ter, zero_smul, add_zero]
  ring

/-- an exact KKT point gives the zero solution of the KKT system there. -/
theorem kkt_zero {d : Data P} {X : Traj P} {U : Ctrls P} {lam : ℕ → Vec K P.ndx} {p q : K} (f2 : FreshDiff P d X U)
    (hk : IsKKT P 0 X U lam) : (lqOf d (fun _ => 0) p q).KKT (fun _ => 0) (fun _ => 0) lam := by
  have hz : ∀ {n : ℕ} {v : Vec K n}, (∀ i, |v i| ≤ 0) → v = 0 := fun h => funext fun i => abs_nonpos_iff.mp (h i)
  refine ⟨?_, ?_, ?_, ?_⟩
  · intro t ht
    have := hz (hk.stat_x t ht)
    simp only [lqOf, Matrix.mulVec_zero, zero_add, f2.run t ht]
    exact sub_eq_zero.mp this
  · intro t ht
    simp only [lqOf, Matrix.mulVec_zero, zero_add, f2.run t ht]
    exact hz (hk.stat_u t ht)
  · simp only [lqOf, Matrix.mulVec_zero, zero_add, f2.ter]
    exact sub_eq_zero.mp (hz hk.stat_T)
  · intro t ht
    simp only [lqOf, Matrix.mulVec_zero, zero_add]

/-- derivatives evaluated at a trajectory. -/
def dataAt (P : Problem K) (d0 : Data P) (X : Traj P) (U : Ctrls P) : Data P := d0.calcDiffAll X U

theorem dataAt_fresh (d0 : Data P) (X : Traj P) (U : Ctrls P) : FreshDiff P (dataAt P d0 X U) X U := by
  unfold dataAt
  exact ⟨fun t ht => by simp [Data.calcDiffAll, ht], rfl⟩

/-- **A KKT point of a strictly convex linear-quadratic problem is its unique minimiser.** -/
theorem kkt_global_min {φ : P.X → Vec K P.ndx} (hE : Euclid P φ) (hA : AffineDyn P φ) (hC : QuadCost P φ) (hP : SymProblem P)
    (hcv : ConvexProblem P) (hst : StrictControls P) (d0 : Data P) {X : Traj P} {U : Ctrls P} {lam : ℕ → Vec K P.ndx}
    (hk : IsKKT P 0 X U lam) {X' : Traj P} {U' : Ctrls P} (hf : Feasible P X' U') :
    trajCost P X U ≤ trajCost P X' U' ∧
    (trajCost P X' U' = trajCost P X U → (∀ t, t ≤ P.T → X' t = X t) ∧ ∀ t, t < P.T → U' t = U t) := by
  have hz : ∀ {n : ℕ} {v : Vec K n}, (∀ i, |v i| ≤ 0) → v = 0 := fun h => funext fun i => abs_nonpos_iff.mp (h i)
  have f2 := dataAt_fresh d0 X U
  have hsym := symHess_of_fresh hP f2
  have hQ : (lqOf (dataAt P d0 X U) (fun _ => 0) 0 0).Sym :=
    ⟨fun t ht => by simp only [lqOf, zero_smul, add_zero, hsym.xx t ht],
     fun t ht => by simp only [lqOf, zero_smul, add_zero, hsym.uu t ht],
     by simp only [lqOf, zero_smul, add_zero, hsym.T]⟩
  obtain ⟨V, v, G, k, Quu, hR, hpd⟩ := exists_riccati P.T _ hQ
    (posCurv_of_convex (fs := fun _ => 0) hcv f2 le_rfl le_rfl (.inl hst))
  have h0 := kkt_zero (p := 0) (q := 0) f2 hk
  obtain ⟨a1, _⟩ := hR.kkt_unique hpd h0
  have hX0 : X 0 = P.x0 := by
    have := hz hk.init
    rw [hE.diff] at this
    exact (hE.inj _ _ (sub_eq_zero.mp this)).symm
  have hdyn : (lqOf (dataAt P d0 X U) (fun _ => 0) 0 0).Dyn (fun t => φ (X' t) - φ (X t)) (fun t => U' t - U t) := by
    intro t ht
    have hg := hz (hk.gaps t ht)
    unfold shootGap at hg
    rw [hE.diff] at hg
    have hg := sub_eq_zero.mp hg
    simp only [lqOf, f2.run t ht, add_zero]
    rw [hf.2 t ht, hA t ht (X t) (U t), hg]
    abel
  have key := hR.minimal hpd h0.dyn hdyn (by simp [hf.1, hX0]) (fun t ht => a1 t ht)
  have hc0 : (lqOf (dataAt P d0 X U) (fun _ => 0) 0 0).cost (fun _ => 0) (fun _ => 0) = 0 := by
    unfold LQ.cost LQ.stageCost
    simp
  have hm := trajCost_model (fs := fun _ => 0) hC f2 X' U'
  rw [hc0] at key
  refine ⟨by rw [hm]; linarith [key.1], fun he => ?_⟩
  obtain ⟨c1, c2⟩ := key.2 (by rw [hm] at he; linarith)
  exact ⟨fun t ht => hE.inj _ _ (sub_eq_zero.mp (c2 t ht)), fun t ht => sub_eq_zero.mp (c1 t ht)⟩

/-- an exact KKT point is a feasible trajectory. -/
theorem kkt_feasible {φ : P.X → Vec K P.ndx} (hE : Euclid P φ) {X : Traj P} {U : Ctrls P} {lam : ℕ → Vec K P.ndx}
    (hk : IsKKT P 0 X U lam) : Feasible P X U := by
  have hz : ∀ {n : ℕ} {v : Vec K n}, (∀ i, |v i| ≤ 0) → v = 0 := fun h => funext fun i => abs_nonpos_iff.mp (h i)
  refine ⟨?_, fun t ht => ?_⟩
  · have := hz hk.init
    rw [hE.diff] at this
    exact (hE.inj _ _ (sub_eq_zero.mp this)).symm
  · have hg := hz (hk.gaps t ht)
    unfold shootGap at hg
    rw [hE.diff] at hg
    exact (hE.inj _ _ (sub_eq_zero.mp hg)).symm

/-! ### ranges depend on the horizon only -/

theorem riccati_congr {d d' : Data P} {fs fs' : ℕ → Vec K P.ndx} {p q : K} (h1 : ∀ t, t < P.T → d.rd t = d'.rd t) (h2 : d.td = d'.td)
    (h3 : ∀ t, t ≤ P.T → fs t = fs' t) {V : ℕ → Mat K P.ndx P.ndx} {v : ℕ → Vec K P.ndx} {G : (t : ℕ) → Mat K (P.nu t) P.ndx}
    {k : (t : ℕ) → Vec K (P.nu t)} {Quu : (t : ℕ) → Mat K (P.nu t) (P.nu t)} (h : Riccati (lqOf d fs p q) V v G k Quu) :
    Riccati (lqOf d' fs' p q) V v G k Quu := by
  obtain ⟨a1, a2, a3, a4, a5, a6, a7, a8, a9⟩ := h
  simp only [lqOf] at a1 a2 a5 a6 a7 a8 a9
  refine ⟨?_, ?_, a3, a4, fun t ht => ?_, fun t ht => ?_, fun t ht => ?_, fun t ht => ?_, fun t ht => ?_⟩ <;> simp only [lqOf]
  · rw [← h2]; exact a1
  · rw [← h2]; exact a2
  · rw [← h1 t ht]; exact a5 t ht
  · rw [← h1 t ht]; exact a6 t ht
  · rw [← h1 t ht, ← h3 (t + 1) ht]; exact a7 t ht
  · rw [← h1 t ht]; exact a8 t ht
  · rw [← h1 t ht, ← h3 (t + 1) ht]; exact a9 t ht

theorem inRange_congr {d d' : Data P} {fs fs' : ℕ → Vec K P.ndx} {p q : K} (h1 : ∀ t, t < P.T → d.rd t = d'.rd t) (h2 : d.td = d'.td)
    (h3 : ∀ t, t ≤ P.T → fs t = fs' t) (h : (lqOf d fs p q).InRange) : (lqOf d' fs' p q).InRange := by
  intro V v G k Quu hR t ht
  have := h V v G k Quu (riccati_congr (fun t ht => (h1 t ht).symm) h2.symm (fun t ht => (h3 t ht).symm) hR) t ht
  have e : (lqOf d' fs' p q).c t = (lqOf d fs p q).c t := (h3 t ht.le).symm
  rw [e]
  exact this

theorem costBlowsUp_congr {X X' : Traj P} {U U' : Ctrls P} (hx : ∀ t, t ≤ P.T → X t = X' t) (hu : ∀ t, t < P.T → U t = U' t)
    (h : CostBlowsUp P X U) : CostBlowsUp P X' U' := by
  have hn : ∀ t, t < P.T → nodeCost P X U t = nodeCost P X' U' t := fun t ht => by unfold nodeCost; rw [hx t ht.le, hu t ht]
  rcases h with ⟨t, ht, h⟩ | h
  · refine .inl ⟨t, ht, ?_⟩
    rwa [← sumUp_congr (t + 1) _ _ (fun i hi => hn i (by omega))]
  · refine .inr ?_
    rwa [← trajCost_congr P hx hu]

end Mim
