import Verif.Lemmas.ProxRows
import Mathlib.Algebra.BigOperators.Field

/-!
# The dense QP of SolverPROXQP is the stagewise QP
-/
set_option linter.unusedSectionVars false
set_option linter.unusedSimpArgs false

namespace Mim
open Spec Matrix

section
variable {K : Type} [Field K] [LinearOrder K] [IsStrictOrderedRing K] {P : Problem K}

namespace PROX
variable {d : Data P} {fs : ℕ → Vec K P.ndx} {m : PQP K}

/-- a sum over the state blocks, by node. -/
theorem sum_nodes (hT : 0 < P.T) (f : ℕ → K) (g : ℕ → K) (gT : K) (h0 : g 0 = 0)
    (h1 : ∀ t, 0 < t → t < P.T → f (t - 1) = g t) (h2 : f (P.T - 1) = gT) :
    ∑ k ∈ Finset.range P.T, f k = ∑ t ∈ Finset.range P.T, g t + gT := by
  obtain ⟨n, hn⟩ : ∃ n, P.T = n + 1 := ⟨P.T - 1, by omega⟩
  have e : P.T - 1 = n := by omega
  rw [e] at h2
  rw [hn, Finset.sum_range_succ, Finset.sum_range_succ', h0, add_zero, h2]
  congr 1
  refine Finset.sum_congr rfl fun k hk => ?_
  rw [Finset.mem_range] at hk
  exact h1 (k + 1) (Nat.succ_pos k) (by omega)

theorem obj_eq (hT : 0 < P.T) (h : Ent d fs m) (z : FVec K) :
    PQP.obj P.nVars m z = (lqOf d fs 0 0).cost (stX P z) (stU P z) := by
  have hx : ∀ t, 0 < t → t < P.T → ∑ i : Fin P.ndx, z ((t - 1) * P.ndx + i) * prod P.nVars m.P z ((t - 1) * P.ndx + i) =
      stX P z t ⬝ᵥ ((d.rd t).Lxx *ᵥ stX P z t) + stX P z t ⬝ᵥ ((d.rd t).Lxu *ᵥ stU P z t) := by
    intro t h0 ht
    rw [← dotProduct_add]
    obtain ⟨k, rfl⟩ : ∃ k, t = k + 1 := ⟨t - 1, by omega⟩
    exact Finset.sum_congr rfl fun i _ => by rw [rowP_x h.hP z h0 ht i]; rfl
  have hxT : ∑ i : Fin P.ndx, z ((P.T - 1) * P.ndx + i) * prod P.nVars m.P z ((P.T - 1) * P.ndx + i) =
      stX P z P.T ⬝ᵥ (d.td.Lxx *ᵥ stX P z P.T) := by
    have e2 : ∀ i : Fin P.ndx, z ((P.T - 1) * P.ndx + i) = stX P z P.T i := by
      intro i
      obtain ⟨k, hk⟩ : ∃ k, P.T = k + 1 := ⟨P.T - 1, by omega⟩
      rw [hk]; rfl
    exact Finset.sum_congr rfl fun i _ => by rw [rowP_T h.hP z hT i, e2]
  have hu : ∀ t, t < P.T → ∑ i : Fin (P.nu t), z (P.nEq + offs P.nu t + i) * prod P.nVars m.P z (P.nEq + offs P.nu t + i) =
      stX P z t ⬝ᵥ ((d.rd t).Lxu *ᵥ stU P z t) + stU P z t ⬝ᵥ ((d.rd t).Luu *ᵥ stU P z t) := by
    intro t ht
    have : stX P z t ⬝ᵥ ((d.rd t).Lxu *ᵥ stU P z t) = stU P z t ⬝ᵥ ((d.rd t).Lxuᵀ *ᵥ stX P z t) := by
      rw [dotProduct_mulVec, dotProduct_comm, ← mulVec_transpose]
    rw [this, ← dotProduct_add]
    exact Finset.sum_congr rfl fun i _ => by rw [rowP_u h.hP z ht i]; rfl
  have hq : ∀ t, 0 < t → t < P.T → ∑ i : Fin P.ndx, m.q ((t - 1) * P.ndx + i) * z ((t - 1) * P.ndx + i) = (d.rd t).Lx ⬝ᵥ stX P z t := by
    intro t h0 ht
    obtain ⟨k, rfl⟩ : ∃ k, t = k + 1 := ⟨t - 1, by omega⟩
    exact Finset.sum_congr rfl fun i _ => by rw [Nat.add_sub_cancel, h.hv.qx k i ht]; rfl
  have hqT : ∑ i : Fin P.ndx, m.q ((P.T - 1) * P.ndx + i) * z ((P.T - 1) * P.ndx + i) = d.td.Lx ⬝ᵥ stX P z P.T := by
    have e2 : ∀ i : Fin P.ndx, z ((P.T - 1) * P.ndx + i) = stX P z P.T i := by
      intro i
      obtain ⟨k, hk⟩ : ∃ k, P.T = k + 1 := ⟨P.T - 1, by omega⟩
      rw [hk]; rfl
    exact Finset.sum_congr rfl fun i _ => by rw [h.hv.qxT (P.T - 1) i (by omega), e2]
  have hqu : ∀ t, t < P.T → ∑ i : Fin (P.nu t), m.q (P.nEq + offs P.nu t + i) * z (P.nEq + offs P.nu t + i) = (d.rd t).Lu ⬝ᵥ stU P z t := by
    intro t ht
    exact Finset.sum_congr rfl fun i _ => by rw [h.hv.qu t i ht]; rfl
  unfold PQP.obj LQ.cost
  rw [sum_nVars, sum_nVars,
    sum_nodes hT (fun k => ∑ i : Fin P.ndx, z (k * P.ndx + i) * prod P.nVars m.P z (k * P.ndx + i))
      (fun t => stX P z t ⬝ᵥ ((d.rd t).Lxx *ᵥ stX P z t) + stX P z t ⬝ᵥ ((d.rd t).Lxu *ᵥ stU P z t)) _
      (by simp [stX]) hx hxT,
    sum_nodes hT (fun k => ∑ i : Fin P.ndx, m.q (k * P.ndx + i) * z (k * P.ndx + i)) (fun t => (d.rd t).Lx ⬝ᵥ stX P z t) _ (by simp [stX]) hq hqT,
    Finset.sum_congr rfl fun t ht => hu t (Finset.mem_range.mp ht),
    Finset.sum_congr rfl fun t ht => hqu t (Finset.mem_range.mp ht)]
  have hs : ∀ t, (lqOf d fs 0 0).stageCost t (stX P z t) (stU P z t) =
      (stX P z t ⬝ᵥ ((d.rd t).Lxx *ᵥ stX P z t) + stX P z t ⬝ᵥ ((d.rd t).Lxu *ᵥ stU P z t)) / 2 +
      (stX P z t ⬝ᵥ ((d.rd t).Lxu *ᵥ stU P z t) + stU P z t ⬝ᵥ ((d.rd t).Luu *ᵥ stU P z t)) / 2 +
      (d.rd t).Lx ⬝ᵥ stX P z t + (d.rd t).Lu ⬝ᵥ stU P z t := by
    intro t
    unfold LQ.stageCost lqOf
    simp only [zero_smul, add_zero]
    ring
  have hsT : stX P z P.T ⬝ᵥ ((lqOf d fs 0 0).HT *ᵥ stX P z P.T) = stX P z P.T ⬝ᵥ (d.td.Lxx *ᵥ stX P z P.T) := by
    unfold lqOf; simp only [zero_smul, add_zero]
  have hgT : (lqOf d fs 0 0).gT = d.td.Lx := rfl
  rw [Finset.sum_congr rfl fun t _ => hs t, hsT, hgT]
  simp only [Finset.sum_add_distrib, ← Finset.sum_div]
  ring

/-- a solution of the dense KKT conditions, read the way the code reads it, solves the stagewise KKT conditions. -/
theorem qpkkt_of_dense (hT : 0 < P.T) (h : Ent d fs m) {x y z : FVec K} (hk : DenseKKT P.nVars P.nEq P.nIn m x y z) :
    QPKKT d fs 0 0 (stX P x) (stU P x) (stLam P y) (stY P z) := by
  have hin : ∀ t (i : Fin (P.ng t)), t ≤ P.T → offs P.ng t + i < P.nIn := by
    intro t i ht
    exact offs_lt (d := P.ng) (Nat.lt_succ_of_le ht) i.2
  have hxv : ∀ k (i : Fin P.ndx), k < P.T → k * P.ndx + i < P.nVars := by
    intro k i hk
    have := x_lt i.2 hk
    unfold Problem.nVars; omega
  have hrun : ∀ t, t < P.T → ∀ i, (P.lb t i).map (fun l => l - (d.run t).g i) = m.l (offs P.ng t + i) ∧
      (P.ub t i).map (fun l => l - (d.run t).g i) = m.u (offs P.ng t + i) := fun t ht i => ⟨(h.hv.l t i ht).symm, (h.hv.u t i ht).symm⟩
  refine ⟨⟨rfl, ?_, ?_, ?_⟩, ?_, ?_, ?_, ?_, ?_⟩
  · intro t ht
    funext i
    have h1 := hk.eq _ (x_lt i.2 ht)
    rw [rowA h.hA x ht i, h.hv.b t i ht] at h1
    simp only [Pi.sub_apply, Pi.add_apply] at h1 ⊢
    linear_combination h1
  · intro t ht i
    have hr := rowC h.hC x ht i
    refine ⟨fun l hl => ?_, fun u hu => ?_⟩
    · have h1 := hk.lo _ (hin t i ht.le) (l - (d.run t).g i) (by rw [h.hv.l t i ht, hl]; rfl)
      rw [hr] at h1
      simp only [Pi.add_apply]; linarith
    · have h1 := hk.up _ (hin t i ht.le) (u - (d.run t).g i) (by rw [h.hv.u t i ht, hu]; rfl)
      rw [hr] at h1
      simp only [Pi.add_apply]; linarith
  · intro i
    have hr := rowC_T h.hC x hT i
    refine ⟨fun l hl => ?_, fun u hu => ?_⟩
    · have h1 := hk.lo _ (hin P.T i le_rfl) (l - d.ter.g i) (by rw [h.hv.lT i, hl]; rfl)
      rw [hr] at h1
      simp only [Pi.add_apply]; linarith
    · have h1 := hk.up _ (hin P.T i le_rfl) (u - d.ter.g i) (by rw [h.hv.uT i, hu]; rfl)
      rw [hr] at h1
      simp only [Pi.add_apply]; linarith
  · intro t h0 ht
    funext i
    have h1 := hk.stat _ (hxv (t - 1) i (by omega))
    rw [rowP_x h.hP x h0 ht i, colA_x h.hA y h0 ht i, colC_x h.hC z h0 ht i] at h1
    have h2 : m.q ((t - 1) * P.ndx + i) = (d.rd t).Lx i := by
      obtain ⟨k, rfl⟩ : ∃ k, t = k + 1 := ⟨t - 1, by omega⟩
      exact h.hv.qx k i ht
    rw [h2] at h1
    simp only [Pi.add_apply, Pi.neg_apply, zero_smul, Pi.zero_apply] at h1 ⊢
    linear_combination h1
  · intro t ht
    funext i
    have h1 := hk.stat _ (u_lt i.2 ht)
    rw [rowP_u h.hP x ht i, colA_u h.hA y ht i, colC_u h.hC z ht i, h.hv.qu t i ht] at h1
    simp only [Pi.add_apply, zero_smul, Pi.zero_apply] at h1 ⊢
    linear_combination h1
  · funext i
    have h1 := hk.stat _ (hxv (P.T - 1) i (by omega))
    rw [rowP_T h.hP x hT i, colA_T h.hA y hT i, colC_T h.hC z hT i, h.hv.qxT (P.T - 1) i (by omega)] at h1
    simp only [Pi.add_apply, Pi.neg_apply, zero_smul, Pi.zero_apply] at h1 ⊢
    linear_combination h1
  · intro t ht i
    have hr := rowC h.hC x ht i
    refine ⟨fun hp => ?_, fun hp => ?_⟩
    · have h1 := hk.pos _ (hin t i ht.le) hp
      rw [hr, h.hv.u t i ht] at h1
      cases hu : P.ub t i with
      | none => rw [hu] at h1; cases h1
      | some u =>
        rw [hu] at h1
        simp only [Option.map_some, Option.some.injEq] at h1
        rw [Pi.add_apply, ← h1]; congr 1; ring
    · have h1 := hk.neg _ (hin t i ht.le) hp
      rw [hr, h.hv.l t i ht] at h1
      cases hu : P.lb t i with
      | none => rw [hu] at h1; cases h1
      | some u =>
        rw [hu] at h1
        simp only [Option.map_some, Option.some.injEq] at h1
        rw [Pi.add_apply, ← h1]; congr 1; ring
  · intro i
    have hr := rowC_T h.hC x hT i
    refine ⟨fun hp => ?_, fun hp => ?_⟩
    · have h1 := hk.pos _ (hin P.T i le_rfl) hp
      rw [hr, h.hv.uT i] at h1
      cases hu : P.ub P.T i with
      | none => rw [hu] at h1; cases h1
      | some u =>
        rw [hu] at h1
        simp only [Option.map_some, Option.some.injEq] at h1
        rw [Pi.add_apply, ← h1]; congr 1; ring
    · have h1 := hk.neg _ (hin P.T i le_rfl) hp
      rw [hr, h.hv.lT i] at h1
      cases hu : P.lb P.T i with
      | none => rw [hu] at h1; cases h1
      | some u =>
        rw [hu] at h1
        simp only [Option.map_some, Option.some.injEq] at h1
        rw [Pi.add_apply, ← h1]; congr 1; ring

end PROX
end
end Mim
