import Verif.Lemmas.Fejer

/-!
# C53: a QP iteration does not move away from a solution
-/
set_option linter.unusedSectionVars false
set_option linter.unusedSimpArgs false

namespace Mim
open QP Spec Matrix

section
variable {K : Type} [Field K] [LinearOrder K] [IsStrictOrderedRing K] [SqrtOps K] {P : Problem K}
variable {llt : LLT K} {E : QEnv P}

theorem statX_add (d : Data P) (preg : K) (x lam : ℕ → Vec K P.ndx) (u : (t : ℕ) → Vec K (P.nu t)) (y w : (t : ℕ) → Vec K (P.ng t)) (t : ℕ) :
    statX d preg x u lam (fun t => y t + w t) t = statX d preg x u lam y t + (d.rd t).Gxᵀ *ᵥ w t := by
  unfold statX; rw [mulVec_add]; abel

theorem statU_add (d : Data P) (dreg : K) (x lam : ℕ → Vec K P.ndx) (u : (t : ℕ) → Vec K (P.nu t)) (y w : (t : ℕ) → Vec K (P.ng t)) (t : ℕ) :
    statU d dreg x u lam (fun t => y t + w t) t = statU d dreg x u lam y t + (d.rd t).Guᵀ *ᵥ w t := by
  unfold statU; rw [mulVec_add]; abel

theorem statT_add (d : Data P) (preg : K) (x lam : ℕ → Vec K P.ndx) (y w : (t : ℕ) → Vec K (P.ng t)) :
    statT d preg x lam (fun t => y t + w t) = statT d preg x lam y + d.td.Gxᵀ *ᵥ w P.T := by
  unfold statT; rw [mulVec_add]; abel

/-- one executed iteration. -/
theorem fejer_step (hllt : LLTExact llt) (hsym : SymHess E.d) (hcv : Convex E.d E.preg E.dreg)
    (hs : ∀ l, E.sched = some l → SchedOK P l) {q0 q q' : CQP P} (h0 : CSQP.Zero0 q0) (h : AtIter llt E q0 q)
    (hr : ∀ t, t ≤ P.T → ∀ i, 0 < q.v.rho t i) (hcl : Clamped E q.v) (ha : 0 ≤ E.c.alpha)
    (hst : ({ q with tick := q.tick + 1 } : CQP P).step llt E = .ok q')
    {xs lams : ℕ → Vec K P.ndx} {us : (t : ℕ) → Vec K (P.nu t)} {ys : (t : ℕ) → Vec K (P.ng t)}
    (hk : QPKKT E.d E.fs E.preg E.dreg xs us lams ys) :
    admmDist E.d q.v.rho E.c.sigma E.c.alpha q'.v.dx q'.v.du q'.v.z q'.v.y xs us ys +
      E.c.alpha * (2 - E.c.alpha) * splitGap E.d q.v.rho q'.v.dx q'.v.du q.v.z +
      E.c.alpha * E.c.sigma * stepDist P q'.v.dx q.v.dx q'.v.du q.v.du ≤
    admmDist E.d q.v.rho E.c.sigma E.c.alpha q.v.dx q.v.du q.v.z q.v.y xs us ys := by
  obtain ⟨r1, r2, r3, r4, r5⟩ := C28_csqp_residual hllt hsym hs h0 h hst
  obtain ⟨m1, m2⟩ := step_move hst
  simp only [] at m1 m2
  set al := E.c.alpha with hal
  set sg := E.c.sigma with hsg
  let w : (t : ℕ) → Vec K (P.ng t) := fun t =>
    if t < P.T then q.v.rho t * ((1 - al) • (conLin E.d t (q'.v.dx t) (q'.v.du t) - q'.v.z t) + (2 - al) • (q'.v.z t - q.v.z t))
    else q.v.rho t * ((1 - al) • ((if e : t = P.T then e ▸ (E.d.td.Gx *ᵥ q'.v.dx P.T) else 0) - q'.v.z t) + (2 - al) • (q'.v.z t - q.v.z t))
  have hw : ∀ t, t < P.T → w t = q.v.rho t * ((1 - al) • (conLin E.d t (q'.v.dx t) (q'.v.du t) - q'.v.z t) + (2 - al) • (q'.v.z t - q.v.z t)) :=
    fun t ht => by simp only [w, if_pos ht]
  have hwT : w P.T = q.v.rho P.T * ((1 - al) • (E.d.td.Gx *ᵥ q'.v.dx P.T - q'.v.z P.T) + (2 - al) • (q'.v.z P.T - q.v.z P.T)) := by
    simp only [w, lt_irrefl, if_false, dif_pos]
  have hy : ∀ t, t < P.T → q'.v.y t + w t = q.v.y t + q.v.rho t * (conLin E.d t (q'.v.dx t) (q'.v.du t) - q.v.z t) := by
    intro t ht
    rw [hw t ht]
    funext i
    have := m1 t ht i
    simp only [Pi.add_apply, Pi.mul_apply, Pi.sub_apply, Pi.smul_apply, smul_eq_mul]
    linear_combination this
  have hyT : q'.v.y P.T + w P.T = q.v.y P.T + q.v.rho P.T * (E.d.td.Gx *ᵥ q'.v.dx P.T - q.v.z P.T) := by
    rw [hwT]
    funext i
    have := m2 i
    simp only [Pi.add_apply, Pi.mul_apply, Pi.sub_apply, Pi.smul_apply, smul_eq_mul]
    linear_combination this
  have gp := grad_pairing (lam := qpLam q') (y := fun t => q'.v.y t + w t) r1 r2 hk P.T le_rfl
  have sx : ∀ t, 0 < t → t < P.T → statX E.d E.preg q'.v.dx q'.v.du (qpLam q') (fun t => q'.v.y t + w t) t = -(sg • (q'.v.dx t - q.v.dx t)) :=
    fun t h0 ht => by rw [statX_add, r3 t h0 ht, hw t ht]; abel
  have su : ∀ t, t < P.T → statU E.d E.dreg q'.v.dx q'.v.du (qpLam q') (fun t => q'.v.y t + w t) t = -(sg • (q'.v.du t - q.v.du t)) :=
    fun t ht => by rw [statU_add, r4 t ht, hw t ht]; abel
  have sT : statT E.d E.preg q'.v.dx (qpLam q') (fun t => q'.v.y t + w t) = -(sg • (q'.v.dx P.T - q.v.dx P.T)) := by
    rw [statT_add, r5, hwT]; abel
  -- terminal part of the pairing
  have gT : statT E.d E.preg q'.v.dx (qpLam q') (fun t => q'.v.y t + w t) ⬝ᵥ (q'.v.dx P.T - xs P.T) =
      ((q'.v.dx P.T - xs P.T) ⬝ᵥ (E.d.td.Lxx *ᵥ (q'.v.dx P.T - xs P.T)) + E.preg * ((q'.v.dx P.T - xs P.T) ⬝ᵥ (q'.v.dx P.T - xs P.T))) +
      (q'.v.y P.T + w P.T - ys P.T) ⬝ᵥ (E.d.td.Gx *ᵥ q'.v.dx P.T - E.d.td.Gx *ᵥ xs P.T) -
      (qpLam q' P.T - lams P.T) ⬝ᵥ (q'.v.dx P.T - xs P.T) := by
    have e : statT E.d E.preg q'.v.dx (qpLam q') (fun t => q'.v.y t + w t) = E.d.td.Lxx *ᵥ (q'.v.dx P.T - xs P.T) +
        E.preg • (q'.v.dx P.T - xs P.T) + E.d.td.Gxᵀ *ᵥ (q'.v.y P.T + w P.T - ys P.T) - (qpLam q' P.T - lams P.T) := by
      rw [← hk.stat_T]
      unfold statT
      simp only [mulVec_sub, smul_sub]
      abel
    rw [e, ← mulVec_sub]
    generalize q'.v.dx P.T - xs P.T = ex
    generalize q'.v.y P.T + w P.T - ys P.T = wy
    generalize qpLam q' P.T - lams P.T = mu
    simp only [add_dotProduct, sub_dotProduct, smul_dotProduct, smul_eq_mul]
    rw [← dot_mulVec_comm, dotProduct_comm (E.d.td.Lxx *ᵥ _)]
  -- left side of the pairing: proximal terms
  have lhs : ∀ t, t < P.T → statX E.d E.preg q'.v.dx q'.v.du (qpLam q') (fun t => q'.v.y t + w t) t ⬝ᵥ (q'.v.dx t - xs t) =
      -(sg * ((q'.v.dx t - q.v.dx t) ⬝ᵥ (q'.v.dx t - xs t))) := by
    intro t ht
    rcases Nat.eq_zero_or_pos t with rfl | hp
    · rw [r1, hk.feas.start, sub_zero, dotProduct_zero, dotProduct_zero, mul_zero, neg_zero]
    · rw [sx t hp ht, neg_dotProduct, smul_dotProduct, smul_eq_mul]
  -- distances of the multipliers
  have dR : ∀ t, t < P.T → dualDist (q.v.rho t) (q'.v.z t) (q'.v.y t) (conLin E.d t (xs t) (us t)) (ys t) =
      dualDist (q.v.rho t) (q.v.z t) (q.v.y t) (conLin E.d t (xs t) (us t)) (ys t) +
      2 * al * ((q'.v.y t + w t - ys t) ⬝ᵥ (conLin E.d t (q'.v.dx t) (q'.v.du t) - conLin E.d t (xs t) (us t)) -
        (q.v.y t - ys t) ⬝ᵥ (q.v.z t - conLin E.d t (xs t) (us t))) -
      al * (2 - al) * wDist (q.v.rho t) (conLin E.d t (q'.v.dx t) (q'.v.du t)) (q.v.z t) := by
    intro t ht
    rw [node_fejer (hr t ht.le) (m1 t ht), hy t ht]
    rw [show q.v.y t - ys t + q.v.rho t * (conLin E.d t (q'.v.dx t) (q'.v.du t) - q.v.z t) =
      q.v.y t + q.v.rho t * (conLin E.d t (q'.v.dx t) (q'.v.du t) - q.v.z t) - ys t from by abel]
  have dT : dualDist (q.v.rho P.T) (q'.v.z P.T) (q'.v.y P.T) (E.d.td.Gx *ᵥ xs P.T) (ys P.T) =
      dualDist (q.v.rho P.T) (q.v.z P.T) (q.v.y P.T) (E.d.td.Gx *ᵥ xs P.T) (ys P.T) +
      2 * al * ((q'.v.y P.T + w P.T - ys P.T) ⬝ᵥ (E.d.td.Gx *ᵥ q'.v.dx P.T - E.d.td.Gx *ᵥ xs P.T) -
        (q.v.y P.T - ys P.T) ⬝ᵥ (q.v.z P.T - E.d.td.Gx *ᵥ xs P.T)) -
      al * (2 - al) * wDist (q.v.rho P.T) (E.d.td.Gx *ᵥ q'.v.dx P.T) (q.v.z P.T) := by
    rw [node_fejer (hr _ le_rfl) m2, hyT]
    rw [show q.v.y P.T - ys P.T + q.v.rho P.T * (E.d.td.Gx *ᵥ q'.v.dx P.T - q.v.z P.T) =
      q.v.y P.T + q.v.rho P.T * (E.d.td.Gx *ᵥ q'.v.dx P.T - q.v.z P.T) - ys P.T from by abel]
  -- monotonicity
  have cR : ∀ t, t < P.T → 0 ≤ (q.v.y t - ys t) ⬝ᵥ (q.v.z t - conLin E.d t (xs t) (us t)) := by
    intro t ht
    have := cone_mono (hcl.run t ht).2 (hcl.run t ht).1 (hk.compl t ht) (hk.feas.con t ht)
    rwa [add_sub_add_left_eq_sub] at this
  have cT : 0 ≤ (q.v.y P.T - ys P.T) ⬝ᵥ (q.v.z P.T - E.d.td.Gx *ᵥ xs P.T) := by
    have := cone_mono hcl.ter.2 hcl.ter.1 hk.complT hk.feas.conT
    rwa [add_sub_add_left_eq_sub] at this
  have qR : ∀ t, t < P.T → 0 ≤ stageQuad E.d E.preg E.dreg t (q'.v.dx t - xs t) (q'.v.du t - us t) := fun t ht => hcv.run t ht _ _
  have qT := hcv.ter (q'.v.dx P.T - xs P.T)
  -- per-stage inequality, summed
  rw [Finset.sum_congr rfl (fun t ht => by rw [lhs t (Finset.mem_range.mp ht), su t (Finset.mem_range.mp ht)])] at gp
  rw [sT, neg_dotProduct, smul_dotProduct, smul_eq_mul] at gT
  have gsum : 0 = ∑ t ∈ Finset.range P.T, (stageQuad E.d E.preg E.dreg t (q'.v.dx t - xs t) (q'.v.du t - us t) +
      (q'.v.y t + w t - ys t) ⬝ᵥ (conLin E.d t (q'.v.dx t) (q'.v.du t) - conLin E.d t (xs t) (us t)) +
      sg * ((q'.v.dx t - q.v.dx t) ⬝ᵥ (q'.v.dx t - xs t)) + sg * ((q'.v.du t - q.v.du t) ⬝ᵥ (q'.v.du t - us t))) +
      ((q'.v.dx P.T - xs P.T) ⬝ᵥ (E.d.td.Lxx *ᵥ (q'.v.dx P.T - xs P.T)) + E.preg * ((q'.v.dx P.T - xs P.T) ⬝ᵥ (q'.v.dx P.T - xs P.T))) +
      (q'.v.y P.T + w P.T - ys P.T) ⬝ᵥ (E.d.td.Gx *ᵥ q'.v.dx P.T - E.d.td.Gx *ᵥ xs P.T) +
      sg * ((q'.v.dx P.T - q.v.dx P.T) ⬝ᵥ (q'.v.dx P.T - xs P.T)) := by
    have e : ∑ t ∈ Finset.range P.T, (stageQuad E.d E.preg E.dreg t (q'.v.dx t - xs t) (q'.v.du t - us t) +
      (q'.v.y t + w t - ys t) ⬝ᵥ (conLin E.d t (q'.v.dx t) (q'.v.du t) - conLin E.d t (xs t) (us t)) +
      sg * ((q'.v.dx t - q.v.dx t) ⬝ᵥ (q'.v.dx t - xs t)) + sg * ((q'.v.du t - q.v.du t) ⬝ᵥ (q'.v.du t - us t))) =
      (∑ t ∈ Finset.range P.T, (stageQuad E.d E.preg E.dreg t (q'.v.dx t - xs t) (q'.v.du t - us t) +
      (q'.v.y t + w t - ys t) ⬝ᵥ (conLin E.d t (q'.v.dx t) (q'.v.du t) - conLin E.d t (xs t) (us t)))) -
      ∑ t ∈ Finset.range P.T, (-(sg * ((q'.v.dx t - q.v.dx t) ⬝ᵥ (q'.v.dx t - xs t))) + -(sg • (q'.v.du t - q.v.du t)) ⬝ᵥ (q'.v.du t - us t)) := by
      rw [← Finset.sum_sub_distrib]
      refine Finset.sum_congr rfl fun t _ => ?_
      rw [neg_dotProduct, smul_dotProduct, smul_eq_mul]
      ring
    rw [e, gp]
    linear_combination gT
  have key : ∀ t, t < P.T →
      (dualDist (q.v.rho t) (q'.v.z t) (q'.v.y t) (conLin E.d t (xs t) (us t)) (ys t) +
        al * sg * (sqDist (q'.v.dx t) (xs t) + sqDist (q'.v.du t) (us t))) +
      al * (2 - al) * wDist (q.v.rho t) (conLin E.d t (q'.v.dx t) (q'.v.du t)) (q.v.z t) +
      al * sg * (sqDist (q'.v.dx t) (q.v.dx t) + sqDist (q'.v.du t) (q.v.du t)) -
      (dualDist (q.v.rho t) (q.v.z t) (q.v.y t) (conLin E.d t (xs t) (us t)) (ys t) +
        al * sg * (sqDist (q.v.dx t) (xs t) + sqDist (q.v.du t) (us t))) ≤
      2 * al * (stageQuad E.d E.preg E.dreg t (q'.v.dx t - xs t) (q'.v.du t - us t) +
      (q'.v.y t + w t - ys t) ⬝ᵥ (conLin E.d t (q'.v.dx t) (q'.v.du t) - conLin E.d t (xs t) (us t)) +
      sg * ((q'.v.dx t - q.v.dx t) ⬝ᵥ (q'.v.dx t - xs t)) + sg * ((q'.v.du t - q.v.du t) ⬝ᵥ (q'.v.du t - us t))) := by
    intro t ht
    rw [dR t ht]
    have s1 := sqDist_step (q'.v.dx t) (q.v.dx t) (xs t)
    have s2 := sqDist_step (q'.v.du t) (q.v.du t) (us t)
    have p1 := mul_nonneg ha (cR t ht)
    have p2 := mul_nonneg ha (qR t ht)
    have t1 : 2 * al * (sg * ((q'.v.dx t - q.v.dx t) ⬝ᵥ (q'.v.dx t - xs t))) =
      al * sg * (sqDist (q'.v.dx t) (xs t) + sqDist (q'.v.dx t) (q.v.dx t) - sqDist (q.v.dx t) (xs t)) := by rw [← s1]; ring
    have t2 : 2 * al * (sg * ((q'.v.du t - q.v.du t) ⬝ᵥ (q'.v.du t - us t))) =
      al * sg * (sqDist (q'.v.du t) (us t) + sqDist (q'.v.du t) (q.v.du t) - sqDist (q.v.du t) (us t)) := by rw [← s2]; ring
    linarith
  have sum := Finset.sum_le_sum (s := Finset.range P.T) fun t ht => key t (Finset.mem_range.mp ht)
  rw [← Finset.mul_sum, Finset.sum_sub_distrib, Finset.sum_add_distrib, Finset.sum_add_distrib, ← Finset.mul_sum, ← Finset.mul_sum] at sum
  have s1 := sqDist_step (q'.v.dx P.T) (q.v.dx P.T) (xs P.T)
  have p1 := mul_nonneg ha cT
  have p2 := mul_nonneg ha qT
  have t1 : 2 * al * (sg * ((q'.v.dx P.T - q.v.dx P.T) ⬝ᵥ (q'.v.dx P.T - xs P.T))) =
      al * sg * (sqDist (q'.v.dx P.T) (xs P.T) + sqDist (q'.v.dx P.T) (q.v.dx P.T) - sqDist (q.v.dx P.T) (xs P.T)) := by rw [← s1]; ring
  have g2 := congrArg (2 * al * ·) gsum
  simp only [mul_zero] at g2
  unfold admmDist splitGap stepDist
  rw [dT]
  linarith

end
end Mim
