import Verif.Spec.AdmmDist
import Verif.Props.QPResidual
import Verif.Props.QPLoop

/-!
# One QP iteration does not move away from a solution of the QP
-/
set_option linter.unusedSectionVars false
set_option linter.unusedSimpArgs false

namespace Mim
open QP Spec Matrix

section
variable {K : Type} [Field K] [LinearOrder K] [IsStrictOrderedRing K] {P : Problem K}

/-- one node: the distance of the multipliers after the update. -/
theorem node_fejer {m : ℕ} {rho z y z' y' c cs ys : Vec K m} {alpha : K} (hr : ∀ i, 0 < rho i)
    (h : ∀ i, y' i + rho i * z' i = y i + rho i * z i + alpha * rho i * (c i - z i)) :
    dualDist rho z' y' cs ys = dualDist rho z y cs ys + 2 * alpha * ((y - ys + rho * (c - z)) ⬝ᵥ (c - cs) - (y - ys) ⬝ᵥ (z - cs)) -
      alpha * (2 - alpha) * wDist rho c z := by
  unfold dualDist wDist dotProduct
  rw [← Finset.sum_sub_distrib, Finset.mul_sum, Finset.mul_sum, ← Finset.sum_add_distrib, ← Finset.sum_sub_distrib]
  refine Finset.sum_congr rfl fun i _ => ?_
  have e : rho i * (z' i - cs i) + (y' i - ys i) = rho i * (z i - cs i) + (y i - ys i) + alpha * rho i * (c i - z i) := by
    linear_combination h i
  rw [e]
  have := (hr i).ne'
  simp only [Pi.add_apply, Pi.sub_apply, Pi.mul_apply]
  field_simp
  ring

/-- the quadratic form of one stage. -/
def stageQuad (d : Data P) (preg dreg : K) (t : ℕ) (x : Vec K P.ndx) (u : Vec K (P.nu t)) : K :=
  x ⬝ᵥ ((d.rd t).Lxx *ᵥ x) + preg * (x ⬝ᵥ x) + 2 * (x ⬝ᵥ ((d.rd t).Lxu *ᵥ u)) + u ⬝ᵥ ((d.rd t).Luu *ᵥ u) + dreg * (u ⬝ᵥ u)

theorem conLin_sub (d : Data P) (t : ℕ) (x x' : Vec K P.ndx) (u u' : Vec K (P.nu t)) :
    conLin d t x u - conLin d t x' u' = (d.rd t).Gx *ᵥ (x - x') + (d.rd t).Gu *ᵥ (u - u') := by
  unfold conLin
  rw [mulVec_sub, mulVec_sub]; abel

/-- multiplying the difference of two Lagrangian gradients with the difference of the steps. -/
theorem grad_pairing {d : Data P} {fs : ℕ → Vec K P.ndx} {preg dreg : K}
    {x lam xs lams : ℕ → Vec K P.ndx} {u us : (t : ℕ) → Vec K (P.nu t)} {y ys : (t : ℕ) → Vec K (P.ng t)}
    (h0 : x 0 = 0) (hdyn : ∀ t, t < P.T → x (t + 1) = (d.rd t).Fx *ᵥ x t + (d.rd t).Fu *ᵥ u t + fs (t + 1))
    (h : QPKKT d fs preg dreg xs us lams ys) (n : ℕ) (hn : n ≤ P.T) :
    ∑ t ∈ Finset.range n, (statX d preg x u lam y t ⬝ᵥ (x t - xs t) + statU d dreg x u lam y t ⬝ᵥ (u t - us t)) =
      (∑ t ∈ Finset.range n, (stageQuad d preg dreg t (x t - xs t) (u t - us t) +
        (y t - ys t) ⬝ᵥ (conLin d t (x t) (u t) - conLin d t (xs t) (us t)))) + (lam n - lams n) ⬝ᵥ (x n - xs n) := by
  induction n with
  | zero => simp [h0, h.feas.start]
  | succ n ih =>
    have hn' : n < P.T := hn
    rw [Finset.sum_range_succ, Finset.sum_range_succ, ih (by omega), conLin_sub]
    have hd : x (n + 1) - xs (n + 1) = (d.rd n).Fx *ᵥ (x n - xs n) + (d.rd n).Fu *ᵥ (u n - us n) := by
      rw [hdyn n hn', h.feas.dyn n hn', mulVec_sub, mulVec_sub]; abel
    have hu : statU d dreg x u lam y n = (d.rd n).Lxuᵀ *ᵥ (x n - xs n) + (d.rd n).Luu *ᵥ (u n - us n) + dreg • (u n - us n) +
        (d.rd n).Fuᵀ *ᵥ (lam (n + 1) - lams (n + 1)) + (d.rd n).Guᵀ *ᵥ (y n - ys n) := by
      rw [← sub_zero (statU d dreg x u lam y n), ← h.stat_u n hn']
      unfold statU
      simp only [mulVec_sub, smul_sub]
      abel
    have hx : statX d preg x u lam y n ⬝ᵥ (x n - xs n) = ((d.rd n).Lxx *ᵥ (x n - xs n) + preg • (x n - xs n) +
        (d.rd n).Lxu *ᵥ (u n - us n) + (d.rd n).Fxᵀ *ᵥ (lam (n + 1) - lams (n + 1)) + (d.rd n).Gxᵀ *ᵥ (y n - ys n) -
          (lam n - lams n)) ⬝ᵥ (x n - xs n) := by
      rcases Nat.eq_zero_or_pos n with rfl | hp
      · rw [h0, h.feas.start, sub_zero, dotProduct_zero, dotProduct_zero]
      · congr 1
        rw [← sub_zero (statX d preg x u lam y n), ← h.stat_x n hp hn']
        unfold statX
        simp only [mulVec_sub, smul_sub]
        abel
    rw [hx, hu, hd]
    generalize x n - xs n = ex
    generalize u n - us n = eu
    generalize lam (n + 1) - lams (n + 1) = mu
    generalize lam n - lams n = nu
    generalize y n - ys n = w
    unfold stageQuad
    simp only [add_dotProduct, sub_dotProduct, dotProduct_add, smul_dotProduct, smul_eq_mul]
    have e1 : ((d.rd n).Lxx *ᵥ ex) ⬝ᵥ ex = ex ⬝ᵥ ((d.rd n).Lxx *ᵥ ex) := dotProduct_comm _ _
    have e2 : ((d.rd n).Luu *ᵥ eu) ⬝ᵥ eu = eu ⬝ᵥ ((d.rd n).Luu *ᵥ eu) := dotProduct_comm _ _
    have e3 : ((d.rd n).Lxu *ᵥ eu) ⬝ᵥ ex = ex ⬝ᵥ ((d.rd n).Lxu *ᵥ eu) := dotProduct_comm _ _
    have e4 : ((d.rd n).Lxuᵀ *ᵥ ex) ⬝ᵥ eu = ex ⬝ᵥ ((d.rd n).Lxu *ᵥ eu) := (dot_mulVec_comm _ _ _).symm
    have e5 : ((d.rd n).Fxᵀ *ᵥ mu) ⬝ᵥ ex = mu ⬝ᵥ ((d.rd n).Fx *ᵥ ex) := (dot_mulVec_comm _ _ _).symm
    have e6 : ((d.rd n).Fuᵀ *ᵥ mu) ⬝ᵥ eu = mu ⬝ᵥ ((d.rd n).Fu *ᵥ eu) := (dot_mulVec_comm _ _ _).symm
    have e7 : ((d.rd n).Gxᵀ *ᵥ w) ⬝ᵥ ex = w ⬝ᵥ ((d.rd n).Gx *ᵥ ex) := (dot_mulVec_comm _ _ _).symm
    have e8 : ((d.rd n).Guᵀ *ᵥ w) ⬝ᵥ eu = w ⬝ᵥ ((d.rd n).Gu *ᵥ eu) := (dot_mulVec_comm _ _ _).symm
    rw [e1, e2, e3, e4, e5, e6, e7, e8]
    ring

/-- monotonicity of the normal cone. -/
theorem cone_mono {n : ℕ} {lb ub : Fin n → Option K} {c c' y y' : Vec K n} (h : NormalCone lb ub c y) (hc : InBox lb ub c)
    (h' : NormalCone lb ub c' y') (hc' : InBox lb ub c') : 0 ≤ (y - y') ⬝ᵥ (c - c') := by
  have h1 := cone_dot h hc'
  have h2 := cone_dot h' hc
  have e : (y - y') ⬝ᵥ (c - c') = -(y ⬝ᵥ (c' - c)) - y' ⬝ᵥ (c - c') := by
    simp only [sub_dotProduct, dotProduct_sub]; ring
  rw [e]; linarith

theorem sqDist_step {n : ℕ} (a b s : Vec K n) : 2 * ((a - b) ⬝ᵥ (a - s)) = sqDist a s + sqDist a b - sqDist b s := by
  unfold sqDist dotProduct
  rw [Finset.mul_sum, ← Finset.sum_add_distrib, ← Finset.sum_sub_distrib]
  refine Finset.sum_congr rfl fun i _ => ?_
  simp only [Pi.sub_apply]
  ring

end

section
variable {K : Type} [Field K] [LinearOrder K] [IsStrictOrderedRing K] [SqrtOps K] {P : Problem K}
variable {llt : LLT K} {E : QEnv P}

/-- the state satisfies what every iteration establishes (C27). -/
structure Clamped (E : QEnv P) (v : CVars P) : Prop where
  run : ∀ t, t < P.T → InBox (P.lb t) (P.ub t) ((E.d.run t).g + v.z t) ∧ NormalCone (P.lb t) (P.ub t) ((E.d.run t).g + v.z t) (v.y t)
  ter : InBox (P.lb P.T) (P.ub P.T) (E.d.ter.g + v.z P.T) ∧ NormalCone (P.lb P.T) (P.ub P.T) (E.d.ter.g + v.z P.T) (v.y P.T)

theorem admmNode_move {m : ℕ} {alpha : K} {lb ub : Fin m → Option K} {g Cd z y rho inv : Vec K m} :
    let x := admmNode alpha lb ub g Cd z y rho inv
    ∀ i, x.2.2 i + rho i * x.2.1 i = y i + rho i * z i + alpha * rho i * (Cd i - z i) := by
  intro x i
  have := congrFun (admmNode_dual alpha lb ub g Cd z y rho inv) i
  simp only [Pi.add_apply, Pi.mul_apply, Pi.sub_apply, Pi.smul_apply, smul_eq_mul] at this
  change (admmNode alpha lb ub g Cd z y rho inv).2.2 i + rho i * (admmNode alpha lb ub g Cd z y rho inv).2.1 i = _
  rw [this]; ring

/-- how an iteration moves `z` and `y`. -/
theorem step_move {q q' : CQP P} (hst : q.step llt E = .ok q') :
    (∀ t, t < P.T → ∀ i, q'.v.y t i + q.v.rho t i * q'.v.z t i =
      q.v.y t i + q.v.rho t i * q.v.z t i + E.c.alpha * q.v.rho t i * (conLin E.d t (q'.v.dx t) (q'.v.du t) i - q.v.z t i)) ∧
    ∀ i, q'.v.y P.T i + q.v.rho P.T i * q'.v.z P.T i = q.v.y P.T i + q.v.rho P.T i * q.v.z P.T i +
      E.c.alpha * q.v.rho P.T i * ((E.d.td.Gx *ᵥ q'.v.dx P.T) i - q.v.z P.T i) := by
  obtain ⟨q1, _, e1, _, hl, r, i, hv⟩ := step_parts hst
  have f1 : (q1.forward E).v.z = q.v.z := by rw [← e1]; rfl
  have f2 : (q1.forward E).v.y = q.v.y := by rw [← e1]; rfl
  have f3 : (q1.forward E).v.rho = q.v.rho := by rw [← e1]; rfl
  rw [← f1, ← f2, ← f3]
  generalize q1.forward E = qf at *
  have hdx : ∀ t, t ≤ P.T → q'.v.dx t = qf.v.dxt t := fun t ht => by rw [hv]; exact hl.dx t ht
  have hdu : ∀ t, t < P.T → q'.v.du t = qf.v.dut t := fun t ht => by rw [hv]; exact hl.du t ht
  constructor
  · intro t ht j
    have h1 : q'.v.z t = (admmR E qf.v t).2.1 := by rw [hv]; exact (hl.run t ht).2.1
    have h2 : q'.v.y t = (admmR E qf.v t).2.2 := by rw [hv]; exact (hl.run t ht).2.2
    rw [h1, h2, hdx t ht.le, hdu t ht]
    exact admmNode_move j
  · intro j
    have h1 : q'.v.z P.T = (admmT E qf.v).2.1 := by rw [hv]; exact hl.ter.2.1
    have h2 : q'.v.y P.T = (admmT E qf.v).2.2 := by rw [hv]; exact hl.ter.2.2
    rw [h1, h2, hdx _ le_rfl]
    exact admmNode_move j

end
end Mim
