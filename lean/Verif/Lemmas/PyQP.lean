import Verif.Model.PyCSQP
import Verif.Lemmas.QPLive
import Verif.Lemmas.QPLag

/-!
# The passes of the Python `StagewiseADMM` in exact arithmetic
-/
set_option linter.unusedSectionVars false
set_option linter.unusedSimpArgs false

namespace Mim
open Matrix Spec QP

section
variable {K : Type} [Field K] [LinearOrder K] [IsStrictOrderedRing K] {P : Problem K}

/-- a C++ environment with the same data, the same parameters of an ADMM step and no regularization. -/
structure PyEnv.Match (PE : PyEnv P) (E : QEnv P) : Prop where
  sigma : E.c.sigma = PE.c.sigma
  alpha : E.c.alpha = PE.c.alpha
  d : E.d = PE.d
  gap : ∀ t, t < P.T → E.fs (t + 1) = PE.gap t
  preg : E.preg = 0
  dreg : E.dreg = 0

/-- the same values of the ADMM variables at all nodes; the C++ inverse penalties are the inverses. -/
structure PyQP.SimV (p : PyQP P) (v : CVars P) : Prop where
  dx : ∀ t, t ≤ P.T → p.dx t = v.dx t
  du : ∀ t, t < P.T → p.du t = v.du t
  dxt : ∀ t, t ≤ P.T → p.dxt t = v.dxt t
  dut : ∀ t, t < P.T → p.dut t = v.dut t
  z : ∀ t, t ≤ P.T → p.z t = v.z t
  y : ∀ t, t ≤ P.T → p.y t = v.y t
  rho : ∀ t, t ≤ P.T → p.rho t = v.rho t
  inv : ∀ t, t ≤ P.T → ∀ i, v.inv t i = 1 / v.rho t i

/-- The value functions and gains of `p` are `V, w, G, k`. -/
structure PyQP.Holds (p : PyQP P) (V : ℕ → Mat K P.ndx P.ndx) (w : ℕ → Vec K P.ndx) (G : (t : ℕ) → Mat K (P.nu t) P.ndx)
    (k : (t : ℕ) → Vec K (P.nu t)) (n : ℕ) : Prop where
  Vxx : ∀ t, n ≤ t → t ≤ P.T → p.Vxx t = V t
  Vx : ∀ t, n ≤ t → t ≤ P.T → p.Vx t = w t
  K : ∀ t, n ≤ t → t < P.T → p.K t = G t
  k : ∀ t, n ≤ t → t < P.T → p.k t = k t

/-- everything but the value functions and gains agrees. -/
structure PyQP.SameVars (p p' : PyQP P) : Prop where
  dx : p'.dx = p.dx
  du : p'.du = p.du
  dxt : p'.dxt = p.dxt
  dut : p'.dut = p.dut
  z : p'.z = p.z
  zRel : p'.zRel = p.zRel
  y : p'.y = p.y
  rho : p'.rho = p.rho
  n : p'.n = p.n
  rhoSparse : p'.rhoSparse = p.rhoSparse

variable {L : PyLLT K}

theorem mulVec_cancel {n : ℕ} {A : Mat K n n} (h : PosDef A) {x y : Vec K n} (e : A *ᵥ x = A *ᵥ y) : x = y :=
  Matrix.mulVec_injective_iff_isUnit.mpr (posDef_isUnit h) e

theorem mul_cancel {n m : ℕ} {A : Mat K n n} (h : PosDef A) {X Y : Mat K n m} (e : A * X = A * Y) : X = Y := by
  have hu := (Matrix.isUnit_iff_isUnit_det A).mp (posDef_isUnit h)
  rw [← Matrix.one_mul X, ← Matrix.nonsing_inv_mul A hu, Matrix.mul_assoc, e, ← Matrix.mul_assoc,
    Matrix.nonsing_inv_mul A hu, Matrix.one_mul]

variable {Q : LQ K P.T P.ndx P.nu} {V : ℕ → Mat K P.ndx P.ndx} {w : ℕ → Vec K P.ndx} {G : (t : ℕ) → Mat K (P.nu t) P.ndx}
  {k : (t : ℕ) → Vec K (P.nu t)} {Quu : (t : ℕ) → Mat K (P.nu t) (P.nu t)}

/-- one stage with the Q-terms of a linear-quadratic problem computes the Riccati recursion. -/
theorem stageGains_eq (hllt : LLTExact L.llt) (hR : Riccati Q V w G k Quu) (hpd : ∀ t, t < P.T → PosDef (Quu t)) {t : ℕ}
    (ht : t < P.T) {p : PyQP P} {qx : Vec K P.ndx} {qxx : Mat K P.ndx P.ndx} {qu : Vec K (P.nu t)} {quu : Mat K (P.nu t) (P.nu t)}
    {qxu : Mat K P.ndx (P.nu t)}
    (h1 : qx = Q.gx t + (Q.A t)ᵀ *ᵥ (w (t + 1) + V (t + 1) *ᵥ Q.c (t + 1)))
    (h2 : qxx = Q.Hxx t + (Q.A t)ᵀ * V (t + 1) * Q.A t)
    (h3 : qu = Q.gu t + (Q.B t)ᵀ *ᵥ (w (t + 1) + V (t + 1) *ᵥ Q.c (t + 1)))
    (h4 : quu = Q.Huu t + (Q.B t)ᵀ * V (t + 1) * Q.B t)
    (h5 : qxu = Q.Hxu t + (Q.A t)ᵀ * V (t + 1) * Q.B t) :
    PyQP.stageGains L t qx qxx qu quu qxu p =
      { p with
        K := Function.update p.K t (G t)
        k := Function.update p.k t (k t)
        Vx := Function.update p.Vx t (w t)
        Vxx := Function.update p.Vxx t (V t) } := by
  have e4 : quu = Quu t := by rw [h4, hR.quu t ht]
  obtain ⟨s, hs⟩ := hllt.complete _ _ (hR.symU t ht) (hpd t ht)
  have hsol : ∀ b, Quu t *ᵥ s b = b := hllt.solves _ _ _ (hR.symU t ht) hs
  have hl : L.solve (P.nu t) quu = s := by unfold PyLLT.solve; rw [e4, hs]; rfl
  have eK : solveCols s qxu.transpose = G t := by
    apply mul_cancel (hpd t ht)
    rw [solveCols_mul hsol, hR.gain t ht, h5]
  have ek : s qu = k t := by
    apply mulVec_cancel (hpd t ht)
    rw [hsol, hR.ff t ht, h3]
  unfold PyQP.stageGains
  simp only [hl, eK, ek, mv_exact, mm_exact]
  have e1 : qx - (G t)ᵀ *ᵥ qu = w t := by rw [hR.grad t ht, h1, h3]
  have e2 : qxx - qxu * G t = V t := by rw [hR.hess t ht, h2, h5]
  rw [e1, e2, symm_of_sym (hR.sym t ht.le)]

/-- storing the values of stage `t`. -/
theorem PyQP.Holds.store {p : PyQP P} {t : ℕ} (ht : t < P.T) (h : p.Holds V w G k (t + 1)) :
    PyQP.Holds { p with
      K := Function.update p.K t (G t)
      k := Function.update p.k t (k t)
      Vx := Function.update p.Vx t (w t)
      Vxx := Function.update p.Vxx t (V t) } V w G k t := by
  constructor
  · intro j hj hT
    by_cases e : j = t
    · subst e; simp only [Function.update_self]
    · simp only [Function.update_of_ne e]; exact h.Vxx j (by omega) hT
  · intro j hj hT
    by_cases e : j = t
    · subst e; simp only [Function.update_self]
    · simp only [Function.update_of_ne e]; exact h.Vx j (by omega) hT
  · intro j hj hT
    by_cases e : j = t
    · subst e; simp only [Function.update_self]
    · simp only [Function.update_of_ne e]; exact h.K j (by omega) hT
  · intro j hj hT
    by_cases e : j = t
    · subst e; simp only [Function.update_self]
    · simp only [Function.update_of_ne e]; exact h.k j (by omega) hT

variable {PE : PyEnv P} {E : QEnv P}

/-- **The Python backward pass computes the Riccati recursion of the same augmented problem as the C++ pass.** -/
theorem py_backward (hllt : LLTExact L.llt) (hm : PE.Match E) {p : PyQP P} {v : CVars P} (hv : p.SimV v)
    (hR : Riccati (fullLQ E v) V w G k Quu) (hpd : ∀ t, t < P.T → PosDef (Quu t)) :
    (p.backwardPass L PE).Holds V w G k 0 ∧ p.SameVars (p.backwardPass L PE) := by
  have hT : (PyQP.terminal PE p).Holds V w G k P.T ∧ p.SameVars (PyQP.terminal PE p) := by
    have hVT := hR.VT
    have hwT := hR.vT
    unfold fullLQ at hVT hwT
    simp only [hm.sigma, hm.d, hm.preg, zero_smul, add_zero, ← hv.dx P.T le_rfl, ← hv.y P.T le_rfl, ← hv.z P.T le_rfl,
      ← hv.rho P.T le_rfl] at hVT hwT
    unfold PyQP.terminal pyRhoMul
    simp only [mm_exact, addDiag_exact, diagMul_exact, mv_exact, sv_exact, cw_exact]
    by_cases hg : P.ng P.T = 0
    · rw [if_neg (by simp [hg])]
      rw [QP.mul_empty hg, add_zero] at hVT
      rw [QP.mulVec_empty hg, add_zero] at hwT
      refine ⟨⟨?_, ?_, fun t h1 h2 => by omega, fun t h1 h2 => by omega⟩, ⟨rfl, rfl, rfl, rfl, rfl, rfl, rfl, rfl, rfl, rfl⟩⟩
      · intro t h1 h2
        obtain rfl : t = P.T := by omega
        simp only [Function.update_self, hVT]
      · intro t h1 h2
        obtain rfl : t = P.T := by omega
        simp only [Function.update_self, hwT]
    · rw [if_pos hg]
      refine ⟨⟨?_, ?_, fun t h1 h2 => by omega, fun t h1 h2 => by omega⟩, ⟨rfl, rfl, rfl, rfl, rfl, rfl, rfl, rfl, rfl, rfl⟩⟩
      · intro t h1 h2
        obtain rfl : t = P.T := by omega
        simp only [Function.update_self, hVT]
      · intro t h1 h2
        obtain rfl : t = P.T := by omega
        simp only [Function.update_self, hwT]
  unfold PyQP.backwardPass
  refine forDown_inv (fun n (s : PyQP P) => s.Holds V w G k n ∧ p.SameVars s) P.T _ _ hT ?_
  rintro t ht s ⟨hs, hsv⟩
  have e1 := hs.Vxx (t + 1) le_rfl ht
  have e2 := hs.Vx (t + 1) le_rfl ht
  have key : PyQP.backwardStage L PE t s =
      { s with
        K := Function.update s.K t (G t)
        k := Function.update s.k t (k t)
        Vx := Function.update s.Vx t (w t)
        Vxx := Function.update s.Vxx t (V t) } := by
    unfold PyQP.backwardStage pyRhoMul
    simp only []
    refine stageGains_eq hllt hR hpd ht ?_ ?_ ?_ ?_ ?_ <;>
      simp only [e1, e2, hsv.dx, hsv.du, hsv.y, hsv.z, hsv.rho, hv.dx t ht.le, hv.du t ht, hv.y t ht.le, hv.z t ht.le,
        hv.rho t ht.le, ← hm.sigma, ← hm.d, ← hm.gap t ht, mm_exact, addDiag_exact, diagMul_exact, mv_exact, sv_exact, cw_exact]
    · unfold fullLQ
      by_cases hg : P.ng t = 0 <;> by_cases h0 : 0 < t <;> simp [hg, h0, QP.mulVec_empty] <;> abel
    · unfold fullLQ
      simp only [hm.preg, zero_smul, add_zero]
      by_cases hg : P.ng t = 0
      · rw [if_neg (by simp [hg]), QP.mul_empty hg]
        simp only [ite_self]
        abel
      · by_cases h0 : 0 < t
        · rw [if_pos ⟨hg, h0⟩, if_pos h0]; abel
        · rw [if_neg (by simp [h0]), if_neg h0]; abel
    · unfold fullLQ
      simp only []
      by_cases hg : P.ng t = 0
      · rw [if_neg (by simp [hg]), QP.mulVec_empty hg]; abel
      · rw [if_pos hg]; abel
    · unfold fullLQ
      simp only [hm.dreg, zero_smul, add_zero]
      by_cases hg : P.ng t = 0
      · rw [if_neg (by simp [hg]), QP.mul_empty hg]; abel
      · rw [if_pos hg]; abel
    · unfold fullLQ
      simp only []
      by_cases hg : P.ng t = 0
      · rw [if_neg (by simp [hg]), QP.mul_empty hg]
        simp only [ite_self]
        abel
      · by_cases h0 : 0 < t
        · rw [if_pos ⟨hg, h0⟩, if_pos h0]; abel
        · rw [if_neg (by simp [h0]), if_neg h0]; abel
  rw [key]
  exact ⟨hs.store ht, ⟨hsv.dx, hsv.du, hsv.dxt, hsv.dut, hsv.z, hsv.zRel, hsv.y, hsv.rho, hsv.n, hsv.rhoSparse⟩⟩

/-- **The same for the warm start.** -/
theorem py_plain (hllt : LLTExact L.llt) (hm : PE.Match E) (p : PyQP P)
    (hR : Riccati (lqOf E.d E.fs E.preg E.dreg) V w G k Quu) (hpd : ∀ t, t < P.T → PosDef (Quu t)) :
    (p.plainPass L PE).Holds V w G k 0 ∧ p.SameVars (p.plainPass L PE) := by
  unfold PyQP.plainPass
  have hVT := hR.VT
  have hwT := hR.vT
  unfold lqOf at hVT hwT
  simp only [hm.d, hm.preg, zero_smul, add_zero] at hVT hwT
  refine forDown_inv (fun n (s : PyQP P) => s.Holds V w G k n ∧ p.SameVars s) P.T _ _ ?_ ?_
  · refine ⟨⟨?_, ?_, fun t h1 h2 => by omega, fun t h1 h2 => by omega⟩, ⟨rfl, rfl, rfl, rfl, rfl, rfl, rfl, rfl, rfl, rfl⟩⟩
    · intro t h1 h2
      obtain rfl : t = P.T := by omega
      simp only [Function.update_self, hVT]
    · intro t h1 h2
      obtain rfl : t = P.T := by omega
      simp only [Function.update_self, hwT]
  rintro t ht s ⟨hs, hsv⟩
  have e1 := hs.Vxx (t + 1) le_rfl ht
  have e2 := hs.Vx (t + 1) le_rfl ht
  have key : PyQP.plainStage L PE t s =
      { s with
        K := Function.update s.K t (G t)
        k := Function.update s.k t (k t)
        Vx := Function.update s.Vx t (w t)
        Vxx := Function.update s.Vxx t (V t) } := by
    unfold PyQP.plainStage
    simp only []
    refine stageGains_eq hllt hR hpd ht ?_ ?_ ?_ ?_ ?_ <;> unfold lqOf <;>
      simp only [e1, e2, ← hm.d, ← hm.gap t ht, mm_exact, mv_exact, hm.preg, hm.dreg, zero_smul, add_zero]
  rw [key]
  exact ⟨hs.store ht, ⟨hsv.dx, hsv.du, hsv.dxt, hsv.dut, hsv.z, hsv.zRel, hsv.y, hsv.rho, hsv.n, hsv.rhoSparse⟩⟩

/-- **The Python forward passes follow the feedback law and the linearised dynamics.** -/
theorem py_fwd (hm : PE.Match E) {p : PyQP P} (hh : p.Holds V w G k 0)
    (x : (ℕ → Vec K P.ndx) × ((t : ℕ) → Vec K (P.nu t))) :
    let r := forUp P.T (PyQP.fwdStage PE p) x
    (∀ t, t < P.T → r.1 (t + 1) = (E.d.rd t).Fx *ᵥ r.1 t + (E.d.rd t).Fu *ᵥ r.2 t + E.fs (t + 1)) ∧
    (∀ t, t < P.T → r.2 t = -(G t *ᵥ r.1 t) - k t) ∧ r.1 0 = x.1 0 := by
  simp only []
  refine forUp_inv (fun n (s : (ℕ → Vec K P.ndx) × ((t : ℕ) → Vec K (P.nu t))) =>
      (∀ t, t < n → s.1 (t + 1) = (E.d.rd t).Fx *ᵥ s.1 t + (E.d.rd t).Fu *ᵥ s.2 t + E.fs (t + 1)) ∧
      (∀ t, t < n → s.2 t = -(G t *ᵥ s.1 t) - k t) ∧ s.1 0 = x.1 0) P.T (PyQP.fwdStage PE p) x
      ⟨fun t ht => by omega, fun t ht => by omega, rfl⟩ ?_
  rintro t ht s ⟨i1, i2, i3⟩
  unfold PyQP.fwdStage
  simp only []
  refine ⟨fun j hj => ?_, fun j hj => ?_, by rw [Function.update_of_ne (by omega)]; exact i3⟩
  · rcases Nat.lt_succ_iff_lt_or_eq.mp hj with hj | rfl
    · rw [Function.update_of_ne (by omega), Function.update_of_ne (by omega), Function.update_of_ne (by omega)]
      exact i1 j hj
    · rw [Function.update_self, Function.update_self, Function.update_of_ne (by omega)]
      simp only [mv_exact, mm_exact, hh.K j (by omega) ht, hh.k j (by omega) ht, hm.d, hm.gap j ht,
        Matrix.sub_mulVec, Matrix.mulVec_sub, Matrix.mulVec_neg, Matrix.mulVec_mulVec]
      abel
  · rcases Nat.lt_succ_iff_lt_or_eq.mp hj with hj | rfl
    · rw [Function.update_of_ne (by omega), Function.update_of_ne (by omega)]
      exact i2 j hj
    · rw [Function.update_self, Function.update_of_ne (by omega)]
      simp only [mv_exact, hh.K j (by omega) ht, hh.k j (by omega) ht]

/-- two rollouts of the same law agree. -/
theorem rollout_unique {E : QEnv P} {x x' : ℕ → Vec K P.ndx} {u u' : (t : ℕ) → Vec K (P.nu t)} (h0 : x 0 = x' 0)
    (hd : ∀ t, t < P.T → x (t + 1) = (E.d.rd t).Fx *ᵥ x t + (E.d.rd t).Fu *ᵥ u t + E.fs (t + 1))
    (hd' : ∀ t, t < P.T → x' (t + 1) = (E.d.rd t).Fx *ᵥ x' t + (E.d.rd t).Fu *ᵥ u' t + E.fs (t + 1))
    (hu : ∀ t, t < P.T → u t = -(G t *ᵥ x t) - k t) (hu' : ∀ t, t < P.T → u' t = -(G t *ᵥ x' t) - k t) :
    (∀ t, t ≤ P.T → x t = x' t) ∧ ∀ t, t < P.T → u t = u' t := by
  have hx : ∀ t, t ≤ P.T → x t = x' t := by
    intro t
    induction t with
    | zero => intro _; exact h0
    | succ t ih =>
      intro ht
      rw [hd t ht, hd' t ht, hu t ht, hu' t ht, ih (by omega)]
  exact ⟨hx, fun t ht => by rw [hu t ht, hu' t ht, hx t ht.le]⟩

end
end Mim
