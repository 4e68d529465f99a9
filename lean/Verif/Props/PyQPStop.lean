import Verif.Lemmas.PyCSQP
import Verif.Spec.QP

/-!
# The QP loop of the Python `CSQP`: residuals, convergence test, penalty update (C83)
-/
set_option linter.unusedSectionVars false
set_option linter.unusedSimpArgs false

namespace Mim
open Spec Matrix

namespace PyQP
section
variable {K : Type} [Field K] [LinearOrder K] [IsStrictOrderedRing K] {P : Problem K} {L : PyLLT K} {E : PyEnv P}

/-- how far the value `c` of a row is outside its bounds, at most `b`. -/
def RowWithin (lb ub : Option K) (c b : K) : Prop := (∀ l, lb = some l → l - c ≤ b) ∧ ∀ u, ub = some u → c - u ≤ b

/-- the seven norms `n` of a QP iteration from `q` to `q'`, each as the least bound of what it measures: primal residual, dual residual,
violation of the linearised constraints, stationarity at the *stored* costates (over the nodes that have constraints only), and the
three norms that scale the tolerances. -/
structure Measures (E : PyEnv P) (q q' : PyQP P) (n : PyNorms K) : Prop where
  p : ∀ c, 0 ≤ c → (n.p ≤ c ↔ (∀ t, t < P.T → ∀ i, |(conLin E.d t (q'.dx t) (q'.du t) - q'.z t) i| ≤ c) ∧
    ∀ i, |(E.d.td.Gx *ᵥ q'.dx P.T - q'.z P.T) i| ≤ c)
  d : ∀ c, 0 ≤ c → (n.d ≤ c ↔ (∀ t, t < P.T → (∀ i, |((E.d.rd t).Gxᵀ *ᵥ (q.rho t * (q'.z t - q.z t))) i| ≤ c) ∧
      ∀ i, |((E.d.rd t).Guᵀ *ᵥ (q.rho t * (q'.z t - q.z t))) i| ≤ c) ∧
    ∀ i, |(E.d.td.Gxᵀ *ᵥ (q.rho P.T * (q'.z P.T - q.z P.T))) i| ≤ c)
  kp : ∀ c, 0 ≤ c → (n.kp ≤ c ↔
    (∀ t, t < P.T → ∀ i, RowWithin (P.lb t i) (P.ub t i) ((conLin E.d t (q'.dx t) (q'.du t) + (E.d.run t).g) i) c) ∧
    ∀ i, RowWithin (P.lb P.T i) (P.ub P.T i) ((E.d.td.Gx *ᵥ q'.dx P.T + E.d.ter.g) i) c)
  kd : ∀ c, 0 ≤ c → (n.kd ≤ c ↔
    (∀ t, t < P.T → P.ng t ≠ 0 →
      (∀ i, |((E.d.rd t).Lxx *ᵥ q'.dx t + (E.d.rd t).Lxu *ᵥ q'.du t + (E.d.rd t).Lx + (E.d.rd t).Fxᵀ *ᵥ E.lam (t + 1) - E.lam t +
        (E.d.rd t).Gxᵀ *ᵥ q'.y t) i| ≤ c) ∧
      ∀ i, |((E.d.rd t).Luu *ᵥ q'.du t + (E.d.rd t).Lxuᵀ *ᵥ q'.dx t + (E.d.rd t).Lu + (E.d.rd t).Fuᵀ *ᵥ E.lam (t + 1) +
        (E.d.rd t).Guᵀ *ᵥ q'.y t) i| ≤ c) ∧
    (P.ng P.T ≠ 0 → ∀ i, |(E.d.td.Lxx *ᵥ q'.dx P.T + E.d.td.Lx - E.lam P.T + E.d.td.Gxᵀ *ᵥ q'.y P.T) i| ≤ c))
  p0 : ∀ c, 0 ≤ c → (n.p0 ≤ c ↔ (∀ t, t < P.T → ∀ i, |conLin E.d t (q'.dx t) (q'.du t) i| ≤ c) ∧
    ∀ i, |(E.d.td.Gx *ᵥ q'.dx P.T) i| ≤ c)
  p1 : ∀ c, 0 ≤ c → (n.p1 ≤ c ↔ (∀ t, t < P.T → ∀ i, |q'.z t i| ≤ c) ∧ ∀ i, |q'.z P.T i| ≤ c)
  dr : ∀ c, 0 ≤ c → (n.dr ≤ c ↔ (∀ t, t < P.T → (∀ i, |((E.d.rd t).Gxᵀ *ᵥ q'.y t) i| ≤ c) ∧ ∀ i, |((E.d.rd t).Guᵀ *ᵥ q'.y t) i| ≤ c) ∧
    ∀ i, |(E.d.td.Gxᵀ *ᵥ q'.y P.T) i| ≤ c)

/-- the part of `Measures` about the first `k` nodes. -/
structure Part (E : PyEnv P) (q q' : PyQP P) (n : PyNorms K) (k : ℕ) : Prop where
  p : ∀ c, 0 ≤ c → (n.p ≤ c ↔ ∀ t, t < k → ∀ i, |(conLin E.d t (q'.dx t) (q'.du t) - q'.z t) i| ≤ c)
  d : ∀ c, 0 ≤ c → (n.d ≤ c ↔ ∀ t, t < k → (∀ i, |((E.d.rd t).Gxᵀ *ᵥ (q.rho t * (q'.z t - q.z t))) i| ≤ c) ∧
      ∀ i, |((E.d.rd t).Guᵀ *ᵥ (q.rho t * (q'.z t - q.z t))) i| ≤ c)
  kp : ∀ c, 0 ≤ c → (n.kp ≤ c ↔
    ∀ t, t < k → ∀ i, RowWithin (P.lb t i) (P.ub t i) ((conLin E.d t (q'.dx t) (q'.du t) + (E.d.run t).g) i) c)
  kd : ∀ c, 0 ≤ c → (n.kd ≤ c ↔
    ∀ t, t < k → P.ng t ≠ 0 →
      (∀ i, |((E.d.rd t).Lxx *ᵥ q'.dx t + (E.d.rd t).Lxu *ᵥ q'.du t + (E.d.rd t).Lx + (E.d.rd t).Fxᵀ *ᵥ E.lam (t + 1) - E.lam t +
        (E.d.rd t).Gxᵀ *ᵥ q'.y t) i| ≤ c) ∧
      ∀ i, |((E.d.rd t).Luu *ᵥ q'.du t + (E.d.rd t).Lxuᵀ *ᵥ q'.dx t + (E.d.rd t).Lu + (E.d.rd t).Fuᵀ *ᵥ E.lam (t + 1) +
        (E.d.rd t).Guᵀ *ᵥ q'.y t) i| ≤ c)
  p0 : ∀ c, 0 ≤ c → (n.p0 ≤ c ↔ ∀ t, t < k → ∀ i, |conLin E.d t (q'.dx t) (q'.du t) i| ≤ c)
  p1 : ∀ c, 0 ≤ c → (n.p1 ≤ c ↔ ∀ t, t < k → ∀ i, |q'.z t i| ≤ c)
  dr : ∀ c, 0 ≤ c → (n.dr ≤ c ↔ ∀ t, t < k → (∀ i, |((E.d.rd t).Gxᵀ *ᵥ q'.y t) i| ≤ c) ∧ ∀ i, |((E.d.rd t).Guᵀ *ᵥ q'.y t) i| ≤ c)

/-- the invariant of the loop over the running nodes. -/
structure LagInv (E : PyEnv P) (q : PyQP P) (due : Prop) (k : ℕ) (x : PyQP P) : Prop where
  dxt : x.dxt = q.dxt
  dut : x.dut = q.dut
  rho : x.rho = q.rho
  later : ∀ t, k ≤ t → x.z t = q.z t ∧ x.y t = q.y t
  dx : ∀ t, t < k → x.dx t = q.dxt t
  du : ∀ t, t < k → x.du t = q.dut t
  part : due → Part E q x x.n k

theorem rowsOut_le {m : ℕ} {lb ub : Fin m → Option K} {v g : Vec K m} {c : K} (hc : 0 ≤ c) :
    ((rowsOut lb ub v g).1 ≤ c ∧ (rowsOut lb ub v g).2 ≤ c) ↔ ∀ i, RowWithin (lb i) (ub i) ((v + g) i) c := by
  unfold rowsOut RowWithin
  simp only [normInf_exact, exactNormInf_le, hc, true_and]
  rw [← forall_and]
  refine forall_congr' fun i => ?_
  have ab : ∀ a : K, |cppMax a 0| ≤ c ↔ a ≤ c := by
    intro a
    rw [cppMax_exact, abs_of_nonneg (le_max_right _ _), max_le_iff]
    exact ⟨fun h => h.1, fun h => ⟨h, hc⟩⟩
  have hz : |(0 : K)| ≤ c := by rw [abs_zero]; exact hc
  refine and_congr ?_ ?_
  · cases hl : lb i with
    | none => simp [hc]
    | some l =>
      simp only [ab, Option.some.injEq, forall_eq', Pi.add_apply]
      rw [sub_sub]
  · cases hl : ub i with
    | none => simp [hc]
    | some u =>
      simp only [ab, Option.some.injEq, forall_eq', Pi.add_apply]

theorem empty_vec {m n : ℕ} (h : m = 0) (A : Mat K n m) (v : Vec K m) : A *ᵥ v = 0 := by
  subst h; funext i; simp [Matrix.mulVec, dotProduct]

/-- two predicates about the first `k + 1` nodes. -/
theorem lt_succ_iff_and {k : ℕ} {A : ℕ → Prop} : (∀ t, t < k + 1 → A t) ↔ (∀ t, t < k → A t) ∧ A k :=
  ⟨fun h => ⟨fun t ht => h t (by omega), h k (by omega)⟩, fun h t ht => by
    rcases Nat.lt_succ_iff_lt_or_eq.mp ht with h' | rfl
    · exact h.1 t h'
    · exact h.2⟩

/-- `Part` reads the first `k` nodes only. -/
theorem Part.congr {q x y : PyQP P} {n : PyNorms K} {k : ℕ} (h : Part E q x n k) (hz : ∀ t, t < k → y.z t = x.z t)
    (hy : ∀ t, t < k → y.y t = x.y t) (hx : ∀ t, t < k → y.dx t = x.dx t) (hu : ∀ t, t < k → y.du t = x.du t) : Part E q y n k := by
  have cg : ∀ {A B : ℕ → Prop}, (∀ t, t < k → (A t ↔ B t)) → ((∀ t, t < k → A t) ↔ ∀ t, t < k → B t) := fun h =>
    forall_congr' fun t => forall_congr' fun ht => h t ht
  refine ⟨fun c hc => ?_, fun c hc => ?_, fun c hc => ?_, fun c hc => ?_, fun c hc => ?_, fun c hc => ?_, fun c hc => ?_⟩
  · exact (h.p c hc).trans (cg fun t ht => by rw [hx t ht, hu t ht, hz t ht])
  · exact (h.d c hc).trans (cg fun t ht => by rw [hz t ht])
  · exact (h.kp c hc).trans (cg fun t ht => by rw [hx t ht, hu t ht])
  · exact (h.kd c hc).trans (cg fun t ht => by rw [hx t ht, hu t ht, hy t ht])
  · exact (h.p0 c hc).trans (cg fun t ht => by rw [hx t ht, hu t ht])
  · exact (h.p1 c hc).trans (cg fun t ht => by rw [hz t ht])
  · exact (h.dr c hc).trans (cg fun t ht => by rw [hy t ht])

theorem lagStage_inv {q x : PyQP P} {iter t : ℕ} (h : LagInv E q (due E.c iter = true) t x) :
    LagInv E q (due E.c iter = true) (t + 1) (lagStage E iter t x) := by
  unfold lagStage
  by_cases hg : P.ng t = 0
  · rw [if_pos hg]
    refine ⟨h.dxt, h.dut, h.rho, fun s hs => h.later s (by omega), fun s hs => ?_, fun s hs => ?_, fun hd => ?_⟩
    · rcases Nat.lt_succ_iff_lt_or_eq.mp hs with h' | rfl
      · simp only [Function.update_of_ne (show s ≠ t by omega)]; exact h.dx s h'
      · simp only [Function.update_self, h.dxt]
    · rcases Nat.lt_succ_iff_lt_or_eq.mp hs with h' | rfl
      · simp only [Function.update_of_ne (show s ≠ t by omega)]; exact h.du s h'
      · simp only [Function.update_self, h.dut]
    · have hp := Part.congr (y := { x with dx := Function.update x.dx t (x.dxt t), du := Function.update x.du t (x.dut t) }) (h.part hd)
        (fun _ _ => rfl) (fun _ _ => rfl) (fun s hs => Function.update_of_ne (by omega) _ _)
        (fun s hs => Function.update_of_ne (by omega) _ _)
      have el : ∀ i : Fin (P.ng t), False := fun i => by rw [hg] at i; exact i.elim0
      refine ⟨fun c hc => ?_, fun c hc => ?_, fun c hc => ?_, fun c hc => ?_, fun c hc => ?_, fun c hc => ?_, fun c hc => ?_⟩
      · rw [lt_succ_iff_and]; exact (hp.p c hc).trans ⟨fun a => ⟨a, fun i => (el i).elim⟩, fun a => a.1⟩
      · rw [lt_succ_iff_and]; refine (hp.d c hc).trans ⟨fun a => ⟨a, ?_⟩, fun a => a.1⟩
        rw [empty_vec hg, empty_vec hg]; simp [hc]
      · rw [lt_succ_iff_and]; exact (hp.kp c hc).trans ⟨fun a => ⟨a, fun i => (el i).elim⟩, fun a => a.1⟩
      · rw [lt_succ_iff_and]; exact (hp.kd c hc).trans ⟨fun a => ⟨a, fun hne => absurd hg hne⟩, fun a => a.1⟩
      · rw [lt_succ_iff_and]; exact (hp.p0 c hc).trans ⟨fun a => ⟨a, fun i => (el i).elim⟩, fun a => a.1⟩
      · rw [lt_succ_iff_and]; exact (hp.p1 c hc).trans ⟨fun a => ⟨a, fun i => (el i).elim⟩, fun a => a.1⟩
      · rw [lt_succ_iff_and]; refine (hp.dr c hc).trans ⟨fun a => ⟨a, ?_⟩, fun a => a.1⟩
        rw [empty_vec hg, empty_vec hg]; simp [hc]
  · rw [if_neg hg]
    simp only []
    generalize hx : admmNode E.c.alpha (P.lb t) (P.ub t) (E.d.run t).g (mv (E.d.rd t).Gx (x.dxt t) + mv (E.d.rd t).Gu (x.dut t)) (x.z t)
      (x.y t) (x.rho t) = z
    refine ⟨h.dxt, h.dut, h.rho, fun s hs => ?_, fun s hs => ?_, fun s hs => ?_, fun hd => ?_⟩
    · simp only [Function.update_of_ne (show s ≠ t by omega)]; exact h.later s (by omega)
    · rcases Nat.lt_succ_iff_lt_or_eq.mp hs with h' | rfl
      · simp only [Function.update_of_ne (show s ≠ t by omega)]; exact h.dx s h'
      · simp only [Function.update_self, h.dxt]
    · rcases Nat.lt_succ_iff_lt_or_eq.mp hs with h' | rfl
      · simp only [Function.update_of_ne (show s ≠ t by omega)]; exact h.du s h'
      · simp only [Function.update_self, h.dut]
    · have hp := Part.congr (y := { x with
          zRel := Function.update x.zRel t z.1
          z := Function.update x.z t z.2.1
          y := Function.update x.y t z.2.2
          dx := Function.update x.dx t (x.dxt t)
          du := Function.update x.du t (x.dut t) }) (h.part hd)
        (fun s hs => Function.update_of_ne (by omega) _ _) (fun s hs => Function.update_of_ne (by omega) _ _)
        (fun s hs => Function.update_of_ne (by omega) _ _) (fun s hs => Function.update_of_ne (by omega) _ _)
      rw [if_pos hd]
      have hzt : x.z t = q.z t := (h.later t le_rfl).1
      refine ⟨fun c hc => ?_, fun c hc => ?_, fun c hc => ?_, fun c hc => ?_, fun c hc => ?_, fun c hc => ?_, fun c hc => ?_⟩ <;>
        rw [lt_succ_iff_and] <;> simp only [cppMax_exact, max_le_iff, Function.update_self, normInf_exact, exactNormInf_le, hc, true_and,
          mv_exact, cw_exact, h.rho, hzt]
      · exact and_congr (hp.p c hc) Iff.rfl
      · rw [and_assoc]; exact and_congr (hp.d c hc) Iff.rfl
      · rw [and_assoc]; exact and_congr (hp.kp c hc) (rowsOut_le hc)
      · rw [and_assoc]; refine and_congr (hp.kd c hc) ⟨fun a _ => a, fun a => a hg⟩
      · exact and_congr (hp.p0 c hc) Iff.rfl
      · exact and_congr (hp.p1 c hc) Iff.rfl
      · rw [and_assoc]; exact and_congr (hp.dr c hc) Iff.rfl

/-- the multiplier update of an update iteration measures its own result. -/
theorem updateLag_measures {q : PyQP P} {iter : ℕ} (hd : due E.c iter = true) : Measures E q (q.updateLag E iter) (q.updateLag E iter).n := by
  have h0 : LagInv E q (due E.c iter = true) 0 { q with n := ⟨negInf, negInf, negInf, negInf, negInf, negInf, negInf⟩ } := by
    have hn : ∀ c : K, 0 ≤ c → ∀ A : ℕ → Prop, ((negInf : K) ≤ c ↔ ∀ t, t < 0 → A t) := fun c hc A =>
      ⟨fun _ t ht => absurd ht (Nat.not_lt_zero t), fun _ => by
        have : (negInf : K) = -1 := rfl
        rw [this]; exact le_trans (by norm_num) hc⟩
    exact ⟨rfl, rfl, rfl, fun t _ => ⟨rfl, rfl⟩, fun t ht => absurd ht (Nat.not_lt_zero t), fun t ht => absurd ht (Nat.not_lt_zero t),
      fun _ => ⟨fun c hc => hn c hc _, fun c hc => hn c hc _, fun c hc => hn c hc _, fun c hc => hn c hc _, fun c hc => hn c hc _,
        fun c hc => hn c hc _, fun c hc => hn c hc _⟩⟩
  have h1 := forUp_inv (fun k x => LagInv E q (due E.c iter = true) k x) P.T (lagStage E iter) _ h0 fun t _ x hx => lagStage_inv hx
  unfold updateLag
  generalize forUp P.T (lagStage E iter) { q with n := ⟨negInf, negInf, negInf, negInf, negInf, negInf, negInf⟩ } = x at h1
  unfold lagTerm
  simp only []
  by_cases hg : P.ng P.T = 0
  · rw [if_neg (not_not.mpr hg)]
    have hp := Part.congr (y := { x with dx := Function.update x.dx P.T (x.dxt P.T) }) (h1.part hd)
      (fun _ _ => rfl) (fun _ _ => rfl) (fun s hs => Function.update_of_ne (by omega) _ _) (fun _ _ => rfl)
    have el : ∀ i : Fin (P.ng P.T), False := fun i => by rw [hg] at i; exact i.elim0
    refine ⟨fun c hc => ?_, fun c hc => ?_, fun c hc => ?_, fun c hc => ?_, fun c hc => ?_, fun c hc => ?_, fun c hc => ?_⟩
    · exact (hp.p c hc).trans ⟨fun a => ⟨a, fun i => (el i).elim⟩, fun a => a.1⟩
    · refine (hp.d c hc).trans ⟨fun a => ⟨a, ?_⟩, fun a => a.1⟩
      rw [empty_vec hg]; simp [hc]
    · exact (hp.kp c hc).trans ⟨fun a => ⟨a, fun i => (el i).elim⟩, fun a => a.1⟩
    · exact (hp.kd c hc).trans ⟨fun a => ⟨a, fun hne => absurd hg hne⟩, fun a => a.1⟩
    · exact (hp.p0 c hc).trans ⟨fun a => ⟨a, fun i => (el i).elim⟩, fun a => a.1⟩
    · exact (hp.p1 c hc).trans ⟨fun a => ⟨a, fun i => (el i).elim⟩, fun a => a.1⟩
    · refine (hp.dr c hc).trans ⟨fun a => ⟨a, ?_⟩, fun a => a.1⟩
      rw [empty_vec hg]; simp [hc]
  · rw [if_pos hg, if_pos hd]
    generalize hx : admmNode E.c.alpha (P.lb P.T) (P.ub P.T) E.d.ter.g (mv E.d.td.Gx (x.dxt P.T)) (x.z P.T) (x.y P.T) (x.rho P.T) = z
    have hp := Part.congr (y := { x with
        zRel := Function.update x.zRel P.T z.1
        z := Function.update x.z P.T z.2.1
        y := Function.update x.y P.T z.2.2
        dx := Function.update x.dx P.T (x.dxt P.T) }) (h1.part hd)
      (fun s hs => Function.update_of_ne (by omega) _ _) (fun s hs => Function.update_of_ne (by omega) _ _)
      (fun s hs => Function.update_of_ne (by omega) _ _) (fun s hs => rfl)
    have hzt : x.z P.T = q.z P.T := (h1.later P.T le_rfl).1
    refine ⟨fun c hc => ?_, fun c hc => ?_, fun c hc => ?_, fun c hc => ?_, fun c hc => ?_, fun c hc => ?_, fun c hc => ?_⟩ <;>
      simp only [cppMax_exact, max_le_iff, Function.update_self, normInf_exact, exactNormInf_le, hc, true_and, mv_exact, cw_exact, h1.rho, hzt]
    · exact and_congr (hp.p c hc) Iff.rfl
    · exact and_congr (hp.d c hc) Iff.rfl
    · rw [and_assoc]; exact and_congr (hp.kp c hc) (rowsOut_le hc)
    · exact and_congr (hp.kd c hc) ⟨fun a _ => a, fun a => a hg⟩
    · exact and_congr (hp.p0 c hc) Iff.rfl
    · exact and_congr (hp.p1 c hc) Iff.rfl
    · exact and_congr (hp.dr c hc) Iff.rfl

/-- `Measures` reads `rho` and `z` of the state before. -/
theorem Measures.congr {q q1 x y : PyQP P} {n : PyNorms K} (h : Measures E q x n) (hr : q1.rho = q.rho) (hz : q1.z = q.z)
    (e1 : y.dx = x.dx) (e2 : y.du = x.du) (e3 : y.z = x.z) (e4 : y.y = x.y) : Measures E q1 y n := by
  obtain ⟨h1, h2, h3, h4, h5, h6, h7⟩ := h
  rw [← e1, ← e2, ← e3] at h1
  rw [← hr, ← hz, ← e3] at h2
  rw [← e1, ← e2] at h3
  rw [← e1, ← e2, ← e4] at h4
  rw [← e1, ← e2] at h5
  rw [← e3] at h6
  rw [← e4] at h7
  exact ⟨h1, h2, h3, h4, h5, h6, h7⟩

theorem backwardPass_frame (q : PyQP P) : (q.backwardPass L E).rho = q.rho ∧ (q.backwardPass L E).z = q.z ∧
    (q.backwardPass L E).rhoSparse = q.rhoSparse := by
  unfold backwardPass
  refine forDown_inv (fun _ (x : PyQP P) => x.rho = q.rho ∧ x.z = q.z ∧ x.rhoSparse = q.rhoSparse) P.T _ _ ?_ fun t _ x hx => hx
  unfold terminal
  simp only []
  split <;> exact ⟨rfl, rfl, rfl⟩

theorem updateLag_rho (q : PyQP P) (iter : ℕ) : (q.updateLag E iter).rho = q.rho ∧ (q.updateLag E iter).rhoSparse = q.rhoSparse := by
  unfold updateLag
  have h := forUp_inv (fun _ (x : PyQP P) => x.rho = q.rho ∧ x.rhoSparse = q.rhoSparse) P.T (lagStage E iter)
    { q with n := ⟨negInf, negInf, negInf, negInf, negInf, negInf, negInf⟩ } ⟨rfl, rfl⟩ fun t _ x hx => by
      unfold lagStage
      simp only []
      split <;> exact hx
  generalize forUp P.T (lagStage E iter) { q with n := ⟨negInf, negInf, negInf, negInf, negInf, negInf, negInf⟩ } = x at h
  unfold lagTerm
  simp only []
  split <;> exact h

variable [SqrtOps K]

/-- iteration `iter` is an update iteration: a multiple of the interval, but not the first. -/
def UpdateIter (c : PyConf K) (iter : ℕ) : Prop := iter % c.interval = 0 ∧ 1 < iter

theorem due_update (c : PyConf K) (iter : ℕ) : due c iter = true ↔ UpdateIter c iter := by
  unfold due UpdateIter
  simp only [Bool.and_eq_true, beq_iff_eq, decide_eq_true_eq]

/-- **C83 (norms).**  In an update iteration the norms are the exact maxima, over the whole horizon, of the residuals of the iteration's
result. -/
theorem C83_pyqp_norms (q : PyQP P) {iter : ℕ} (hd : UpdateIter E.c iter) : Measures E q (q.step L E iter) (q.step L E iter).n := by
  have hd := (due_update E.c iter).2 hd
  have h := updateLag_measures (E := E) (q := (q.backwardPass L E).forwardPass E) hd
  have hb := backwardPass_frame (L := L) (E := E) q
  have e : ∀ x : PyQP P, (x.updateRho E iter).dx = x.dx ∧ (x.updateRho E iter).du = x.du ∧ (x.updateRho E iter).z = x.z ∧
      (x.updateRho E iter).y = x.y ∧ (x.updateRho E iter).n = x.n := by
    intro x
    unfold updateRho
    simp only []
    generalize (if E.c.osqp = true then x.n.p * x.n.dr / (x.n.d * pr x.n) else x.n.kp / x.n.kd) = sc
    split <;> exact ⟨rfl, rfl, rfl, rfl, rfl⟩
  unfold step
  obtain ⟨e1, e2, e3, e4, e5⟩ := e (((q.backwardPass L E).forwardPass E).updateLag E iter)
  rw [e5]
  exact h.congr hb.1.symm hb.2.1.symm e1 e2 e3 e4

/-- the new penalty suggested by a rule that compares primal and dual residuals: OSQP's, or the one based on the KKT conditions. -/
def suggested (c : PyConf K) (n : PyNorms K) (rho : K) : K :=
  min (max (SqrtOps.sqrt (if c.osqp then (n.p * n.dr) / (n.d * max n.p0 n.p1) else n.kp / n.kd) * rho) c.rhoMin) c.rhoMax

/-- **C83 (penalty).**  The penalty changes in update iterations only, and only if the suggested one, which lies between the limits,
differs by more than the tolerance factor; then it becomes the suggested one: rows without bounds get the smallest penalty, rows with
equal bounds a thousand times the new one, all other rows the new one (rows with crossed bounds too). -/
theorem C83_pyqp_penalty (q : PyQP P) (iter : ℕ) :
    let q' := q.step L E iter
    let r := suggested E.c q'.n q.rhoSparse
    (¬ (UpdateIter E.c iter ∧ (q.rhoSparse * E.c.adaptTol < r ∨ r < q.rhoSparse / E.c.adaptTol)) →
      q'.rhoSparse = q.rhoSparse ∧ q'.rho = q.rho) ∧
    (UpdateIter E.c iter ∧ (q.rhoSparse * E.c.adaptTol < r ∨ r < q.rhoSparse / E.c.adaptTol) →
      q'.rhoSparse = r ∧ ∀ t, t ≤ P.T → ∀ i,
        (P.lb t i = none → P.ub t i = none → q'.rho t i = E.c.rhoMin) ∧
        (∀ l u, P.lb t i = some l → P.ub t i = some u → q'.rho t i = if |l - u| < 1 / 10 ^ 6 then 10 ^ 3 * r else r) ∧
        (∀ l, P.lb t i = some l → P.ub t i = none → q'.rho t i = r) ∧
        ∀ u, P.lb t i = none → P.ub t i = some u → q'.rho t i = r) := by
  have hb := backwardPass_frame (L := L) (E := E) q
  obtain ⟨hl1, hl2⟩ := updateLag_rho (E := E) ((q.backwardPass L E).forwardPass E) iter
  have hr : (((q.backwardPass L E).forwardPass E).updateLag E iter).rho = q.rho := hl1.trans hb.1
  have hs : (((q.backwardPass L E).forwardPass E).updateLag E iter).rhoSparse = q.rhoSparse := hl2.trans hb.2.2
  unfold step
  generalize ((q.backwardPass L E).forwardPass E).updateLag E iter = x at hr hs
  simp only []
  have hn : (x.updateRho E iter).n = x.n := by
    unfold updateRho
    simp only []
    generalize (if E.c.osqp = true then x.n.p * x.n.dr / (x.n.d * pr x.n) else x.n.kp / x.n.kd) = sc
    split <;> rfl
  rw [hn]
  have he : cppMin (cppMax (SqrtOps.sqrt (if E.c.osqp then (x.n.p * x.n.dr) / (x.n.d * pr x.n) else x.n.kp / x.n.kd) * x.rhoSparse)
      E.c.rhoMin) E.c.rhoMax = suggested E.c x.n q.rhoSparse := by
    unfold suggested pr
    rw [hs]
    simp only [cppMax_exact, cppMin_exact]
  unfold updateRho
  simp only []
  rw [he, hs]
  generalize suggested E.c x.n q.rhoSparse = r
  have hc : (due E.c iter && (ltb (q.rhoSparse * E.c.adaptTol) r || ltb r (q.rhoSparse / E.c.adaptTol))) = true ↔
      UpdateIter E.c iter ∧ (q.rhoSparse * E.c.adaptTol < r ∨ r < q.rhoSparse / E.c.adaptTol) := by
    rw [Bool.and_eq_true, due_update, Bool.or_eq_true]
    simp only [ltb_exact, decide_eq_true_eq]
  constructor
  · intro h
    rw [if_neg (fun h' => h (hc.1 h'))]
    exact ⟨rfl, hr⟩
  · intro h
    rw [if_pos (hc.2 h)]
    refine ⟨rfl, fun t ht i => ?_⟩
    simp only [applyRho, if_pos ht]
    refine ⟨fun h1 h2 => ?_, fun l u h1 h2 => ?_, fun l h1 h2 => ?_, fun u h1 h2 => ?_⟩
    · rw [h1, h2]; rfl
    · rw [h1, h2]
      unfold pyRhoRow
      simp only [ltb_exact, absf_exact, lit_exact, decide_eq_true_eq, Bool.or_eq_true]
      push_cast
      by_cases hlt : |l - u| < 1 / 10 ^ 6
      · rw [if_pos hlt, if_pos hlt]
      · rw [if_neg hlt, if_neg hlt, if_pos]
        by_contra hne
        push Not at hne
        have : l = u := le_antisymm hne.2 hne.1
        subst this
        rw [sub_self, abs_zero] at hlt
        exact hlt (by positivity)
    · rw [h1, h2]; rfl
    · rw [h1, h2]; rfl

/-- the states after `i` QP iterations. -/
def after (L : PyLLT K) (E : PyEnv P) (q : PyQP P) : ℕ → PyQP P
  | 0 => q
  | i + 1 => (after L E q i).step L E (i + 1)

/-- the convergence test of a state after iteration `i`. -/
def Passes (E : PyEnv P) (i : ℕ) (q : PyQP P) : Prop :=
  UpdateIter E.c i ∧ q.n.p ≤ E.c.epsAbs + E.c.epsRel * max q.n.p0 q.n.p1 ∧ q.n.d ≤ E.c.epsAbs + E.c.epsRel * q.n.dr

theorem converged_iff (i : ℕ) (q : PyQP P) : q.converged E i = true ↔ Passes E i q := by
  unfold converged Passes pr
  rw [Bool.and_eq_true, Bool.and_eq_true, due_update]
  simp only [leb_exact, decide_eq_true_eq, cppMax_exact, and_assoc]

theorem loop_spec (n i : ℕ) (q : PyQP P) (hno : ∀ j, 1 ≤ j → j ≤ i → ¬ Passes E j (after L E q j)) :
    ∃ m, i ≤ m ∧ m ≤ i + n ∧ loop L E n (i + 1) (after L E q i) = { after L E q m with qpIters := m } ∧
      (m < i + n → Passes E m (after L E q m)) ∧ (n = 0 ∨ i < m) ∧ ∀ j, 1 ≤ j → j < m → ¬ Passes E j (after L E q j) := by
  induction n generalizing i with
  | zero => exact ⟨i, le_rfl, le_rfl, rfl, fun h => by omega, .inl rfl, fun j h1 h2 => hno j h1 h2.le⟩
  | succ n ih =>
    unfold loop
    simp only []
    rw [show (after L E q i).step L E (i + 1) = after L E q (i + 1) from rfl]
    by_cases hc : (after L E q (i + 1)).converged E (i + 1) = true
    · rw [if_pos hc]
      exact ⟨i + 1, by omega, by omega, rfl, fun _ => (converged_iff _ _).1 hc, .inr (by omega), fun j h1 h2 => hno j h1 (by omega)⟩
    · rw [if_neg hc]
      obtain ⟨m, m1, m2, m3, m4, m5, m6⟩ := ih (i + 1) (fun j h1 h2 => by
        rcases Nat.lt_or_ge j (i + 1) with h | h
        · exact hno j h1 (by omega)
        · have : j = i + 1 := by omega
          subst this
          exact fun hp => hc ((converged_iff _ _).2 hp))
      exact ⟨m, by omega, by omega, m3, fun h => m4 (by omega), .inr (by omega), m6⟩

/-- **C83 (stopping).**  The QP loop stops at the first update iteration whose primal and dual residuals are within the tolerances, or
after `max_qp_iters` iterations; the first iteration is never one, even with `rho_update_interval = 1`.  The number of iterations is
reported in `qp_iters`. -/
theorem C83_pyqp_stop {q0 q : PyQP P} (h : computeDirection L E q0 = .ok q) (hm : 1 ≤ E.c.maxQP) :
    ∃ m, 1 ≤ m ∧ m ≤ E.c.maxQP ∧
      q = { after L E ((q0.resetParams E.c).warm L E) m with qpIters := m } ∧
      (m < E.c.maxQP → Passes E m (after L E ((q0.resetParams E.c).warm L E) m)) ∧
      ∀ j, 1 ≤ j → j < m → ¬ Passes E j (after L E ((q0.resetParams E.c).warm L E) j) := by
  unfold computeDirection at h
  simp only [] at h
  split at h
  · cases h
  · simp only [Res.ok.injEq] at h
    obtain ⟨m, m1, m2, m3, m4, m5, m6⟩ := loop_spec (L := L) (E := E) E.c.maxQP 0 ((q0.resetParams E.c).warm L E)
      (fun j h1 h2 => by omega)
    rw [← h]
    refine ⟨m, by omega, by omega, m3, fun h => m4 (by omega), m6⟩

end
end PyQP
end Mim
