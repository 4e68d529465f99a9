import Verif.Lemmas.PyDense
import Verif.Lemmas.BoxQP
import Verif.Lemmas.ProxQuad
import Verif.Lemmas.QPOpt
import Verif.Props.ProxQP

/-!
# The dense QP in the two shapes the Python back ends get, and its relation to the linearised problem
-/
set_option linter.unusedSectionVars false
set_option linter.unusedSimpArgs false

namespace Mim
open QP Spec Matrix
variable {K : Type} [Field K] [LinearOrder K] [IsStrictOrderedRing K]

namespace PyDense

/-- the first `n` entries of a stacked vector. -/
def view (n : ℕ) (v : FVec K) : Vec K n := fun i => v i

theorem unview_lt {n : ℕ} (v : Vec K n) {i : ℕ} (h : i < n) : unview v i = v ⟨i, h⟩ := by unfold unview; rw [dif_pos h]
theorem unview_fin {n : ℕ} (v : Vec K n) (i : Fin n) : unview v i = v i := unview_lt v i.2
theorem view_unview {n : ℕ} (v : Vec K n) : view n (unview v) = v := funext fun i => unview_fin v i

theorem prod_unview {n : ℕ} (M : FMat K) (v : Vec K n) (i : ℕ) : prod n M (unview v) i = ∑ j : Fin n, M i j * v j := by
  unfold prod
  rw [Finset.sum_range]
  exact Finset.sum_congr rfl fun j _ => by rw [unview_fin]

theorem prodT_unview {n : ℕ} (M : FMat K) (v : Vec K n) (j : ℕ) : prodT n M (unview v) j = ∑ i : Fin n, M i j * v i := by
  unfold prodT
  rw [Finset.sum_range]
  exact Finset.sum_congr rfl fun j _ => by rw [unview_fin]

variable {nv ne ni : ℕ} {m : PQP K}

theorem toBQP_E (x : Vec K nv) (i : Fin ne) : ((toBQP nv ne ni m).E *ᵥ x) i = prod nv m.A (unview x) i := by rw [prod_unview]; rfl
theorem toBQP_A (x : Vec K nv) (i : Fin ni) : ((toBQP nv ne ni m).A *ᵥ x) i = prod nv m.C (unview x) i := by rw [prod_unview]; rfl
theorem toBQP_P (x : Vec K nv) (i : Fin nv) : ((toBQP nv ne ni m).P *ᵥ x) i = prod nv m.P (unview x) i := by rw [prod_unview]; rfl
theorem toBQP_ET (v : Vec K ne) (i : Fin nv) : ((toBQP nv ne ni m).Eᵀ *ᵥ v) i = prodT ne m.A (unview v) i := by rw [prodT_unview]; rfl
theorem toBQP_AT (y : Vec K ni) (i : Fin nv) : ((toBQP nv ne ni m).Aᵀ *ᵥ y) i = prodT ni m.C (unview y) i := by rw [prodT_unview]; rfl

theorem toOQP_P (x : Vec K nv) (i : Fin nv) : ((toOQP nv ne ni m).P *ᵥ x) i = prod nv m.P (unview x) i := by rw [prod_unview]; rfl
theorem toOQP_Ae (x : Vec K nv) (i : Fin ne) : ((toOQP nv ne ni m).A *ᵥ x) (Fin.castAdd ni i) = prod nv m.A (unview x) i := by
  rw [prod_unview]
  unfold mulVec dotProduct
  exact Finset.sum_congr rfl fun j _ => by simp only [toOQP, of_apply, Fin.addCases_left]
theorem toOQP_Ai (x : Vec K nv) (i : Fin ni) : ((toOQP nv ne ni m).A *ᵥ x) (Fin.natAdd ne i) = prod nv m.C (unview x) i := by
  rw [prod_unview]
  unfold mulVec dotProduct
  exact Finset.sum_congr rfl fun j _ => by simp only [toOQP, of_apply, Fin.addCases_right]
theorem toOQP_AT (y : Vec K (ne + ni)) (j : Fin nv) : ((toOQP nv ne ni m).Aᵀ *ᵥ y) j =
    prodT ne m.A (unview fun i : Fin ne => y (Fin.castAdd ni i)) j + prodT ni m.C (unview fun i : Fin ni => y (Fin.natAdd ne i)) j := by
  rw [prodT_unview, prodT_unview]
  unfold mulVec dotProduct
  rw [Fin.sum_univ_add]
  congr 1
  · exact Finset.sum_congr rfl fun i _ => by simp only [toOQP, of_apply, Fin.addCases_left, transpose_apply]
  · exact Finset.sum_congr rfl fun i _ => by simp only [toOQP, of_apply, Fin.addCases_right, transpose_apply]

theorem toOQP_le (i : Fin ne) : (toOQP nv ne ni m).l (Fin.castAdd ni i) = some (m.b i) := by simp only [toOQP, Fin.addCases_left]
theorem toOQP_ue (i : Fin ne) : (toOQP nv ne ni m).u (Fin.castAdd ni i) = some (m.b i) := by simp only [toOQP, Fin.addCases_left]
theorem toOQP_li (i : Fin ni) : (toOQP nv ne ni m).l (Fin.natAdd ne i) = m.l i := by simp only [toOQP, Fin.addCases_right]
theorem toOQP_ui (i : Fin ni) : (toOQP nv ne ni m).u (Fin.natAdd ne i) = m.u i := by simp only [toOQP, Fin.addCases_right]

/-- the objective. -/
theorem toOQP_obj (x : Vec K nv) : boxObj (toOQP nv ne ni m) x = PQP.obj nv m (unview x) := by
  unfold boxObj PQP.obj dotProduct
  rw [Finset.sum_range, Finset.sum_range]
  congr 1
  · congr 1
    exact Finset.sum_congr rfl fun i _ => by rw [toOQP_P, unview_fin]
  · exact Finset.sum_congr rfl fun i _ => by rw [unview_fin]; rfl

/-- feasibility. -/
theorem toOQP_feas (x : Vec K nv) : InBox (toOQP nv ne ni m).l (toOQP nv ne ni m).u ((toOQP nv ne ni m).A *ᵥ x) ↔
    DenseFeasible nv ne ni m (unview x) := by
  constructor
  · intro h
    refine ⟨fun i hi => ?_, fun i hi => ?_⟩
    · have := h (Fin.castAdd ni ⟨i, hi⟩)
      rw [toOQP_Ae, toOQP_le, toOQP_ue] at this
      exact le_antisymm (this.2 _ rfl) (this.1 _ rfl)
    · have := h (Fin.natAdd ne ⟨i, hi⟩)
      rw [toOQP_Ai, toOQP_li, toOQP_ui] at this
      exact this
  · rintro ⟨h1, h2⟩ i
    refine Fin.addCases (fun i => ?_) (fun i => ?_) i
    · rw [toOQP_Ae, toOQP_le, toOQP_ue, h1 i i.2]
      exact ⟨fun l e => by cases e; exact le_rfl, fun u e => by cases e; exact le_rfl⟩
    · rw [toOQP_Ai, toOQP_li, toOQP_ui]
      exact h2 i i.2

/-- the KKT conditions in the shape of `CustomOSQP` are those of the dense QP. -/
theorem boxKKT_iff (x : Vec K nv) (y : Vec K (ne + ni)) : BoxKKT (toOQP nv ne ni m) x y ↔
    DenseKKT nv ne ni m (unview x) (unview fun i : Fin ne => y (Fin.castAdd ni i)) (unview fun i : Fin ni => y (Fin.natAdd ne i)) := by
  constructor
  · rintro ⟨h1, h2, h3⟩
    obtain ⟨f1, f2⟩ := (toOQP_feas x).1 h1
    refine ⟨fun i hi => ?_, f1, fun i hi => (f2 i hi).1, fun i hi => (f2 i hi).2, fun i hi hz => ?_, fun i hi hz => ?_⟩
    · have := congrFun h2 ⟨i, hi⟩
      rw [Pi.add_apply, Pi.add_apply, toOQP_P, toOQP_AT, ← add_assoc] at this
      exact this
    · have := (h3 (Fin.natAdd ne ⟨i, hi⟩)).1
      rw [toOQP_Ai, toOQP_ui] at this
      rw [unview_lt _ hi] at hz
      exact this hz
    · have := (h3 (Fin.natAdd ne ⟨i, hi⟩)).2
      rw [toOQP_Ai, toOQP_li] at this
      rw [unview_lt _ hi] at hz
      exact this hz
  · rintro ⟨h1, h2, h3, h4, h5, h6⟩
    refine ⟨(toOQP_feas x).2 ⟨h2, fun i hi => ⟨h3 i hi, h4 i hi⟩⟩, ?_, fun i => ?_⟩
    · funext i
      rw [Pi.add_apply, Pi.add_apply, toOQP_P, toOQP_AT, ← add_assoc]
      exact h1 i i.2
    · refine Fin.addCases (fun i => ?_) (fun i => ?_) i
      · rw [toOQP_Ae, toOQP_le, toOQP_ue, h2 i i.2]
        exact ⟨fun _ => rfl, fun _ => rfl⟩
      · rw [toOQP_Ai, toOQP_li, toOQP_ui]
        refine ⟨fun hz => h5 i i.2 ?_, fun hz => h6 i i.2 ?_⟩
        · rw [unview_fin]; exact hz
        · rw [unview_fin]; exact hz

/-- the KKT conditions in the shape of `StagewiseQPKKT` are those of the dense QP. -/
theorem boxEqKKT_iff (x : Vec K nv) (y : Vec K ni) (v : Vec K ne) : BoxEqKKT (toBQP nv ne ni m) x y v ↔
    DenseKKT nv ne ni m (unview x) (unview v) (unview y) := by
  constructor
  · rintro ⟨h0, h1, h2, h3⟩
    refine ⟨fun i hi => ?_, fun i hi => ?_, fun i hi => ?_, fun i hi => ?_, fun i hi hz => ?_, fun i hi hz => ?_⟩
    · have := congrFun h2 ⟨i, hi⟩
      rw [Pi.add_apply, Pi.add_apply, Pi.add_apply, toBQP_P, toBQP_AT, toBQP_ET, add_right_comm] at this
      exact this
    · have := congrFun h0 ⟨i, hi⟩
      rw [toBQP_E] at this
      exact this
    · have := (h1 ⟨i, hi⟩).1
      rw [toBQP_A] at this
      exact this
    · have := (h1 ⟨i, hi⟩).2
      rw [toBQP_A] at this
      exact this
    · have := (h3 ⟨i, hi⟩).1
      rw [toBQP_A] at this
      rw [unview_lt _ hi] at hz
      exact this hz
    · have := (h3 ⟨i, hi⟩).2
      rw [toBQP_A] at this
      rw [unview_lt _ hi] at hz
      exact this hz
  · rintro ⟨h1, h2, h3, h4, h5, h6⟩
    refine ⟨?_, fun i => ?_, ?_, fun i => ?_⟩
    · funext i
      rw [toBQP_E]
      exact h2 i i.2
    · rw [toBQP_A]
      exact ⟨h3 i i.2, h4 i i.2⟩
    · funext i
      rw [Pi.add_apply, Pi.add_apply, Pi.add_apply, toBQP_P, toBQP_AT, toBQP_ET, add_right_comm]
      exact h1 i i.2
    · rw [toBQP_A]
      refine ⟨fun hz => h5 i i.2 ?_, fun hz => h6 i i.2 ?_⟩
      · rw [unview_fin]; exact hz
      · rw [unview_fin]; exact hz

variable {P : Problem K} {d : Data P} {fs : ℕ → Vec K P.ndx}

/-- the quadratic form of the assembled Hessian, by node. -/
theorem bil (hT : 0 < P.T) (h : PROX.EntP d m.P) (x z : FVec K) :
    ∑ i ∈ Finset.range P.nVars, x i * prod P.nVars m.P z i =
      (∑ t ∈ Finset.range P.T, (stX P x t ⬝ᵥ ((d.rd t).Lxx *ᵥ stX P z t + (d.rd t).Lxu *ᵥ stU P z t) +
        stU P x t ⬝ᵥ ((d.rd t).Lxuᵀ *ᵥ stX P z t + (d.rd t).Luu *ᵥ stU P z t))) + stX P x P.T ⬝ᵥ (d.td.Lxx *ᵥ stX P z P.T) := by
  have hx : ∀ t, 0 < t → t < P.T → ∑ i : Fin P.ndx, x ((t - 1) * P.ndx + i) * prod P.nVars m.P z ((t - 1) * P.ndx + i) =
      stX P x t ⬝ᵥ ((d.rd t).Lxx *ᵥ stX P z t + (d.rd t).Lxu *ᵥ stU P z t) := by
    intro t h0 ht
    obtain ⟨k, rfl⟩ : ∃ k, t = k + 1 := ⟨t - 1, by omega⟩
    exact Finset.sum_congr rfl fun i _ => by rw [PROX.rowP_x h z h0 ht i]; rfl
  have hxT : ∑ i : Fin P.ndx, x ((P.T - 1) * P.ndx + i) * prod P.nVars m.P z ((P.T - 1) * P.ndx + i) =
      stX P x P.T ⬝ᵥ (d.td.Lxx *ᵥ stX P z P.T) := by
    have e2 : ∀ i : Fin P.ndx, x ((P.T - 1) * P.ndx + i) = stX P x P.T i := by
      intro i
      obtain ⟨k, hk⟩ : ∃ k, P.T = k + 1 := ⟨P.T - 1, by omega⟩
      rw [hk]; rfl
    exact Finset.sum_congr rfl fun i _ => by rw [PROX.rowP_T h z hT i, e2]
  have hu : ∀ t, t < P.T → ∑ i : Fin (P.nu t), x (P.nEq + offs P.nu t + i) * prod P.nVars m.P z (P.nEq + offs P.nu t + i) =
      stU P x t ⬝ᵥ ((d.rd t).Lxuᵀ *ᵥ stX P z t + (d.rd t).Luu *ᵥ stU P z t) := by
    intro t ht
    exact Finset.sum_congr rfl fun i _ => by rw [PROX.rowP_u h z ht i]; rfl
  rw [PROX.sum_nVars,
    PROX.sum_nodes hT (fun k => ∑ i : Fin P.ndx, x (k * P.ndx + i) * prod P.nVars m.P z (k * P.ndx + i))
      (fun t => stX P x t ⬝ᵥ ((d.rd t).Lxx *ᵥ stX P z t + (d.rd t).Lxu *ᵥ stU P z t)) _ (by simp [stX]) hx hxT,
    Finset.sum_congr rfl fun t ht => hu t (Finset.mem_range.mp ht), Finset.sum_add_distrib]
  ring

/-- convex stage costs give a symmetric positive semidefinite Hessian. -/
theorem psd (hT : 0 < P.T) (h : PROX.EntP d m.P) (hs : SymHess d) (hc : Convex d 0 0) :
    PSD (toOQP P.nVars ne ni m).P := by
  have hdot : ∀ x z : Vec K P.nVars, x ⬝ᵥ ((toOQP P.nVars ne ni m).P *ᵥ z) = ∑ i ∈ Finset.range P.nVars, unview x i * prod P.nVars m.P (unview z) i := by
    intro x z
    rw [Finset.sum_range]
    exact Finset.sum_congr rfl fun i _ => by rw [toOQP_P, unview_fin]
  have tr : ∀ {a b : ℕ} (M : Mat K a b) (x : Vec K a) (z : Vec K b), x ⬝ᵥ (M *ᵥ z) = z ⬝ᵥ (Mᵀ *ᵥ x) := by
    intro a b M x z
    rw [dotProduct_mulVec, dotProduct_comm, ← mulVec_transpose]
  constructor
  · have hsym : ∀ x z : Vec K P.nVars, x ⬝ᵥ ((toOQP P.nVars ne ni m).P *ᵥ z) = z ⬝ᵥ ((toOQP P.nVars ne ni m).P *ᵥ x) := by
      intro x z
      rw [hdot, hdot, bil hT h, bil hT h]
      congr 1
      · refine Finset.sum_congr rfl fun t ht => ?_
        have ht := Finset.mem_range.mp ht
        simp only [dotProduct_add]
        have e1 := tr (d.rd t).Lxx (stX P (unview x) t) (stX P (unview z) t)
        have e2 := tr (d.rd t).Lxu (stX P (unview x) t) (stU P (unview z) t)
        have e3 := tr (d.rd t).Lxu (stX P (unview z) t) (stU P (unview x) t)
        have e4 := tr (d.rd t).Luu (stU P (unview x) t) (stU P (unview z) t)
        rw [hs.xx t ht] at e1
        rw [hs.uu t ht] at e4
        rw [e1, e2, e3, e4]
        ring
      · rw [tr d.td.Lxx, hs.T]
    ext i j
    have := hsym (Pi.single j 1) (Pi.single i 1)
    simpa [transpose_apply] using this
  · intro v
    rw [hdot, bil hT h]
    refine add_nonneg (Finset.sum_nonneg fun t ht => ?_) ?_
    · have := hc.run t (Finset.mem_range.mp ht) (stX P (unview v) t) (stU P (unview v) t)
      have e := tr (d.rd t).Lxuᵀ (stU P (unview v) t) (stX P (unview v) t)
      rw [transpose_transpose] at e
      simp only [dotProduct_add, e]
      simp only [zero_mul, add_zero, zero_smul] at this
      linarith
    · have := hc.ter (stX P (unview v) P.T)
      simpa using this

/-- the rows of the dynamics are independent. -/
theorem fullRank (hT : 0 < P.T) (h : PROX.PartA d P.T m.A) : FullRank (toBQP P.nVars P.nEq ni m).E := by
  intro w hw
  have hcol : ∀ j, j < P.nVars → prodT P.nEq m.A (unview w) j = 0 := by
    intro j hj
    have := congrFun hw ⟨j, hj⟩
    rw [toBQP_ET] at this
    exact this
  have hx : ∀ k (i : Fin P.ndx), k < P.T → k * P.ndx + i < P.nVars := by
    intro k i hk
    have h1 : (k + 1) * P.ndx ≤ P.T * P.ndx := Nat.mul_le_mul_right _ hk
    have h2 : P.T * P.ndx ≤ P.nVars := Nat.le_add_right _ _
    have h3 := i.2
    rw [Nat.succ_mul] at h1
    omega
  have hlam : ∀ n t, t + n = P.T → 0 < t → stLam P (unview w) t = 0 := by
    intro n
    induction n with
    | zero =>
      intro t ht h0
      obtain rfl : t = P.T := by omega
      funext i
      have := hcol _ (hx (P.T - 1) i (by omega))
      rw [PROX.colA_T h _ hT] at this
      exact neg_eq_zero.mp this
    | succ n ih =>
      intro t ht h0
      funext i
      have := hcol _ (hx (t - 1) i (by omega))
      rw [PROX.colA_x h _ h0 (by omega), ih (t + 1) (by omega) (by omega), mulVec_zero, add_zero] at this
      exact neg_eq_zero.mp this
  funext i
  have hi : (i : ℕ) < offs (fun _ => P.ndx) P.T := by rw [offs_const]; exact i.2
  obtain ⟨t, ht, j, hj, e⟩ := offs_cover hi
  rw [offs_const] at e
  have := congrFun (hlam (P.T - (t + 1)) (t + 1) (by omega) (Nat.succ_pos t)) ⟨j, hj⟩
  have h2 : unview w (t * P.ndx + j) = 0 := neg_eq_zero.mp this
  rw [← e, unview_fin] at h2
  exact h2

end PyDense
end Mim
