import Verif.Props.QPFejer

/-!
# Lemmas for the finite termination of the QP loop
-/
set_option linter.unusedSectionVars false
set_option linter.unusedSimpArgs false

namespace Mim
open QP Spec Matrix

section
variable {F : Type} [Add F] [Sub F] [Mul F] [Div F] [Neg F] [Zero F] [One F] [FloatOps F] [SqrtOps F] {P : Problem F}
variable {llt : LLT F} {E : QEnv P}

theorem AtIter.exec_pos {q0 q : CQP P} (h : AtIter llt E q0 q) (hp : q.exec ≠ 0) : ∃ q1 q', AtIter llt E q0 q1 ∧ q1.timeUp E = false ∧
    ({ q1 with tick := q1.tick + 1 } : CQP P).step llt E = .ok q' ∧
    (q'.qpIters % E.c.interval = 0 → (q'.setTol E.c).converged = false) ∧ q = q'.between E ∧ q.exec = q1.exec + 1 := by
  cases h with
  | first h => exact absurd rfl hp
  | @next q1 q' h ht hs hn =>
    refine ⟨q1, q', h, ht, hs, hn, rfl, ?_⟩
    rw [(between_v (E := E) q').2.2.2.1, (step_misc hs).1]

/-- the loop is deterministic. -/
theorem AtIter.unique {q0 q p : CQP P} (h : AtIter llt E q0 q) (h' : AtIter llt E q0 p) (he : q.exec = p.exec) : q = p := by
  induction h generalizing p with
  | @first q h =>
    cases h' with
    | first h2 => rw [h] at h2; cases h2; rfl
    | @next p1 p' h2 ht hs hn =>
      rw [(between_v (E := E) p').2.2.2.1, (step_misc hs).1] at he
      exact absurd he (by simp)
  | @next q1 q' h ht hs hn ih =>
    have e1 : (q'.between E).exec = q1.exec + 1 := by rw [(between_v (E := E) q').2.2.2.1, (step_misc hs).1]
    obtain ⟨p1, p', g1, _, g3, _, g5, g6⟩ := h'.exec_pos (by rw [← he, e1]; omega)
    have := ih g1 (by omega)
    subst this
    rw [hs] at g3
    cases g3
    exact g5.symm

/-- the iterations after `q` during which the penalties of the constraint rows stay what they are at `q`. -/
inductive Steady (llt : LLT F) (E : QEnv P) (q : CQP P) : CQP P → Prop
  | here : Steady llt E q q
  | next {q1 q' : CQP P} (h : Steady llt E q q1) (ht : q1.timeUp E = false)
      (hs : ({ q1 with tick := q1.tick + 1 } : CQP P).step llt E = .ok q')
      (hn : q'.qpIters % E.c.interval = 0 → (q'.setTol E.c).converged = false) (hr : q'.v.rho = q1.v.rho ∧ q'.v.inv = q1.v.inv) :
      Steady llt E q (q'.between E)

theorem Steady.at {q0 q p : CQP P} (h : Steady llt E q p) (hq : AtIter llt E q0 q) : AtIter llt E q0 p := by
  induction h with
  | here => exact hq
  | next h ht hs hn hr ih => exact .next ih ht hs hn

theorem Steady.rho {q p : CQP P} (h : Steady llt E q p) : p.v.rho = q.v.rho ∧ p.v.inv = q.v.inv := by
  induction h with
  | here => exact ⟨rfl, rfl⟩
  | @next q1 q' h ht hs hn hr ih => rw [(between_v (E := E) q').1]; exact ⟨hr.1.trans ih.1, hr.2.trans ih.2⟩

end

section
variable {K : Type} [Field K] [LinearOrder K] [IsStrictOrderedRing K] [SqrtOps K] {P : Problem K}
variable {llt : LLT K} {E : QEnv P}

/-! ## signs of the norms -/

/-- either no constraint row at all was seen, or the two reference norms are nonnegative. -/
def NormSigns (n : CNorms K) : Prop := (n.p = -1 ∧ n.d = -1 ∧ n.pr = -1 ∧ n.dr = -1) ∨ (0 ≤ n.pr ∧ 0 ≤ n.dr)

theorem normStep_signs {m : ℕ} (duals : Vec K m → List K) (hd : ∀ a, ∃ x ∈ duals a, 0 ≤ x) (Cd z w y : Vec K m) (n : CNorms K) :
    NormSigns (normStep duals Cd z w y n) := by
  right
  unfold normStep
  simp only [cppMax_exact, normInf_exact]
  refine ⟨le_max_of_le_right (exactNormInf_nonneg _), ?_⟩
  obtain ⟨x, hx, h0⟩ := hd y
  have : ∀ (l : List K) (a : K), (a ≤ l.foldl cppMax a) ∧ ∀ x ∈ l, x ≤ l.foldl cppMax a := by
    intro l
    induction l with
    | nil => exact fun a => ⟨le_rfl, fun x h => by cases h⟩
    | cons b l ih =>
      intro a
      rw [List.foldl_cons]
      have hb := (ih (cppMax a b)).1
      rw [cppMax_exact] at hb ⊢
      refine ⟨(le_max_left _ _).trans hb, fun x h => ?_⟩
      rcases List.mem_cons.mp h with rfl | h
      · exact (le_max_right _ _).trans hb
      · have := (ih (max a b)).2 x h
        exact this
  exact h0.trans ((this _ _).2 x hx)

theorem lag_signs (it : ℕ) (hi : it % E.c.interval = 0) (v : CVars P) :
    NormSigns (lagTerm E it (forUp P.T (lagStage E it) (v, ⟨negInf, negInf, negInf, negInf⟩))).2 := by
  have h1 : NormSigns (forUp P.T (lagStage E it) (v, ⟨negInf, negInf, negInf, negInf⟩)).2 := by
    refine forUp_inv (fun _ (s : CVars P × CNorms K) => NormSigns s.2) P.T _ _ (.inl ⟨rfl, rfl, rfl, rfl⟩) ?_
    rintro k _ ⟨v, n⟩ h
    unfold lagStage
    by_cases hg : P.ng k = 0
    · simpa only [hg, if_true] using h
    · simp only [hg, if_false, hi, if_true]
      refine normStep_signs _ (fun a => ?_) _ _ _ _ _
      cases E.c.heuristic
      · exact ⟨_, by simp only [Bool.false_eq_true, if_false]; exact List.mem_cons_self, exactNormInf_nonneg _⟩
      · exact ⟨_, by simp only [if_true]; exact List.mem_cons_self, exactNormInf_nonneg _⟩
  generalize forUp P.T (lagStage E it) (v, ⟨negInf, negInf, negInf, negInf⟩) = s at *
  obtain ⟨v, n⟩ := s
  unfold lagTerm
  by_cases hg : P.ng P.T = 0
  · simpa only [hg, ne_eq, not_true_eq_false, if_false] using h1
  · simp only [hg, ne_eq, not_false_eq_true, if_true, hi]
    refine normStep_signs _ (fun a => ?_) _ _ _ _ _
    cases E.c.heuristic
    · exact ⟨_, by simp only [Bool.false_eq_true, if_false]; exact List.mem_cons_self, exactNormInf_nonneg _⟩
    · exact ⟨_, by simp only [if_true]; exact List.mem_cons_self, exactNormInf_nonneg _⟩

theorem step_signs {q q' : CQP P} (hst : q.step llt E = .ok q') (hi : q.qpIters % E.c.interval = 0) : NormSigns q'.n := by
  unfold CQP.step at hst
  obtain ⟨q1, h1, h2⟩ := Res.thenDo_eq_ok hst
  have hq : ∃ b, q1 = { q with b := b } := by
    unfold CQP.pass at h1
    split at h1
    · split at h1
      all_goals
        obtain ⟨b, _, h4⟩ := Res.map_eq_ok h1
        exact ⟨b, h4.symm⟩
    · cases h1
      exact ⟨_, rfl⟩
  obtain ⟨b, rfl⟩ := hq
  have e : q'.n = ((({ q with b := b } : CQP P).forward E).updateLag E).n := by
    rw [h2]
    unfold CQP.updateRho
    simp only []
    split
    · split <;> rfl
    · rfl
  rw [e]
  exact lag_signs _ hi _

/-! ## a failing test is a failing row -/

/-- the tolerances with which the test is made are at least the absolute one, unless there is no constraint. -/
theorem fails_rows {q q' : CQP P} (hst : q.step llt E = .ok q') (hi : q.qpIters % E.c.interval = 0)
    (hea : 0 ≤ E.c.epsAbs) (her : 0 ≤ E.c.epsRel) (her1 : E.c.epsRel ≤ 1) (hf : (q'.setTol E.c).converged = false) :
    E.c.epsAbs < q'.n.p ∨ E.c.epsAbs < q'.n.d := by
  have hs := step_signs hst hi
  by_contra hc
  push Not at hc
  have : (q'.setTol E.c).converged = true := by
    unfold CQP.setTol CQP.converged
    simp only [leb_exact]
    split
    · simp [hc.1, hc.2]
    · rcases hs with ⟨a, b, c, d⟩ | ⟨a, b⟩
      · simp only [a, b, c, d, Bool.and_eq_true, decide_eq_true_eq]
        constructor <;> linarith
      · simp only [Bool.and_eq_true, decide_eq_true_eq]
        have h1 := mul_nonneg her a
        have h2 := mul_nonneg her b
        constructor <;> linarith [hc.1, hc.2]
  rw [this] at hf
  cases hf

/-! ## one row -/

theorem cone_row {n : ℕ} {lb ub : Fin n → Option K} {c c' y y' : Vec K n} (h : NormalCone lb ub c y) (hc : InBox lb ub c)
    (h' : NormalCone lb ub c' y') (hc' : InBox lb ub c') (i : Fin n) : 0 ≤ (y i - y' i) * (c i - c' i) := by
  have a : y i * (c' i - c i) ≤ 0 := by
    rcases lt_trichotomy (y i) 0 with h1 | h1 | h1
    · exact mul_nonpos_of_nonpos_of_nonneg h1.le (sub_nonneg.mpr ((hc' i).1 _ ((h i).2 h1)))
    · rw [h1, zero_mul]
    · exact mul_nonpos_of_nonneg_of_nonpos h1.le (sub_nonpos.mpr ((hc' i).2 _ ((h i).1 h1)))
  have b : y' i * (c i - c' i) ≤ 0 := by
    rcases lt_trichotomy (y' i) 0 with h1 | h1 | h1
    · exact mul_nonpos_of_nonpos_of_nonneg h1.le (sub_nonneg.mpr ((hc i).1 _ ((h' i).2 h1)))
    · rw [h1, zero_mul]
    · exact mul_nonpos_of_nonneg_of_nonpos h1.le (sub_nonpos.mpr ((hc i).2 _ ((h' i).1 h1)))
  nlinarith

/-- a row moves at most `α` times its gap. -/
theorem row_move {al rho z z' y y' c : K} (hr : 0 < rho) (ha : 0 ≤ al) (hm : y' + rho * z' = y + rho * z + al * rho * (c - z))
    (hc : 0 ≤ (y' - y) * (z' - z)) {δ : K} (hd : |c - z| ≤ δ) : |z' - z| ≤ al * δ := by
  have e : y' - y = rho * (al * (c - z) - (z' - z)) := by linear_combination hm
  rw [e, mul_assoc] at hc
  have h1 : 0 ≤ (al * (c - z) - (z' - z)) * (z' - z) := by
    by_contra hn
    exact absurd hc (not_le.mpr (mul_neg_of_pos_of_neg hr (not_le.mp hn)))
  have h2 : (z' - z) * (z' - z) ≤ (al * (c - z)) * (z' - z) := by linarith
  have h3 : |z' - z| * |z' - z| ≤ al * |c - z| * |z' - z| := by
    rw [abs_mul_abs_self]
    refine h2.trans ((le_abs_self _).trans ?_)
    rw [abs_mul, abs_mul, abs_of_nonneg ha]
  rcases (abs_nonneg (z' - z)).eq_or_lt with h0 | h0
  · rw [← h0]; exact mul_nonneg ha ((abs_nonneg _).trans hd)
  · have h4 := le_of_mul_le_mul_right h3 h0
    exact h4.trans (mul_le_mul_of_nonneg_left hd ha)

/-! ## constants -/

theorem mulVec_bound {m n : ℕ} (M : Matrix (Fin m) (Fin n) K) : ∃ C, 0 ≤ C ∧ ∀ (a : Vec K n) δ, AllLe a δ → AllLe (M *ᵥ a) (C * δ) := by
  refine ⟨∑ i, ∑ j, |M i j|, Finset.sum_nonneg fun i _ => Finset.sum_nonneg fun j _ => abs_nonneg _, fun a δ h i => ?_⟩
  rcases Nat.eq_zero_or_pos n with rfl | hn
  · simp [mulVec, dotProduct]
  have hδ : 0 ≤ δ := (abs_nonneg _).trans (h ⟨0, hn⟩)
  unfold mulVec dotProduct
  calc |∑ j, M i j * a j| ≤ ∑ j, |M i j * a j| := Finset.abs_sum_le_sum_abs _ _
    _ ≤ ∑ j, |M i j| * δ := Finset.sum_le_sum fun j _ => by
        rw [abs_mul]; exact mul_le_mul_of_nonneg_left (h j) (abs_nonneg _)
    _ = (∑ j, |M i j|) * δ := (Finset.sum_mul _ _ _).symm
    _ ≤ (∑ i, ∑ j, |M i j|) * δ := by
        refine mul_le_mul_of_nonneg_right ?_ hδ
        exact Finset.single_le_sum (f := fun i => ∑ j, |M i j|) (fun i _ => Finset.sum_nonneg fun j _ => abs_nonneg _) (Finset.mem_univ i)

theorem allLe_mono {n : ℕ} {v : Vec K n} {a b : K} (h : AllLe v a) (hab : a ≤ b) : AllLe v b := fun i => (h i).trans hab

theorem scale_bound {m : ℕ} (r : Vec K m) : ∃ C, 0 ≤ C ∧ ∀ (a : Vec K m) δ, AllLe a δ → AllLe (r * a) (C * δ) := by
  refine ⟨∑ i, |r i|, Finset.sum_nonneg fun i _ => abs_nonneg _, fun a δ h i => ?_⟩
  have hδ : 0 ≤ δ := (abs_nonneg _).trans (h i)
  rw [Pi.mul_apply, abs_mul]
  exact mul_le_mul (Finset.single_le_sum (f := fun i => |r i|) (fun i _ => abs_nonneg _) (Finset.mem_univ i)) (h i) (abs_nonneg _)
    (Finset.sum_nonneg fun i _ => abs_nonneg _)

theorem dual_bound (E : QEnv P) (t : ℕ) (r : Vec K (P.ng t)) : ∃ C, 0 ≤ C ∧ ∀ (a : Vec K (P.ng t)) δ, 0 ≤ δ → AllLe a δ → DualLe E t (r * a) (C * δ) := by
  obtain ⟨C0, h0, b0⟩ := scale_bound r
  obtain ⟨C1, h1, b1⟩ := mulVec_bound (E.d.rd t).Gxᵀ
  obtain ⟨C2, h2, b2⟩ := mulVec_bound (E.d.rd t).Guᵀ
  refine ⟨C0 + C1 * C0 + C2 * C0, by positivity, fun a δ hδ h => ?_⟩
  unfold DualLe
  have p0 : 0 ≤ C0 * δ := by positivity
  have p1 : 0 ≤ C1 * (C0 * δ) := by positivity
  have p2 : 0 ≤ C2 * (C0 * δ) := by positivity
  split
  · exact allLe_mono (b0 a δ h) (by linarith)
  · exact ⟨allLe_mono (b1 _ _ (b0 a δ h)) (by linarith), allLe_mono (b2 _ _ (b0 a δ h)) (by linarith)⟩

theorem dual_boundT (E : QEnv P) (r : Vec K (P.ng P.T)) : ∃ C, 0 ≤ C ∧ ∀ (a : Vec K (P.ng P.T)) δ, 0 ≤ δ → AllLe a δ → DualLeT E (r * a) (C * δ) := by
  obtain ⟨C0, h0, b0⟩ := scale_bound r
  obtain ⟨C1, h1, b1⟩ := mulVec_bound E.d.td.Gxᵀ
  refine ⟨C0 + C1 * C0, by positivity, fun a δ hδ h => ?_⟩
  unfold DualLeT
  have p0 : 0 ≤ C0 * δ := by positivity
  have p1 : 0 ≤ C1 * (C0 * δ) := by positivity
  split
  · exact allLe_mono (b0 a δ h) (by linarith)
  · exact allLe_mono (b1 _ _ (b0 a δ h)) (by linarith)

theorem dualLe_mono {t : ℕ} {a : Vec K (P.ng t)} {c c' : K} (h : DualLe E t a c) (hc : c ≤ c') : DualLe E t a c' := by
  unfold DualLe at *
  split
  · rename_i hh; rw [if_pos hh] at h; exact allLe_mono h hc
  · rename_i hh; rw [if_neg hh] at h; exact ⟨allLe_mono h.1 hc, allLe_mono h.2 hc⟩

theorem dualLeT_mono {a : Vec K (P.ng P.T)} {c c' : K} (h : DualLeT E a c) (hc : c ≤ c') : DualLeT E a c' := by
  unfold DualLeT at *
  split
  · rename_i hh; rw [if_pos hh] at h; exact allLe_mono h hc
  · rename_i hh; rw [if_neg hh] at h; exact allLe_mono h hc

/-- one constant for all nodes. -/
theorem dual_const (E : QEnv P) (r : (t : ℕ) → Vec K (P.ng t)) : ∃ C, 0 ≤ C ∧
    (∀ t, t < P.T → ∀ (a : Vec K (P.ng t)) δ, 0 ≤ δ → AllLe a δ → DualLe E t (r t * a) (C * δ)) ∧
    ∀ (a : Vec K (P.ng P.T)) δ, 0 ≤ δ → AllLe a δ → DualLeT E (r P.T * a) (C * δ) := by
  choose C hC hb using fun t => dual_bound E t (r t)
  obtain ⟨D, hD, hd⟩ := dual_boundT E (r P.T)
  have hs : 0 ≤ ∑ t ∈ Finset.range P.T, C t := Finset.sum_nonneg fun t _ => hC t
  refine ⟨(∑ t ∈ Finset.range P.T, C t) + D, by linarith, fun t ht a δ h0 h => ?_, fun a δ h0 h => ?_⟩
  · refine dualLe_mono (hb t a δ h0 h) (mul_le_mul_of_nonneg_right ?_ h0)
    have := Finset.single_le_sum (f := C) (fun t _ => hC t) (Finset.mem_range.mpr ht)
    linarith
  · exact dualLeT_mono (hd a δ h0 h) (mul_le_mul_of_nonneg_right (by linarith) h0)

/-- a positive lower bound of finitely many positive penalties. -/
theorem rho_lower (r : (t : ℕ) → Vec K (P.ng t)) (hr : ∀ t, t ≤ P.T → ∀ i, 0 < r t i) : ∃ m, 0 < m ∧ ∀ t, t ≤ P.T → ∀ i, m ≤ r t i := by
  have h0 : ∀ t ∈ Finset.range (P.T + 1), 0 ≤ ∑ i, 1 / r t i := fun t ht =>
    Finset.sum_nonneg fun i _ => (one_div_pos.mpr (hr t (Nat.lt_succ_iff.mp (Finset.mem_range.mp ht)) i)).le
  have hs := Finset.sum_nonneg h0
  refine ⟨1 / (1 + ∑ t ∈ Finset.range (P.T + 1), ∑ i, 1 / r t i), one_div_pos.mpr (by linarith), fun t ht i => ?_⟩
  have h1 : 1 / r t i ≤ ∑ i, 1 / r t i :=
    Finset.single_le_sum (f := fun i => 1 / r t i) (fun i _ => (one_div_pos.mpr (hr t ht i)).le) (Finset.mem_univ i)
  have h2 : ∑ i, 1 / r t i ≤ ∑ t ∈ Finset.range (P.T + 1), ∑ i, 1 / r t i :=
    Finset.single_le_sum (f := fun t => ∑ i, 1 / r t i) h0 (Finset.mem_range.mpr (by omega))
  rw [div_le_iff₀ (by linarith)]
  have h3 : 1 / r t i ≤ 1 + ∑ t ∈ Finset.range (P.T + 1), ∑ i, 1 / r t i := by linarith
  have := mul_le_mul_of_nonneg_left h3 (hr t ht i).le
  rwa [mul_one_div_cancel (hr t ht i).ne'] at this

/-! ## signs of the distances -/

theorem wDist_nonneg {m : ℕ} {rho a b : Vec K m} (hr : ∀ i, 0 < rho i) : 0 ≤ wDist rho a b :=
  Finset.sum_nonneg fun i _ => mul_nonneg (hr i).le (sq_nonneg _)

theorem dualDist_nonneg {m : ℕ} {rho z y c w : Vec K m} (hr : ∀ i, 0 < rho i) : 0 ≤ dualDist rho z y c w :=
  Finset.sum_nonneg fun i _ => div_nonneg (sq_nonneg _) (hr i).le

theorem sqDist_nonneg {n : ℕ} (a b : Vec K n) : 0 ≤ sqDist a b := Finset.sum_nonneg fun i _ => sq_nonneg _

theorem wDist_row {m : ℕ} {rho a b : Vec K m} (hr : ∀ i, 0 < rho i) (i : Fin m) : rho i * (a i - b i) ^ 2 ≤ wDist rho a b :=
  Finset.single_le_sum (f := fun i => rho i * (a i - b i) ^ 2) (fun i _ => mul_nonneg (hr i).le (sq_nonneg _)) (Finset.mem_univ i)

theorem stepDist_nonneg (dx dx' : ℕ → Vec K P.ndx) (du du' : (t : ℕ) → Vec K (P.nu t)) : 0 ≤ stepDist P dx dx' du du' :=
  add_nonneg (Finset.sum_nonneg fun t _ => add_nonneg (sqDist_nonneg _ _) (sqDist_nonneg _ _)) (sqDist_nonneg _ _)

theorem splitGap_nonneg {d : Data P} {rho : (t : ℕ) → Vec K (P.ng t)} (hr : ∀ t, t ≤ P.T → ∀ i, 0 < rho t i) (dx : ℕ → Vec K P.ndx)
    (du : (t : ℕ) → Vec K (P.nu t)) (z : (t : ℕ) → Vec K (P.ng t)) : 0 ≤ splitGap d rho dx du z :=
  add_nonneg (Finset.sum_nonneg fun t ht => wDist_nonneg (hr t (Finset.mem_range.mp ht).le)) (wDist_nonneg (hr _ le_rfl))

theorem admmDist_nonneg {d : Data P} {rho : (t : ℕ) → Vec K (P.ng t)} (hr : ∀ t, t ≤ P.T → ∀ i, 0 < rho t i) {sigma alpha : K}
    (hs : 0 ≤ sigma) (ha : 0 ≤ alpha) (dx : ℕ → Vec K P.ndx) (du : (t : ℕ) → Vec K (P.nu t)) (z y : (t : ℕ) → Vec K (P.ng t))
    (xs : ℕ → Vec K P.ndx) (us : (t : ℕ) → Vec K (P.nu t)) (ys : (t : ℕ) → Vec K (P.ng t)) :
    0 ≤ admmDist d rho sigma alpha dx du z y xs us ys :=
  add_nonneg (add_nonneg (Finset.sum_nonneg fun t ht => add_nonneg (dualDist_nonneg (hr t (Finset.mem_range.mp ht).le))
    (mul_nonneg (mul_nonneg ha hs) (add_nonneg (sqDist_nonneg _ _) (sqDist_nonneg _ _)))) (dualDist_nonneg (hr _ le_rfl)))
    (mul_nonneg (mul_nonneg ha hs) (sqDist_nonneg _ _))

/-- a small splitting gap is small in every row. -/
theorem splitGap_rows {d : Data P} {rho : (t : ℕ) → Vec K (P.ng t)} (hr : ∀ t, t ≤ P.T → ∀ i, 0 < rho t i) {dx : ℕ → Vec K P.ndx}
    {du : (t : ℕ) → Vec K (P.nu t)} {z : (t : ℕ) → Vec K (P.ng t)} {m δ : K} (hm : 0 < m) (hmr : ∀ t, t ≤ P.T → ∀ i, m ≤ rho t i)
    (hδ : 0 ≤ δ) (h : splitGap d rho dx du z ≤ m * δ ^ 2) :
    (∀ t, t < P.T → AllLe (conLin d t (dx t) (du t) - z t) δ) ∧ AllLe (d.td.Gx *ᵥ dx P.T - z P.T) δ := by
  have row : ∀ {r a : K}, m ≤ r → r * a ^ 2 ≤ m * δ ^ 2 → |a| ≤ δ := by
    intro r a h1 h2
    have h3 : m * a ^ 2 ≤ m * δ ^ 2 := (mul_le_mul_of_nonneg_right h1 (sq_nonneg a)).trans h2
    exact abs_le_of_sq_le_sq (le_of_mul_le_mul_left h3 hm) hδ
  have hw : ∀ t ∈ Finset.range P.T, 0 ≤ wDist (rho t) (conLin d t (dx t) (du t)) (z t) :=
    fun t ht => wDist_nonneg (hr t (Finset.mem_range.mp ht).le)
  constructor
  · intro t ht i
    refine row (hmr t ht.le i) (le_trans ?_ h)
    refine (wDist_row (hr t ht.le) i).trans ?_
    unfold splitGap
    have := Finset.single_le_sum hw (Finset.mem_range.mpr ht)
    have h2 := wDist_nonneg (hr P.T le_rfl) (a := d.td.Gx *ᵥ dx P.T) (b := z P.T)
    linarith
  · intro i
    refine row (hmr _ le_rfl i) (le_trans ?_ h)
    refine (wDist_row (hr _ le_rfl) i).trans ?_
    unfold splitGap
    have := Finset.sum_nonneg hw
    linarith

end
end Mim
