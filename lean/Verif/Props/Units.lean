import Verif.Lemmas.SQPUnits2
import Verif.Lemmas.SQPFrame
import Verif.Spec.Examples
import Verif.Lemmas.RiccatiExist
import Verif.Props.SQPFilter

/-!
# C101: the unit and the zero of the costs
-/
set_option autoImplicit false
set_option linter.unusedSectionVars false
set_option linter.unusedSimpArgs false

namespace Mim
section
variable {K : Type} [Field K] [LinearOrder K] [IsStrictOrderedRing K]
attribute [local instance 2000] noScreen
open SQP Mim.Units
variable {P : Problem K} {c : K} {D : ℕ → K} {s : SQP P} {s' : SQP (P.recost c D)} {llt : LLT K} {fuel m : ℕ}
  {xs : Option (Traj P)} {us : Option (Ctrls P)} {ri : K}

theorem Rescaled.start (h : Rescaled c D s s') : UHead c D (s.start xs us ri) (s'.start (P := P.recost c D) xs us (c * ri)) := by
  refine ⟨⟨⟨h.par, h.mu, h.useFilter, h.filterSize, h.extra, rfl, rfl, rfl, rfl, h.gapList, s.costList.items, s'.costList.items, [],
    h.costFull.holds, h.costFull'.holds, rfl⟩, fun t _ => rfl, fun t _ => rfl, h.dx0⟩, .inl rfl⟩

theorem UAlike.same {n : ℕ} (h : UAlike c D n s s') : SameCandidate c D s s' := ⟨h.conf.iter, h.xs, h.us⟩

theorem UDir.answer (h : UDir c D s s') (hk : KRel c s.KKT s'.KKT) : SameAnswer c D s s' :=
  ⟨UAlike.same h.toUAlike, h.cost, h.gap, h.lag, fun t ht => ⟨h.bp.K t (by omega) ht, h.bp.k t (by omega) ht⟩, ⟨h.dx, h.du⟩, h.conf.preg, hk⟩

theorem solve_rel (hc : 0 < c) (hL : llt.Unitless c) (hT : 0 < P.T) (ha : s.par.alphas ≠ []) (h : Rescaled c D s s')
    (ht : TolOK c s.tol s'.tol) :
    (solve llt fuel xs us m ri s = none ∧ solve (P := P.recost c D) llt fuel xs us m (c * ri) s' = none) ∨
    ∃ r a b, solve llt fuel xs us m ri s = some (r, a) ∧ solve (P := P.recost c D) llt fuel xs us m (c * ri) s' = some (r, b) ∧
      SameCandidate c D a b ∧ (r = true → SameAnswer c D a b) := by
  unfold solve
  rcases iterate_rel hc hL fuel hT m (s := s.start xs us ri) (s' := s'.start (P := P.recost c D) xs us (c * ri)) ha ht h.start with
    ⟨e1, e2⟩ | ⟨a, b, e1, e2, hd, hk⟩ | ⟨a, b, e1, e2, n, hd⟩ | ⟨a, b, e1, e2, hd, ht⟩
  · rw [e1, e2]; exact .inl ⟨rfl, rfl⟩
  · rw [e1, e2]; exact .inr ⟨true, a, b, rfl, rfl, UAlike.same hd.toUAlike, fun _ => UDir.answer hd hk⟩
  · rw [e1, e2]; exact .inr ⟨false, a, b, rfl, rfl, UAlike.same hd, nofun⟩
  · rw [e1, e2]
    rcases extraIter_rel hc hL fuel ht hd with ⟨e1, e2⟩ | ⟨r, a, b, e1, e2, ⟨n, hd⟩, hk⟩
    · exact .inl ⟨e1, e2⟩
    · exact .inr ⟨r, a, b, e1, e2, UAlike.same hd, fun hr => UDir.answer (hk hr).1 (hk hr).2⟩

theorem tolOK_one (tol : K) : TolOK 1 tol tol := by
  rintro k k' ⟨a, g, -, -, rfl, rfl⟩
  rw [one_mul]

theorem tolOK_zero (hc : 0 < c) : TolOK c 0 0 := by
  rintro k k' ⟨a, g, ha, hg, rfl, rfl⟩
  simp only [max_le_iff]
  exact ⟨fun h => ⟨by by_contra hn; push Not at hn; exact absurd (mul_pos hc hn) (not_lt.mpr h.1), h.2⟩,
    fun h => ⟨by rw [le_antisymm h.1 ha, mul_zero], h.2⟩⟩

/-- C101, change of the zero.  Adding a constant to the cost of every node (any constants, also different ones at different nodes) changes nothing
but the reported cost: `solve` returns the same value after the same number of iterations with the same trajectory and, when it converges, the same
residual, multipliers, feedback policy and direction. -/
theorem C101_zero_of_cost (hL : llt.Unitless 1) (hT : 0 < P.T) (ha : s.par.alphas ≠ []) {s' : SQP (P.recost 1 D)} (h : Rescaled 1 D s s')
    (ht : s'.tol = s.tol) :
    (solve llt fuel xs us m ri s = none ∧ solve (P := P.recost 1 D) llt fuel xs us m ri s' = none) ∨
    ∃ r a b, solve llt fuel xs us m ri s = some (r, a) ∧ solve (P := P.recost 1 D) llt fuel xs us m ri s' = some (r, b) ∧
      SameCandidate 1 D a b ∧ (r = true → SameAnswer 1 D a b ∧ b.KKT = a.KKT) := by
  have := solve_rel (fuel := fuel) (m := m) (xs := xs) (us := us) (ri := ri) one_pos hL hT ha h (ht ▸ tolOK_one _)
  rw [one_mul] at this
  rcases this with h | ⟨r, a, b, e1, e2, h1, h2⟩
  · exact .inl h
  · refine .inr ⟨r, a, b, e1, e2, h1, fun hr => ⟨h2 hr, ?_⟩⟩
    obtain ⟨u, g, -, -, e1, e2⟩ := (h2 hr).KKT
    rw [e1, e2, one_mul]

/-- C101, change of the unit, tolerance 0.  Multiplying all costs by `c > 0` (and adding constants), with the regularization and `mu` in the new
unit, gives the same iterations: same return value, same number of iterations, same trajectory, policy and direction; cost, multipliers and
regularization are the old ones in the new unit. -/
theorem C101_unit_of_cost (hc : 0 < c) (hL : llt.Unitless c) (hT : 0 < P.T) (ha : s.par.alphas ≠ []) (h : Rescaled c D s s')
    (h0 : s.tol = 0) (h0' : s'.tol = 0) :
    (solve llt fuel xs us m ri s = none ∧ solve (P := P.recost c D) llt fuel xs us m (c * ri) s' = none) ∨
    ∃ r a b, solve llt fuel xs us m ri s = some (r, a) ∧ solve (P := P.recost c D) llt fuel xs us m (c * ri) s' = some (r, b) ∧
      SameCandidate c D a b ∧ (r = true → SameAnswer c D a b) :=
  solve_rel hc hL hT ha h (by rw [h0, h0']; exact tolOK_zero hc)

theorem iterate_iter {n : ℕ} {P : Problem K} {s a : SQP P} {r : Option Bool} (h : iterate llt fuel n s = some (r, a)) :
    (r = none ∧ a.iter = s.iter + n) ∨ (r ≠ none ∧ a.iter < s.iter + n) := by
  induction n generalizing s with
  | zero =>
    simp only [iterate, Option.some.injEq, Prod.mk.injEq] at h
    obtain ⟨rfl, rfl⟩ := h
    exact .inl ⟨rfl, rfl⟩
  | succ n ih =>
    unfold iterate at h
    have hb : ∀ q x, body llt fuel s = some (q, x) → x.iter = s.iter := fun q x hx =>
      body_frame iter (fun _ _ _ _ _ _ _ _ _ _ _ _ => rfl) (fun _ _ _ => rfl) (fun _ _ _ _ _ _ _ _ _ => rfl) (fun _ _ _ _ _ _ => rfl)
        (fun _ _ _ _ => rfl) (fun _ _ _ _ => rfl) (fun _ _ => rfl) hx
    split at h
    · cases h
    · rename_i q x hx
      simp only [Option.some.injEq, Prod.mk.injEq] at h
      obtain ⟨rfl, rfl⟩ := h
      exact .inr ⟨nofun, by rw [hb _ _ hx]; omega⟩
    · rename_i x hx
      have := ih h
      have e := hb _ _ hx
      simp only [e] at this
      rcases this with ⟨h1, h2⟩ | ⟨h1, h2⟩
      · exact .inl ⟨h1, by omega⟩
      · exact .inr ⟨h1, by omega⟩

theorem extraIter_kept {P : Problem K} {s a : SQP P} {r : Bool} (h : extraIter llt fuel s = some (r, a)) :
    a.xs = s.xs ∧ a.us = s.us ∧ a.iter = s.iter := by
  unfold extraIter at h
  have hr : ∀ q x, retry llt fuel true s = some (q, x) → x.xs = s.xs ∧ x.us = s.us ∧ x.iter = s.iter := fun q x hx =>
    ⟨retry_frame SQP.xs (fun _ _ _ _ _ _ _ _ _ _ _ _ => rfl) (fun _ _ _ => rfl) _ _ _ _ _ _ hx,
     retry_frame SQP.us (fun _ _ _ _ _ _ _ _ _ _ _ _ => rfl) (fun _ _ _ => rfl) _ _ _ _ _ _ hx,
     retry_frame SQP.iter (fun _ _ _ _ _ _ _ _ _ _ _ _ => rfl) (fun _ _ _ => rfl) _ _ _ _ _ _ hx⟩
  split at h
  · split at h
    · cases h
    · rename_i x hx
      simp only [Option.some.injEq, Prod.mk.injEq] at h
      obtain ⟨rfl, rfl⟩ := h
      exact hr _ _ hx
    · rename_i x hx
      simp only [Option.some.injEq, Prod.mk.injEq] at h
      obtain ⟨rfl, rfl⟩ := h
      have := hr _ _ hx
      exact ⟨this.1, this.2.1, this.2.2⟩
  · simp only [Option.some.injEq, Prod.mk.injEq] at h
    obtain ⟨rfl, rfl⟩ := h
    exact ⟨rfl, rfl, rfl⟩

theorem solve_limit {P : Problem K} {xs : Option (Traj P)} {us : Option (Ctrls P)} {s a : SQP P} {r : Bool}
    (h : solve llt fuel xs us m ri s = some (r, a)) (hi : a.iter = m) :
    ∃ x, iterate llt fuel m (s.start xs us ri) = some (none, x) ∧ a.xs = x.xs ∧ a.us = x.us := by
  unfold solve at h
  have hs : (s.start xs us ri).iter = 0 := rfl
  split at h
  · cases h
  · rename_i q x hx
    simp only [Option.some.injEq, Prod.mk.injEq] at h
    obtain ⟨rfl, rfl⟩ := h
    rcases iterate_iter hx with ⟨h1, _⟩ | ⟨_, h2⟩
    · cases h1
    · omega
  · rename_i x hx
    obtain ⟨e1, e2, _⟩ := extraIter_kept h
    exact ⟨x, hx, e1, e2⟩

/-- C101, change of the unit, any tolerances.  If both solvers use up the `m` iterations, they end with the same trajectory — so after every number
of iterations that both perform the trajectories agree; the tolerances only decide when to stop. -/
theorem C101_unit_of_cost_steps (hc : 0 < c) (hL : llt.Unitless c) (hT : 0 < P.T) (ha : s.par.alphas ≠ []) (h : Rescaled c D s s')
    {r r' : Bool} {a : SQP P} {b : SQP (P.recost c D)} (h1 : solve llt fuel xs us m ri s = some (r, a))
    (h2 : solve (P := P.recost c D) llt fuel xs us m (c * ri) s' = some (r', b)) (i1 : a.iter = m) (i2 : b.iter = m) :
    SameCandidate c D a b := by
  obtain ⟨x, hx, e1, e2⟩ := solve_limit h1 i1
  obtain ⟨y, hy, e3, e4⟩ := solve_limit h2 i2
  have := iterate_rel_run hc hL hT (s := s.start xs us ri) (s' := s'.start (P := P.recost c D) xs us (c * ri)) ha h.start hx hy
  exact ⟨by rw [i1, i2], fun t ht => by rw [e1, e3]; exact this.xs t ht, fun t ht => by rw [e2, e4]; exact this.us t ht⟩

/-- freshly constructed solvers, configured alike in the two units (any settings), meet `Rescaled`. -/
theorem Rescaled.fresh (d : Data P) (d' : Data (P.recost c D)) (p : Params K) (mu tol tol' : K) (uf ex : Bool) {n : ℕ} (hn : 0 < n) :
    Rescaled c D ({ SQP.new d with par := p, mu := mu, tol := tol, useFilter := uf, extra := ex }.setFilterSize n)
      ({ SQP.new d' with par := p.recost c, mu := c * mu, tol := tol', useFilter := uf, extra := ex }.setFilterSize n) := by
  have full : (CBuf.empty.resize 1 : CBuf K).Full 1 := by simp [CBuf.Full, CBuf.empty, CBuf.resize]
  exact ⟨rfl, rfl, rfl, rfl, rfl, rfl, rfl, CBuf.resize_full full hn, CBuf.resize_full full hn⟩
end

/-! ## example -/
namespace Ex
open SQP
attribute [local instance 2000] noScreen
open Matrix in
theorem llt1_unitless {c : ℚ} (hc : 0 < c) : llt1.Unitless c := by
  intro n A
  match n, A with
  | 0, A => exact .inr ⟨_, _, rfl, rfl, fun v => Subsingleton.elim _ _⟩
  | 1, A =>
    have e : sm c A 0 0 = c * A 0 0 := rfl
    by_cases h : 0 < A 0 0
    · refine .inr ⟨_, _, by simp only [llt1]; rw [if_pos h], by simp only [llt1]; rw [if_pos (by rw [e]; positivity)], fun v => ?_⟩
      funext i
      have : sv c v i = c * v i := rfl
      simp only [this, e]
      field_simp
    · refine .inl ⟨by simp only [llt1]; rw [if_neg h], by simp only [llt1]; rw [if_neg]; rw [e]; exact fun hh => h (pos_of_mul_pos_right hh hc.le |> fun _ => by
        by_contra hn; push Not at hn; nlinarith)⟩
  | n + 2, A =>
    have e : sm c A = c • A := rfl
    have hp : Spec.PosDef (sm c A) ↔ Spec.PosDef A := by
      rw [e]
      unfold Spec.PosDef
      refine forall_congr' fun x => imp_congr_right fun _ => ?_
      rw [Matrix.smul_mulVec, dotProduct_smul, smul_eq_mul]
      exact ⟨fun h => by by_contra hn; push Not at hn; nlinarith, fun h => mul_pos hc h⟩
    by_cases h : Spec.PosDef A
    · refine .inr ⟨_, _, by simp only [llt1]; rw [if_pos h], by simp only [llt1]; rw [if_pos (hp.mpr h)], fun v => ?_⟩
      have e2 : sv c v = c • v := rfl
      have hu : IsUnit A.det := (Matrix.isUnit_iff_isUnit_det A).mp (posDef_isUnit h)
      rw [e, e2]
      have : (c • A)⁻¹ = c⁻¹ • A⁻¹ := by
        let _ : Invertible c := invertibleOfNonzero hc.ne'
        rw [Matrix.inv_smul A c hu, invOf_eq_inv]
      rw [this, Matrix.smul_mulVec, Matrix.mulVec_smul, smul_smul, inv_mul_cancel₀ hc.ne', one_smul]
    · exact .inl ⟨by simp only [llt1]; rw [if_neg h], by simp only [llt1]; rw [if_neg (fun hh => h (hp.mp hh))]⟩

/-- the scalar problem of `Spec/Examples` with all costs doubled and shifted. -/
def lq2 : Problem ℚ := lq.recost 2 fun t => t + 1

/-- default solver, tolerance `tol`. -/
def lqTol (tol : ℚ) : SQP lq := { SQP.new (Data.zero lq) with tol := tol }
/-- the same for the doubled costs, the configuration in the new unit. -/
def lq2Tol (tol : ℚ) : SQP (lq.recost 2 fun t => t + 1) :=
  { SQP.new (Data.zero lq2) with tol := tol, par := (SQP.new (Data.zero lq)).par.recost 2, mu := 2 * (SQP.new (Data.zero lq)).mu }

theorem lq2_rescaled (tol tol' : ℚ) : Rescaled 2 (fun t => (t : ℚ) + 1) (lqTol tol) (lq2Tol tol') := by
  have full : (CBuf.empty.resize 1 : CBuf ℚ).Full 1 := by simp [CBuf.Full, CBuf.empty, CBuf.resize]
  exact ⟨rfl, rfl, rfl, rfl, rfl, rfl, rfl, full, full⟩

set_option maxRecDepth 100000 in
/-- both solve with tolerance 0, from the default guess: returned value, iterations, last control, cost. -/
theorem C101_example :
    ((solve llt1 20 none none 3 0 (lqTol 0)).map fun a => (a.1, a.2.iter, a.2.us 1 (0 : Fin 1), a.2.cost)) = some (true, 1, -1 / 5, 4 / 5) ∧
    ((solve llt1 20 none none 3 0 (lq2Tol 0)).map fun a => (a.1, a.2.iter, a.2.us 1 (0 : Fin 1), a.2.cost)) = some (true, 1, -1 / 5, 2 * (4 / 5) + 6) := by
  refine ⟨by decide +kernel, by decide +kernel⟩

set_option maxRecDepth 100000 in
/-- with a positive tolerance the return value depends on the unit: with the same tolerance 1 the solver of the doubled problem needs another
iteration (residual 1 = the gap against residual 6/5 = the stationarity) … -/
theorem C101_same_tolerance_differs :
    ((solve llt1 20 none none 1 0 (lqTol 1)).map fun a => (a.1, a.2.KKT)) = some (true, 1) ∧
    ((solve llt1 20 none none 1 0 (lq2Tol 1)).map fun a => (a.1, a.2.KKT)) = some (false, 6 / 5) := by
  refine ⟨by decide +kernel, by decide +kernel⟩

set_option maxRecDepth 100000 in
/-- … and with the tolerance in the new unit it stops an iteration earlier, because the gaps do not have that unit. -/
theorem C101_scaled_tolerance_differs :
    ((solve llt1 20 none none 1 0 (lqTol (3 / 4))).map fun a => (a.1, a.2.KKT)) = some (false, 1) ∧
    ((solve llt1 20 none none 1 0 (lq2Tol (2 * (3 / 4)))).map fun a => (a.1, a.2.KKT)) = some (true, 6 / 5) := by
  refine ⟨by decide +kernel, by decide +kernel⟩
end Ex
end Mim
