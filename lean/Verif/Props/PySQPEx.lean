import Verif.Props.PySQPStall

/-!
# The hypotheses of C68 and C70 are met: concrete runs of the Python prototype `SQP`
-/
set_option linter.unusedSectionVars false
set_option linter.unusedSimpArgs false

namespace Mim.Ex
open Spec

/-- the result is a value that passes the test. -/
def okAnd {S : Type} (f : S → Bool) : Res S → Bool
  | .ok q => f q
  | .exn _ => false

theorem okAnd_true {S : Type} {f : S → Bool} {r : Res S} (h : okAnd f r = true) : ∃ q, r = .ok q ∧ f q = true := by
  cases r with
  | ok q => exact ⟨q, rfl, h⟩
  | exn q => cases h

/-- a default-constructed Python `SQP` for `lq`. -/
def pyLq : PySQP lq := PySQP.new true false (Data.zero lq)

/-- C68 applies: `solve` of `lq` from the default guess converges in the second iteration, not at the guess. -/
theorem pyLq_true : ((PySQP.solve llt1 none none 3 pyLq).1, (PySQP.solve llt1 none none 1 pyLq).1) = (.ret true, .ret false) := by
  decide +kernel

example : ∃ p', PySQP.solve llt1 none none 3 pyLq = (.ret true, p') ∧ PySQP.Reachable pyLq ∧ (∀ x, lq.integrate x 0 = x) ∧
    (∀ x, lq.diff x x = 0) := by
  have h := pyLq_true
  simp only [Prod.mk.injEq] at h
  refine ⟨(PySQP.solve llt1 none none 3 pyLq).2, ?_, .new _ _ _, fun x => ?_, fun x => ?_⟩
  · rw [← h.1]
  · exact add_zero (M := ℚ) x
  · funext i
    exact sub_self (G := ℚ) x

/-- the history theorem applies to a used and a new object: they differ. -/
example : ∃ p : PySQP lq, PySQP.Reachable p ∧ PySQP.SameOptions p pyLq ∧ p.cost ≠ pyLq.cost := by
  refine ⟨(PySQP.solve llt1 none none 3 pyLq).2, .solve pyLq _ llt1 none none 3 _ (.new _ _ _) rfl, ?_, ?_⟩
  · obtain ⟨h1, h2, h3, h4, h5, h6, -⟩ := PySQP.keep_all (PySQP.solve_keep (llt := llt1) (xs := none) (us := none) (m := 3) (p := pyLq) rfl)
    exact ⟨h1, h2, h3, h4, h5, h6⟩
  · have : decide ((PySQP.solve llt1 none none 3 pyLq).2.cost = pyLq.cost) = false := by decide +kernel
    exact of_decide_eq_false this

/-- One node, cost `-u + u²/2 + a u⁴`, dynamics `x⁺ = x + u + a u⁴`, no terminal cost; smooth, with exact derivatives. -/
def quartic (a : ℚ) : Problem ℚ where
  T := 1
  ndx := 1
  nu _ := 1
  ng _ := 0
  X := ℚ
  integrate x d := x + d 0
  diff a b := fun _ => b - a
  zeroX := 0
  x0 := 0
  calcR _ x u := ⟨-u 0 + u 0 * u 0 / 2 + a * u 0 * u 0 * u 0 * u 0, x + u 0 + a * u 0 * u 0 * u 0 * u 0, fun i => i.elim0⟩
  calcDiffR _ _ u := ⟨fun _ => 0, fun _ => -1 + u 0 + 4 * a * u 0 * u 0 * u 0, m1 0, m1 0, m1 (1 + 12 * a * u 0 * u 0), m1 1,
    m1 (1 + 4 * a * u 0 * u 0 * u 0), Matrix.of fun i => i.elim0, Matrix.of fun i => i.elim0⟩
  calcT _ := ⟨0, fun i => i.elim0⟩
  calcDiffT _ := ⟨fun _ => 0, m1 0, Matrix.of fun i => i.elim0⟩
  badX _ := false
  lb _ i := i.elim0
  ub _ i := i.elim0

/-- a Python `SQP` for it. -/
def pyQuartic (a : ℚ) (f : Bool) : PySQP (quartic a) := PySQP.new f false (Data.zero (quartic a))

/-- everything `C70_py_stall` and `C70_py_merit_nine` ask about the first iteration, as a Boolean. -/
noncomputable def stuckTest (a : ℚ) : Bool :=
  okAnd (fun q => !ltb q.kktCheck.KKT q.tol &&
      (List.range 10).all fun k => ltb q.cost (PySQP.trialCost q (PySQP.halve k)) && ltb q.gapNorm (PySQP.trialGap q (PySQP.halve k)))
    (PySQP.computeDirection llt1 ((pyQuartic a true).start none none))

/-- **The stall happens** on a smooth problem with exact derivatives and positive definite Hessian: from the default guess, `solve`
of the Python class with its default filter returns False with the guess for every number of iterations. -/
theorem C70_py_stall_example (m : ℕ) : ∃ p', PySQP.solve llt1 none none m (pyQuartic (10 ^ 9) true) = (.ret false, p') ∧
    (∀ t, t ≤ 1 → p'.xs t = (0 : ℚ)) ∧ p'.us 0 = 0 := by
  have ht : stuckTest (10 ^ 9) = true := by decide +kernel
  have hs : PySQP.Stuck llt1 ((pyQuartic (10 ^ 9) true).start none none) := by
    obtain ⟨q, e, ht⟩ := okAnd_true ht
    simp only [Bool.and_eq_true, Bool.not_eq_true', List.all_eq_true, List.mem_range] at ht
    exact ⟨q, e, ht.1, ht.2⟩
  obtain ⟨p', h1, h2, h3⟩ := PySQP.C70_py_stall (llt := llt1) (j := 0) (.zero) hs rfl le_rfl m (Nat.zero_le m)
  refine ⟨p', h1, fun t ht => ?_, ?_⟩
  · rw [h2 t ht]
    match t, ht with
    | 0, _ => rfl
    | 1, _ => rfl
  · rw [h3 0 (by decide)]; rfl

/-- the tenth trial, and the nine before it. -/
noncomputable def tenthTest (a : ℚ) : Bool :=
  okAnd (fun q => !ltb q.kktCheck.KKT q.tol &&
      ((List.range 9).all fun k => !ltb (PySQP.trialCost q (PySQP.halve k) + q.mu * PySQP.trialGap q (PySQP.halve k)) q.merit) &&
      ltb (PySQP.trialCost q (PySQP.halve 9) + q.mu * PySQP.trialGap q (PySQP.halve 9)) q.merit)
    (PySQP.computeDirection llt1 ((pyQuartic a false).start none none))

/-- **The unused tenth trial matters**: here it decreases the merit function and the nine before it do not, so the Python class gives up
at the guess while a line search over ten step lengths would have moved. -/
theorem C70_py_merit_example (m : ℕ) (hm : 0 < m) : ∃ p' q1, PySQP.solve llt1 none none m (pyQuartic (2 ^ 24) false) = (.ret false, p') ∧
    (∀ t, p'.xs t = (0 : ℚ)) ∧ PySQP.computeDirection llt1 ((pyQuartic (2 ^ 24) false).start none none) = .ok q1 ∧
    PySQP.trialCost q1 (PySQP.halve 9) + q1.mu * PySQP.trialGap q1 (PySQP.halve 9) < q1.merit := by
  have ht : tenthTest (2 ^ 24) = true := by decide +kernel
  obtain ⟨q, e, ht⟩ := okAnd_true ht
  simp only [Bool.and_eq_true, Bool.not_eq_true', List.all_eq_true, List.mem_range] at ht
  obtain ⟨p', h1, h2, h3⟩ := PySQP.C70_py_merit_nine (llt := llt1) (j := 0) (.zero) rfl e ht.1.1 ht.1.2 m hm
  refine ⟨p', q, h1, fun t => ?_, e, of_decide_eq_true ht.2⟩
  rw [h2]
  cases t with
  | zero => rfl
  | succ t => rfl

/-- a regulator at rest: `x0 = 0`. -/
def rest : Problem ℚ := scalar 2 1 1 1 0

/-- `C70_py_at_solution` applies to it, with and without callbacks, in exact arithmetic: with callbacks the Python class raises on a
problem whose guess is already optimal. -/
theorem C70_py_type_error : ∃ p', PySQP.solve llt1 (some fun _ => (0 : ℚ)) (some fun _ _ => 0) 5 (PySQP.new true true (Data.zero rest)) =
    (.raised .type, p') := by
  have hP : SymProblem rest := ⟨fun t _ x u => by ext i j; rfl, fun t _ x u => by ext i j; rfl, fun x => by ext i j; rfl⟩
  have hk : IsKKT rest 0 (fun _ => (0 : ℚ)) (fun _ _ => 0) (fun _ => 0) := by
    have z : ∀ {n : ℕ} (M : Mat ℚ n n) (w : Vec ℚ n) (i : Fin n), w = 0 → |(w + M.mulVec 0) i| ≤ 0 := by
      intro n M w i hw; rw [hw, Matrix.mulVec_zero]; simp
    have z' : ∀ {n : ℕ} (w : Vec ℚ n) (i : Fin n), w = 0 → |w i| ≤ 0 := by
      intro n w i hw; rw [hw]; simp
    refine ⟨fun t _ i => ?_, fun t _ i => z _ _ i ?_, fun i => z' _ i ?_, fun i => z' _ i ?_, fun t _ i => z' _ i ?_⟩
    · rw [sub_zero]
      refine z _ _ i ?_
      funext j; exact mul_zero (M₀ := ℚ) 1
    · funext j; exact mul_zero (M₀ := ℚ) 1
    · rw [sub_zero]
      funext j; exact mul_zero (M₀ := ℚ) 1
    · funext j; exact sub_self (G := ℚ) 0
    · funext j
      change (0 : ℚ) + 0 - 0 = 0
      norm_num
  have hc : (lqOf ((PySQP.new true true (Data.zero rest)).start (some fun _ => (0 : ℚ)) (some fun _ _ => 0)).evaluate.data
      ((PySQP.new true true (Data.zero rest)).start (some fun _ => (0 : ℚ)) (some fun _ _ => 0)).evaluate.gapAt 0 0).PosCurv := by
    refine (PySQP.C68_py_direction_iff llt1_exact hP _).1 ?_
    have : okAnd (fun _ => true) (PySQP.computeDirection llt1
        ((PySQP.new true true (Data.zero rest)).start (some fun _ => (0 : ℚ)) (some fun _ _ => 0))) = true := by decide +kernel
    obtain ⟨q, e, -⟩ := okAnd_true this
    exact ⟨q, e⟩
  obtain ⟨p', h, -⟩ := PySQP.C70_py_at_solution (llt := llt1) llt1_exact hP (p := PySQP.new true true (Data.zero rest)) (.new _ _ _) rfl hk
    (by change (0 : ℚ) < 1 / 10 ^ 6; norm_num) hc 5 (.inl (by decide))
  exact ⟨p', h⟩

end Mim.Ex
