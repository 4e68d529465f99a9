import Verif.Lemmas.PySQPLoop
import Verif.Lemmas.BackwardExact
import Verif.Props.SQPReturn
import Verif.Spec.Examples

/-!
# C68: what the return value of the Python prototype `SQP.solve` certifies, and what its direction is
-/
set_option linter.unusedSectionVars false
set_option linter.unusedSimpArgs false

namespace Mim
open Spec Matrix

namespace PySQP
section
variable {F : Type} [Add F] [Sub F] [Mul F] [Div F] [Neg F] [Zero F] [One F] [FloatOps F] {P : Problem F}

/-- the states of a Python solver object that a program can bring about by constructing it, assigning its options, calling its
methods in any order (also after exceptions), and evaluating the shared problem elsewhere. -/
inductive Reachable : PySQP P → Prop
  | new (f w : Bool) (d : Data P) : Reachable (new f w d)
  | options (p : PySQP P) (mu tol : F) (f : Bool) (n : ℕ) (w x : Bool) (h : Reachable p) :
      Reachable { p with mu := mu, tol := tol, useFilter := f, filterSize := n, withCb := w, extra := x }
  | problemData (p : PySQP P) (d : Data P) (h : Reachable p) : Reachable { p with data := d }
  | candidate (p : PySQP P) (xs : Traj P) (us : Ctrls P) (h : Reachable p) : Reachable { p with xs := xs, us := us }
  | calc_ (p : PySQP P) (h : Reachable p) : Reachable p.evaluate
  | direction (p q : PySQP P) (llt : LLT F) (h : Reachable p) (e : computeDirection llt p = .ok q) : Reachable q
  | directionExn (p q : PySQP P) (llt : LLT F) (h : Reachable p) (e : computeDirection llt p = .exn q) : Reachable q
  | check (p : PySQP P) (h : Reachable p) : Reachable p.kktCheck
  | tryStep (p : PySQP P) (a : F) (h : Reachable p) : Reachable (tryStep a p)
  | acceptStep (p : PySQP P) (h : Reachable p) : Reachable p.acceptStep
  | solve (p q : PySQP P) (llt : LLT F) (xs : Option (Traj P)) (us : Option (Ctrls P)) (m : ℕ) (o : PyOut) (h : Reachable p)
      (e : solve llt xs us m p = (o, q)) : Reachable q

theorem Ends.keep {llt : LLT F} {q p' : PySQP P} {o : PyOut} (h : Ends llt q o p') : PySQP.keep p' = PySQP.keep q := by
  cases h with
  | linAlg h => exact keep_direction_exn h
  | conv h hk ho => exact (keep_direction h :)
  | gaveUp h hk hs =>
    have e1 : PySQP.keep (PySQP.pushFilter (PySQP.kktCheck _)) = PySQP.keep q := (keep_direction h :)
    rcases search_spec _ 10 (Trials.refl _) 0 hs with ⟨h, -⟩ | ⟨h, -⟩ | ⟨-, -, -, -, -, e⟩
    · cases h
    · cases h
    · exact e.keep.trans e1

/-- `solve` changes neither the options nor the blocks that `allocateData` set to zero. -/
theorem solve_keep {llt : LLT F} {xs : Option (Traj P)} {us : Option (Ctrls P)} {m : ℕ} {p p' : PySQP P} {o : PyOut}
    (h : solve llt xs us m p = (o, p')) : PySQP.keep p' = PySQP.keep p := by
  have hs : PySQP.keep (p.start xs us) = PySQP.keep p := rfl
  rcases solve_cases h with ⟨j, q, -, -, hq, he⟩ | ⟨q, -, hq, ⟨-, rfl⟩ | ⟨q1, h1, rfl, -⟩⟩
  · rw [he.keep, hq.keep, hs]
  · rw [hq.keep, hs]
  · rw [show PySQP.keep q1.kktCheck = PySQP.keep q from (keep_direction h1 :), hq.keep, hs]

/-- the first block of the direction and the unused last gaps are always zero. -/
theorem Reachable.clean {p : PySQP P} (h : Reachable p) :
    p.dx 0 = zeroV F P.ndx ∧ p.gap P.T = zeroV F P.ndx ∧ p.gapTry P.T = zeroV F P.ndx := by
  have tr : ∀ {p q : PySQP P}, PySQP.keep q = PySQP.keep p →
      (p.dx 0 = zeroV F P.ndx ∧ p.gap P.T = zeroV F P.ndx ∧ p.gapTry P.T = zeroV F P.ndx) →
      (q.dx 0 = zeroV F P.ndx ∧ q.gap P.T = zeroV F P.ndx ∧ q.gapTry P.T = zeroV F P.ndx) := by
    intro p q hk h
    obtain ⟨-, -, -, -, -, -, h1, h2, h3⟩ := keep_all hk
    rw [h1, h2, h3]; exact h
  induction h with
  | new f w d => exact ⟨rfl, rfl, rfl⟩
  | options p mu tol f n w x h ih => exact ih
  | problemData p d h ih => exact ih
  | candidate p xs us h ih => exact ih
  | calc_ p h ih => exact tr (keep_evaluate p) ih
  | direction p q llt h e ih => exact tr (keep_direction e) ih
  | directionExn p q llt h e ih => exact tr (keep_direction_exn e) ih
  | check p h ih => exact ih
  | tryStep p a h ih => exact tr (keep_try a p) ih
  | acceptStep p h ih => exact ih
  | solve p q llt xs us m o h e ih => exact tr (solve_keep e) ih

/-- the state in which a direction has been computed: everything refers to the current candidate. -/
structure AtPoint (p : PySQP P) : Prop where
  calc_ : FreshCalc P p.data p.xs p.us
  diff : FreshDiff P p.data p.xs p.us
  cost : p.cost = trajCost P p.xs p.us
  gaps : ∀ t, t < P.T → p.gap t = shootGap P p.xs p.us t
  gapNorm : p.gapNorm = shootGapNorm P p.xs p.us + norm1 (p.gap P.T)
  merit : p.merit = p.cost + p.mu * p.gapNorm

theorem direction_atPoint {llt : LLT F} {p q : PySQP P} (h : computeDirection llt p = .ok q) : AtPoint q ∧ q.xs = p.xs ∧ q.us = p.us := by
  obtain ⟨r, dx, du, lam, xg, ug, -, hb, rfl, -⟩ := computeDirection_ok h
  obtain ⟨S, s, L, l, rfl⟩ := hb
  refine ⟨⟨(evaluate_fresh p).1, (evaluate_fresh p).2, evaluate_cost p, (evaluate_gap p).1, ?_, rfl⟩, rfl, rfl⟩
  have := evaluate_gapNorm p
  rw [← (evaluate_gap p).2] at this
  exact this

theorem kktCheck_residual (p : PySQP P) : p.kktCheck.KKT = kktResidual p.data p.gap p.lagMul := rfl

/-- the gaps of the Python class, numbered as the C++ solvers number them (entry `t+1` between the nodes `t` and `t+1`). -/
def gapAt (p : PySQP P) : ℕ → Vec F P.ndx
  | 0 => zeroV F P.ndx
  | t + 1 => p.gap t

end

section
variable {K : Type} [Field K] [LinearOrder K] [IsStrictOrderedRing K] {P : Problem K} {llt : LLT K}

/-- **The Python backward pass computes the Riccati recursion** of the quadratic model without regularization. -/
theorem direction_riccati (hllt : LLTExact llt) {p p' : PySQP P} (h : computeDirection llt p = .ok p') (hsym : SymHess p'.data) :
    ∃ H, Riccati (lqOf p'.data p'.gapAt 0 0) p'.S p'.s (fun t => -p'.L t) (fun t => -p'.l t) H ∧
      (∀ t, t < P.T → PosDef (H t)) ∧
      (lqOf p'.data p'.gapAt 0 0).Dyn p'.dx p'.du ∧
      (∀ t, t < P.T → p'.du t = p'.L t *ᵥ p'.dx t + p'.l t) ∧
      (∀ t, t ≤ P.T → p'.lagMul t = p'.S t *ᵥ p'.dx t + p'.s t) := by
  obtain ⟨q, dx, du, lam, xg, ug, hb, ho, rfl, h0, hu, hx, hl⟩ := computeDirection_ok h
  have hq : q.data = p.evaluate.data ∧ q.gap = p.evaluate.gap := by
    obtain ⟨S, s, L, l, rfl⟩ := ho; exact ⟨rfl, rfl⟩
  obtain ⟨-, hST, hsT, hst⟩ := backwardPass_ok hb
  rw [← hq.1] at hST hsT
  simp only [] at hsym ⊢
  simp only [mv_exact, mm_exact] at hu hx hl
  have hE : ∀ t, ∃ H : Mat K (P.nu t) (P.nu t), t < P.T → ∃ sol, StageOK llt q t H sol := by
    intro t
    by_cases ht : t < P.T
    · obtain ⟨H, sol, hs⟩ := hst t ht
      exact ⟨H, fun _ => ⟨sol, hs⟩⟩
    · exact ⟨0, fun h => absurd h ht⟩
  choose H hH using hE
  have hS : ∀ t, t ≤ P.T → (q.S t)ᵀ = q.S t := by
    intro t ht
    rcases Nat.eq_or_lt_of_le ht with rfl | ht
    · rw [hST]; exact hsym.T
    · obtain ⟨sol, hs⟩ := hH t ht
      rw [hs.S, symm_transpose]
  have hsu : ∀ t, t < P.T → (H t)ᵀ = H t := by
    intro t ht
    obtain ⟨sol, hs⟩ := hH t ht
    rw [hs.hess]
    simp only [mm_exact, Matrix.transpose_add, hsym.uu t ht, Matrix.transpose_mul, Matrix.transpose_transpose, hS (t + 1) ht, Matrix.mul_assoc]
  have hgain : ∀ t, t < P.T → H t * -q.L t = ((q.data.rd t).Lxu + ((q.data.rd t).Fx)ᵀ * q.S (t + 1) * (q.data.rd t).Fu)ᵀ := by
    intro t ht
    obtain ⟨sol, hs⟩ := hH t ht
    rw [hs.L, sm_exact, lit_exact]
    have : (((-1 : ℚ)) : K) = -1 := by push_cast; rfl
    rw [this, neg_smul, one_smul, neg_neg, solveCols_mul (hllt.solves _ _ _ (hsu t ht) hs.fac)]
    simp only [mm_exact, Matrix.transpose_add, Matrix.transpose_mul, Matrix.transpose_transpose, hS (t + 1) ht, Matrix.mul_assoc]
  have hff : ∀ t, t < P.T → H t *ᵥ -q.l t = (q.data.rd t).Lu + ((q.data.rd t).Fu)ᵀ *ᵥ (q.s (t + 1) + q.S (t + 1) *ᵥ q.gap t) := by
    intro t ht
    obtain ⟨sol, hs⟩ := hH t ht
    rw [hs.l, sv_exact, lit_exact]
    have : (((-1 : ℚ)) : K) = -1 := by push_cast; rfl
    rw [this, neg_smul, one_smul, neg_neg, hllt.solves _ _ _ (hsu t ht) hs.fac]
    simp only [mv_exact]
  have hLHL : ∀ t, t < P.T → (q.L t)ᵀ * H t * q.L t =
      ((q.data.rd t).Lxu + ((q.data.rd t).Fx)ᵀ * q.S (t + 1) * (q.data.rd t).Fu) * -q.L t := by
    intro t ht
    have e := congrArg Matrix.transpose (hgain t ht)
    rw [Matrix.transpose_transpose] at e
    rw [← e, Matrix.transpose_mul, hsu t ht]
    simp
  have hval : ∀ t, t < P.T → q.S t = (q.data.rd t).Lxx + ((q.data.rd t).Fx)ᵀ * q.S (t + 1) * (q.data.rd t).Fx - (q.L t)ᵀ * H t * q.L t := by
    intro t ht
    obtain ⟨sol, hs⟩ := hH t ht
    rw [hs.S]
    simp only [mm_exact]
    apply symm_of_sym
    simp only [Matrix.transpose_sub, Matrix.transpose_add, hsym.xx t ht, Matrix.transpose_mul, Matrix.transpose_transpose, hS (t + 1) ht,
      hsu t ht, Matrix.mul_assoc]
  refine ⟨H, ⟨?_, ?_, hS, hsu, ?_, ?_, ?_, ?_, ?_⟩, ?_, ?_, hu, hl⟩
  · simp only [lqOf, hST, zero_smul, add_zero]
  · simp only [lqOf, hsT]
  · intro t ht
    obtain ⟨sol, hs⟩ := hH t ht
    rw [hs.hess]
    simp only [lqOf, mm_exact, zero_smul, add_zero]
  · intro t ht
    exact hgain t ht
  · intro t ht
    exact hff t ht
  · intro t ht
    rw [hval t ht, hLHL t ht]
    simp only [lqOf, zero_smul, add_zero]
  · intro t ht
    obtain ⟨sol, hs⟩ := hH t ht
    have e1 : H t *ᵥ q.l t = -((q.data.rd t).Lu + ((q.data.rd t).Fu)ᵀ *ᵥ (q.s (t + 1) + q.S (t + 1) *ᵥ q.gap t)) := by
      rw [← hff t ht, Matrix.mulVec_neg, neg_neg]
    have e2 := congrArg (fun M => Mᵀ *ᵥ q.l t) (hgain t ht)
    simp only [Matrix.transpose_transpose] at e2
    rw [Matrix.transpose_mul, hsu t ht, ← Matrix.mulVec_mulVec, e1] at e2
    rw [hs.s]
    simp only [mv_exact, mm_exact, lqOf, gapAt]
    rw [e1]
    have e3 : ((q.data.rd t).Lxuᵀ + ((q.data.rd t).Fu)ᵀ * q.S (t + 1) * (q.data.rd t).Fx)ᵀ =
        (q.data.rd t).Lxu + ((q.data.rd t).Fx)ᵀ * q.S (t + 1) * (q.data.rd t).Fu := by
      simp only [Matrix.transpose_add, Matrix.transpose_mul, Matrix.transpose_transpose, hS (t + 1) ht, Matrix.mul_assoc]
    rw [e3, ← e2, add_neg_cancel, Matrix.mulVec_zero, add_zero, Matrix.transpose_neg, Matrix.mulVec_neg, Matrix.neg_mulVec, neg_neg,
      sub_neg_eq_add, add_comm (q.S (t + 1) *ᵥ q.gap t)]
  · intro t ht
    obtain ⟨sol, hs⟩ := hH t ht
    exact hllt.posDef _ _ _ (hsu t ht) hs.fac
  · intro t ht
    rw [hx t ht, hu t ht]
    simp only [lqOf, gapAt]
    rw [Matrix.add_mulVec, Matrix.mulVec_add, ← Matrix.mulVec_mulVec]
    abel

/-- the direction, given that its first block is zero. -/
theorem direction_core (hllt : LLTExact llt) {p p' : PySQP P} (h0 : p'.dx 0 = 0) (h : computeDirection llt p = .ok p')
    (hsym : SymHess p'.data) :
    (lqOf p'.data p'.gapAt 0 0).KKT p'.dx p'.du p'.lagMul ∧
    (∀ dx' du', (lqOf p'.data p'.gapAt 0 0).Dyn dx' du' → dx' 0 = 0 →
      (lqOf p'.data p'.gapAt 0 0).cost p'.dx p'.du ≤ (lqOf p'.data p'.gapAt 0 0).cost dx' du' ∧
      ((lqOf p'.data p'.gapAt 0 0).cost dx' du' = (lqOf p'.data p'.gapAt 0 0).cost p'.dx p'.du →
        (∀ t, t < P.T → du' t = p'.du t) ∧ ∀ t, t ≤ P.T → dx' t = p'.dx t)) ∧
    (∀ dx' du' lam', (lqOf p'.data p'.gapAt 0 0).KKT dx' du' lam' → dx' 0 = 0 →
      (∀ t, t < P.T → du' t = p'.du t) ∧ (∀ t, t ≤ P.T → dx' t = p'.dx t) ∧ ∀ t, t ≤ P.T → lam' t = p'.lagMul t) := by
  obtain ⟨H, hR, hpd, hd, hu, hl⟩ := direction_riccati hllt h hsym
  have hu' : ∀ t, t < P.T → p'.du t = -((fun t => -p'.L t) t *ᵥ p'.dx t) - (fun t => -p'.l t) t := fun t ht => by
    simp only [Matrix.neg_mulVec, neg_neg, sub_neg_eq_add]; exact hu t ht
  have hk := hR.kkt hd hu' hl
  refine ⟨hk, fun dx' du' hd' h0' => hR.minimal hpd hd hd' (h0'.trans h0.symm) hu', fun dx' du' lam' hk' h0' => ?_⟩
  obtain ⟨c1, c2⟩ := hR.kkt_unique hpd hk'
  have hx : ∀ t, t ≤ P.T → dx' t = p'.dx t := by
    intro t
    induction t with
    | zero => intro _; rw [h0', h0]
    | succ t ih =>
      intro ht
      have := ih (by omega)
      rw [hk'.dyn t (by omega), hd t (by omega), c1 t (by omega), hu' t (by omega), this]
  refine ⟨fun t ht => ?_, hx, fun t ht => ?_⟩
  · rw [c1 t ht, hu' t ht, hx t ht.le]
  · rw [c2 t ht, hl t ht, hx t ht]

/-- **C68, direction.**  In exact arithmetic, for symmetric Hessian blocks, whenever `computeDirection` of the Python class `SQP`
returns, the direction and the multipliers solve the KKT system of the unregularized quadratic model at the current candidate, and the
direction is the unique minimiser of that model under the linearized dynamics. -/
theorem C68_py_direction (hllt : LLTExact llt) {p p' : PySQP P} (hr : Reachable p) (h : computeDirection llt p = .ok p')
    (hsym : SymHess p'.data) :
    p'.dx 0 = 0 ∧ (lqOf p'.data p'.gapAt 0 0).KKT p'.dx p'.du p'.lagMul ∧
    (∀ dx' du', (lqOf p'.data p'.gapAt 0 0).Dyn dx' du' → dx' 0 = 0 →
      (lqOf p'.data p'.gapAt 0 0).cost p'.dx p'.du ≤ (lqOf p'.data p'.gapAt 0 0).cost dx' du' ∧
      ((lqOf p'.data p'.gapAt 0 0).cost dx' du' = (lqOf p'.data p'.gapAt 0 0).cost p'.dx p'.du →
        (∀ t, t < P.T → du' t = p'.du t) ∧ ∀ t, t ≤ P.T → dx' t = p'.dx t)) ∧
    (∀ dx' du' lam', (lqOf p'.data p'.gapAt 0 0).KKT dx' du' lam' → dx' 0 = 0 →
      (∀ t, t < P.T → du' t = p'.du t) ∧ (∀ t, t ≤ P.T → dx' t = p'.dx t) ∧ ∀ t, t ≤ P.T → lam' t = p'.lagMul t) :=
  have h0 : p'.dx 0 = 0 := (Reachable.direction p p' llt hr h).clean.1
  ⟨h0, direction_core hllt h0 h hsym⟩

/-- the candidate starts at the initial state of the problem as long as steps of length zero do not move it. -/
theorem Heads.x0 (hint : ∀ x, P.integrate x 0 = x) {p0 q : PySQP P} {i : ℕ} (h0 : p0.dx 0 = 0) (hq : Heads llt p0 i q)
    (hx : p0.xs 0 = P.x0) : q.xs 0 = P.x0 := by
  induction hq with
  | zero => exact hx
  | @succ i p a q h hs ih =>
    obtain ⟨p1, h1, -, r, h2, h3⟩ := hs.run
    have e1 := (direction_atPoint h1).2.1
    have hd : p1.dx 0 = 0 := ((keep_all (keep_direction h1)).2.2.2.2.2.2.1.trans (keep_all h.keep).2.2.2.2.2.2.1).trans h0
    rcases search_spec i 10 (Trials.refl p1.kktCheck.pushFilter) 0 h2 with ⟨-, k, -, -, -, -, -, -, e⟩ | ⟨-, -, -, -, e⟩ | ⟨e, -⟩
    · rw [e.xs 0 (by omega)]
      change P.integrate (p1.xs 0) (sv a (p1.dx 0)) = _
      rw [hd, sv_exact, smul_zero, hint, e1, ih]
    · obtain ⟨_, _, _, _, _, _, _, _, rfl, -⟩ := e
      exact (congrFun e1 0).trans ih
    · exact absurd e h3

/-- **C68.**  If `solve` of the Python class `SQP` returns true, then the candidate it leaves, together with its multipliers,
satisfies the first-order optimality conditions of the optimal control problem up to the residual it stores, which is strictly
below the tolerance; the problem's datas, the cost, the gaps, the gap norm and the merit value are those of that candidate, and the
candidate starts at the problem's initial state.  The stored residual is the least bound for which this holds. -/
theorem C68_py_certificate {xs : Option (Traj P)} {us : Option (Ctrls P)} {m : ℕ} {p p' : PySQP P} (hr : Reachable p)
    (hint : ∀ x, P.integrate x 0 = x) (hdiff : ∀ x, P.diff x x = 0) (h : solve llt xs us m p = (.ret true, p')) :
    p'.KKT < p.tol ∧ p'.tol = p.tol ∧ IsKKT P p'.KKT p'.xs p'.us p'.lagMul ∧
    (∀ c, 0 ≤ c → IsKKT P c p'.xs p'.us p'.lagMul → p'.KKT ≤ c) ∧
    p'.xs 0 = P.x0 ∧ FreshCalc P p'.data p'.xs p'.us ∧ FreshDiff P p'.data p'.xs p'.us ∧ p'.cost = trajCost P p'.xs p'.us ∧
    p'.gapNorm = shootGapNorm P p'.xs p'.us ∧ p'.merit = trajCost P p'.xs p'.us + p'.mu * shootGapNorm P p'.xs p'.us := by
  rcases solve_cases h with ⟨j, q, -, -, hq, he⟩ | ⟨q, hb, -⟩
  swap
  · cases hb
  have hc := (Reachable.solve p p' llt xs us m _ hr h).clean
  have hk := keep_all (solve_keep h)
  have h0 : (p.start xs us).dx 0 = 0 := hr.clean.1
  have hx0 := hq.x0 hint h0 (by simp only [start, Function.update_self])
  generalize ho : PyOut.ret true = o at he
  cases he with
  | linAlg h => cases ho
  | gaveUp h hk hs => cases ho
  | @conv q1 _ h1 hlt _ =>
    obtain ⟨ha, ex, eu⟩ := direction_atPoint h1
    have htol : p.tol = q1.tol := hk.2.1.symm
    have hgT : q1.gap P.T = 0 := hc.2.1
    have hres := C02_sqp_residual_meaning q1.data q1.gap q1.lagMul
    have hx : q1.xs 0 = P.x0 := by rw [ex]; exact hx0
    have hgn : q1.gapNorm = shootGapNorm P q1.xs q1.us := by
      rw [ha.gapNorm, hgT]; simp
    have hnn : (0 : K) ≤ kktResidual q1.data q1.gap q1.lagMul := by
      unfold kktResidual
      simp only [cppMax_exact]
      exact le_trans ((forUp_max_le (P.T + 1) (fun t => normInf (q1.gap t)) 0 _).1 le_rfl).1 (le_max_right _ _)
    refine ⟨?_, hk.2.1, ?_, ?_, hx, ha.calc_, ha.diff, ha.cost, hgn, ?_⟩
    · rw [htol]
      simpa using hlt
    · obtain ⟨r1, r2, r3, r4⟩ := (hres _ hnn).1 le_rfl
      refine ⟨fun t ht => ?_, fun t ht => ?_, ?_, ?_, fun t ht => ?_⟩
      · have := r1 t ht
        rw [ha.diff.run t ht] at this
        exact this
      · have := r2 t ht
        rw [ha.diff.run t ht] at this
        exact this
      · have := r3
        rw [ha.diff.ter] at this
        exact this
      · intro i
        change |P.diff (q1.xs 0) P.x0 i| ≤ _
        rw [hx, hdiff]
        simp only [Pi.zero_apply, abs_zero]
        exact hnn
      · have := r4 t ht.le
        rw [ha.gaps t ht] at this
        exact this
    · intro c hc0 hkk
      refine (hres c hc0).2 ⟨fun t ht => ?_, fun t ht => ?_, ?_, fun t ht => ?_⟩
      · rw [ha.diff.run t ht]; exact hkk.stat_x t ht
      · rw [ha.diff.run t ht]; exact hkk.stat_u t ht
      · rw [ha.diff.ter]; exact hkk.stat_T
      · rcases Nat.eq_or_lt_of_le ht with rfl | ht
        · intro i; rw [hgT]; simpa using hc0
        · rw [ha.gaps t ht]; exact hkk.gaps t ht
    · change q1.merit = _ + q1.mu * _
      rw [ha.merit, ha.cost, hgn]
      rfl

end
end PySQP
end Mim
