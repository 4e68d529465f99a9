import Verif.Props.KKTSolver
import Verif.Props.SQPLine
import Verif.Props.SQPConvex
import Verif.Spec.Descent

/-!
# C90: SolverKKT's line search
-/
set_option linter.unusedSectionVars false
set_option linter.unusedSimpArgs false

namespace Mim
open Spec

namespace Spec
section
variable {K : Type} [Field K] [LinearOrder K] [IsStrictOrderedRing K] (P : Problem K)
open Matrix

/-- the step length `a` passes the test: the predicted decrease is negligible, the trajectory is not known to be feasible, or the cost
decreases by more than the fraction `th` of the decrease `-a slope - a²/2 curv` of its quadratic model. -/
def StepPasses (thGrad th : K) (feas : Bool) (xs : Traj P) (us : Ctrls P) (dx : ℕ → Vec K P.ndx) (du : (t : ℕ) → Vec K (P.nu t)) (a : K) : Prop :=
  -slope P xs us dx du < thGrad ∨ feas = false ∨
  th * (-(a * slope P xs us dx du) - a ^ 2 / 2 * curv P xs us dx du) < trajCost P xs us - trajCost P (stepX P xs dx a) (stepU P us du a)

end
end Spec

namespace KKT
section
variable {F : Type} [Add F] [Sub F] [Mul F] [Div F] [Neg F] [Zero F] [One F] [FloatOps F] {P : Problem F}

theorem trial_point (a : F) (s : KKT P) : (s.trial a).xsTry = stepX P s.xs s.dxs a ∧ (s.trial a).usTry = stepU P s.us s.dus a ∧
    (s.trial a).costTry = trajCost P (stepX P s.xs s.dxs a) (stepU P s.us s.dus a) ∧
    (s.trial a).dV = s.cost - trajCost P (stepX P s.xs s.dxs a) (stepU P s.us s.dus a) := by
  have hu : (s.trial a).usTry = stepU P s.us s.dus a := by
    funext t
    change (if P.nu t ≠ 0 then s.us t + sv a (s.dus t) else s.usTry t) = s.us t + sv a (s.dus t)
    by_cases h : P.nu t = 0
    · haveI : IsEmpty (Fin (P.nu t)) := by rw [h]; infer_instance
      exact Subsingleton.elim _ _
    · rw [if_pos h]
  have hx : (s.trial a).xsTry = stepX P s.xs s.dxs a := rfl
  have hf : FreshCalc P (s.data.calcAll (s.trial a).xsTry (s.trial a).usTry) (s.trial a).xsTry (s.trial a).usTry :=
    ⟨fun t ht => by simp [Data.calcAll, ht], rfl⟩
  have hc : (s.trial a).costTry = trajCost P (s.trial a).xsTry (s.trial a).usTry := totalCost_fresh hf
  have hd : (s.trial a).dV = s.cost - (s.trial a).costTry := rfl
  rw [hu, hx] at hc
  exact ⟨hx, hu, hc, by rw [hd, hc]⟩

/-- the test of the line search. -/
def test (s : KKT P) (a : F) : Bool :=
  ltb s.d0 s.c.thGrad || !s.feas ||
    ltb (s.c.thAccept * (a * s.d0 + lit (1 / 2) * a * a * s.d1)) (s.cost - trajCost P (stepX P s.xs s.dxs a) (stepU P s.us s.dus a))

theorem search_spec (as : List F) (s : KKT P) :
    (∃ bs a cs, as = bs ++ a :: cs ∧ (∀ b ∈ bs, test s b = false) ∧ test s a = true ∧ (search as s).xs = stepX P s.xs s.dxs a ∧
      (search as s).us = stepU P s.us s.dus a ∧ (search as s).feas = true ∧ (search as s).wasFeas = s.feas ∧ (search as s).steplength = a ∧
      (search as s).cost = trajCost P (stepX P s.xs s.dxs a) (stepU P s.us s.dus a)) ∨
    ((∀ b ∈ as, test s b = false) ∧ (search as s).xs = s.xs ∧ (search as s).us = s.us ∧ (search as s).feas = s.feas ∧
      (search as s).wasFeas = s.wasFeas ∧ (search as s).cost = s.cost) := by
  induction as generalizing s with
  | nil => exact .inr ⟨fun b hb => absurd hb List.not_mem_nil, rfl, rfl, rfl, rfl, rfl⟩
  | cons a as ih =>
    obtain ⟨t1, t2, t3, t4⟩ := trial_point a { s with steplength := a }
    have ht : (ltb (trial a { s with steplength := a }).d0 (trial a { s with steplength := a }).c.thGrad || !(trial a { s with steplength := a }).feas ||
        ltb ((trial a { s with steplength := a }).c.thAccept * (a * (trial a { s with steplength := a }).d0 + lit (1 / 2) * a * a * (trial a { s with steplength := a }).d1))
          (trial a { s with steplength := a }).dV) = test s a := by
      rw [t4]; rfl
    unfold search
    simp only []
    rw [ht]
    cases h : test s a with
    | true =>
      rw [if_pos rfl]
      exact .inl ⟨[], a, as, rfl, fun b hb => absurd hb List.not_mem_nil, h, t1, t2, rfl, rfl, rfl, t3⟩
    | false =>
      rw [if_neg (by simp)]
      generalize hq : ({ trial a { s with steplength := a } with
        dVexp := a * (trial a { s with steplength := a }).d0 + lit (1 / 2) * a * a * (trial a { s with steplength := a }).d1 } : KKT P) = q
      have e1 : q.xs = s.xs := by rw [← hq]; rfl
      have e2 : q.us = s.us := by rw [← hq]; rfl
      have e3 : q.feas = s.feas := by rw [← hq]; rfl
      have e4 : q.wasFeas = s.wasFeas := by rw [← hq]; rfl
      have e5 : q.cost = s.cost := by rw [← hq]; rfl
      have e6 : q.dxs = s.dxs := by rw [← hq]; rfl
      have e7 : q.dus = s.dus := by rw [← hq]; rfl
      have e8 : ∀ b, test q b = test s b := fun b => by rw [← hq]; rfl
      rcases ih q with ⟨bs, b, cs, h1, h2, h3, h4, h5, h6, h7, h8, h9⟩ | ⟨h1, h2, h3, h4, h5, h6⟩
      · refine .inl ⟨a :: bs, b, cs, by rw [h1]; rfl, ?_, by rw [← e8]; exact h3, by rw [h4, e1, e6], by rw [h5, e2, e7], h6, h7.trans e3, h8,
          by rw [h9, e1, e2, e6, e7]⟩
        intro x hx
        rcases List.mem_cons.mp hx with rfl | hx
        · exact h
        · rw [← e8]; exact h2 x hx
      · refine .inr ⟨?_, h2.trans e1, h3.trans e2, h4.trans e3, h5.trans e4, h6.trans e5⟩
        intro x hx
        rcases List.mem_cons.mp hx with rfl | hx
        · exact h
        · rw [← e8]; exact h1 x hx

theorem search_spec_of {q s' : KKT P} (as : List F) {xs : Traj P} {us : Ctrls P} {dx : ℕ → Vec F P.ndx} {du : (t : ℕ) → Vec F (P.nu t)} {feas wf : Bool}
    (e1 : s'.xs = xs) (e2 : s'.us = us) (e3 : s'.dxs = dx) (e4 : s'.dus = du) (e5 : s'.feas = feas) (e6 : s'.wasFeas = wf)
    (f1 : q.xs = (search as s').xs) (f2 : q.us = (search as s').us) (f3 : q.feas = (search as s').feas) (f4 : q.wasFeas = (search as s').wasFeas)
    (f5 : q.steplength = (search as s').steplength) (f6 : q.cost = (search as s').cost) :
    (∃ bs a cs, as = bs ++ a :: cs ∧ (∀ b ∈ bs, test s' b = false) ∧ test s' a = true ∧ q.xs = stepX P xs dx a ∧
      q.us = stepU P us du a ∧ q.feas = true ∧ q.wasFeas = feas ∧ q.steplength = a ∧ q.cost = trajCost P (stepX P xs dx a) (stepU P us du a)) ∨
    ((∀ b ∈ as, test s' b = false) ∧ q.xs = xs ∧ q.us = us ∧ q.feas = feas ∧ q.wasFeas = wf ∧ q.cost = s'.cost) := by
  subst e1 e2 e3 e4 e5 e6
  rw [f1, f2, f3, f4, f5, f6]
  exact search_spec as s'

theorem improve_wasFeas (lu : LU F) (s : KKT P) : (s.direction lu).improve.wasFeas = s.wasFeas := rfl
theorem improve_dxs (s : KKT P) : s.improve.dxs = s.dxs := rfl
theorem improve_dus (s : KKT P) : s.improve.dus = s.dus := rfl
theorem post_cost (s : KKT P) : s.stopping.callbacks.cost = s.cost ∧ s.stopping.callbacks.steplength = s.steplength := ⟨rfl, rfl⟩

theorem body_search (lu : LU F) (s : KKT P) (h1 : (body lu s).2 = ((search s.c.alphas (s.direction lu).improve).stopping).callbacks) :
    (∃ bs a cs, s.c.alphas = bs ++ a :: cs ∧ (∀ b ∈ bs, test (s.direction lu).improve b = false) ∧ test (s.direction lu).improve a = true ∧
      (body lu s).2.xs = stepX P s.xs (s.direction lu).dxs a ∧
      (body lu s).2.us = stepU P s.us (s.direction lu).dus a ∧ (body lu s).2.feas = true ∧ (body lu s).2.wasFeas = s.feas ∧ (body lu s).2.steplength = a ∧
      (body lu s).2.cost = trajCost P (stepX P s.xs (s.direction lu).dxs a) (stepU P s.us (s.direction lu).dus a)) ∨
    ((∀ b ∈ s.c.alphas, test (s.direction lu).improve b = false) ∧ (body lu s).2.xs = s.xs ∧ (body lu s).2.us = s.us ∧ (body lu s).2.feas = s.feas ∧
      (body lu s).2.wasFeas = s.wasFeas ∧ (body lu s).2.cost = (s.direction lu).improve.cost) := by
  have hp := post_frame (search s.c.alphas (s.direction lu).improve)
  have hp2 := post_cost (search s.c.alphas (s.direction lu).improve)
  rw [← h1] at hp hp2
  exact search_spec_of s.c.alphas (improve_xs lu s) (improve_us lu s) (improve_dxs _) (improve_dus _) ((improve_feas _).trans (direction_feas lu s))
    (improve_wasFeas lu s) hp.1 hp.2.1 hp.2.2.2.1 hp.2.2.1 hp2.2 hp2.1

end

section
variable {K : Type} [Field K] [LinearOrder K] [IsStrictOrderedRing K] {P : Problem K}
open Matrix

theorem sum_nP (f : ℕ → K) : ∑ i : Fin P.nP, f i =
    (∑ t ∈ Finset.range (P.T + 1), ∑ i : Fin P.ndx, f (t * P.ndx + i)) +
    ∑ t ∈ Finset.range P.T, ∑ i : Fin (P.nu t), f (P.nX + offs P.nu t + i) := by
  rw [← Finset.sum_range f]
  unfold Problem.nP
  rw [Finset.sum_range_add]
  unfold Problem.nX Problem.nU
  rw [sum_blk, sum_offs]
  simp only [Nat.add_assoc]

/-- **C90 (a), the predicted decrease.**  For any linear solver, the two numbers `expectedImprovement` stores are minus the first and minus the
second derivative of the cost along the computed step, at the current trajectory. -/
theorem C90_kkt_expected (hT : 0 < P.T) {lu : LU K} {s : KKT P} (hs : KKT.Reach lu s) :
    (s.direction lu).improve.d0 = -slope P s.xs s.us (s.direction lu).dxs (s.direction lu).dus ∧
    (s.direction lu).improve.d1 = -curv P s.xs s.us (s.direction lu).dxs (s.direction lu).dus := by
  have hE := entries_assemble (d := ((s.data.calcAll s.xs s.us).calcDiffAll s.xs s.us)) hs.inv.pattern
  have hR := refEntries (d := ((s.data.calcAll s.xs s.us).calcDiffAll s.xs s.us)) hT s.xs s.ref
  have k1 : (s.direction lu).kkt = assemble ((s.data.calcAll s.xs s.us).calcDiffAll s.xs s.us) s.kkt := rfl
  have k2 : (s.direction lu).ref = assembleRef ((s.data.calcAll s.xs s.us).calcDiffAll s.xs s.us) s.xs s.ref := rfl
  rw [← k1] at hE
  rw [← k2] at hR
  have hdx : ∀ t, (s.direction lu).dxs t = seg (t * P.ndx) P.ndx (s.direction lu).pd := fun _ => rfl
  have hdu : ∀ t, (s.direction lu).dus t = seg (P.nX + offs P.nu t) (P.nu t) (s.direction lu).pd := fun _ => rfl
  generalize (s.direction lu).dxs = dx at *
  generalize (s.direction lu).dus = du at *
  have i0 : (s.direction lu).improve.d0 = -∑ i : Fin P.nP, (s.direction lu).ref (0 + i) * (s.direction lu).pd (0 + i) := rfl
  have i1 : (s.direction lu).improve.d1 = -∑ i : Fin P.nP, (∑ j : Fin P.nP, (s.direction lu).kkt i j * (s.direction lu).pd (0 + j)) * (s.direction lu).pd (0 + i) := rfl
  rw [i0, i1]
  simp only [Nat.zero_add]
  generalize (s.direction lu).pd = v at *
  generalize (s.direction lu).kkt = M at *
  generalize (s.direction lu).ref = b at *
  have fd : ∀ t, t < P.T → ((s.data.calcAll s.xs s.us).calcDiffAll s.xs s.us).rd t = P.calcDiffR t (s.xs t) (s.us t) :=
    fun t ht => fresh_diff s.data s.xs s.us ht
  have fT : ((s.data.calcAll s.xs s.us).calcDiffAll s.xs s.us).td = P.calcDiffT (s.xs P.T) := rfl
  constructor
  · congr 1
    rw [sum_nP fun i => b i * v i, Finset.sum_range_succ, slope, Finset.sum_add_distrib]
    have e1 : ∑ t ∈ Finset.range P.T, ∑ i : Fin P.ndx, b (t * P.ndx + i) * v (t * P.ndx + i) =
        ∑ t ∈ Finset.range P.T, (P.calcDiffR t (s.xs t) (s.us t)).Lx ⬝ᵥ dx t := by
      refine Finset.sum_congr rfl fun t ht => ?_
      rw [Finset.mem_range] at ht
      refine Finset.sum_congr rfl fun i _ => ?_
      rw [hR.x t i ht, fd t ht, hdx t]; rfl
    have e2 : ∑ t ∈ Finset.range P.T, ∑ i : Fin (P.nu t), b (P.nX + offs P.nu t + i) * v (P.nX + offs P.nu t + i) =
        ∑ t ∈ Finset.range P.T, (P.calcDiffR t (s.xs t) (s.us t)).Lu ⬝ᵥ du t := by
      refine Finset.sum_congr rfl fun t ht => ?_
      rw [Finset.mem_range] at ht
      refine Finset.sum_congr rfl fun i _ => ?_
      rw [hR.u t i ht, fd t ht, hdu t]; rfl
    have e3 : ∑ i : Fin P.ndx, b (P.T * P.ndx + i) * v (P.T * P.ndx + i) = (P.calcDiffT (s.xs P.T)).Lx ⬝ᵥ dx P.T := by
      refine Finset.sum_congr rfl fun i _ => ?_
      rw [hR.xT i, fT, hdx P.T]; rfl
    rw [e1, e2, e3]
    ring
  · congr 1
    -- the primal part of the solution, with multipliers zero
    let w : FVec K := fun j => if j < P.nP then v j else 0
    have wX : ∀ t, t ≤ P.T → seg (t * P.ndx) P.ndx w = dx t := fun t ht => by
      rw [hdx t]; funext i
      exact if_pos (lt_of_lt_of_le (x_lt i.isLt ht) nX_le_nP)
    have wU : ∀ t, t < P.T → seg (P.nX + offs P.nu t) (P.nu t) w = du t := fun t ht => by
      rw [hdu t]; funext i
      exact if_pos (u_lt i.isLt ht)
    have wL : ∀ t, seg (P.nP + t * P.ndx) P.ndx w = 0 := fun t => by
      funext i
      exact if_neg (show ¬ P.nP + t * P.ndx + (i : ℕ) < P.nP by omega)
    have hrow : ∀ i : ℕ, ∑ j : Fin P.nP, M i j * v j = ∑ j ∈ Finset.range P.nS, M i j * w j := by
      intro i
      rw [← Finset.sum_range fun j => M i j * v j, show P.nS = P.nP + P.nX from rfl, Finset.sum_range_add]
      have z : ∑ x ∈ Finset.range P.nX, M i (P.nP + x) * w (P.nP + x) = 0 := by
        refine Finset.sum_eq_zero fun x _ => ?_
        have : w (P.nP + x) = 0 := if_neg (by omega)
        rw [this, mul_zero]
      rw [z, add_zero]
      refine Finset.sum_congr rfl fun j hj => ?_
      rw [show w j = v j from if_pos (Finset.mem_range.mp hj)]
    simp only [hrow]
    rw [sum_nP fun i => (∑ j ∈ Finset.range P.nS, M i j * w j) * v i, Finset.sum_range_succ, curv]
    have e1 : ∑ t ∈ Finset.range P.T, ∑ i : Fin P.ndx, (∑ j ∈ Finset.range P.nS, M (t * P.ndx + i) j * w j) * v (t * P.ndx + i) =
        ∑ t ∈ Finset.range P.T, (dx t ⬝ᵥ ((P.calcDiffR t (s.xs t) (s.us t)).Lxx *ᵥ dx t) + dx t ⬝ᵥ ((P.calcDiffR t (s.xs t) (s.us t)).Lxu *ᵥ du t)) := by
      refine Finset.sum_congr rfl fun t ht => ?_
      rw [Finset.mem_range] at ht
      rw [← dotProduct_add]
      refine Finset.sum_congr rfl fun i _ => ?_
      rw [row_x hE w ht i, wX t ht.le, wU t ht, wL, wL, fd t ht, mulVec_zero, sub_zero, add_zero, mul_comm, hdx t]; rfl
    have e2 : ∑ t ∈ Finset.range P.T, ∑ i : Fin (P.nu t), (∑ j ∈ Finset.range P.nS, M (P.nX + offs P.nu t + i) j * w j) * v (P.nX + offs P.nu t + i) =
        ∑ t ∈ Finset.range P.T, (dx t ⬝ᵥ ((P.calcDiffR t (s.xs t) (s.us t)).Lxu *ᵥ du t) + du t ⬝ᵥ ((P.calcDiffR t (s.xs t) (s.us t)).Luu *ᵥ du t)) := by
      refine Finset.sum_congr rfl fun t ht => ?_
      rw [Finset.mem_range] at ht
      have : dx t ⬝ᵥ ((P.calcDiffR t (s.xs t) (s.us t)).Lxu *ᵥ du t) = du t ⬝ᵥ ((P.calcDiffR t (s.xs t) (s.us t)).Lxuᵀ *ᵥ dx t) := by
        rw [dotProduct_mulVec, ← mulVec_transpose, dotProduct_comm]
      rw [this, ← dotProduct_add]
      refine Finset.sum_congr rfl fun i _ => ?_
      rw [row_u hE w ht i, wX t ht.le, wU t ht, wL, fd t ht, mulVec_zero, sub_zero, mul_comm, hdu t]; rfl
    have e3 : ∑ i : Fin P.ndx, (∑ j ∈ Finset.range P.nS, M (P.T * P.ndx + i) j * w j) * v (P.T * P.ndx + i) = dx P.T ⬝ᵥ ((P.calcDiffT (s.xs P.T)).Lxx *ᵥ dx P.T) := by
      refine Finset.sum_congr rfl fun i _ => ?_
      rw [row_xT hE w i, wX P.T le_rfl, wL, fT, add_zero, mul_comm, hdx P.T]; rfl
    rw [e1, e2, e3, add_right_comm, ← Finset.sum_add_distrib]
    congr 1
    refine Finset.sum_congr rfl fun t _ => ?_
    ring

/-- **C90 (b), the line search.**  An iteration that does not stop at its residual test takes the first step length that passes
`StepPasses` at the current trajectory with the computed step, moves there, stores that cost and declares the trajectory feasible; if none
passes it changes neither candidate nor flags. -/
theorem C90_kkt_search (hT : 0 < P.T) {lu : LU K} {s : KKT P} (hs : KKT.Reach lu s) (hr : ¬ (s.direction lu).kktRes ≤ s.c.tol) :
    (∃ bs a cs, s.c.alphas = bs ++ a :: cs ∧
      (∀ b ∈ bs, ¬ StepPasses P s.c.thGrad s.c.thAccept s.feas s.xs s.us (s.direction lu).dxs (s.direction lu).dus b) ∧
      StepPasses P s.c.thGrad s.c.thAccept s.feas s.xs s.us (s.direction lu).dxs (s.direction lu).dus a ∧
      (body lu s).2.xs = stepX P s.xs (s.direction lu).dxs a ∧ (body lu s).2.us = stepU P s.us (s.direction lu).dus a ∧
      (body lu s).2.feas = true ∧ (body lu s).2.wasFeas = s.feas ∧ (body lu s).2.steplength = a ∧
      (body lu s).2.cost = trajCost P (body lu s).2.xs (body lu s).2.us) ∨
    ((∀ b ∈ s.c.alphas, ¬ StepPasses P s.c.thGrad s.c.thAccept s.feas s.xs s.us (s.direction lu).dxs (s.direction lu).dus b) ∧
      (body lu s).2.xs = s.xs ∧ (body lu s).2.us = s.us ∧ (body lu s).2.feas = s.feas ∧ (body lu s).2.wasFeas = s.wasFeas ∧
      (body lu s).2.cost = trajCost P s.xs s.us) := by
  obtain ⟨hd0, hd1⟩ := C90_kkt_expected hT hs
  have hcost : (s.direction lu).improve.cost = trajCost P s.xs s.us :=
    totalCost_fresh (d := (s.data.calcAll s.xs s.us).calcDiffAll s.xs s.us) ⟨fun t ht => fresh_calc s.data s.xs s.us ht, rfl⟩
  have htest : ∀ a, test (s.direction lu).improve a = true ↔
      StepPasses P s.c.thGrad s.c.thAccept s.feas s.xs s.us (s.direction lu).dxs (s.direction lu).dus a := by
    intro a
    have e : test (s.direction lu).improve a = (ltb (s.direction lu).improve.d0 s.c.thGrad || !s.feas ||
      ltb (s.c.thAccept * (a * (s.direction lu).improve.d0 + lit (1 / 2) * a * a * (s.direction lu).improve.d1))
        ((s.direction lu).improve.cost - trajCost P (stepX P s.xs (s.direction lu).dxs a) (stepU P s.us (s.direction lu).dus a))) := rfl
    rw [e, hd0, hd1, hcost, StepPasses]
    simp only [ltb_exact, lit_exact, Bool.or_eq_true, decide_eq_true_eq, Bool.not_eq_true', or_assoc]
    have : a * -slope P s.xs s.us (s.direction lu).dxs (s.direction lu).dus + ((1 / 2 : ℚ) : K) * a * a * -curv P s.xs s.us (s.direction lu).dxs (s.direction lu).dus =
        -(a * slope P s.xs s.us (s.direction lu).dxs (s.direction lu).dus) - a ^ 2 / 2 * curv P s.xs s.us (s.direction lu).dxs (s.direction lu).dus := by
      push_cast; ring
    rw [this]
  have hfalse : ∀ a, test (s.direction lu).improve a = false ↔
      ¬ StepPasses P s.c.thGrad s.c.thAccept s.feas s.xs s.us (s.direction lu).dxs (s.direction lu).dus a := fun a => by
    rw [← htest a, Bool.not_eq_true]
  rcases KKT.body_cases lu s with h1 | ⟨-, h1, -⟩
  · exact absurd (by simpa using h1.1) hr
  · have hsp := body_search lu s h1
    rcases hsp with ⟨bs, a, cs, q1, q2, q3, q4, q5, q6, q7, q8, q9⟩ | ⟨q1, q2, q3, q4, q5, q6⟩
    · exact .inl ⟨bs, a, cs, q1, fun b hb => (hfalse b).1 (q2 b hb), (htest a).1 q3, q4, q5, q6, q7, q8, by rw [q9, q4, q5]⟩
    · exact .inr ⟨fun b hb => (hfalse b).1 (q1 b hb), q2, q3, q4, q5, q6.trans hcost⟩

end
end KKT

section
variable {K : Type} [Field K] [LinearOrder K] [IsStrictOrderedRing K] {P : Problem K}
open Matrix

/-- at a feasible trajectory the Newton step has slope minus curvature. -/
theorem newton_slope {xs : Traj P} {us : Ctrls P} {dx : ℕ → Vec K P.ndx} {du : (t : ℕ) → Vec K (P.nu t)} {lam : ℕ → Vec K P.ndx}
    (h : NewtonStep P xs us dx du lam) (h0 : P.diff P.x0 (xs 0) = 0) (hg : ∀ t, t < P.T → P.diff (P.calcR t (xs t) (us t)).xnext (xs (t + 1)) = 0) :
    slope P xs us dx du = -curv P xs us dx du := by
  have tel := telescope (fun t => (P.calcDiffR t (xs t) (us t)).Fx) (fun t => (P.calcDiffR t (xs t) (us t)).Fu) dx du lam (T := P.T)
    (by rw [h.start, h0, neg_zero]) (fun t ht => by rw [h.dyn t ht, hg t ht, sub_zero])
  have hT : (P.calcDiffT (xs P.T)).Lx ⬝ᵥ dx P.T + dx P.T ⬝ᵥ ((P.calcDiffT (xs P.T)).Lxx *ᵥ dx P.T) + dx P.T ⬝ᵥ lam P.T = 0 := by
    have := congrArg (fun v => dx P.T ⬝ᵥ v) h.stat_T
    simp only [dotProduct_add, dotProduct_zero] at this
    rw [dotProduct_comm (P.calcDiffT (xs P.T)).Lx]
    exact this
  have hs : ∀ t ∈ Finset.range P.T, ((P.calcDiffR t (xs t) (us t)).Lx ⬝ᵥ dx t + (P.calcDiffR t (xs t) (us t)).Lu ⬝ᵥ du t) +
      (dx t ⬝ᵥ ((P.calcDiffR t (xs t) (us t)).Lxx *ᵥ dx t) + 2 * (dx t ⬝ᵥ ((P.calcDiffR t (xs t) (us t)).Lxu *ᵥ du t)) +
        du t ⬝ᵥ ((P.calcDiffR t (xs t) (us t)).Luu *ᵥ du t)) +
      (dx t ⬝ᵥ (lam t - (P.calcDiffR t (xs t) (us t)).Fxᵀ *ᵥ lam (t + 1)) + du t ⬝ᵥ (-((P.calcDiffR t (xs t) (us t)).Fuᵀ *ᵥ lam (t + 1)))) = 0 := by
    intro t ht
    rw [Finset.mem_range] at ht
    have a := congrArg (fun v => dx t ⬝ᵥ v) (h.stat_x t ht)
    have b := congrArg (fun v => du t ⬝ᵥ v) (h.stat_u t ht)
    have c : dx t ⬝ᵥ ((P.calcDiffR t (xs t) (us t)).Lxu *ᵥ du t) = du t ⬝ᵥ ((P.calcDiffR t (xs t) (us t)).Lxuᵀ *ᵥ dx t) := by
      rw [dotProduct_mulVec, ← mulVec_transpose, dotProduct_comm]
    simp only [dotProduct_add, dotProduct_sub, dotProduct_neg, dotProduct_zero] at a b ⊢
    rw [dotProduct_comm (P.calcDiffR t (xs t) (us t)).Lx, dotProduct_comm (P.calcDiffR t (xs t) (us t)).Lu]
    linear_combination a + b + c
  have := Finset.sum_eq_zero hs
  rw [Finset.sum_add_distrib, Finset.sum_add_distrib] at this
  unfold slope curv
  linear_combination this + hT - tel

/-- **C90 (c), descent.**  Convex costs, an exact linear solver, a trajectory that satisfies the initial condition and the dynamics and is
declared feasible, step lengths in `[0, 2]`, a nonnegative acceptance threshold: the predicted decrease of step length `a` is
`(a - a²/2)` times the curvature `q ≥ 0` of the cost along the step, and unless `q` is below `th_grad` an iteration that does not stop at its
residual test either leaves the candidate alone or decreases the cost by more than `th_acceptstep (a - a²/2) q ≥ 0`. -/
theorem C90_kkt_descent (hT : 0 < P.T) {lu : LU K} (hlu : LUExact lu) {s : KKT P} (hs : KKT.Reach lu s) (hc : ConvexAt P s.xs s.us)
    (h0 : P.diff P.x0 (s.xs 0) = 0) (hg : ∀ t, t < P.T → P.diff (P.calcR t (s.xs t) (s.us t)).xnext (s.xs (t + 1)) = 0) (hf : s.feas = true)
    (ha : ∀ a ∈ s.c.alphas, 0 ≤ a ∧ a ≤ 2) (hth : 0 ≤ s.c.thAccept) (hr : ¬ (s.direction lu).kktRes ≤ s.c.tol) :
    0 ≤ curv P s.xs s.us (s.direction lu).dxs (s.direction lu).dus ∧
    (s.c.thGrad ≤ curv P s.xs s.us (s.direction lu).dxs (s.direction lu).dus →
      ((KKT.body lu s).2.xs = s.xs ∧ (KKT.body lu s).2.us = s.us) ∨
      ∃ a ∈ s.c.alphas, 0 ≤ s.c.thAccept * ((a - a ^ 2 / 2) * curv P s.xs s.us (s.direction lu).dxs (s.direction lu).dus) ∧
        trajCost P (KKT.body lu s).2.xs (KKT.body lu s).2.us <
          trajCost P s.xs s.us - s.c.thAccept * ((a - a ^ 2 / 2) * curv P s.xs s.us (s.direction lu).dxs (s.direction lu).dus)) := by
  have hN := (C41_newton hT hlu hs hc).2.1
  have hsl := newton_slope hN h0 hg
  have hq : 0 ≤ curv P s.xs s.us (s.direction lu).dxs (s.direction lu).dus :=
    add_nonneg (Finset.sum_nonneg fun t ht => hc.psd t (Finset.mem_range.mp ht) _ _) (hc.psdT _)
  refine ⟨hq, fun hgr => ?_⟩
  rcases KKT.C90_kkt_search hT hs hr with ⟨bs, a, cs, q1, q2, q3, q4, q5, q6⟩ | ⟨q1, q2, q3, q4, q5, q6⟩
  · right
    have hm : a ∈ s.c.alphas := by rw [q1]; simp
    obtain ⟨a0, a2⟩ := ha a hm
    refine ⟨a, hm, mul_nonneg hth (mul_nonneg (by nlinarith) hq), ?_⟩
    rw [q4, q5]
    rcases q3 with q3 | q3 | q3
    · rw [hsl, neg_neg] at q3; exact absurd q3 (not_lt.mpr hgr)
    · rw [hf] at q3; cases q3
    · rw [hsl] at q3
      have : -(a * -curv P s.xs s.us (s.direction lu).dxs (s.direction lu).dus) - a ^ 2 / 2 * curv P s.xs s.us (s.direction lu).dxs (s.direction lu).dus =
        (a - a ^ 2 / 2) * curv P s.xs s.us (s.direction lu).dxs (s.direction lu).dus := by ring
      rw [this] at q3
      linarith
  · exact .inl ⟨q2, q3⟩

/-- along a step the cost of a linear-quadratic problem is a parabola. -/
theorem cost_along {φ : P.X → Vec K P.ndx} (hE : Euclid P φ) (hC : QuadCost P φ) (xs : Traj P) (us : Ctrls P) (dx : ℕ → Vec K P.ndx)
    (du : (t : ℕ) → Vec K (P.nu t)) (a : K) :
    trajCost P (stepX P xs dx a) (stepU P us du a) = trajCost P xs us + a * slope P xs us dx du + a ^ 2 / 2 * curv P xs us dx du := by
  have hx : ∀ t, φ (stepX P xs dx a t) - φ (xs t) = a • dx t := fun t => by unfold stepX; rw [hE.integrate, sv_exact]; abel
  have hu : ∀ t, stepU P us du a t - us t = a • du t := fun t => by unfold stepU; rw [sv_exact]; abel
  unfold trajCost slope curv
  rw [sumUp_exact, sumUp_exact, hC.ter (xs P.T) (stepX P xs dx a P.T), hx]
  have : ∀ t ∈ Finset.range P.T, nodeCost P (stepX P xs dx a) (stepU P us du a) t = nodeCost P xs us t +
      (a * ((P.calcDiffR t (xs t) (us t)).Lx ⬝ᵥ dx t + (P.calcDiffR t (xs t) (us t)).Lu ⬝ᵥ du t) +
      a ^ 2 / 2 * (dx t ⬝ᵥ ((P.calcDiffR t (xs t) (us t)).Lxx *ᵥ dx t) + 2 * (dx t ⬝ᵥ ((P.calcDiffR t (xs t) (us t)).Lxu *ᵥ du t)) +
        du t ⬝ᵥ ((P.calcDiffR t (xs t) (us t)).Luu *ᵥ du t))) := by
    intro t ht
    change (P.calcR t (stepX P xs dx a t) (stepU P us du a t)).cost = (P.calcR t (xs t) (us t)).cost + _
    rw [hC.run t (Finset.mem_range.mp ht) (xs t) (us t), hx, hu]
    simp only [mulVec_smul, dotProduct_smul, smul_dotProduct, smul_eq_mul]
    ring
  rw [Finset.sum_congr rfl this, Finset.sum_add_distrib, Finset.sum_add_distrib, ← Finset.mul_sum, ← Finset.mul_sum]
  simp only [mulVec_smul, dotProduct_smul, smul_dotProduct, smul_eq_mul]
  ring

/-- **C90 (d), linear-quadratic problems from a feasible guess.**  On a convex linear-quadratic problem, from a guess that satisfies the initial
condition and the dynamics and is declared feasible, in any reachable state, with `1` as first step length and an acceptance threshold
below one: `solve` with at least two iterations returns `true`, and unless a residual test passes it returns an exact KKT point. -/
theorem C90_kkt_lq_feasible (hT : 0 < P.T) {lu : LU K} (hlu : LUExact lu) {s : KKT P} (hs : KKT.Reach lu s)
    (hc : ∀ xs us, ConvexAt P xs us) {φ : P.X → Vec K P.ndx} (hE : Euclid P φ) (hA : AffineDyn P φ) (hQ : QuadGrad P φ) (hC : QuadCost P φ)
    {as : List K} (ha : s.c.alphas = 1 :: as) (hg : 0 < s.c.thGrad) (hst : 0 < s.c.thStop) (hth : s.c.thAccept < 1)
    (xs : Traj P) (us : Ctrls P) (h0 : P.diff P.x0 (xs 0) = 0) (hgap : ∀ t, t < P.T → P.diff (P.calcR t (xs t) (us t)).xnext (xs (t + 1)) = 0) (n : ℕ) :
    (KKT.solve lu (some xs) (some us) (n + 2) true s).1 = true ∧
    ((KKT.direction lu { s with xs := xs, us := us, feas := true, iter := 0 }).kktRes ≤ s.c.tol ∨
      IsKKT P 0 (KKT.solve lu (some xs) (some us) (n + 2) true s).2.xs (KKT.solve lu (some xs) (some us) (n + 2) true s).2.us
        (fun t => -(KKT.solve lu (some xs) (some us) (n + 2) true s).2.lam t)) := by
  have hr := hs.candidate xs us true 0
  have hsolve : KKT.solve lu (some xs) (some us) (n + 2) true s =
      match KKT.iterate lu (n + 2) { s with xs := xs, us := us, feas := true, iter := 0 } with
      | (some b, s) => (b, s)
      | (none, s) => (false, s) := rfl
  have hx0 : ({ s with xs := xs, us := us, feas := true, iter := 0 } : KKT P).xs = xs := rfl
  have hu0 : ({ s with xs := xs, us := us, feas := true, iter := 0 } : KKT P).us = us := rfl
  generalize hs0 : ({ s with xs := xs, us := us, feas := true, iter := 0 } : KKT P) = s0 at *
  have hf0 : s0.feas = true := by rw [← hs0]
  have hc0 : s0.c = s.c := by rw [← hs0]
  rw [hsolve, KKT.iterate]
  by_cases h1 : (s0.direction lu).kktRes ≤ s.c.tol
  · refine ⟨?_, Or.inl h1⟩
    rcases KKT.body_cases lu s0 with h2 | ⟨h2, -, -⟩
    · rw [h2.2]
    · rw [hc0] at h2; exact absurd h1 (by simpa using h2)
  · have hN := (C41_newton hT hlu hr (hc _ _)).2.1
    have hsl := newton_slope hN (by rw [hx0]; exact h0) (by rw [hx0, hu0]; exact hgap)
    have hpass : StepPasses P s0.c.thGrad s0.c.thAccept s0.feas s0.xs s0.us (s0.direction lu).dxs (s0.direction lu).dus 1 := by
      by_cases hq : curv P s0.xs s0.us (s0.direction lu).dxs (s0.direction lu).dus < s.c.thGrad
      · left; rw [hsl, neg_neg, hc0]; exact hq
      · right; right
        rw [cost_along hE hC, hsl, hc0]
        have := lt_of_lt_of_le hg (not_lt.mp hq)
        nlinarith [mul_pos (sub_pos.mpr hth) this]
    rcases KKT.C90_kkt_search hT hr (by rw [hc0]; exact h1) with ⟨bs, a, cs, q1, q2, q3, q4, q5, q6, q7, q8, q9⟩ | ⟨q1, q2⟩
    swap
    · exact absurd hpass (q1 1 (by rw [hc0, ha]; simp))
    have ea : a = 1 := by
      cases bs with
      | nil => rw [hc0, ha] at q1; exact (List.cons.inj q1).1.symm
      | cons b bs =>
        rw [hc0, ha] at q1
        have : b = 1 := (List.cons.inj q1).1.symm
        exact absurd hpass (this ▸ q2 b (by simp))
    subst ea
    have hr1 := hr.body
    have hcb := KKT.body_c lu s0
    have hk1 := C41_lq_step hT hlu hr (hc _ _) hE hA hQ
    obtain ⟨t1, t2, -⟩ := KKT.trial_point 1 (s0.direction lu)
    have t1' : ((s0.direction lu).trial 1).xsTry = stepX P s0.xs (s0.direction lu).dxs 1 := t1
    have t2' : ((s0.direction lu).trial 1).usTry = stepU P s0.us (s0.direction lu).dus 1 := t2
    rw [t1', t2', ← q4, ← q5] at hk1
    have hlam := (KKT.search_frame s0.c.alphas (s0.direction lu).improve).2.2.2.2.2.1
    rcases KKT.body_cases lu s0 with h2 | ⟨-, hb2, hb1⟩
    · rw [hc0] at h2; exact absurd (by simpa using h2.1) h1
    have hl1 : (KKT.body lu s0).2.lam = (s0.direction lu).lam := by
      rw [hb2, (KKT.post_frame _).2.2.2.2, hlam, KKT.improve_lam]
    cases hbo : KKT.body lu s0 with
    | mk o s1 =>
      rw [hbo] at hr1 hcb hk1 q6 hb1 hl1
      simp only at hr1 hcb hk1 q6 hb1 hl1
      have ho : o = some true ∨ o = none := by
        rw [hb1]; split <;> simp
      rcases ho with rfl | rfl
      · refine ⟨rfl, Or.inr ?_⟩
        simp only
        rw [hl1]
        exact hk1
      simp only
      have hr2 := hr1.candidate s1.xs s1.us s1.feas (s1.iter + 1)
      have hk2 : IsKKT P 0 ({ s1 with iter := s1.iter + 1 } : KKT P).xs ({ s1 with iter := s1.iter + 1 } : KKT P).us
        (fun t => -(s0.direction lu).lam t) := hk1
      have hf2 : ({ s1 with iter := s1.iter + 1 } : KKT P).feas = true := q6
      have hc2 : ({ s1 with iter := s1.iter + 1 } : KKT P).c = s.c := hcb.trans hc0
      change KKT.Reach lu { s1 with iter := s1.iter + 1 } at hr2
      generalize ({ s1 with iter := s1.iter + 1 } : KKT P) = s2 at *
      have hb := KKT.body_at_kkt hT hlu hr2 (hc _ _) hE hA hQ (by rw [hc2, ha]) (by rw [hc2]; exact hg) (by rw [hc2]; exact hst) hf2 hk2
      rw [KKT.iterate]
      cases hbo2 : KKT.body lu s2 with
      | mk o2 s3 =>
        rw [hbo2] at hb
        obtain ⟨b1, b2⟩ := hb
        simp only at b1 b2
        subst b1
        exact ⟨rfl, Or.inr b2⟩

end

namespace Ex

/-- `lq` from the trajectory that stays at the initial state, declared feasible, with the default settings. -/
example : (KKT.solve exactLU (some fun _ => lq.x0) (some fun _ _ => 0) 5 true (KKT.new (Data.zero lq))).1 = true :=
  (C90_kkt_lq_feasible (by decide) exactLU_exact (.new _) (fun xs us => scalar_convex (by norm_num) (by norm_num) (by norm_num) xs us)
    lq_euclid lq_affine lq_quad lq_quadCost (as := defaultAlphas.tail) (by decide +kernel) (by decide +kernel) (by decide +kernel)
    (by decide +kernel) (fun _ => lq.x0) (fun _ _ => 0) (by decide +kernel) (by decide +kernel) 3).1

end Ex
end Mim
