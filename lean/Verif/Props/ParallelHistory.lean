import Verif.Props.ParallelSolve
import Verif.Props.CSQPHistory

/-!
# C55 for the multi-threaded CSQP
-/
set_option linter.unusedSectionVars false
set_option autoImplicit false

namespace Mim
open Omp QP Spec

namespace CSQP
section
variable {K : Type} [Field K] [LinearOrder K] [IsStrictOrderedRing K] [SqrtOps K] {P : Problem K} {n n' : ℕ}

/-- What two successful multi-threaded solves have in common in addition: everything a user can read about the solution. -/
structure SameSolution (a a' : CSQP P) : Prop where
  KKT : a.m.KKT = a'.m.KKT
  cost : a.e.cost = a'.e.cost
  gap : a.e.gap = a'.e.gap
  con : a.e.con = a'.e.con
  fs : ∀ t, t ≤ P.T → a.e.fs t = a'.e.fs t
  lagMul : ∀ t, t ≤ P.T → a.lagMul t = a'.lagMul t
  y : ∀ t, t ≤ P.T → a.q.v.y t = a'.q.v.y t
  z : ∀ t, t ≤ P.T → a.q.v.z t = a'.q.v.z t
  dx : ∀ t, t ≤ P.T → a.q.v.dx t = a'.q.v.dx t
  du : ∀ t, t < P.T → a.q.v.du t = a'.q.v.du t
  dxt : ∀ t, t ≤ P.T → a.q.v.dxt t = a'.q.v.dxt t
  dut : ∀ t, t < P.T → a.q.v.dut t = a'.q.v.dut t
  rho : ∀ t, t ≤ P.T → a.q.v.rho t = a'.q.v.rho t
  rhoSparse : a.q.rhoSparse = a'.q.rhoSparse
  qpIters : a.q.qpIters = a'.q.qpIters
  norms : a.q.n = a'.q.n
  K : ∀ t, t < P.T → a.q.b.bp.K t = a'.q.b.bp.K t
  k : ∀ t, t < P.T → a.q.b.bp.k t = a'.q.b.bp.k t

/-- **C55 (CSQP, multi-threaded).**  Two solvers for the same problem, each in any state the public API can reach, with the same parameters now,
whose filters were not shrunk, with the same warm start and penalties on rows with crossed bounds; the QP has at least one iteration; costs are
nonnegative.  Call the multi-threaded `solve` on both with the same arguments — on machines with any numbers of threads, any schedules of the
parallel loops, any clocks that do not hit the time limit.  If both calls end, they end the same way, with the same trajectories, iteration count
and regularization after the same sequence of callback events; and if they return true they also agree in everything they report. -/
theorem C55_csqp_mt_history {M : MtWorld n K} {M' : MtWorld n' K} (hM : M.OK P) (hid : M.idn ≤ negInf) (hM' : M'.OK P)
    (hid' : M'.idn ≤ negInf) (hl : M.llt = M'.llt) (hn : ∀ xs us, NonnegCosts P xs us) (fuel : ℕ) (xs : Option (Traj P)) (us : Option (Ctrls P))
    (m : ℕ) (ri : K) {s s' : CSQP P} (hr : Reachable s) (hr' : Reachable s') (hf : FilterWF s) (hf' : FilterWF s') (hc : s.c = s'.c)
    (hw : SameWarmStart s s') (hx : SameCrossed s s') (hm : s.c.maxQP ≠ 0)
    (ht : ∀ i j, M.clock i - M.clock j < s.c.maxTime) (ht' : ∀ i j, M'.clock i - M'.clock j < s.c.maxTime)
    {o o' : Out} {a a' : CSQP P} (h : solveMt M fuel xs us m ri s = .val (o, a)) (h' : solveMt M' fuel xs us m ri s' = .val (o', a')) :
    o' = o ∧ SameOutcome s.log s'.log a a' ∧ (o = .ret true → SameSolution a a') := by
  obtain ⟨b, hb, sb⟩ := (C52_csqp_parallel_solve hM hid hn fuel xs us m ri s).1 o a h
  obtain ⟨b', hb', sb'⟩ := (C52_csqp_parallel_solve hM' hid' hn fuel xs us m ri s').1 o' a' h'
  rcases C55_csqp_history_independence (W := ⟨M.llt, M.clock, none⟩) (W' := ⟨M'.llt, M'.clock, none⟩) fuel xs us m ri hr hr' hf hf' hc hw hx hm hl rfl rfl
    (fun i j => by rw [leb_exact, decide_eq_false_iff_not, not_le]; exact ht i j)
    (fun i j => by rw [leb_exact, decide_eq_false_iff_not, not_le]; exact ht' i j) with ⟨k, -⟩ | ⟨o2, c, c', k1, k2, k3, k4⟩
  · rw [hb] at k; cases k
  · rw [hb] at k1
    rw [hb'] at k2
    obtain ⟨rfl, rfl⟩ := Prod.mk.inj (Option.some.inj k1)
    obtain ⟨rfl, rfl⟩ := Prod.mk.inj (Option.some.inj k2)
    refine ⟨rfl, ?_, fun e => ?_⟩
    · exact ⟨fun t ht => by rw [sb.xs, sb'.xs]; exact k3.xs t ht, fun t ht => by rw [sb.us, sb'.us]; exact k3.us t ht,
        by rw [sb.iter, sb'.iter]; exact k3.iter, by rw [sb.reg.1, sb'.reg.1]; exact k3.preg, by rw [sb.reg.2, sb'.reg.2]; exact k3.dreg,
        by rw [sb.log, sb'.log]; exact k3.events⟩
    · have r := k4 e
      constructor
      · rw [sb.m, sb'.m]; exact r.KKT
      · rw [sb.e, sb'.e]; exact r.cost
      · rw [sb.e, sb'.e]; exact r.gap
      · rw [sb.e, sb'.e]; exact r.con
      · rw [sb.e, sb'.e]; exact r.fs
      · rw [sb.lagMul, sb'.lagMul]; exact r.lagMul
      · rw [sb.v, sb'.v]; exact r.y
      · rw [sb.v, sb'.v]; exact r.z
      · rw [sb.v, sb'.v]; exact r.dx
      · rw [sb.v, sb'.v]; exact r.du
      · rw [sb.v, sb'.v]; exact r.dxt
      · rw [sb.v, sb'.v]; exact r.dut
      · rw [sb.v, sb'.v]; exact r.rho
      · rw [sb.rho.1, sb'.rho.1]; exact r.rhoSparse
      · rw [sb.qpIters, sb'.qpIters]; exact r.qpIters
      · rw [sb.n, sb'.n]; exact r.norms
      · rw [sb.gains.1, sb'.gains.1]; exact r.K
      · rw [sb.gains.2, sb'.gains.2]; exact r.k

end
end CSQP

namespace Ex
open CSQP

/-- the solver of the example of C52, told to forget. -/
def clq2Reset : CSQP (clq 2 1 1 1 1) :=
  let s := CSQP.new (Data.zero _) (fun _ _ => 0) (fun _ _ => 0) 0
  { s with c := { s.c with maxQP := 3, maxTime := 1, resetY := true, eqGuess := true } }

/-- the hypotheses are met by a new solver and one with other values in its members (here: after an evaluation of the problem). -/
example {o o' : Out} {a a' : CSQP (clq 2 1 1 1 1)} (h : solveMt mt2 3 none none 1 0 clq2Reset = .val (o, a))
    (h' : solveMt mt2 3 none none 1 0 clq2Reset.calcEval = .val (o', a')) : o' = o ∧ ∀ t, t ≤ 2 → a.xs t = a'.xs t := by
  have ht : ∀ i j, mt2.clock i - mt2.clock j < clq2Reset.c.maxTime := fun i j => by
    change (0 : ℚ) - 0 < 1
    norm_num
  have hr : Reachable clq2Reset := .setParams _ _ rfl (.new _ _ _ _)
  have hf : CSQP.FilterWF clq2Reset := CSQP.FilterWF.new (P := clq 2 1 1 1 1) (Data.zero _) (fun _ _ => 0) (fun _ _ => 0) 0
  obtain ⟨h1, h2, -⟩ := C55_csqp_mt_history mt2_ok (by decide +kernel) mt2_ok (by decide +kernel) rfl clq2_nonneg 3 none none 1 0 hr hr.calcEval hf
    hf rfl ⟨.inl rfl, .inl rfl⟩ (fun t _ i k => by obtain ⟨lo, hi, e, _⟩ := k; cases e) (by decide) ht ht h h'
  exact ⟨h1, h2.xs⟩

end Ex
end Mim
