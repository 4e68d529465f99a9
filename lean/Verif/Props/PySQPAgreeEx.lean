import Verif.Props.PySQPAgree
import Verif.Props.PySQPEx
import Verif.Lemmas.SQPHist

/-!
# C69: from the direction to the line search, and concrete cases
-/
set_option linter.unusedSectionVars false
set_option linter.unusedSimpArgs false

namespace Mim
open Spec

section
variable {K : Type} [Field K] [LinearOrder K] [IsStrictOrderedRing K] {P : Problem K} {llt : LLT K}

/-- a filter memory of one entry. -/
def CBuf.One {F : Type} (b : CBuf F) : Prop := b.cap = 1 ∧ b.items.length = 1

theorem CBuf.One.push {F : Type} {b b' : CBuf F} (h : b.One) (h' : b'.One) (x : F) : b.push x = b'.push x := by
  obtain ⟨c, l⟩ := b
  obtain ⟨c', l'⟩ := b'
  obtain ⟨rfl, h2⟩ := h
  obtain ⟨rfl, h2'⟩ := h'
  match l, l', h2, h2' with
  | [a], [a'], _, _ => rfl

/-- **C69, one iteration up to the line search.**  At the same candidate, without regularization and with the default filter memory of
one entry, the C++ solver and the Python class compute the same KKT residual and enter their line searches with the same candidate,
direction, merit value and filter memory, so that `C69_line_search` compares the steps they take. -/
theorem C69_iteration (hllt : LLTExact llt) (hP : SymProblem P) (hdiff : ∀ x, P.diff x x = 0) {s s1 : SQP P} {p p1 : PySQP P}
    (hs : SQP.Reachable s) (hp : PySQP.Reachable p) (h : SamePoint s p) (hf : s.useFilter = p.useFilter)
    (hn : s.filterSize = p.filterSize) (hb : s.gapList.One ∧ s.costList.One ∧ p.gapList.One ∧ p.costList.One)
    (e1 : SQP.computeDirection llt true s = .ok s1) (e2 : PySQP.computeDirection llt p = .ok p1) :
    s1.checkKKT.callbacks.KKT = p1.kktCheck.KKT ∧ SameSearch s1.checkKKT.callbacks.pushFilter p1.kktCheck.pushFilter ∧
      p1.kktCheck.pushFilter.gapTry P.T = 0 := by
  obtain ⟨h1, h2, h3, h4, h5, h6⟩ := (C69_direction_agrees hllt hP hdiff hs hp h).2 s1 p1 e1 e2
  obtain ⟨a1, a2, a3, a4, a5, a6, a7, a8, a9, a10⟩ := SQP.direction_eval e1
  have hc := (PySQP.Reachable.direction p p1 llt hp e2).clean
  have hpx : p1.xs = p.xs ∧ p1.us = p.us ∧ p1.mu = p.mu ∧ p1.useFilter = p.useFilter ∧ p1.filterSize = p.filterSize ∧
      p1.gapList = p.gapList ∧ p1.costList = p.costList := by
    obtain ⟨r, _, _, _, _, _, -, ⟨_, _, _, _, rfl⟩, rfl, -⟩ := PySQP.computeDirection_ok e2
    exact ⟨rfl, rfl, rfl, rfl, rfl, rfl, rfl⟩
  have hsx : s1.mu = s.mu ∧ s1.useFilter = s.useFilter ∧ s1.filterSize = s.filterSize ∧ s1.gapList = s.gapList ∧
      s1.costList = s.costList := by
    unfold SQP.computeDirection at e1
    simp only [if_true] at e1
    split at e1
    · cases e1
      exact ⟨SQP.forwardPass_frame SQP.mu (fun _ _ _ _ _ _ => rfl) _, SQP.forwardPass_frame SQP.useFilter (fun _ _ _ _ _ _ => rfl) _,
        SQP.forwardPass_frame SQP.filterSize (fun _ _ _ _ _ _ => rfl) _, SQP.forwardPass_frame SQP.gapList (fun _ _ _ _ _ _ => rfl) _,
        SQP.forwardPass_frame SQP.costList (fun _ _ _ _ _ _ => rfl) _⟩
    · cases e1
  refine ⟨h6, ⟨fun t ht => ?_, fun t ht => ?_, fun t ht => (h1 t ht).1, h2, ?_, h5, ?_, ?_, ?_, ?_⟩, hc.2.2⟩
  · change s1.xs t = p1.xs t
    rw [a8, hpx.1, h.xs t ht]
  · change s1.us t = p1.us t
    rw [a9, hpx.2.1, h.us t ht]
  · change s1.mu = p1.mu
    rw [hsx.1, hpx.2.2.1, h.mu]
  · change s1.useFilter = p1.useFilter
    rw [hsx.2.1, hpx.2.2.2.1, hf]
  · change s1.filterSize = p1.filterSize
    rw [hsx.2.2.1, hpx.2.2.2.2.1, hn]
  · change s1.gapList.push s1.gap = p1.gapList.push p1.gapNorm
    rw [hsx.2.2.2.1, hpx.2.2.2.2.2.1, h4]
    exact hb.1.push hb.2.2.1 _
  · change s1.costList.push s1.cost = p1.costList.push p1.cost
    rw [hsx.2.2.2.2, hpx.2.2.2.2.2.2, h3]
    exact hb.2.1.push hb.2.2.2 _

end

namespace Ex

/-- the C++ solver for `lq` started at the guess the Python class uses by default, without regularization. -/
def cppStart : SQP lq := lqSolver.start (some fun _ => (1 : ℚ)) none 0

/-- C69 applies to `lq`: both directions succeed from the same point, which is not yet optimal. -/
example : ∃ s1 p1, SQP.Reachable cppStart ∧ PySQP.Reachable (pyLq.start none none) ∧ SamePoint cppStart (pyLq.start none none) ∧
    SQP.computeDirection llt1 true cppStart = .ok s1 ∧ PySQP.computeDirection llt1 (pyLq.start none none) = .ok p1 ∧
    (cppStart.gapList.One ∧ cppStart.costList.One ∧ (pyLq.start none none).gapList.One ∧ (pyLq.start none none).costList.One) ∧
    s1.dx 1 ≠ 0 ∧ (SQP.lineSearch s1.checkKKT.callbacks.pushFilter.par.alphas s1.checkKKT.callbacks.pushFilter).1 = true := by
  have t1 : okAnd (fun s1 : SQP lq => decide (s1.dx 1 (0 : Fin 1) ≠ (0 : ℚ)) &&
      (SQP.lineSearch s1.checkKKT.callbacks.pushFilter.par.alphas s1.checkKKT.callbacks.pushFilter).1)
      (SQP.computeDirection llt1 true cppStart) = true := by decide +kernel
  have t2 : okAnd (fun _ => true) (PySQP.computeDirection llt1 (pyLq.start none none)) = true := by decide +kernel
  obtain ⟨s1, e1, h1⟩ := okAnd_true t1
  obtain ⟨p1, e2, -⟩ := okAnd_true t2
  simp only [Bool.and_eq_true, decide_eq_true_eq] at h1
  refine ⟨s1, p1, ?_, ?_, ?_, e1, e2, ⟨⟨rfl, rfl⟩, ⟨rfl, rfl⟩, ⟨rfl, rfl⟩, ⟨rfl, rfl⟩⟩, fun h => h1.1 (congrFun h (0 : Fin 1)), h1.2⟩
  · exact .solve lqSolver cppStart llt1 0 (some fun _ => (1 : ℚ)) none 0 0 false (.new _) rfl
  · exact .solve pyLq _ llt1 none none 0 _ (.new _ _ _) rfl
  · refine ⟨fun t _ => ?_, fun t _ => rfl, rfl, rfl, .inl rfl, rfl, ?_, ?_⟩
    · cases t <;> rfl
    · exact rfl
    · exact rfl

/-- One node, cost `-u + u²/2 + u⁴/2`, dynamics `x⁺ = x + u`: the full step from `u = 0` to `u = 1` leaves the cost at `0`. -/
def tie : Problem ℚ where
  T := 1
  ndx := 1
  nu _ := 1
  ng _ := 0
  X := ℚ
  integrate x d := x + d 0
  diff a b := fun _ => b - a
  zeroX := 0
  x0 := 0
  calcR _ x u := ⟨-u 0 + u 0 * u 0 / 2 + u 0 * u 0 * u 0 * u 0 / 2, x + u 0, fun i => i.elim0⟩
  calcDiffR _ _ u := ⟨fun _ => 0, fun _ => -1 + u 0 + 2 * u 0 * u 0 * u 0, m1 0, m1 0, m1 (1 + 6 * u 0 * u 0), m1 1, m1 1,
    Matrix.of fun i => i.elim0, Matrix.of fun i => i.elim0⟩
  calcT _ := ⟨0, fun i => i.elim0⟩
  calcDiffT _ := ⟨fun _ => 0, m1 0, Matrix.of fun i => i.elim0⟩
  badX _ := false
  lb _ i := i.elim0
  ub _ i := i.elim0

/-- **The two implementations can take different steps**: from the same point and with the same direction, the C++ solver rejects the full
step, which ties with the current point, and takes the half step; the Python class takes the full step. -/
theorem C69_tie_example :
    okAnd (fun s : SQP tie => decide ((SQP.lineSearch s.checkKKT.callbacks.pushFilter.par.alphas s.checkKKT.callbacks.pushFilter).2.steplength =
      (1 / 2 : ℚ))) (SQP.computeDirection llt1 true ((SQP.new (Data.zero tie)).start none none 0)) = true ∧
    okAnd (fun p : PySQP tie => decide ((PySQP.search 0 10 (1 : ℚ) p.kktCheck.pushFilter).2.1 = (1 : ℚ)))
      (PySQP.computeDirection llt1 ((PySQP.new true false (Data.zero tie)).start none none)) = true := by
  constructor <;> decide +kernel

end Ex
end Mim
