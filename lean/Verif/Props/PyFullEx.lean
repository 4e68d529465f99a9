import Verif.Props.PyFullLQ

/-!
# C84, C87, C88 applied: an active bound, an exact back end
-/
set_option linter.unusedSectionVars false
set_option linter.unusedSimpArgs false

namespace Mim
open Spec Matrix

namespace PyFull
section
variable {F : Type} [Add F] [Sub F] [Mul F] [Div F] [Neg F] [Zero F] [One F] [FloatOps F] [SqrtOps F]
variable {P : Problem F} {B : PyDense.Backend F P}

theorem Step.iterate {i : ℕ} {s s' : PyFull B} (h : Step i s s') : PyFull.iterate 1 i s = .inr s' := by
  obtain ⟨s1, hd, hk, r, q, hs, hne, rfl⟩ := h.run
  have hh : head s = .inr s1.kktCheck := by
    unfold head
    rw [show computeDirection { s with p := s.p.evaluate } = dirAt s from rfl, hd]
    simp only []
    rw [if_neg]
    exact Bool.eq_false_iff.mp hk
  unfold PyFull.iterate
  rw [hh]
  simp only []
  rw [show (lit 1 : F) = PySQP.halve 0 from rfl, hs]
  cases r with
  | gaveUp => exact absurd rfl hne
  | accepted => rfl
  | exhausted => rfl

end
end PyFull

namespace Ex
open PyFull

/-- ProxQP as an exact QP solver. -/
def pushB : PyDense.Backend ℚ pushed := PyDense.external pushed false qpA

theorem pushB_exact : DenseExact pushB := by
  intro (mem : ℕ) d gap a (mem' : ℕ) h
  have h1 : (qpA mem (PyDense.assemble d gap), mem + 1) = (some a, mem') := h
  exact qpA_exact mem _ a (Prod.mk.inj h1).1

/-- the default solver with the filter. -/
def pushFull (f : Bool) : PyFull pushB := PyFull.new f (Data.zero _) (0 : ℕ)

theorem pushFull_answered (f : Bool) : ∀ i q, i ≤ 1 → Heads ((pushFull f).begin_ none none) i q →
    (pushB.run q.m (PyDense.inputs q.p.evaluate.data q.p.evaluate.gap)).1 ≠ none := by
  have h0 : ∀ f, (pushB.run ((pushFull f).begin_ none none).m (PyDense.inputs ((pushFull f).begin_ none none).p.evaluate.data
      ((pushFull f).begin_ none none).p.evaluate.gap)).1.isSome = true := by decide +kernel
  have h1 : ∀ f, (match PyFull.iterate 1 0 ((pushFull f).begin_ none none) with
      | .inr q => (pushB.run q.m (PyDense.inputs q.p.evaluate.data q.p.evaluate.gap)).1.isSome
      | .inl _ => false) = true := by decide +kernel
  intro i q hi hq
  cases hq with
  | zero => intro e; have := h0 f; rw [e] at this; cases this
  | succ h hs =>
    cases h with
    | zero =>
      have := h1 f
      rw [hs.iterate] at this
      simp only [] at this
      intro e
      rw [e] at this
      cases this
    | succ h hs => omega

/-- **the theorem applied**: default solver, default guess, bound active at the solution; `u_0 = 1`, positive multiplier, two QPs. -/
theorem C88_dense_example : ∃ s', PyFull.solve none none 10 (pushFull true) = (some true, s') ∧ s'.nQP = 2 ∧
    OptimalCon pushed s'.p.xs s'.p.us ∧ s'.p.us 0 (0 : Fin 1) = (1 : ℚ) ∧ s'.p.q.y 0 (0 : Fin 1) ≠ (0 : ℚ) := by
  obtain ⟨s', h, h2⟩ := C88_dense_constrained_lq (s := pushFull true) (xs := none) (us := none) (m := 10) Nat.zero_lt_one (fun _ => rfl) (pushB_exact.back Nat.zero_lt_one fun _ => rfl)
    (clq_euclid _ _ _ _ _) (clq_affine _ _ _ _ _) (clq_quadGrad _ _ _ _ _) (clq_quadCost _ _ _ _ _) (clq_affineCon _ _ _ _ _)
    (clq_constCon _ _ _ _ _) pushed_sym pushed_convex pushed_strict (.new _ _ _) (by decide +kernel) (by decide) (.inl rfl)
    (pushFull_answered true)
  have e : (fun r : Option Bool × PyFull pushB => (r.2.nQP, decide (r.2.p.us 0 (0 : Fin 1) = (1 : ℚ)), decide (r.2.p.q.y 0 (0 : Fin 1) = (0 : ℚ))))
      (PyFull.solve none none 10 (pushFull true)) = (2, true, false) := by decide +kernel
  rw [h] at e
  simp only [Prod.mk.injEq, decide_eq_true_eq, decide_eq_false_iff_not] at e
  refine ⟨s', h, e.1, ?_, e.2.1, e.2.2⟩
  rcases h2 with ⟨h3, _⟩ | ⟨_, _, h4⟩
  · have : (pushFull true).nQP = 0 := rfl
    omega
  · exact h4

end Ex
end Mim
