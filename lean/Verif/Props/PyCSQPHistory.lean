import Verif.Lemmas.PyCSQPHist
import Verif.Props.PyCSQPEx

/-!
# C77: what a call of the Python prototype `CSQP` remembers of earlier calls
-/
set_option linter.unusedSectionVars false
set_option linter.unusedSimpArgs false

namespace Mim
open Spec

namespace PyCSQP
section
variable {F : Type} [Add F] [Sub F] [Mul F] [Div F] [Neg F] [Zero F] [One F] [FloatOps F] [SqrtOps F] {P : Problem F}

/-- the same options. -/
structure SameOptions (p q : PyCSQP P) : Prop where
  c : p.c = q.c
  mu1 : p.mu1 = q.mu1
  mu2 : p.mu2 = q.mu2
  lagCoef : p.lagCoef = q.lagCoef
  tol : p.tol = q.tol
  useFilter : p.useFilter = q.useFilter
  filterSize : p.filterSize = q.filterSize
  extra : p.extra = q.extra

theorem SameOptions.keep {p q : PyCSQP P} (h : SameOptions p q) (hp : Reachable p) (hq : Reachable q) : PyCSQP.keep p = PyCSQP.keep q := by
  unfold PyCSQP.keep
  rw [h.c, h.mu1, h.mu2, h.lagCoef, h.tol, h.useFilter, h.filterSize, h.extra, hp.clean.gap, hp.clean.gapTry, hq.clean.gap, hq.clean.gapTry]

/-- **C77, only the multipliers are remembered.**  Two objects with any histories and the same options, the equality-constrained guess
enabled and at least one QP iteration: if they store the same constraint multipliers (or reset them), and the same costates and multipliers
(unless the merit weights are fixed and the OSQP rule is used), then every call of `solve` with at least one iteration has the same outcome
and leaves the same candidate; if it returns, also the same multipliers, direction and residual. -/
theorem C77_pycsqp_only_multipliers (L : PyLLT F) (hD : PyQP.Decided P) (xs : Option (Traj P)) (us : Option (Ctrls P)) (m : ℕ) {p q : PyCSQP P}
    (hp : Reachable p) (hq : Reachable q) (ho : SameOptions p q) (hg : p.c.eqGuess = true) (hm : p.c.maxQP ≠ 0) (hit : m ≠ 0)
    (hy : p.c.resetY = true ∨ ∀ t, t ≤ P.T → p.q.y t = q.q.y t)
    (hl : (p.auto = false ∧ p.c.osqp = true) ∨ SameMult p q) :
    ∃ o p' q', solve L xs us m p = (o, p') ∧ solve L xs us m q = (o, q') ∧ Alike p' q' ∧ ((∃ b, o = .ret b) → Result p' q') := by
  have hk := ho.keep hp hq
  have h0 : Before 0 (p.start xs us) (q.start xs us) := by
    refine ⟨⟨hk, fun _ _ => rfl, fun _ _ => rfl⟩, ?_, ?_, ?_, hy, hl, .inl rfl⟩
    · refine ⟨?_, ?_⟩ <;> simp only [start, ho.filterSize]
    · exact hp.zero0.1.trans hq.zero0.1.symm
    · exact hp.zero0.2.trans hq.zero0.2.symm
  unfold solve
  rcases iterate_alike L hD m 0 h0 hg hm with ⟨o, p', q', e1, e2, ha, hr⟩ | ⟨p', q', e1, e2, hb, hr, hc⟩
  · rw [e1, e2]
    exact ⟨o, p', q', rfl, rfl, ha, hr⟩
  · rw [e1, e2]
    simp only []
    have kk := keep_all hb.keep
    rw [← kk.2.2.2.2.2.2.2.1]
    split
    · have hb1 : Before 1 p' q' := ⟨hb.toAlike, hb.flt, hb.dx0, hb.dxt0, hb.y, hb.mult, hb.rho.elim (fun e => absurd e (by omega)) .inr⟩
      have hd := dirAt_alike L hD 1 hb1 (by rw [hc]; exact hg) (by rw [hc]; exact hm)
      rw [extra_eq, extra_eq]
      generalize dirAt L 1 p' = rp at hd
      generalize dirAt L 1 q' = rq at hd
      cases hd with
      | exn hab => exact ⟨_, _, _, rfl, rfl, hab, fun ⟨b, e⟩ => (by cases e)⟩
      | ok hab =>
        simp only []
        obtain ⟨k1, k2, k3⟩ := kktCheck_dirs hab
        rw [← k1, ← (keep_all k3.keep).2.2.2.2.1]
        exact ⟨_, _, _, rfl, rfl, k3.toAlike, fun _ => ⟨k3.toAlike, ⟨k2, hab.dir.y⟩, k1, hab.dir.dx, hab.dir.du⟩⟩
    · exact ⟨_, _, _, rfl, rfl, hb.toAlike, fun _ => hr hit⟩

/-- **C77, no memory.**  With `reset_y`, the equality-constrained guess, the OSQP rule and fixed merit weights, a call of `solve` on a used
object is a call on a new one with the same options. -/
theorem C77_pycsqp_history (L : PyLLT F) (hD : PyQP.Decided P) (xs : Option (Traj P)) (us : Option (Ctrls P)) (m : ℕ) {p : PyCSQP P}
    (hp : Reachable p) (hg : p.c.eqGuess = true) (hm : p.c.maxQP ≠ 0) (hit : m ≠ 0) (hy : p.c.resetY = true) (ha : p.auto = false)
    (hos : p.c.osqp = true) (d : Data P) :
    ∃ o p' q', solve L xs us m p = (o, p') ∧
      solve L xs us m { new p.useFilter d with
        c := p.c, mu1 := p.mu1, mu2 := p.mu2, lagCoef := p.lagCoef, tol := p.tol, filterSize := p.filterSize, extra := p.extra } = (o, q') ∧
      Alike p' q' ∧ ((∃ b, o = .ret b) → Result p' q') :=
  C77_pycsqp_only_multipliers L hD xs us m hp
    (.options (new p.useFilter d) p.c p.mu1 p.mu2 p.lagCoef p.tol p.useFilter p.filterSize p.extra (.new _ _))
    ⟨rfl, rfl, rfl, rfl, rfl, rfl, rfl, rfl⟩ hg hm hit (.inl hy) (.inl ⟨ha, hos⟩)

end

/-- in exact arithmetic every bound is a number. -/
theorem decided_exact {K : Type} [Field K] [LinearOrder K] [IsStrictOrderedRing K] (P : Problem K) : PyQP.Decided P := by
  intro t ht i l u hl hu
  by_cases e : l = u
  · refine .inl (decide_eq_true ?_)
    rw [e, sub_self, lit_exact]
    simp
  · rcases lt_or_gt_of_ne e with h | h
    · exact .inr (.inl (decide_eq_true h))
    · exact .inr (.inr (decide_eq_true h))

end PyCSQP

namespace Ex
open PyCSQP

/-- the default object for `clq 1 1 1 1 (-5)` (the constraint `u ≤ 1` is active at the solution), one QP iteration. -/
def pyOld : PyCSQP (clq 1 1 1 1 (-5)) :=
  let p := PyCSQP.new false (Data.zero (clq 1 1 1 1 (-5)))
  { p with c := { p.c with maxQP := 1 } }

theorem pyOld_runs : (sc ((PyCSQP.solve pl none none 1 pyOld).2.us 0),
    sc ((PyCSQP.solve pl none none 1 (PyCSQP.solve pl none none 1 pyOld).2).2.us 0)) =
    ((5000005 / 4200004 : ℚ), (4955009950005 / 4410008400004 : ℚ)) := by decide +kernel

/-- **C77 fails by default**: by default (`reset_y` false) the same call on the same object gives a different candidate the second time. -/
theorem C77_pycsqp_remembers : ∃ o o' p' p'', PyCSQP.solve pl none none 1 pyOld = (o, p') ∧ PyCSQP.solve pl none none 1 p' = (o', p'') ∧
    PyCSQP.Reachable p' ∧ SameOptions p' pyOld ∧ p'.c.eqGuess = true ∧ p''.us 0 ≠ p'.us 0 := by
  have h := pyOld_runs
  simp only [Prod.mk.injEq] at h
  generalize hr : PyCSQP.solve pl none none 1 pyOld = r at h
  obtain ⟨o, p'⟩ := r
  generalize hr' : PyCSQP.solve pl none none 1 p' = r'
  obtain ⟨o', p''⟩ := r'
  simp only [hr'] at h
  obtain ⟨k1, k2, k3, k4, k5, k6, k7, k8, -⟩ := keep_all (solve_keep hr)
  refine ⟨o, o', p', p'', rfl, hr', ?_, ⟨k1, k2, k3, k4, k5, k6, k7, k8⟩, by rw [k1]; rfl, fun e => ?_⟩
  · exact .solve pyOld p' pl none none 1 o (.options _ _ _ _ _ _ _ _ _ (.new false (Data.zero _))) hr
  · rw [e, h.1] at h
    exact absurd h.2 (by norm_num)

/-- `C77_pycsqp_history` applies to a used object once `reset_y` is set: the second call repeats the first. -/
example : ∃ p1 : PyCSQP (clq 1 1 1 1 (-5)), PyCSQP.Reachable p1 ∧ p1.c.eqGuess = true ∧ p1.c.maxQP ≠ 0 ∧ p1.c.resetY = true ∧ p1.auto = false ∧
    p1.c.osqp = true ∧ PyQP.Decided (clq 1 1 1 1 (-5)) ∧ sc (p1.q.y 0) ≠ 0 := by
  let s : PyCSQP (clq 1 1 1 1 (-5)) := { pyOld with c := { pyOld.c with resetY := true } }
  have hs : PyCSQP.Reachable s := .options _ _ _ _ _ _ _ _ _ (.options _ _ _ _ _ _ _ _ _ (.new false (Data.zero _)) : PyCSQP.Reachable pyOld)
  generalize hr : PyCSQP.solve pl none none 1 s = r
  obtain ⟨o, p'⟩ := r
  obtain ⟨k1, k2, k3, k4, k5, k6, k7, k8, -⟩ := keep_all (solve_keep hr)
  have ha : p'.auto = s.auto := by unfold PyCSQP.auto; rw [k2, k3]
  refine ⟨p', .solve s p' pl none none 1 o hs hr, by rw [k1]; rfl, by rw [k1]; decide, by rw [k1], ?_, by rw [k1]; rfl, decided_exact _, ?_⟩
  · rw [ha]; decide +kernel
  · have : sc ((PyCSQP.solve pl none none 1 s).2.q.y 0) ≠ 0 := by
      have : decide (sc ((PyCSQP.solve pl none none 1 s).2.q.y 0) = 0) = false := by decide +kernel
      exact of_decide_eq_false this
    rw [hr] at this
    exact this

end Ex
end Mim
