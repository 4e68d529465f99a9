import Verif.Props.PyCSQP
import Verif.Lemmas.PyQPLoop
import Verif.Lemmas.CSQPCalls

/-!
# C74: the Python prototype `CSQP` and the C++ `SolverCSQP` compute the same direction
-/
set_option linter.unusedSectionVars false
set_option linter.unusedSimpArgs false

namespace Mim
open Spec Matrix QP PyCSQP

section
variable {K : Type} [Field K] [LinearOrder K] [IsStrictOrderedRing K] [SqrtOps K] {P : Problem K}

/-- The Python options and the C++ options describe the same ADMM method: same parameters, a penalty update interval of at least
2, a relative tolerance that is not a positive number below `2⁻⁵²`, the standard dual residual on both sides. -/
structure SameQPConf (c : PyConf K) (c' : CConf K) : Prop where
  sigma : c'.sigma = c.sigma
  alpha : c'.alpha = c.alpha
  interval : c'.interval = c.interval
  two : 2 ≤ c.interval
  maxQP : c'.maxQP = c.maxQP
  rhoMin : c'.rhoMin = c.rhoMin
  rhoMax : c'.rhoMax = c.rhoMax
  rhoBase : c'.rhoBase = c.rhoBase
  adaptTol : c'.adaptTol = c.adaptTol
  epsAbs : c'.epsAbs = c.epsAbs
  epsRel : c'.epsRel = c.epsRel
  rel : 1 / 2 ^ 52 < |c.epsRel| ∨ c.epsRel = 0
  eqGuess : c'.eqGuess = c.eqGuess
  resetY : c'.resetY = c.resetY
  resetRho : c'.resetRho = c.resetRho
  heuristic : c'.heuristic = false
  osqp : c.osqp = true

/-- the datas agree where no node of the problem is (an artefact of modelling arrays as functions on `ℕ`; the datas of the nodes
are recomputed before they are read). -/
def Data.Tail (d d' : Data P) : Prop := ∀ t, P.T ≤ t → d.run t = d'.run t ∧ d.rd t = d'.rd t

/-- At the beginning of an iteration the two solvers work on the same problem and hold the same candidate, the same directions and multipliers and, unless this iteration resets them, the same penalties; the C++ solver is not
regularized. -/
structure Twin (n : ℕ) (p : PyCSQP P) (s : CSQP P) : Prop where
  conf : SameQPConf p.c s.c
  iter : s.iter = n
  xs : ∀ t, t ≤ P.T → p.xs t = s.xs t
  us : ∀ t, t < P.T → p.us t = s.us t
  data : p.data.Tail s.data
  gap : p.gap P.T = 0
  fs0 : s.e.fs 0 = 0
  preg : s.preg = 0
  dreg : s.dreg = 0
  dx : ∀ t, t ≤ P.T → p.q.dx t = s.q.v.dx t
  du : ∀ t, t < P.T → p.q.du t = s.q.v.du t
  dxt : ∀ t, t ≤ P.T → p.q.dxt t = s.q.v.dxt t
  dut : ∀ t, t < P.T → p.q.dut t = s.q.v.dut t
  z : ∀ t, t ≤ P.T → p.q.z t = s.q.v.z t
  y : ∀ t, t ≤ P.T → p.q.y t = s.q.v.y t
  rho : (n = 0 ∧ p.c.resetRho = false) ∨
    ((∀ t, t ≤ P.T → p.q.rho t = s.q.v.rho t) ∧ (∀ t, t ≤ P.T → ∀ i, s.q.v.inv t i = 1 / s.q.v.rho t i) ∧
      p.q.rhoSparse = s.q.rhoSparse)

theorem twin_data {xs xs' : Traj P} {us us' : Ctrls P} {d d' : Data P} (hd : d.Tail d') (hx : ∀ t, t ≤ P.T → xs t = xs' t)
    (hu : ∀ t, t < P.T → us t = us' t) :
    (d.calcAll xs us).calcDiffAll xs us = (d'.calcAll xs' us').calcDiffAll xs' us' := by
  unfold Data.calcAll Data.calcDiffAll
  simp only [hx P.T le_rfl]
  congr 1
  · funext t
    by_cases ht : t < P.T
    · simp only [ht, if_true, hx t ht.le, hu t ht]
    · simp only [ht, if_false]; exact (hd t (not_lt.mp ht)).1
  · funext t
    by_cases ht : t < P.T
    · simp only [ht, if_true, hx t ht.le, hu t ht]
    · simp only [ht, if_false]; exact (hd t (not_lt.mp ht)).2

theorem symHess_of (hP : Spec.SymProblem P) {d : Data P} {xs : Traj P} {us : Ctrls P} (h : FreshDiff P d xs us) : SymHess d :=
  ⟨fun t ht => by rw [h.run t ht]; exact hP.xx t ht _ _, fun t ht => by rw [h.run t ht]; exact hP.uu t ht _ _,
    by rw [h.ter]; exact hP.T _⟩

theorem twin_match (W : World K) {n : ℕ} {p : PyCSQP P} {s : CSQP P} (h : Twin n p s) :
    p.evaluate.env.MatchLoop (s.calcEval.env W) := by
  have hd : s.calcEval.data = p.evaluate.data := by
    change (s.data.calcAll s.xs s.us).calcDiffAll s.xs s.us = (p.data.calcAll p.xs p.us).calcDiffAll p.xs p.us
    exact (twin_data h.data h.xs h.us).symm
  have c := h.conf
  refine ⟨⟨c.sigma, c.alpha, hd, fun t ht => ?_, h.preg, h.dreg⟩, c.interval, c.two, c.maxQP, c.rhoMin, c.rhoMax, c.rhoBase, c.adaptTol,
    c.epsAbs, c.epsRel, c.rel, c.eqGuess, c.resetY, c.resetRho, c.heuristic, c.osqp⟩
  have h1 : p.evaluate.gap t = shootGap P p.xs p.us t := (evaluate_gap p).1 t ht
  have h2 : s.calcEval.e.fs (t + 1) = P.diff (s.xs (t + 1)) (s.calcEval.data.run t).xnext := by
    change (if t < P.T then _ else _) = _
    rw [if_pos ht]
    rfl
  change s.calcEval.e.fs (t + 1) = p.evaluate.gap t
  rw [h1, h2, hd, (evaluate_fresh p).1.run t ht]
  unfold shootGap
  rw [h.xs (t + 1) ht]

/-- **C74.**  From the same candidate, multipliers and penalties, on problems whose rows are not degenerate (no crossed bounds, no
bounds exactly `1e-6` apart), with an exact Cholesky factorisation and without regularization: whenever the C++ solver computes
its direction without an exception and without running out of time, in any multi-threaded schedule, the Python class computes,
in the same number of QP iterations, the same direction, the same constraint multipliers, the same penalties and the same
multipliers of the dynamics.  The C++ residual is the Python residual or, if larger, the state equation of node 0, which the
Python class does not check. -/
theorem C74_pycsqp_direction {L : PyLLT K} {W : World K} (hllt : LLTExact L.llt) (hW : W.llt = L.llt)
    (hsched : W.sched = none ∨ ∃ l, W.sched = some l ∧ SchedOK P l) (hP : Spec.SymProblem P) (hr : PlainRows P) (hT : 0 < P.T)
    {n : ℕ} {p : PyCSQP P} {s s1 : CSQP P} (h : Twin n p s) (hq : p.c.maxQP ≠ 0)
    (hs : s.prepare.dir W = .ok s1) (ht : s1.q.reached = false) :
    ∃ p1, dirAt L n p = .ok p1 ∧
      (∀ t, t ≤ P.T → p1.q.dx t = s1.q.v.dx t) ∧ (∀ t, t < P.T → p1.q.du t = s1.q.v.du t) ∧
      (∀ t, t ≤ P.T → p1.q.y t = s1.q.v.y t) ∧ (∀ t, t ≤ P.T → p1.q.z t = s1.q.v.z t) ∧
      (∀ t, t ≤ P.T → p1.q.rho t = s1.q.v.rho t) ∧ p1.q.rhoSparse = s1.q.rhoSparse ∧ p1.q.qpIters = s1.q.exec ∧
      (∀ t, t ≤ P.T → p1.kktCheck.lagMul t = s1.checkKKT.lagMul t) ∧
      s1.checkKKT.m.KKT = max (exactNormInf ((p1.data.rd 0).Lx + (p1.data.rd 0).Fxᵀ *ᵥ p1.kktCheck.lagMul 1 - p1.kktCheck.lagMul 0))
        p1.kktCheck.KKT ∧
      (∀ t, t ≤ P.T → p1.q.dxt t = s1.q.v.dxt t) ∧ (∀ t, t < P.T → p1.q.dut t = s1.q.v.dut t) ∧
      (∀ t, t ≤ P.T → ∀ i, s1.q.v.inv t i = 1 / s1.q.v.rho t i) ∧
      p1.data = s1.data ∧ (∀ t, t < P.T → p1.gap t = s1.e.fs (t + 1)) ∧ p1.con = s1.e.con := by
  have hm := twin_match W h
  -- the penalties after the possible reset
  have hv : ∃ q0, s.prepare = { s.calcEval with q := q0 } ∧ (p.evaluate.resetFirst n).q.SimV q0.v ∧
      (p.evaluate.resetFirst n).q.rhoSparse = q0.rhoSparse := by
    unfold CSQP.prepare PyCSQP.resetFirst
    simp only []
    have hc1 : s.calcEval.iter = n := h.iter
    have hc2 : s.calcEval.c.resetRho = p.evaluate.c.resetRho := h.conf.resetRho
    by_cases hn : n = 0 ∧ p.evaluate.c.resetRho = false
    · have hn' : s.calcEval.iter = 0 ∧ s.calcEval.c.resetRho = false := ⟨hc1.trans hn.1, hc2.trans hn.2⟩
      rw [if_pos hn, if_pos hn']
      refine ⟨_, rfl, ?_, h.conf.rhoBase.symm⟩
      unfold PyQP.resetRhoVec CQP.resetRho PyQP.applyRho applyRho
      have hrow : ∀ t, t ≤ P.T → ∀ i, pyRhoRow p.c.rhoMin p.c.rhoBase (P.lb t i) (P.ub t i) (p.q.rho t i) =
          (rhoRow s.c.rhoMin s.c.rhoBase (P.lb t i) (P.ub t i) (s.q.v.rho t i, s.q.v.inv t i)).1 ∧
          (rhoRow s.c.rhoMin s.c.rhoBase (P.lb t i) (P.ub t i) (s.q.v.rho t i, s.q.v.inv t i)).2 =
          1 / (rhoRow s.c.rhoMin s.c.rhoBase (P.lb t i) (P.ub t i) (s.q.v.rho t i, s.q.v.inv t i)).1 := by
        intro t ht i
        rw [h.conf.rhoMin, h.conf.rhoBase]
        exact py_rhoRow (hr t ht i) _ _
      refine ⟨h.dx, h.du, h.dxt, h.dut, h.z, h.y, fun t ht => ?_, fun t ht i => ?_⟩
      · simp only [ht, if_true]
        funext i
        exact (hrow t ht i).1
      · simp only [ht, if_true]
        exact (hrow t ht i).2
    · have hn' : ¬(s.calcEval.iter = 0 ∧ s.calcEval.c.resetRho = false) := fun hh => hn ⟨hc1.symm.trans hh.1, hc2.symm.trans hh.2⟩
      rw [if_neg hn, if_neg hn']
      rcases h.rho with hc | ⟨r1, r2, r3⟩
      · exact absurd hc hn
      · exact ⟨s.q, rfl, ⟨h.dx, h.du, h.dxt, h.dut, h.z, h.y, r1, r2⟩, r3⟩
  obtain ⟨q0, e0, v0, r0⟩ := hv
  -- the C++ direction without threads
  rw [e0] at hs
  have hdir : ∃ q1, q0.computeDirection L.llt ((s.calcEval.env W).withSched none) = .ok q1 ∧ s1 = { s.calcEval with q := q1 } := by
    unfold CSQP.dir at hs
    have he : ({ s.calcEval with q := q0 } : CSQP P).env W = s.calcEval.env W := rfl
    rw [he, hW] at hs
    simp only [] at hs
    cases hcd : q0.computeDirection L.llt (s.calcEval.env W) with
    | exn q1 => rw [hcd] at hs; cases hs
    | ok q1 =>
      rw [hcd] at hs
      simp only [Res.map] at hs
      cases hs
      refine ⟨q1, ?_, rfl⟩
      rcases hsched with hn | ⟨l, hl, hok⟩
      · rw [show (s.calcEval.env W).withSched none = s.calcEval.env W by
          unfold QEnv.withSched CSQP.env; simp only [hn]]
        exact hcd
      · have hsame := C26_csqp_direction_mt (llt := L.llt) (E := s.calcEval.env W) hok q0
        rw [show (s.calcEval.env W).withSched (some l) = s.calcEval.env W by
          unfold QEnv.withSched CSQP.env; simp only [hl], hcd] at hsame
        rcases hsame with ⟨q, h1, h2⟩ | ⟨q, b, h1, h2⟩
        · cases h2; exact h1
        · cases h2
  obtain ⟨q1, hd1, rfl⟩ := hdir
  have hm' : p.evaluate.env.MatchLoop ((s.calcEval.env W).withSched none) :=
    ⟨⟨hm.sigma, hm.alpha, hm.d, hm.gap, hm.preg, hm.dreg⟩, hm.interval, hm.two, hm.maxQP, hm.rhoMin, hm.rhoMax, hm.rhoBase, hm.adaptTol,
      hm.epsAbs, hm.epsRel, hm.rel, hm.eqGuess, hm.resetY, hm.resetRho, hm.heuristic, hm.osqp⟩
  have hdd : ((s.calcEval.env W).withSched none).d = p.evaluate.data := hm.d
  have hsym : SymHess ((s.calcEval.env W).withSched none).d := by
    rw [hdd]; exact symHess_of hP (evaluate_fresh p).2
  obtain ⟨p', hp', sv, sr, si, sb⟩ := py_direction hllt hsym hr hm' v0 r0 rfl hd1 ht
  have hb := sb (.inr (.inr hq))
  have henv : (p.evaluate.resetFirst n).env = p.evaluate.env := by unfold resetFirst; split <;> rfl
  have hrest : ({ (p.evaluate.resetFirst n) with q := p' } : PyCSQP P) = { p.evaluate with q := p' } := by
    unfold resetFirst; split <;> rfl
  have hdirp : dirAt L n p = .ok { p.evaluate with q := p' } := by
    unfold dirAt computeDirection
    rw [henv, hp']
    simp only [Res.map]
    rw [hrest]
  have hlam : ∀ t, t ≤ P.T → ({ p.evaluate with q := p' } : PyCSQP P).kktCheck.lagMul t =
      ({ s.calcEval with q := q1 } : CSQP P).checkKKT.lagMul t := by
    intro t ht
    unfold kktCheck CSQP.checkKKT CSQP.multipliers
    simp only [ht, if_true, mv_exact]
    rw [hb.Vxx t ht, hb.Vx t ht, sv.dxt t ht, add_comm]
  refine ⟨_, hdirp, sv.dx, sv.du, sv.y, sv.z, sv.rho, sr, si, hlam, ?_, sv.dxt, sv.dut, sv.inv,
    hdd.symm, fun t ht => (hm.gap t ht).symm, ?_⟩
  swap
  · change conNorm p.evaluate.data = CSQP.conNorm s.calcEval.data
    rw [show s.calcEval.data = p.evaluate.data from hdd]; rfl
  have hcd : s.calcEval.data = p.evaluate.data := hdd
  have hcon : s.calcEval.e.con = p.evaluate.con := by
    change CSQP.conNorm s.calcEval.data = conNorm p.evaluate.data
    rw [hcd]; rfl
  have hK : ({ s.calcEval with q := q1 } : CSQP P).checkKKT.m.KKT =
      ckktResidual s.calcEval.data s.calcEval.e.fs ({ s.calcEval with q := q1 } : CSQP P).checkKKT.lagMul q1.v.y s.calcEval.e.con := rfl
  have hn0 : 0 ≤ max (exactNormInf ((p.evaluate.data.rd 0).Lx + (p.evaluate.data.rd 0).Fxᵀ *ᵥ
      ({ p.evaluate with q := p' } : PyCSQP P).kktCheck.lagMul 1 - ({ p.evaluate with q := p' } : PyCSQP P).kktCheck.lagMul 0))
      ({ p.evaluate with q := p' } : PyCSQP P).kktCheck.KKT := le_trans (kktCheck_nonneg _) (le_max_right _ _)
  have hk0 : 0 ≤ ckktResidual s.calcEval.data s.calcEval.e.fs ({ s.calcEval with q := q1 } : CSQP P).checkKKT.lagMul q1.v.y s.calcEval.e.con := by
    unfold ckktResidual
    simp only [cppMax_exact]
    refine le_trans ?_ (le_max_left _ _)
    refine le_trans ?_ (le_max_right _ _)
    exact ((forUp_max_le (P.T + 1) (fun t => normInf (s.calcEval.e.fs t)) 0 _).1 le_rfl).1
  have hgT : p.evaluate.gap P.T = 0 := (evaluate_gap p).2.trans h.gap
  have hf0 : s.calcEval.e.fs 0 = 0 := h.fs0
  have iff_ : ∀ c, 0 ≤ c → (ckktResidual s.calcEval.data s.calcEval.e.fs ({ s.calcEval with q := q1 } : CSQP P).checkKKT.lagMul q1.v.y
      s.calcEval.e.con ≤ c ↔ max (exactNormInf ((p.evaluate.data.rd 0).Lx + (p.evaluate.data.rd 0).Fxᵀ *ᵥ
      ({ p.evaluate with q := p' } : PyCSQP P).kktCheck.lagMul 1 - ({ p.evaluate with q := p' } : PyCSQP P).kktCheck.lagMul 0))
      ({ p.evaluate with q := p' } : PyCSQP P).kktCheck.KKT ≤ c) := by
    intro c hc
    rw [C03_csqp_residual_meaning _ _ _ _ _ _ hc, max_le_iff, kktCheck_le _ c hc, exactNormInf_le, hcd, hcon]
    constructor
    · rintro ⟨m1, m2, m3, m4, m5, m6⟩
      refine ⟨⟨hc, fun i => ?_⟩, fun t h1 h2 i => ?_, fun t h2 i => ?_, fun i => ?_, fun t h2 i => ?_, m6⟩
      · rw [hlam 1 hT, hlam 0 (Nat.zero_le _)]; exact m1 i hT
      · rw [hlam (t + 1) h2, hlam t h2.le]
        change |(_ + _ - _ + _ *ᵥ p'.y t) i| ≤ c
        rw [sv.y t h2.le]; exact m2 t h1 h2 i
      · rw [hlam (t + 1) h2]
        change |(_ + _ + _ *ᵥ p'.y t) i| ≤ c
        rw [sv.y t h2.le]; exact m3 t h2 i
      · rw [hlam P.T le_rfl]
        change |(_ - _ + _ *ᵥ p'.y P.T) i| ≤ c
        rw [sv.y P.T le_rfl]; exact m4 i
      · rcases Nat.eq_or_lt_of_le h2 with rfl | h2
        · change |p.evaluate.gap P.T i| ≤ c
          rw [hgT, Pi.zero_apply, abs_zero]; exact hc
        · have := m5 (t + 1) h2 i
          rw [show s.calcEval.e.fs (t + 1) = p.evaluate.gap t from hm.gap t h2] at this
          exact this
    · rintro ⟨⟨-, m1⟩, m2, m3, m4, m5, m6⟩
      refine ⟨fun i _ => ?_, fun t h1 h2 i => ?_, fun t h2 i => ?_, fun i => ?_, fun t h2 i => ?_, m6⟩
      · rw [← hlam 1 hT, ← hlam 0 (Nat.zero_le _)]; exact m1 i
      · have := m2 t h1 h2 i
        rw [hlam (t + 1) h2, hlam t h2.le] at this
        rw [← sv.y t h2.le]; exact this
      · have := m3 t h2 i
        rw [hlam (t + 1) h2] at this
        rw [← sv.y t h2.le]; exact this
      · have := m4 i
        rw [hlam P.T le_rfl] at this
        rw [← sv.y P.T le_rfl]; exact this
      · cases t with
        | zero => rw [hf0, Pi.zero_apply, abs_zero]; exact hc
        | succ t =>
          rw [show s.calcEval.e.fs (t + 1) = p.evaluate.gap t from hm.gap t h2]
          exact m5 t (by omega) i
  rw [hK]
  exact le_antisymm ((iff_ _ hn0).2 le_rfl) ((iff_ _ hk0).1 le_rfl)

end
end Mim
