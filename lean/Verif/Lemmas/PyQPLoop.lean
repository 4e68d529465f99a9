import Verif.Lemmas.PyQPSim
import Verif.Props.CSQPNoCon

/-!
# The loop and the whole `computeDirection`: Python and C++ (exact arithmetic)
-/
set_option linter.unusedSectionVars false
set_option linter.unusedSimpArgs false

namespace Mim
open Matrix Spec QP

section
variable {K : Type} [Field K] [LinearOrder K] [IsStrictOrderedRing K] [SqrtOps K] {P : Problem K}
variable {PE : PyEnv P} {E : QEnv P} {L : PyLLT K}

theorem allFull_step_count {llt : LLT K} {q q' : CQP P} (h : AllFull.step llt E q = .ok q') :
    q'.qpIters = q.qpIters ∧ q'.exec = q.exec + 1 := by
  unfold AllFull.step at h
  cases hf : fullPass llt E q.v q.b with
  | exn b => rw [hf] at h; cases h
  | ok B =>
    rw [hf] at h
    simp only [Res.map, Res.thenDo] at h
    cases h
    refine ⟨?_, rfl⟩
    exact (Mim.updateRho_b E _).2

theorem py_converged (hm : PE.MatchLoop E) {p : PyQP P} {q : CQP P} (hi : 1 ≤ q.qpIters) (hn : SimN p.n q.n)
    (hd : q.qpIters % E.c.interval = 0) : p.converged PE q.qpIters = (q.setTol E.c).converged := by
  unfold PyQP.converged
  rw [due_iff hm hi, hn.p, hn.d, hn.pr, hn.dr, ← hm.epsAbs, ← hm.epsRel]
  simp only [hd, decide_true, Bool.true_and]
  unfold CQP.setTol CQP.converged
  simp only [leb_exact, absf_exact, lit_exact]
  rcases hm.rel with h | h
  · have h' : ¬ |E.c.epsRel| ≤ ((1 / 2 ^ 52 : ℚ) : K) := by
      rw [hm.epsRel]; push_cast; exact not_le.mpr h
    rw [if_neg (by simpa using h')]
  · rw [hm.epsRel, h]
    have h' : |(0 : K)| ≤ ((1 / 2 ^ 52 : ℚ) : K) := by rw [abs_zero]; positivity
    rw [if_pos (by simpa using h')]
    simp only [zero_mul, add_zero]

/-- **The loop.**  Where the C++ loop (with full backward passes) neither throws nor runs out of time, the Python loop ends in
the same iteration with the same values. -/
theorem py_loop (hllt : LLTExact L.llt) (hsym : SymHess E.d) (hr : PlainRows P) (hm : PE.MatchLoop E) (n : ℕ) {p : PyQP P}
    {q q' : CQP P} (hi : 1 ≤ q.qpIters) (he : q.exec + 1 = q.qpIters) (hv : p.SimV q.v) (hs : p.rhoSparse = q.rhoSparse)
    (h : AllFull.loop L.llt E n q = .ok q') (ht : q'.reached = false) :
    (p.loop L PE n q.qpIters).SimV q'.v ∧ (p.loop L PE n q.qpIters).rhoSparse = q'.rhoSparse ∧
    (p.loop L PE n q.qpIters).qpIters = q'.exec ∧ ((p.SimB q.b.bp ∨ n ≠ 0) → (p.loop L PE n q.qpIters).SimB q'.b.bp) := by
  induction n generalizing p q with
  | zero =>
    cases h
    refine ⟨⟨hv.dx, hv.du, hv.dxt, hv.dut, hv.z, hv.y, hv.rho, hv.inv⟩, hs, ?_, ?_⟩
    · change q.qpIters - 1 = q.exec
      omega
    · rintro (hb | hb)
      · exact ⟨hb.Vxx, hb.Vx, hb.K, hb.k⟩
      · exact absurd rfl hb
  | succ n ih =>
    unfold AllFull.loop at h
    simp only [] at h
    cases hup : q.timeUp E with
    | true =>
      rw [hup] at h
      simp only [if_true] at h
      cases h
      cases ht
    | false =>
      rw [hup] at h
      simp only [Bool.false_eq_true, if_false] at h
      cases hst : AllFull.step L.llt E { q with tick := q.tick + 1 } with
      | exn q1 => rw [hst] at h; cases h
      | ok q1 =>
        rw [hst] at h
        simp only [Res.bind_ok] at h
        obtain ⟨s1, s2, s3, s4⟩ := py_step hllt hsym hr hm (p := p) (q := { q with tick := q.tick + 1 }) hi hv hs hst
        obtain ⟨c1, c2⟩ := allFull_step_count hst
        simp only [] at s1 s2 s3 s4 c1 c2
        unfold PyQP.loop
        simp only []
        by_cases hd : q1.qpIters % E.c.interval = 0
        · simp only [hd, if_true] at h
          have hc := py_converged hm (p := p.step L PE q.qpIters) (q := q1) (by omega) s4 hd
          rw [c1] at hc
          rw [hc]
          obtain ⟨e1, e2, e3⟩ := setTol_v E.c q1
          cases hcv : (q1.setTol E.c).converged with
          | true =>
            rw [hcv] at h
            simp only [if_true] at h ⊢
            cases h
            have e4 : (q1.setTol E.c).rhoSparse = q1.rhoSparse ∧ (q1.setTol E.c).exec = q1.exec := by
              unfold CQP.setTol; split <;> exact ⟨rfl, rfl⟩
            refine ⟨?_, ?_, ?_, fun _ => ?_⟩
            · simp only [e1]; exact ⟨s1.dx, s1.du, s1.dxt, s1.dut, s1.z, s1.y, s1.rho, s1.inv⟩
            · simp only [e4.1]; exact s3
            · simp only [e4.2]; omega
            · simp only [e2]; exact ⟨s2.Vxx, s2.Vx, s2.K, s2.k⟩
          | false =>
            rw [hcv] at h
            simp only [Bool.false_eq_true, if_false] at h ⊢
            have e4 : (q1.setTol E.c).rhoSparse = q1.rhoSparse ∧ (q1.setTol E.c).exec = q1.exec ∧
                (q1.setTol E.c).qpIters = q1.qpIters := by
              unfold CQP.setTol; split <;> exact ⟨rfl, rfl, rfl⟩
            have := ih (p := p.step L PE q.qpIters) (q := { q1.setTol E.c with qpIters := (q1.setTol E.c).qpIters + 1 })
              (by simp only []; omega) (by simp only [e4.2.1, e4.2.2]; omega) (by simp only [e1]; exact s1)
              (by simp only [e4.1]; exact s3) h
            simp only [e4.2.2, c1] at this
            exact ⟨this.1, this.2.1, this.2.2.1, fun _ => this.2.2.2 (.inl (by rw [e2]; exact s2))⟩
        · simp only [hd, if_false] at h
          have hc : (p.step L PE q.qpIters).converged PE q.qpIters = false := by
            unfold PyQP.converged
            rw [due_iff hm hi, ← c1]
            simp only [hd, decide_false, Bool.false_and]
          rw [hc]
          simp only [Bool.false_eq_true, if_false]
          have := ih (p := p.step L PE q.qpIters) (q := { q1 with qpIters := q1.qpIters + 1 })
            (by simp only []; omega) (by simp only []; omega) s1 s3 h
          simp only [c1] at this
          exact ⟨this.1, this.2.1, this.2.2.1, fun _ => this.2.2.2 (.inl s2)⟩

/-- the parameters are reset alike. -/
theorem py_resetParams (hr : PlainRows P) (hm : PE.MatchLoop E) {p : PyQP P} {q : CQP P} (hv : p.SimV q.v)
    (hs : p.rhoSparse = q.rhoSparse) :
    (p.resetParams PE.c).SimV (q.resetParams E.c).v ∧ (p.resetParams PE.c).rhoSparse = (q.resetParams E.c).rhoSparse := by
  have h1 : (if PE.c.resetRho then p.resetRhoVec PE.c else p).SimV (if E.c.resetRho then q.resetRho E.c else q).v ∧
      (if PE.c.resetRho then p.resetRhoVec PE.c else p).rhoSparse = (if E.c.resetRho then q.resetRho E.c else q).rhoSparse := by
    rw [hm.resetRho]
    split
    · refine ⟨?_, hm.rhoBase.symm⟩
      unfold PyQP.resetRhoVec CQP.resetRho
      simp only [hm.rhoBase]
      exact py_applyRho hr hm.rhoMin _ ⟨hv.dx, hv.du, hv.dxt, hv.dut, hv.z, hv.y, hv.rho, hv.inv⟩
    · exact ⟨hv, hs⟩
  unfold PyQP.resetParams CQP.resetParams
  simp only []
  generalize (if PE.c.resetRho = true then p.resetRhoVec PE.c else p) = p1 at h1 ⊢
  generalize (if E.c.resetRho = true then q.resetRho E.c else q) = q1 at h1 ⊢
  obtain ⟨hv1, hs1⟩ := h1
  rw [← hm.resetY]
  cases E.c.resetY with
  | true =>
    simp only [if_true]
    refine ⟨⟨hv1.dx, hv1.du, hv1.dxt, hv1.dut, fun t ht => ?_, fun t ht => ?_, hv1.rho, hv1.inv⟩, hs1⟩
    · simp only [ht, if_true]
    · simp only [ht, and_self, if_true]
  | false =>
    simp only [Bool.false_eq_true, if_false, false_and]
    refine ⟨⟨hv1.dx, hv1.du, hv1.dxt, hv1.dut, fun t ht => ?_, hv1.y, hv1.rho, hv1.inv⟩, hs1⟩
    simp only [ht, if_true]

/-- the warm start. -/
theorem py_warm (hllt : LLTExact L.llt) (hsym : SymHess E.d) (hm : PE.MatchLoop E) {p : PyQP P} {q q' : CQP P} (hv : p.SimV q.v)
    (hs : p.rhoSparse = q.rhoSparse) (h : q.warm L.llt E = .ok q') :
    (p.warm L PE).SimV q'.v ∧ (p.warm L PE).rhoSparse = q'.rhoSparse ∧
    ((p.SimB q.b.bp ∨ PE.c.eqGuess = true) → (p.warm L PE).SimB q'.b.bp) := by
  unfold CQP.warm at h
  unfold PyQP.warm
  rw [hm.eqGuess] at h
  cases hg : PE.c.eqGuess with
  | false =>
    rw [hg] at h
    simp only [Bool.false_eq_true, if_false] at h ⊢
    cases h
    exact ⟨hv, hs, by rintro (h | h); exacts [h, by cases h]⟩
  | true =>
    rw [hg] at h
    simp only [if_true] at h ⊢
    cases hp : plainPass L.llt E q.b with
    | exn b => rw [hp] at h; cases h
    | ok B =>
      rw [hp] at h
      simp only [Res.map, Res.thenDo] at h
      cases h
      obtain ⟨k1, k2, k3, k4⟩ := plainPass_ok hp
      obtain ⟨hR, hpd⟩ := sweep_riccati hllt (plain_termsOf E hsym) rfl (by rw [k1, regDiag_exact]; rfl) k2 k3 k4
      obtain ⟨hh, hsv⟩ := py_plain hllt hm.toMatch p hR hpd
      obtain ⟨f1, f2, f3⟩ := fwdLoop_spec E B.bp (q.v.dx, q.v.du)
      obtain ⟨g1, g2, g3⟩ := py_fwd hm.toMatch hh ((p.plainPass L PE).dx, (p.plainPass L PE).du)
      have h0 : (forUp P.T (PyQP.fwdStage PE (p.plainPass L PE)) ((p.plainPass L PE).dx, (p.plainPass L PE).du)).1 0 =
          (fwdLoop E B.bp (q.v.dx, q.v.du)).1 0 := by
        rw [g3, f3, hsv.dx]; exact hv.dx 0 (Nat.zero_le _)
      obtain ⟨r1, r2⟩ := rollout_unique (E := E) h0 g1 f1 g2 f2
      unfold PyQP.forwardPlain CQP.forwardPlain
      simp only []
      refine ⟨⟨r1, r2, ?_, ?_, ?_, ?_, ?_, hv.inv⟩, hsv.rhoSparse.trans hs, fun _ => ?_⟩
      · rw [hsv.dxt]; exact hv.dxt
      · rw [hsv.dut]; exact hv.dut
      · rw [hsv.z]; exact hv.z
      · rw [hsv.y]; exact hv.y
      · rw [hsv.rho]; exact hv.rho
      · exact ⟨fun t ht => hh.Vxx t (Nat.zero_le _) ht, fun t ht => hh.Vx t (Nat.zero_le _) ht,
          fun t ht => hh.K t (Nat.zero_le _) ht, fun t ht => hh.k t (Nat.zero_le _) ht⟩

/-- **`computeDirection`.** -/
theorem py_direction (hllt : LLTExact L.llt) (hsym : SymHess E.d) (hr : PlainRows P) (hm : PE.MatchLoop E) {p : PyQP P}
    {q q' : CQP P} (hv : p.SimV q.v) (hs : p.rhoSparse = q.rhoSparse) (hseq : E.sched = none)
    (h : q.computeDirection L.llt E = .ok q') (ht : q'.reached = false) :
    ∃ p', p.computeDirection L PE = .ok p' ∧ p'.SimV q'.v ∧ p'.rhoSparse = q'.rhoSparse ∧ p'.qpIters = q'.exec ∧
      ((p.SimB q.b.bp ∨ PE.c.eqGuess = true ∨ PE.c.maxQP ≠ 0) → p'.SimB q'.b.bp) := by
  rw [C25_csqp_cheap_passes_are_full hseq] at h
  unfold AllFull.computeDirection at h
  obtain ⟨r1, r2⟩ := py_resetParams hr hm hv hs
  cases hw : (q.resetParams E.c).warm L.llt E with
  | exn q1 => rw [hw] at h; cases h
  | ok q1 =>
    rw [hw] at h
    simp only [Res.bind_ok] at h
    obtain ⟨w1, w2, w3⟩ := py_warm hllt hsym hm r1 r2 hw
    obtain ⟨l1, l2, l3, l4⟩ := py_loop hllt hsym hr hm E.c.maxQP (p := (p.resetParams PE.c).warm L PE)
      (q := { q1 with qpIters := 1, exec := 0 }) le_rfl rfl w1 w2 h ht
    rw [hm.maxQP] at l1 l2 l3 l4
    refine ⟨_, ?_, l1, l2, l3, ?_⟩
    · unfold PyQP.computeDirection
      simp only []
      rw [if_neg]
      rintro ⟨hc, _⟩
      have := hm.two
      omega
    · intro hb
      apply l4
      rcases hb with hb | hb | hb
      · left
        apply w3
        left
        have eq1 : (q.resetParams E.c).b = q.b := by unfold CQP.resetParams; simp only []; split <;> rfl
        have ep : (p.resetParams PE.c).Vxx = p.Vxx ∧ (p.resetParams PE.c).Vx = p.Vx ∧ (p.resetParams PE.c).K = p.K ∧
            (p.resetParams PE.c).k = p.k := by
          unfold PyQP.resetParams; simp only []; split <;> split <;> exact ⟨rfl, rfl, rfl, rfl⟩
        rw [eq1]
        obtain ⟨e1, e2, e3, e4⟩ := ep
        exact ⟨by rw [e1]; exact hb.Vxx, by rw [e2]; exact hb.Vx, by rw [e3]; exact hb.K, by rw [e4]; exact hb.k⟩
      · exact .inl (w3 (.inr hb))
      · exact .inr hb

end
end Mim
