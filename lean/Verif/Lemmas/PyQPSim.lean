import Verif.Lemmas.PyQP
import Verif.Props.QPStep

/-!
# An iteration of the Python ADMM loop is an iteration of the C++ loop (exact arithmetic)
-/
set_option linter.unusedSectionVars false
set_option linter.unusedSimpArgs false

namespace Mim
open Matrix Spec QP

section
variable {K : Type} [Field K] [LinearOrder K] [IsStrictOrderedRing K] {P : Problem K}
variable {PE : PyEnv P} {E : QEnv P}

/-- the parameters of the C++ loop are those of the Python loop; both with the default dual residual. -/
structure PyEnv.MatchLoop (PE : PyEnv P) (E : QEnv P) : Prop extends PE.Match E where
  interval : E.c.interval = PE.c.interval
  two : 2 ≤ PE.c.interval
  maxQP : E.c.maxQP = PE.c.maxQP
  rhoMin : E.c.rhoMin = PE.c.rhoMin
  rhoMax : E.c.rhoMax = PE.c.rhoMax
  rhoBase : E.c.rhoBase = PE.c.rhoBase
  adaptTol : E.c.adaptTol = PE.c.adaptTol
  epsAbs : E.c.epsAbs = PE.c.epsAbs
  epsRel : E.c.epsRel = PE.c.epsRel
  rel : 1 / 2 ^ 52 < |PE.c.epsRel| ∨ PE.c.epsRel = 0
  eqGuess : E.c.eqGuess = PE.c.eqGuess
  resetY : E.c.resetY = PE.c.resetY
  resetRho : E.c.resetRho = PE.c.resetRho
  heuristic : E.c.heuristic = false
  osqp : PE.c.osqp = true

/-- the residual norms agree. -/
structure SimN (n : PyNorms K) (m : CNorms K) : Prop where
  p : n.p = m.p
  d : n.d = m.d
  pr : PyQP.pr n = m.pr
  dr : n.dr = m.dr

theorem py_admmNode (alpha : K) {m : ℕ} (lb ub : Fin m → Option K) (g Cd z y rho inv : Vec K m) (h : ∀ i, inv i = 1 / rho i) :
    PyQP.admmNode alpha lb ub g Cd z y rho = Mim.admmNode alpha lb ub g Cd z y rho inv := by
  have e : ∀ i, (sv alpha Cd + sv (1 - alpha) z) i + y i / rho i = (sv alpha Cd + sv (1 - alpha) z + cw y inv) i := by
    intro i
    simp only [Pi.add_apply, cw, h i, mul_one_div]
  unfold PyQP.admmNode Mim.admmNode
  simp only [e]

theorem due_iff (hm : PE.MatchLoop E) {it : ℕ} (hi : 1 ≤ it) : PyQP.due PE.c it = decide (it % E.c.interval = 0) := by
  unfold PyQP.due
  rw [hm.interval]
  have := hm.two
  by_cases h : it % PE.c.interval = 0
  · have : 1 < it := by
      by_contra hc
      obtain rfl : it = 1 := by omega
      rw [Nat.mod_eq_of_lt (by omega)] at h
      omega
    simp [h, this]
  · simp [h]

theorem pr_max (a b c d : K) : max (max a c) (max b d) = max (max (max a b) c) d := by
  rw [max_max_max_comm, ← max_assoc]

/-- one running node. -/
theorem py_lagStage (hm : PE.MatchLoop E) {it : ℕ} (hi : 1 ≤ it) {t : ℕ} (ht : t < P.T) {p : PyQP P} {v : CVars P} {n : CNorms K}
    (hv : p.SimV v) (hn : SimN p.n n) :
    (PyQP.lagStage PE it t p).SimV (lagStage E it t (v, n)).1 ∧ SimN (PyQP.lagStage PE it t p).n (lagStage E it t (v, n)).2 := by
  unfold PyQP.lagStage lagStage
  simp only []
  by_cases hg : P.ng t = 0
  · rw [if_pos hg, if_pos hg]
    refine ⟨⟨fun j hj => ?_, fun j hj => ?_, hv.dxt, hv.dut, hv.z, hv.y, hv.rho, hv.inv⟩, hn⟩
    · by_cases e : j = t
      · subst e; simp only [Function.update_self, hv.dxt j hj]
      · simp only [Function.update_of_ne e, hv.dx j hj]
    · by_cases e : j = t
      · subst e; simp only [Function.update_self, hv.dut j hj]
      · simp only [Function.update_of_ne e, hv.du j hj]
  · rw [if_neg hg, if_neg hg]
    rw [due_iff hm hi]
    simp only [hm.heuristic, hm.d, hm.alpha, hv.dxt t ht.le, hv.dut t ht, hv.z t ht.le, hv.y t ht.le, hv.rho t ht.le,
      py_admmNode _ _ _ _ _ _ _ _ _ (hv.inv t ht.le)]
    refine ⟨⟨fun j hj => ?_, fun j hj => ?_, hv.dxt, hv.dut, fun j hj => ?_, fun j hj => ?_, hv.rho, hv.inv⟩, ?_⟩
    · by_cases e : j = t
      · subst e; simp only [Function.update_self, hv.dxt j hj]
      · simp only [Function.update_of_ne e, hv.dx j hj]
    · by_cases e : j = t
      · subst e; simp only [Function.update_self, hv.dut j hj]
      · simp only [Function.update_of_ne e, hv.du j hj]
    · by_cases e : j = t
      · subst e; simp only [Function.update_self]
      · simp only [Function.update_of_ne e, hv.z j hj]
    · by_cases e : j = t
      · subst e; simp only [Function.update_self]
      · simp only [Function.update_of_ne e, hv.y j hj]
    · by_cases hd : it % E.c.interval = 0
      · simp only [hd, decide_true, if_true, Bool.false_eq_true, if_false]
        unfold normStep
        refine ⟨?_, ?_, ?_, ?_⟩
        · simp only [hn.p]
        · simp only [hn.d, List.foldl_cons, List.foldl_nil]
        · rw [← hn.pr]; unfold PyQP.pr; simp only [cppMax_exact]; exact pr_max _ _ _ _
        · simp only [hn.dr, List.foldl_cons, List.foldl_nil]
      · simp only [hd, decide_false, Bool.false_eq_true, if_false]; exact hn

/-- the terminal node. -/
theorem py_lagTerm (hm : PE.MatchLoop E) {it : ℕ} (hi : 1 ≤ it) {p : PyQP P} {v : CVars P} {n : CNorms K}
    (hv : p.SimV v) (hn : SimN p.n n) :
    (PyQP.lagTerm PE it p).SimV (lagTerm E it (v, n)).1 ∧ SimN (PyQP.lagTerm PE it p).n (lagTerm E it (v, n)).2 := by
  unfold PyQP.lagTerm lagTerm
  simp only []
  have hdx : ∀ j, j ≤ P.T → Function.update p.dx P.T (p.dxt P.T) j = Function.update v.dx P.T (v.dxt P.T) j := by
    intro j hj
    by_cases e : j = P.T
    · subst e; simp only [Function.update_self, hv.dxt _ hj]
    · simp only [Function.update_of_ne e, hv.dx j hj]
  by_cases hg : P.ng P.T = 0
  · rw [if_neg (by simp [hg]), if_neg (by simp [hg])]
    exact ⟨⟨hdx, hv.du, hv.dxt, hv.dut, hv.z, hv.y, hv.rho, hv.inv⟩, hn⟩
  · rw [if_pos hg, if_pos hg]
    rw [due_iff hm hi]
    simp only [hm.heuristic, hm.d, hm.alpha, hv.dxt _ le_rfl, hv.z _ le_rfl, hv.y _ le_rfl, hv.rho _ le_rfl,
      py_admmNode _ _ _ _ _ _ _ _ _ (hv.inv _ le_rfl)]
    refine ⟨⟨?_, hv.du, hv.dxt, hv.dut, fun j hj => ?_, fun j hj => ?_, hv.rho, hv.inv⟩, ?_⟩
    · rw [← hv.dxt _ le_rfl]
      simpa only [hv.dxt _ le_rfl] using hdx
    · by_cases e : j = P.T
      · subst e; simp only [Function.update_self]
      · simp only [Function.update_of_ne e, hv.z j hj]
    · by_cases e : j = P.T
      · subst e; simp only [Function.update_self]
      · simp only [Function.update_of_ne e, hv.y j hj]
    · by_cases hd : it % E.c.interval = 0
      · simp only [hd, decide_true, if_true, Bool.false_eq_true, if_false]
        unfold normStep
        refine ⟨?_, ?_, ?_, ?_⟩
        · simp only [hn.p]
        · simp only [hn.d, List.foldl_cons, List.foldl_nil]
        · rw [← hn.pr]; unfold PyQP.pr; simp only [cppMax_exact]; exact pr_max _ _ _ _
        · simp only [hn.dr, List.foldl_cons, List.foldl_nil]
      · simp only [hd, decide_false, Bool.false_eq_true, if_false]; exact hn

/-- a relation kept by two loops in lockstep. -/
theorem forUp_relS {S S' : Type*} (R : ℕ → S → S' → Prop) (n : ℕ) (f : ℕ → S → S) (g : ℕ → S' → S') (s : S) (s' : S')
    (h0 : R 0 s s') (hs : ∀ t, t < n → ∀ s s', R t s s' → R (t + 1) (f t s) (g t s')) : R n (forUp n f s) (forUp n g s') := by
  induction n with
  | zero => exact h0
  | succ n ih => exact hs n (Nat.lt_succ_self n) _ _ (ih fun t ht => hs t (Nat.lt_succ_of_lt ht))

/-- **The multiplier update.** -/
theorem py_updateLag (hm : PE.MatchLoop E) {p : PyQP P} {q : CQP P} (hi : 1 ≤ q.qpIters) (hv : p.SimV q.v) :
    (p.updateLag PE q.qpIters).SimV (q.updateLag E).v ∧ SimN (p.updateLag PE q.qpIters).n (q.updateLag E).n := by
  unfold PyQP.updateLag CQP.updateLag
  simp only []
  have h := forUp_relS (fun _ (s : PyQP P) (s' : CVars P × CNorms K) => s.SimV s'.1 ∧ SimN s.n s'.2) P.T
    (PyQP.lagStage PE q.qpIters) (lagStage E q.qpIters)
    { p with n := ⟨negInf, negInf, negInf, negInf, negInf, negInf, negInf⟩ } (q.v, ⟨negInf, negInf, negInf, negInf⟩)
    ⟨⟨hv.dx, hv.du, hv.dxt, hv.dut, hv.z, hv.y, hv.rho, hv.inv⟩, ⟨rfl, rfl, by unfold PyQP.pr; simp only [cppMax_exact, max_self], rfl⟩⟩
    (fun t ht s s' hss => py_lagStage hm hi ht hss.1 hss.2)
  exact py_lagTerm hm hi h.1 h.2

/-! ## penalties -/

/-- no row has crossed bounds or bounds that are exactly `1e-6` apart (there the C++ and the Python rules differ). -/
def PlainRows (P : Problem K) : Prop :=
  ∀ t, t ≤ P.T → ∀ i l u, P.lb t i = some l → P.ub t i = some u → l ≤ u ∧ u - l ≠ 1 / 10 ^ 6

theorem py_rhoRow {rm r : K} {lb ub : Option K} (h : ∀ l u, lb = some l → ub = some u → l ≤ u ∧ u - l ≠ 1 / 10 ^ 6)
    (old : K) (old' : K × K) :
    pyRhoRow rm r lb ub old = (rhoRow rm r lb ub old').1 ∧ (rhoRow rm r lb ub old').2 = 1 / (rhoRow rm r lb ub old').1 := by
  unfold pyRhoRow rhoRow
  cases lb with
  | none => cases ub <;> exact ⟨rfl, rfl⟩
  | some l =>
    cases ub with
    | none => exact ⟨rfl, rfl⟩
    | some u =>
      obtain ⟨h1, h2⟩ := h l u rfl rfl
      have ha : |l - u| = u - l := by rw [abs_sub_comm, abs_of_nonneg (sub_nonneg.mpr h1)]
      simp only [ltb_exact, leb_exact, absf_exact, lit_exact, ha]
      push_cast
      by_cases h3 : u - l < 1 / 10 ^ 6
      · rw [if_pos (decide_eq_true h3), if_pos (decide_eq_true h3.le)]
        exact ⟨rfl, rfl⟩
      · have h4 : ¬ u - l ≤ 1 / 10 ^ 6 := fun hc => h3 (lt_of_le_of_ne hc h2)
        have h5 : l < u := by
          rcases h1.lt_or_eq with hlt | heq
          · exact hlt
          · exfalso; apply h3; rw [heq, sub_self]; positivity
        have d3 : decide (u - l < 1 / 10 ^ 6) = false := decide_eq_false h3
        have d4 : decide (u - l ≤ 1 / 10 ^ 6) = false := decide_eq_false h4
        have d5 : decide (l < u) = true := decide_eq_true h5
        rw [d3, d4]
        simp only [d5, Bool.true_or, Bool.false_eq_true, if_false, if_true, and_self]

theorem py_applyRho (hr : PlainRows P) {c : PyConf K} {c' : CConf K} (hc : c'.rhoMin = c.rhoMin) (r : K) {p : PyQP P} {v : CVars P}
    (hv : p.SimV v) : (p.applyRho c r).SimV (applyRho c' r v) := by
  refine ⟨hv.dx, hv.du, hv.dxt, hv.dut, hv.z, hv.y, fun t ht => ?_, fun t ht i => ?_⟩
  · unfold PyQP.applyRho applyRho
    simp only [ht, if_true]
    funext i
    rw [hc]
    exact (py_rhoRow (hr t ht i) _ _).1
  · unfold applyRho
    simp only [ht, if_true]
    exact (py_rhoRow (hr t ht i) 0 _).2

variable [SqrtOps K]

/-- **The penalty update.** -/
theorem py_updateRho (hr : PlainRows P) (hm : PE.MatchLoop E) {p : PyQP P} {q : CQP P} (hi : 1 ≤ q.qpIters) (hv : p.SimV q.v)
    (hn : SimN p.n q.n) (hs : p.rhoSparse = q.rhoSparse) :
    (p.updateRho PE q.qpIters).SimV (q.updateRho E).v ∧ (p.updateRho PE q.qpIters).rhoSparse = (q.updateRho E).rhoSparse ∧
    SimN (p.updateRho PE q.qpIters).n (q.updateRho E).n := by
  unfold PyQP.updateRho CQP.updateRho
  simp only [hm.osqp, if_true]
  have he : cppMin (cppMax (SqrtOps.sqrt ((p.n.p * p.n.dr) / (p.n.d * PyQP.pr p.n)) * p.rhoSparse) PE.c.rhoMin) PE.c.rhoMax =
      rhoEstimate E.c q.n q.rhoSparse := by
    unfold rhoEstimate
    rw [hm.rhoMin, hm.rhoMax, hn.p, hn.d, hn.pr, hn.dr, hs]
  rw [he, due_iff hm hi, hs, ← hm.adaptTol]
  by_cases hd : q.qpIters % E.c.interval = 0
  · simp only [hd, decide_true, Bool.true_and, if_true]
    split
    · exact ⟨py_applyRho hr hm.rhoMin _ ⟨hv.dx, hv.du, hv.dxt, hv.dut, hv.z, hv.y, hv.rho, hv.inv⟩, rfl, hn⟩
    · exact ⟨⟨hv.dx, hv.du, hv.dxt, hv.dut, hv.z, hv.y, hv.rho, hv.inv⟩, rfl, hn⟩
  · simp only [hd, decide_false, Bool.false_and, Bool.false_eq_true, if_false]
    exact ⟨⟨hv.dx, hv.du, hv.dxt, hv.dut, hv.z, hv.y, hv.rho, hv.inv⟩, trivial, hn⟩

/-! ## one iteration, the loop, `computeDirection` -/

/-- the value functions and gains agree at all nodes. -/
structure PyQP.SimB (p : PyQP P) (b : BP P) : Prop where
  Vxx : ∀ t, t ≤ P.T → p.Vxx t = b.Vxx t
  Vx : ∀ t, t ≤ P.T → p.Vx t = b.Vx t
  K : ∀ t, t < P.T → p.K t = b.K t
  k : ∀ t, t < P.T → p.k t = b.k t

theorem py_lagStage_b (it t : ℕ) (p : PyQP P) : (PyQP.lagStage PE it t p).Vxx = p.Vxx ∧ (PyQP.lagStage PE it t p).Vx = p.Vx ∧
    (PyQP.lagStage PE it t p).K = p.K ∧ (PyQP.lagStage PE it t p).k = p.k ∧ (PyQP.lagStage PE it t p).rhoSparse = p.rhoSparse := by
  unfold PyQP.lagStage
  split <;> exact ⟨rfl, rfl, rfl, rfl, rfl⟩

theorem py_updateLag_b (it : ℕ) (p : PyQP P) : (p.updateLag PE it).Vxx = p.Vxx ∧ (p.updateLag PE it).Vx = p.Vx ∧
    (p.updateLag PE it).K = p.K ∧ (p.updateLag PE it).k = p.k ∧ (p.updateLag PE it).rhoSparse = p.rhoSparse := by
  unfold PyQP.updateLag
  have h := forUp_inv (fun _ (s : PyQP P) => s.Vxx = p.Vxx ∧ s.Vx = p.Vx ∧ s.K = p.K ∧ s.k = p.k ∧ s.rhoSparse = p.rhoSparse) P.T
    (PyQP.lagStage PE it) { p with n := ⟨negInf, negInf, negInf, negInf, negInf, negInf, negInf⟩ } ⟨rfl, rfl, rfl, rfl, rfl⟩
    (fun t _ s hs => by
      obtain ⟨a, b, c, d, e⟩ := py_lagStage_b (PE := PE) it t s
      rw [a, b, c, d, e]; exact hs)
  unfold PyQP.lagTerm
  simp only []
  split <;> exact h

theorem py_updateRho_b (it : ℕ) (p : PyQP P) : (p.updateRho PE it).Vxx = p.Vxx ∧ (p.updateRho PE it).Vx = p.Vx ∧
    (p.updateRho PE it).K = p.K ∧ (p.updateRho PE it).k = p.k := by
  unfold PyQP.updateRho
  simp only []
  split <;> split <;> exact ⟨rfl, rfl, rfl, rfl⟩

/-- **One iteration.**  Where the C++ iteration (with a full backward pass) succeeds, the Python iteration does the same. -/
theorem py_step {L : PyLLT K} (hllt : LLTExact L.llt) (hsym : SymHess E.d) (hr : PlainRows P) (hm : PE.MatchLoop E) {p : PyQP P}
    {q q' : CQP P} (hi : 1 ≤ q.qpIters) (hv : p.SimV q.v) (hs : p.rhoSparse = q.rhoSparse)
    (h : AllFull.step L.llt E q = .ok q') :
    (p.step L PE q.qpIters).SimV q'.v ∧ (p.step L PE q.qpIters).SimB q'.b.bp ∧
    (p.step L PE q.qpIters).rhoSparse = q'.rhoSparse ∧ SimN (p.step L PE q.qpIters).n q'.n := by
  unfold AllFull.step at h
  cases hf : fullPass L.llt E q.v q.b with
  | exn b => rw [hf] at h; cases h
  | ok B =>
    rw [hf] at h
    simp only [Res.map, Res.thenDo] at h
    obtain ⟨hR, hpd⟩ := full_riccati hllt hsym hf
    obtain ⟨hh, hsv⟩ := py_backward hllt hm.toMatch hv hR hpd
    obtain ⟨f1, f2, f3⟩ := fwdLoop_spec E B.bp (q.v.dxt, q.v.dut)
    obtain ⟨g1, g2, g3⟩ := py_fwd hm.toMatch hh ((p.backwardPass L PE).dxt, (p.backwardPass L PE).dut)
    have h0 : (forUp P.T (PyQP.fwdStage PE (p.backwardPass L PE)) ((p.backwardPass L PE).dxt, (p.backwardPass L PE).dut)).1 0 =
        (fwdLoop E B.bp (q.v.dxt, q.v.dut)).1 0 := by
      rw [g3, f3, hsv.dxt]; exact hv.dxt 0 (Nat.zero_le _)
    obtain ⟨r1, r2⟩ := rollout_unique (E := E) h0 g1 f1 g2 f2
    have hvf : ((p.backwardPass L PE).forwardPass PE).SimV (({ q with b := B } : CQP P).forward E).v := by
      unfold PyQP.forwardPass CQP.forward
      simp only []
      refine ⟨?_, ?_, r1, r2, ?_, ?_, ?_, hv.inv⟩
      · rw [hsv.dx]; exact hv.dx
      · rw [hsv.du]; exact hv.du
      · rw [hsv.z]; exact hv.z
      · rw [hsv.y]; exact hv.y
      · rw [hsv.rho]; exact hv.rho
    obtain ⟨u1, u2⟩ := py_updateLag hm (q := ({ q with b := B } : CQP P).forward E) hi hvf
    have hs2 : (((p.backwardPass L PE).forwardPass PE).updateLag PE q.qpIters).rhoSparse =
        ((({ q with b := B } : CQP P).forward E).updateLag E).rhoSparse := by
      rw [(py_updateLag_b (PE := PE) q.qpIters _).2.2.2.2]
      exact hsv.rhoSparse.trans hs
    obtain ⟨w1, w2, w3⟩ := py_updateRho hr hm (q := (({ q with b := B } : CQP P).forward E).updateLag E) hi u1 u2 hs2
    obtain ⟨b1, b2, b3, b4⟩   := py_updateRho_b (PE := PE) q.qpIters (((p.backwardPass L PE).forwardPass PE).updateLag PE q.qpIters)
    obtain ⟨c1, c2, c3, c4, _⟩ := py_updateLag_b (PE := PE) q.qpIters ((p.backwardPass L PE).forwardPass PE)
    cases h
    refine ⟨w1, ?_, w2, w3⟩
    have eb : (((({ q with b := B } : CQP P).forward E).updateLag E).updateRho E).b = B := by
      rw [(Mim.updateRho_b (E := E) _).1]; rfl
    unfold PyQP.step
    constructor
    · intro t ht; rw [b1, c1]; simp only [eb]; exact hh.Vxx t (Nat.zero_le _) ht
    · intro t ht; rw [b2, c2]; simp only [eb]; exact hh.Vx t (Nat.zero_le _) ht
    · intro t ht; rw [b3, c3]; simp only [eb]; exact hh.K t (Nat.zero_le _) ht
    · intro t ht; rw [b4, c4]; simp only [eb]; exact hh.k t (Nat.zero_le _) ht

end
end Mim
