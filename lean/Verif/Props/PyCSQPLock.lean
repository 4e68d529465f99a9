import Verif.Props.PyCSQPAgree
import Verif.Props.PySQPAgree
import Verif.Props.CSQPLine

/-!
# C74, whole runs: with the merit line search the Python `CSQP` and the C++ `SolverCSQP` move in lockstep
-/
set_option linter.unusedSectionVars false
set_option linter.unusedSimpArgs false

namespace Mim
open Spec Matrix QP PyCSQP

section
variable {F : Type} [Add F] [Sub F] [Mul F] [Div F] [Neg F] [Zero F] [One F] [FloatOps F] {P : Problem F}

theorem Data.Tail.refl (d : Data P) : d.Tail d := fun _ _ => ⟨rfl, rfl⟩
theorem Data.Tail.trans {a b c : Data P} (h : a.Tail b) (h' : b.Tail c) : a.Tail c :=
  fun t ht => ⟨(h t ht).1.trans (h' t ht).1, (h t ht).2.trans (h' t ht).2⟩
theorem Data.Tail.symm {a b : Data P} (h : a.Tail b) : b.Tail a := fun t ht => ⟨(h t ht).1.symm, (h t ht).2.symm⟩

theorem Data.tail_node (d : Data P) {t : ℕ} (ht : t < P.T) (x : P.X) (u : Vec F (P.nu t)) : (d.calcNode t x u).Tail d := by
  intro j hj
  unfold Data.calcNode
  refine ⟨?_, rfl⟩
  simp only []
  rw [Function.update_of_ne (by omega)]

theorem py_try_tail (a : F) (p : PyCSQP P) : (PyCSQP.tryStep a p).data.Tail p.data := by
  unfold PyCSQP.tryStep
  simp only []
  have h1 : ∀ q : PyCSQP P, (trialPoint a q).data = q.data := by
    intro q
    unfold trialPoint
    simp only []
    exact forUp_inv (fun _ (x : PyCSQP P) => x.data = q.data) P.T _ q rfl fun t ht x hx => hx
  have h2 := forUp_inv (fun _ (x : PyCSQP P) => x.data.Tail p.data) P.T tryNode
    (trialPoint a { p with meritTry := 0, conTry := 0, costTry := 0 }) (by rw [h1]; exact Data.Tail.refl _)
    (fun t ht x hx => (Data.tail_node _ ht _ _).trans hx)
  exact fun t ht => ⟨(h2 t ht).1, (h2 t ht).2⟩

theorem py_accept_data (a : F) (p : PyCSQP P) : (p.acceptStep a).data = p.data := by
  unfold acceptStep trialPoint
  simp only []
  exact forUp_inv (fun _ (x : PyCSQP P) => x.data = p.data) P.T _ p rfl fun t ht x hx => hx

theorem py_search_tail (iter n : ℕ) (a : F) (p : PyCSQP P) : (PyCSQP.search iter n a p).2.data.Tail p.data := by
  induction n generalizing a p with
  | zero => exact Data.Tail.refl _
  | succ n ih =>
    have ht := py_try_tail a p
    unfold PyCSQP.search
    simp only []
    split
    · split
      · exact (ih _ _).trans ht
      · rw [py_accept_data]; exact ht
    · split
      · exact ht
      · split
        · rw [py_accept_data]; exact ht
        · exact (ih _ _).trans ht

theorem c_try_tail (a : F) (s : CSQP P) : (CSQP.tryStep a s).st.data.Tail s.data := by
  unfold CSQP.tryStep
  simp only []
  split
  · exact Data.Tail.refl _
  · have hl := forUpR_inv_st (fun (x : CSQP P) => x.data.Tail s.data) P.T CSQP.tryStage
      (({ s with nTry := s.nTry + 1, w := { s.w with cost := 0, merit := 0, gap := 0, con := 0 } } : CSQP P).tryMove a) (Data.Tail.refl _)
      (fun t ht x hx => by
        simp only [CSQP.tryStage, Res.throwIf_st]
        exact (Data.tail_node _ ht _ _).trans hx)
    generalize forUpR P.T CSQP.tryStage
      (({ s with nTry := s.nTry + 1, w := { s.w with cost := 0, merit := 0, gap := 0, con := 0 } } : CSQP P).tryMove a) = r at hl
    cases r with
    | exn s1 => exact hl
    | ok s1 =>
      simp only [Res.bind_ok, CSQP.tryTerminal, Res.throwIf_st]
      exact fun t ht => ⟨(hl t ht).1, (hl t ht).2⟩

theorem c_search_tail (as : List F) (s : CSQP P) : (CSQP.lineSearch as s).2.data.Tail s.data := by
  induction as generalizing s with
  | nil => exact Data.Tail.refl _
  | cons a as ih =>
    have ht := c_try_tail a s
    unfold CSQP.lineSearch
    split
    · rename_i s1 h1
      rw [h1] at ht
      exact (ih _).trans ht
    · rename_i s1 h1
      rw [h1] at ht
      simp only []
      split
      · split
        · exact (ih _).trans ht
        · exact ht
      · split
        · exact ht
        · exact (ih _).trans ht
end

section
variable {K : Type} [Field K] [LinearOrder K] [IsStrictOrderedRing K] [SqrtOps K] {P : Problem K}

/-- **C74, fresh solvers.**  A newly constructed Python object and a newly constructed C++ solver, with any options that describe the
same ADMM method and without regularization in C++, are twins at the beginning of the first iteration of `solve` with the same initial
guess, whatever the C++ penalties were initialised with. -/
theorem C74_pycsqp_fresh (f : Bool) (d d' : Data P) (hd : d.Tail d') (rho0 inv0 : (t : ℕ) → Vec K (P.ng t)) (lag0 : K) (W : World K)
    (xs : Traj P) (us : Ctrls P) (m : ℕ) (ri : K) (hm : m ≠ 0) (c : CConf K) (hc : c.removeReg = true) (cp : PyConf K)
    (hcp : cp.resetRho = false) (hconf : SameQPConf cp c) (mu1 mu2 tol : K) :
    Twin 0 (({ PyCSQP.new (P := P) f d with c := cp, mu1 := mu1, mu2 := mu2, tol := tol } : PyCSQP P).start (some xs) (some us))
      (CSQP.start W (some xs) (some us) m ri { CSQP.new d' rho0 inv0 lag0 with c := c }) := by
  have hst : CSQP.start W (some xs) (some us) m ri { CSQP.new d' rho0 inv0 lag0 with c := c } =
      { CSQP.new d' rho0 inv0 lag0 with
        c := c, xs := Function.update xs 0 P.x0, us := us
        w := { (CSQP.new d' rho0 inv0 lag0).w with xs := Function.update (CSQP.new d' rho0 inv0 lag0).w.xs 0 P.x0 }
        q := { (CSQP.new d' rho0 inv0 lag0).q with t0 := W.clock 0, tick := 1 } } := by
    unfold CSQP.start
    simp only [hm, if_false, hc, if_true, Option.getD_some]
    rfl
  rw [hst]
  exact ⟨hconf, rfl, fun _ _ => rfl, fun _ _ => rfl, hd, rfl, rfl, rfl, rfl, fun _ _ => rfl, fun _ _ => rfl, fun _ _ => rfl, fun _ _ => rfl,
    fun _ _ => rfl, fun _ _ => rfl, .inl ⟨rfl, hcp⟩⟩

/-- the default options of the two classes describe the same method. -/
theorem C74_default_conf (f : Bool) (d d' : Data P) (rho0 inv0 : (t : ℕ) → Vec K (P.ng t)) (lag0 : K) :
    SameQPConf (PyCSQP.new (P := P) f d).c (CSQP.new d' rho0 inv0 lag0).c := by
  refine ⟨rfl, rfl, rfl, ?_, rfl, rfl, rfl, rfl, rfl, rfl, rfl, .inl ?_, rfl, rfl, rfl, rfl, rfl⟩
  · change 2 ≤ 25; norm_num
  · change (1 : K) / 2 ^ 52 < |lit (1 / 10 ^ 4)|
    rw [lit_exact]
    push_cast
    rw [abs_of_pos (by positivity)]
    exact one_div_lt_one_div_of_lt (by norm_num) (by norm_num)

/-- merit line search with the same fixed weights and the default step lengths on both sides; no regularization in C++. -/
structure SameMerit (p : PyCSQP P) (s : CSQP P) : Prop where
  pf : p.useFilter = false
  sf : s.c.useFilter = false
  mu1 : p.mu1 = s.c.muDyn
  mu2 : p.mu2 = s.c.muCon
  pos1 : 0 ≤ p.mu1
  pos2 : 0 ≤ p.mu2
  alphas : s.c.par.alphas = defaultAlphas
  reg : s.c.removeReg = true
  gap : p.gapTry P.T = 0

theorem SameMerit.auto {p : PyCSQP P} {s : CSQP P} (h : SameMerit p s) : p.auto = false ∧ (ltb s.c.muDyn 0 || ltb s.c.muCon 0) = false := by
  have h1 : ltb p.mu1 0 = false := decide_eq_false (not_lt.mpr h.pos1)
  have h2 : ltb p.mu2 0 = false := decide_eq_false (not_lt.mpr h.pos2)
  refine ⟨?_, ?_⟩
  · unfold PyCSQP.auto; rw [h1, h2]; rfl
  · rw [← h.mu1, ← h.mu2, h1, h2]; rfl

/-- the merit of a trajectory with fixed weights. -/
def fixedMerit (a b : K) (xs : Traj P) (us : Ctrls P) : K := trajCost P xs us + a * shootGapNorm P xs us + b * conViol P xs us

theorem py_good_iff {p1 : PyCSQP P} (ha : AtPoint p1) (hf : p1.useFilter = false) (hauto : p1.auto = false) (hg : p1.gap P.T = 0)
    (ht : p1.gapTry P.T = 0) (n : ℕ) (a : K) :
    Good p1.kktCheck.pushFilter n a ↔
      fixedMerit p1.mu1 p1.mu2 (stepX P p1.xs p1.q.dx a) (stepU P p1.us p1.q.du a) < fixedMerit p1.mu1 p1.mu2 p1.xs p1.us := by
  have hmo : ∀ c g v, p1.kktCheck.pushFilter.meritOf c g v = c + p1.mu1 * g + p1.mu2 * v := by
    intro c g v
    rw [meritOf_eq]
    rw [if_neg (by rw [show p1.kktCheck.pushFilter.auto = p1.auto from rfl, hauto]; exact Bool.false_ne_true)]
    rfl
  have hn0 : norm1 (0 : Vec K P.ndx) = 0 := by simp [norm1]
  have h1 : p1.merit = fixedMerit p1.mu1 p1.mu2 p1.xs p1.us := by
    rw [ha.merit, meritOf_eq, if_neg (by rw [hauto]; exact Bool.false_ne_true), ha.cost, ha.gapNorm, ha.con, hg, hn0, add_zero]
    rfl
  unfold Good
  rw [if_neg (by rw [show p1.kktCheck.pushFilter.useFilter = p1.useFilter from rfl, hf]; exact Bool.false_ne_true), hmo,
    show p1.kktCheck.pushFilter.merit = p1.merit from rfl, h1]
  unfold trialCost trialGap trialCon
  rw [show p1.kktCheck.pushFilter.gapTry = p1.gapTry from rfl, ht, hn0, add_zero]
  exact decide_eq_true_iff

theorem c_acceptable_iff {s : CSQP P} (he : CSQP.Evald s) (hf : s.c.useFilter = false) (hauto : (ltb s.c.muDyn 0 || ltb s.c.muCon 0) = false)
    (a : K) : CSQP.Acceptable s.pushFilter.setMerit a ↔ a ≤ 1 ∧ 0 ≤ a ∧
      ¬ CostBlowsUp P (stepX P s.xs s.q.v.dx a) (stepU P s.us s.q.v.du a) ∧
      fixedMerit s.c.muDyn s.c.muCon (stepX P s.xs s.q.v.dx a) (stepU P s.us s.q.v.du a) < fixedMerit s.c.muDyn s.c.muCon s.xs s.us := by
  have hm : ∀ (l : K) xs us, Spec.merit P s.c l xs us = fixedMerit s.c.muDyn s.c.muCon xs us := by
    intro l xs us
    unfold Spec.merit
    rw [if_neg (by rw [hauto]; exact Bool.false_ne_true)]
    rfl
  unfold CSQP.Acceptable
  rw [CSQP.setMerit_eq he, show s.pushFilter.setMerit.c = s.c from rfl, hf, if_neg Bool.false_ne_true, hm, hm]
  refine and_congr ?_ (and_congr ?_ (and_congr Iff.rfl decide_eq_true_iff))
  · exact decide_eq_false_iff_not.trans not_lt
  · exact decide_eq_false_iff_not.trans not_lt

theorem halve_range (k : ℕ) : (PySQP.halve k : K) ≤ 1 ∧ 0 ≤ (PySQP.halve k : K) := by
  rw [halve_exact]
  exact ⟨pow_le_one₀ (by positivity) (by norm_num), by positivity⟩

set_option maxHeartbeats 1000000 in
/-- **C74, one iteration.**  Twins with the same merit function: if the C++ solver completes an iteration in time and goes on (no trial
of its line search having a cost beyond `1e30`), then the Python class computes the same direction and either returns true, because
the state equation of node 0 is all that keeps the C++ solver from converging (or its tolerance is larger), or takes the same step and is again its
twin; unless that step is the tenth: then the Python class gives up and returns false. -/
theorem C74_pycsqp_iteration {L : PyLLT K} {W : World K} (hllt : LLTExact L.llt) (hW : W.llt = L.llt)
    (hsched : W.sched = none ∨ ∃ l, W.sched = some l ∧ SchedOK P l) (hP : Spec.SymProblem P) (hr : PlainRows P) (hT : 0 < P.T)
    {n fuel : ℕ} {p : PyCSQP P} {s s' : CSQP P} (h : Twin n p s) (hm : SameMerit p s) (hq : p.c.maxQP ≠ 0)
    (hs : CSQP.body W fuel s = some (.next, s')) (ht : s'.q.reached = false)
    (hb : ∀ k, k < 10 → ¬ CostBlowsUp P (stepX P s.xs s'.q.v.dx (PySQP.halve k)) (stepU P s.us s'.q.v.du (PySQP.halve k))) :
    ∃ p1, dirAt L n p = .ok p1 ∧ (∀ t, t ≤ P.T → p1.q.dx t = s'.q.v.dx t) ∧ (∀ t, t < P.T → p1.q.du t = s'.q.v.du t) ∧
      ((passes p1 = true ∧ (p.tol ≤ s.c.tol → s.c.tol < exactNormInf ((P.calcDiffR 0 (p.xs 0) (p.us 0)).Lx +
          (P.calcDiffR 0 (p.xs 0) (p.us 0)).Fxᵀ *ᵥ p1.kktCheck.lagMul 1 - p1.kktCheck.lagMul 0))) ∨
       (passes p1 = false ∧ ∃ k q, k < 10 ∧ s'.acc = s.acc ++ [PySQP.halve k] ∧
        ((k < 9 ∧ search n 10 (PySQP.halve 0) p1.kktCheck.pushFilter = (.accepted, q) ∧
            Twin (n + 1) q { s' with iter := s'.iter + 1 } ∧ SameMerit q { s' with iter := s'.iter + 1 }) ∨
         (k = 9 ∧ search n 10 (PySQP.halve 0) p1.kktCheck.pushFilter = (.gaveUp, q))))) := by
  obtain ⟨s1, hd, hqi, hadv, hk⟩ := CSQP.body_next hs
  -- the C++ direction
  have hTwin : Twin n p { s with q := { s.q with tick := s.q.tick + 1 } } :=
    ⟨h.conf, h.iter, h.xs, h.us, h.data, h.gap, h.fs0, h.preg, h.dreg, h.dx, h.du, h.dxt, h.dut, h.z, h.y, h.rho⟩
  have hdir : ({ s with q := { s.q with tick := s.q.tick + 1 } } : CSQP P).prepare.dir W = .ok s1 := by
    unfold CSQP.direction at hd
    rw [if_pos (show (CSQP.entry s).c.removeReg = true by rw [(CSQP.entry_conf s).1]; exact hm.reg)] at hd
    change (match ({ s with q := { s.q with tick := s.q.tick + 1 } } : CSQP P).prepare.dir W with
      | .ok s => some (none, s) | .exn s => some (some Out.thrown, s)) = _ at hd
    cases hx : ({ s with q := { s.q with tick := s.q.tick + 1 } } : CSQP P).prepare.dir W with
    | ok s2 => rw [hx] at hd; cases hd; rfl
    | exn s2 => rw [hx] at hd; cases hd
  obtain ⟨q0, hprep, -⟩ := CSQP.prepare_set ({ s with q := { s.q with tick := s.q.tick + 1 } } : CSQP P)
  obtain ⟨q1, -, hs1⟩ := CSQP.dir_ok hdir
  rw [hprep] at hs1
  have he : CSQP.Evald (CSQP.checked s1) := CSQP.checked_evald (CSQP.direction_evald hd (CSQP.entry_evald s))
  have b1 : s1.preg = s.preg ∧ s1.dreg = s.dreg ∧ s1.e.fs 0 = s.e.fs 0 ∧ s1.acc = s.acc ∧ s1.c = s.c ∧ s1.iter = s.iter ∧ s1.xs = s.xs ∧ s1.us = s.us := by
    rw [hs1]; exact ⟨rfl, rfl, rfl, rfl, rfl, rfl, rfl, rfl⟩
  obtain ⟨pr, dr, f0, ac, cc, it, xx, uu⟩ := b1
  -- the line search of C++
  obtain ⟨s2, hl, hs', hrr⟩ : ∃ s2, CSQP.lineSearch s.c.par.alphas (CSQP.checked s1).pushFilter.setMerit = (true, s2) ∧ s' = s2 ∧ True := by
    cases CSQP.advance_cases hadv with
    | rejected s2 hl hs hr => cases hr
    | accepted s2 hl hs hr =>
      rw [show (CSQP.checked s1).c = s.c from cc] at hl
      refine ⟨s2, hl, ?_, trivial⟩
      rw [hs]
      unfold CSQP.updateReg
      have hc2 : s2.c = s.c := by
        obtain ⟨d, w, iw, m, xs, us, fe, acc', _, hset⟩ := CSQP.lineSearch_set s.c.par.alphas (CSQP.checked s1).pushFilter.setMerit
        rw [hl] at hset
        simp only [] at hset
        rw [hset]; exact cc
      rw [if_pos (by rw [hc2]; exact hm.reg)]
  subst hs'
  have hfs := (CSQP.lineSearch_spec s.c.par.alphas (CSQP.checked s1).pushFilter.setMerit).1 (by rw [hl])
  have htail := c_search_tail s.c.par.alphas (CSQP.checked s1).pushFilter.setMerit
  obtain ⟨d, w, iw, m, X, U, fe, acc', _, hset⟩ := CSQP.lineSearch_set s.c.par.alphas (CSQP.checked s1).pushFilter.setMerit
  rw [hl] at hfs htail hset
  simp only [] at hfs htail hset
  have hq' : s'.q = s1.q := by rw [hset]; rfl
  have ht1 : s1.q.reached = false := by rw [← hq']; exact ht
  obtain ⟨p1, hp1, e1, e2, e3, e4, e5, e6, e7, e8, e9, e10, e11, e12, e13, e14, e15⟩ :=
    C74_pycsqp_direction hllt hW hsched hP hr hT hTwin hq hdir ht1
  obtain ⟨hat, px, pu⟩ := dirAt_atPoint hp1
  obtain ⟨k1, k2, k3, k4, k5, k6, k7, k8, k9, k10⟩ := keep_all (keep_dirAt hp1)
  obtain ⟨au1, au2⟩ := hm.auto
  have auto1 : p1.auto = false := by unfold PyCSQP.auto; rw [k2, k3]; exact au1
  refine ⟨p1, hp1, fun t ht => by rw [hq']; exact e1 t ht, fun t ht => by rw [hq']; exact e2 t ht, ?_⟩
  cases hpass : passes p1 with
  | true =>
    refine .inl ⟨rfl, fun htol => ?_⟩
    have h1 : ¬ (CSQP.checked s1).m.KKT ≤ s.c.tol := by
      rw [← cc]
      exact of_decide_eq_false hk
    have h2 : p1.kktCheck.KKT < p.tol := by
      rw [← k5]
      exact of_decide_eq_true hpass
    rw [show (CSQP.checked s1).m.KKT = s1.checkKKT.m.KKT from rfl, e9, max_le_iff, not_and_or] at h1
    rcases h1 with h1 | h1
    · rw [hat.diff.run 0 hT, px, pu] at h1
      exact not_le.mp h1
    · exact absurd (h2.le.trans htol) h1
  | false =>
    refine .inr ⟨rfl, ?_⟩
    have hstepX : ∀ a t, t ≤ P.T → stepX P p1.xs p1.q.dx a t = stepX P s.xs s1.q.v.dx a t := by
      intro a t ht
      unfold stepX
      rw [px, h.xs t ht, e1 t ht]
    have hstepU : ∀ a t, t < P.T → stepU P p1.us p1.q.du a t = stepU P s.us s1.q.v.du a t := by
      intro a t ht
      unfold stepU
      rw [pu, h.us t ht, e2 t ht]
    have hfm : ∀ (xs xs' : Traj P) (us us' : Ctrls P) (a b : K), (∀ t, t ≤ P.T → xs t = xs' t) → (∀ t, t < P.T → us t = us' t) →
        fixedMerit a b xs us = fixedMerit a b xs' us' := by
      intro xs xs' us us' a b hx hu
      obtain ⟨_, g1, g2, g3, _⟩ := CSQP.eval_congr hx hu
      unfold fixedMerit
      rw [g1, g2, g3]
    have hiff : ∀ i, i < 10 → (Good p1.kktCheck.pushFilter n (PySQP.halve i) ↔
        CSQP.Acceptable (CSQP.checked s1).pushFilter.setMerit (PySQP.halve i)) := by
      intro i hi
      rw [py_good_iff hat (k6.trans hm.pf) auto1 (k9.trans h.gap) (k10.trans hm.gap), c_acceptable_iff he
        (by rw [show (CSQP.checked s1).c = s.c from cc]; exact hm.sf) (by rw [show (CSQP.checked s1).c = s.c from cc]; exact au2),
        show (CSQP.checked s1).c = s.c from cc, show (CSQP.checked s1).xs = s.xs from xx, show (CSQP.checked s1).us = s.us from uu,
        show (CSQP.checked s1).q = s1.q from rfl, hfm _ _ _ _ _ _ (hstepX _) (hstepU _), k2, k3, hm.mu1, hm.mu2,
        hfm p1.xs s.xs p1.us s.us _ _ (fun t ht => by rw [px, h.xs t ht]) (fun t ht => by rw [pu, h.us t ht])]
      have := hb i hi
      rw [hq'] at this
      exact ⟨fun hlt => ⟨(halve_range i).1, (halve_range i).2, this, hlt⟩, fun hlt => hlt.2.2.2⟩
    obtain ⟨pre, a, post, e, hpre, hacc, hst⟩ := hfs
    rw [hm.alphas, defaultAlphas_exact] at e
    obtain ⟨k, hk10, hak, hprek⟩ : ∃ k, k < 10 ∧ a = PySQP.halve k ∧ ∀ i, i < k → (PySQP.halve i : K) ∈ pre := by
      have hlen : pre.length < 10 := by
        have := congrArg List.length e
        simp at this
        omega
      refine ⟨pre.length, hlen, ?_, fun i hi => ?_⟩
      · have := congrArg (fun l => l[pre.length]?) e
        simp [hlen] at this
        exact this.symm
      · have := congrArg (fun l => l[i]?) e
        simp only [List.getElem?_map, List.getElem?_range (show i < 10 by omega), Option.map_some] at this
        rw [List.getElem?_append_left hi] at this
        exact List.mem_of_getElem? this.symm
    subst hak
    have hgood := (hiff k hk10).2 hacc
    have hbad : ∀ i, i < k → ¬ Good p1.kktCheck.pushFilter n (PySQP.halve i) := fun i hi hg => hpre _ (hprek i hi) ((hiff i (by omega)).1 hg)
    have hpf : p1.kktCheck.pushFilter.useFilter = false := k6.trans hm.pf
    generalize hsr : search n 10 (PySQP.halve 0) p1.kktCheck.pushFilter = r
    obtain ⟨r, q⟩ := r
    have hptail := py_search_tail n 10 (PySQP.halve 0) p1.kktCheck.pushFilter
    rw [hsr] at hptail
    simp only [] at hptail
    refine ⟨k, q, hk10, ?_, ?_⟩
    · rw [hst.acc]
      exact congrArg (· ++ _) ac
    rcases search_spec n 10 (Trials.refl p1.kktCheck.pushFilter) 0 hsr with
      ⟨rfl, j, -, j2, j3, j5, j6, j7⟩ | ⟨-, i2, i4, -⟩ | ⟨rfl, i2, -, i4, -⟩
    · left
      have hjk : j = k := by
        rcases lt_trichotomy j k with hlt | heq | hgt
        · exact absurd j5 (hbad j hlt)
        · exact heq
        · exact absurd hgood (j6 k (Nat.zero_le _) hgt)
      subst hjk
      have hj9 := j3 hpf
      have hkq := j7.keep
      have hkp : keep p1 = keep p := keep_dirAt hp1
      have hk0 : keep p1.kktCheck.pushFilter = keep p1 := rfl
      obtain ⟨c1, c2, c3, c4, c5, c6, c7, c8, c9, c10⟩ := keep_all (hkq.trans (hk0.trans hkp))
      have hqq : q.q = p1.q := by
        obtain ⟨_, _, _, _, _, _, _, _, _, _, _, rfl, -⟩ := j7.frame
        rfl
      refine ⟨by omega, rfl, ?_, ?_⟩
      · have hsc : s'.c = s.c := by rw [hset]; exact cc
        refine ⟨by rw [c1]; exact (hsc ▸ h.conf : SameQPConf p.c s'.c), ?_, fun t ht => ?_, fun t ht => ?_, ?_, c9.trans h.gap, ?_, ?_, ?_,
          fun t ht => ?_, fun t ht => ?_, fun t ht => ?_, fun t ht => ?_, fun t ht => ?_, fun t ht => ?_, .inr ⟨fun t ht => ?_, fun t ht i => ?_, ?_⟩⟩
        · change s'.iter + 1 = n + 1
          rw [hset]
          change s1.iter + 1 = n + 1
          rw [it, h.iter]
        · rw [j7.xs t ht]
          change _ = s'.xs t
          rw [hst.xs t ht]
          refine (hstepX _ t ht).trans ?_
          rw [← xx]; rfl
        · rw [j7.us t ht]
          change _ = s'.us t
          rw [hst.us t ht]
          refine (hstepU _ t ht).trans ?_
          rw [← uu]; rfl
        · change q.data.Tail s'.data
          refine hptail.trans (Data.Tail.trans ?_ htail.symm)
          change p1.data.Tail s1.data
          rw [e13]; exact Data.Tail.refl _
        · change s'.e.fs 0 = 0
          rw [hset]
          exact f0.trans h.fs0
        · change s'.preg = 0
          rw [hset]
          exact pr.trans h.preg
        · change s'.dreg = 0
          rw [hset]
          exact dr.trans h.dreg
        · rw [hqq]; change _ = s'.q.v.dx t; rw [hq']; exact e1 t ht
        · rw [hqq]; change _ = s'.q.v.du t; rw [hq']; exact e2 t ht
        · rw [hqq]; change _ = s'.q.v.dxt t; rw [hq']; exact e10 t ht
        · rw [hqq]; change _ = s'.q.v.dut t; rw [hq']; exact e11 t ht
        · rw [hqq]; change _ = s'.q.v.z t; rw [hq']; exact e4 t ht
        · rw [hqq]; change _ = s'.q.v.y t; rw [hq']; exact e3 t ht
        · rw [hqq]; change _ = s'.q.v.rho t; rw [hq']; exact e5 t ht
        · change s'.q.v.inv t i = 1 / s'.q.v.rho t i; rw [hq']; exact e12 t ht i
        · rw [hqq]; change _ = s'.q.rhoSparse; rw [hq']; exact e6
      · have hsc : s'.c = s.c := by rw [hset]; exact cc
        refine ⟨c6.trans hm.pf, ?_, ?_, ?_, by rw [c2]; exact hm.pos1, by rw [c3]; exact hm.pos2, ?_, ?_, c10.trans hm.gap⟩
        · change s'.c.useFilter = false; rw [hsc]; exact hm.sf
        · change q.mu1 = s'.c.muDyn; rw [hsc, c2]; exact hm.mu1
        · change q.mu2 = s'.c.muCon; rw [hsc, c3]; exact hm.mu2
        · change s'.c.par.alphas = _; rw [hsc]; exact hm.alphas
        · change s'.c.removeReg = true; rw [hsc]; exact hm.reg
    · exact absurd hgood (i4 k (Nat.zero_le _) (by omega))
    · right
      refine ⟨?_, rfl⟩
      by_contra hn
      exact i4 k (Nat.zero_le _) (by omega) hgood

/-- the heads of the iterations of a C++ run that stays within its time limit, whose trial costs do not exceed `1e30` and whose steps
are longer than `1/2⁹`. -/
inductive CppRun (W : World K) (fuel : ℕ) (s0 : CSQP P) : ℕ → CSQP P → Prop
  | zero : CppRun W fuel s0 0 s0
  | next {n : ℕ} {s s' : CSQP P} (h : CppRun W fuel s0 n s) (hs : CSQP.body W fuel s = some (.next, s')) (ht : s'.q.reached = false)
      (hb : ∀ k, k < 10 → ¬ CostBlowsUp P (stepX P s.xs s'.q.v.dx (PySQP.halve k)) (stepU P s.us s'.q.v.du (PySQP.halve k)))
      (h9 : s'.acc ≠ s.acc ++ [PySQP.halve 9]) : CppRun W fuel s0 (n + 1) { s' with iter := s'.iter + 1 }

/-- **C74, whole runs.**  Twins with the same merit function stay twins in every iteration, until the Python class returns true while the
C++ solver goes on. -/
theorem C74_pycsqp_lockstep {L : PyLLT K} {W : World K} (hllt : LLTExact L.llt) (hW : W.llt = L.llt)
    (hsched : W.sched = none ∨ ∃ l, W.sched = some l ∧ SchedOK P l) (hP : Spec.SymProblem P) (hr : PlainRows P) (hT : 0 < P.T)
    {fuel : ℕ} {p0 : PyCSQP P} {s0 : CSQP P} (h : Twin 0 p0 s0) (hm : SameMerit p0 s0) (hq : p0.c.maxQP ≠ 0) {n : ℕ} {s : CSQP P}
    (hs : CppRun W fuel s0 n s) :
    (∃ p, Heads L p0 n p ∧ Twin n p s ∧ SameMerit p s) ∨
    (∃ m p sm p1, m < n ∧ Heads L p0 m p ∧ CppRun W fuel s0 m sm ∧ Twin m p sm ∧ dirAt L m p = .ok p1 ∧ passes p1 = true) := by
  induction hs with
  | zero => exact .inl ⟨p0, .zero, h, hm⟩
  | @next n s s' hrun hs ht hb h9 ih =>
    rcases ih with ⟨p, hh, hw, hsm⟩ | ⟨m, p, sm, p1, h1, h2⟩
    · have hqp : p.c.maxQP ≠ 0 := by rw [(keep_all hh.keep).1]; exact hq
      obtain ⟨p1, d1, -, -, ⟨d2, -⟩ | ⟨d2, k, q, d3, d4, ⟨d5, d6, d7, d8⟩ | ⟨d5, -⟩⟩⟩ :=
        C74_pycsqp_iteration hllt hW hsched hP hr hT hw hsm hqp hs ht hb
      · exact .inr ⟨n, p, s, p1, Nat.lt_succ_self n, hh, hrun, hw, d1, d2⟩
      · exact .inl ⟨q, .succ hh ⟨p1, d1, d2, _, d6, fun e => (by cases e)⟩, d7, d8⟩
      · subst d5; exact absurd d4 h9
    · exact .inr ⟨m, p, sm, p1, Nat.lt_succ_of_lt h1, h2⟩

end
end Mim
