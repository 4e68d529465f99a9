import Verif.Lemmas.CSQPTry

/-!
# Evaluated states and reachable states of SolverCSQP
-/
set_option linter.unusedSectionVars false
set_option linter.unusedSimpArgs false

namespace Mim
open Spec
variable {F : Type} [Add F] [Sub F] [Mul F] [Div F] [Neg F] [Zero F] [One F] [FloatOps F] {P : Problem F}

namespace CSQP

/-- All evaluations held by the solver are those of its current trajectory. -/
structure Evald (s : CSQP P) : Prop where
  fresh : FreshCalc P s.data s.xs s.us
  diff : FreshDiff P s.data s.xs s.us
  fs : ∀ t, t < P.T → s.e.fs (t + 1) = shootGap P s.xs s.us t
  cost : s.e.cost = trajCost P s.xs s.us
  gap : s.e.gap = shootGapNorm P s.xs s.us
  con : s.e.con = conViol P s.xs s.us

theorem calcEval_evald (s : CSQP P) : Evald s.calcEval := by
  have hrun : ∀ t, t < P.T → s.calcEval.data.run t = P.calcR t (s.xs t) (s.us t) := by
    intro t ht
    change (if t < P.T then _ else _) = _
    rw [if_pos ht]
  have hfs : ∀ t, t < P.T → s.calcEval.e.fs (t + 1) = shootGap P s.xs s.us t := by
    intro t ht
    change (if t < P.T then P.diff (s.xs (t + 1)) (s.calcEval.data.run t).xnext else _) = _
    rw [if_pos ht, hrun t ht]; rfl
  refine ⟨⟨hrun, rfl⟩, ⟨?_, rfl⟩, hfs, ?_, ?_, ?_⟩
  · intro t ht
    change (if t < P.T then _ else _) = _
    rw [if_pos ht]; rfl
  · change sumUp P.T (fun t => (s.calcEval.data.run t).cost) + _ = trajCost P s.xs s.us
    rw [sumUp_congr _ _ (nodeCost P s.xs s.us) fun t ht => by rw [hrun t ht]; rfl]
    rfl
  · change sumUp P.T (fun t => norm1 (s.calcEval.e.fs (t + 1))) = sumUp P.T _
    exact sumUp_congr _ _ _ fun t ht => by rw [hfs t ht]; rfl
  · have : ∀ n, n ≤ P.T → forUp n (fun t acc => addViol (P.lb t) (P.ub t) (s.calcEval.data.run t).g acc) (0 : F)
        = conUpTo s.xs s.us n := by
      intro n
      induction n with
      | zero => intro _; rfl
      | succ n ih =>
        intro hn
        rw [forUp_succ, ih (by omega), hrun n (by omega)]; rfl
    change addViol (P.lb P.T) (P.ub P.T) (P.calcT (s.xs P.T)).g (forUp P.T (fun t acc => addViol (P.lb t) (P.ub t)
      (s.calcEval.data.run t).g acc) 0) = _
    rw [this _ le_rfl]; rfl

/-- `Evald` mentions only the trajectory, the data and the evaluation. -/
theorem Evald.congr {s s' : CSQP P} (h : Evald s) (hx : s'.xs = s.xs) (hu : s'.us = s.us) (hd : s'.data = s.data)
    (he : s'.e = s.e) : Evald s' := by
  obtain ⟨h1, h2, h3, h4, h5, h6⟩ := h
  refine ⟨?_, ?_, ?_, ?_, ?_, ?_⟩
  · rw [hx, hu, hd]; exact h1
  · rw [hx, hu, hd]; exact h2
  · rw [hx, hu, he]; exact h3
  · rw [hx, hu, he]; exact h4
  · rw [hx, hu, he]; exact h5
  · rw [hx, hu, he]; exact h6

variable [SqrtOps F]

/-- what `prepare` leaves alone. -/
theorem prepare_set (s : CSQP P) : ∃ q, s.prepare = { s.calcEval with q := q } ∧ q.reached = s.q.reached ∧
    (q = s.q ∨ q = s.q.resetRho s.c) := by
  unfold prepare
  simp only []
  split
  · exact ⟨s.q.resetRho s.c, rfl, rfl, .inr rfl⟩
  · exact ⟨s.q, rfl, rfl, .inl rfl⟩

theorem entry_evald (s : CSQP P) : Evald (entry s) := by
  obtain ⟨q, h, _⟩ := prepare_set { s with q := { s.q with tick := s.q.tick + 1 } }
  unfold entry
  rw [h]
  exact (calcEval_evald { s with q := { s.q with tick := s.q.tick + 1 } }).congr rfl rfl rfl rfl

theorem direction_evald {W : World F} {fuel : ℕ} {chk : Bool} {s s' : CSQP P} {o : Option Out}
    (h : direction W fuel chk s = some (o, s')) (he : Evald s) : Evald s' := by
  obtain ⟨q, p, d, rfl⟩ := direction_set h
  exact he.congr rfl rfl rfl rfl

theorem checked_evald {s : CSQP P} (he : Evald s) : Evald (checked s) := he.congr rfl rfl rfl rfl

/-- the first blocks of the direction are zero. -/
def Zero0 (q : CQP P) : Prop := q.v.dx 0 = zeroV F P.ndx ∧ q.v.dxt 0 = zeroV F P.ndx

theorem fwdLoop_zero (E : QEnv P) (b : BP P) (x : (ℕ → Vec F P.ndx) × ((t : ℕ) → Vec F (P.nu t))) :
    (fwdLoop E b x).1 0 = x.1 0 := by
  unfold fwdLoop
  refine forUp_inv (fun _ (y : (ℕ → Vec F P.ndx) × ((t : ℕ) → Vec F (P.nu t))) => y.1 0 = x.1 0) _ _ _ rfl ?_
  intro t _ y hy
  simp only [fwdStage]
  rw [Function.update_of_ne (Nat.succ_ne_zero t).symm, hy]

theorem lagStage_zero (E : QEnv P) (it t : ℕ) (s : CVars P × CNorms F)
    (h : s.1.dx 0 = zeroV F P.ndx ∧ s.1.dxt 0 = zeroV F P.ndx) :
    (lagStage E it t s).1.dx 0 = zeroV F P.ndx ∧ (lagStage E it t s).1.dxt 0 = zeroV F P.ndx := by
  have hu : Function.update s.1.dx t (s.1.dxt t) 0 = zeroV F P.ndx := by
    by_cases h0 : t = 0
    · subst h0; rw [Function.update_self]; exact h.2
    · rw [Function.update_of_ne (Ne.symm h0)]; exact h.1
  unfold lagStage
  simp only []
  split
  · exact ⟨hu, h.2⟩
  · exact ⟨hu, h.2⟩

theorem lagTerm_zero (E : QEnv P) (it : ℕ) (s : CVars P × CNorms F)
    (h : s.1.dx 0 = zeroV F P.ndx ∧ s.1.dxt 0 = zeroV F P.ndx) :
    (lagTerm E it s).1.dx 0 = zeroV F P.ndx ∧ (lagTerm E it s).1.dxt 0 = zeroV F P.ndx := by
  have hu : Function.update s.1.dx P.T (s.1.dxt P.T) 0 = zeroV F P.ndx := by
    by_cases h0 : P.T = 0
    · rw [h0, Function.update_self]; exact h.2
    · rw [Function.update_of_ne (Ne.symm h0)]; exact h.1
  unfold lagTerm
  simp only []
  split
  · exact ⟨hu, h.2⟩
  · exact ⟨hu, h.2⟩

theorem zero0_inv (E : QEnv P) : CQP.Inv E (Zero0 (P := P)) where
  bwd _ _ h := h
  ctl _ _ _ _ _ _ _ _ _ h := h
  reset q h := by
    have e : (q.resetParams E.c).v.dx = q.v.dx ∧ (q.resetParams E.c).v.dxt = q.v.dxt := by
      unfold CQP.resetParams; cases E.c.resetRho <;> exact ⟨rfl, rfl⟩
    exact ⟨by rw [e.1]; exact h.1, by rw [e.2]; exact h.2⟩
  plain q h := ⟨(fwdLoop_zero E _ _).trans h.1, h.2⟩
  fwd q h := ⟨h.1, (fwdLoop_zero E _ _).trans h.2⟩
  lag q h := by
    refine lagTerm_zero E _ _ ?_
    exact forUp_inv (fun _ (s : CVars P × CNorms F) => s.1.dx 0 = zeroV F P.ndx ∧ s.1.dxt 0 = zeroV F P.ndx) _ _ _ h
      fun t _ s hs => lagStage_zero E _ t s hs
  rho q r _ h := h

/-- The state of the solver after any sequence of public calls on a freshly constructed solver: parameter changes, changes of
the filter size, direct calls to `computeDirection`, `tryStep`, `calc`, `checkKKTConditions`, the backward and forward passes,
the multiplier and penalty updates (whether they throw or not) and completed solves with any arguments. -/
inductive Reachable : CSQP P → Prop
  | new (d : Data P) (rho0 inv0 : (t : ℕ) → Vec F (P.ng t)) (lag0 : F) : Reachable (CSQP.new d rho0 inv0 lag0)
  | setParams (s : CSQP P) (c : CConf F) : c.filterSize = s.c.filterSize → Reachable s → Reachable { s with c := c }
  | setFilterSize (s : CSQP P) (n : ℕ) : Reachable s → Reachable (s.setFilterSize n)
  | setRhoSparse (s : CSQP P) (r : F) : Reachable s → Reachable (s.setRhoSparse r)
  | dir (s : CSQP P) (W : World F) : Reachable s → Reachable (s.dir W).st
  | calcEval (s : CSQP P) : Reachable s → Reachable s.calcEval
  | checkKKT (s : CSQP P) : Reachable s → Reachable s.checkKKT
  | tryStep (s : CSQP P) (a : F) : Reachable s → Reachable (s.tryStep a).st
  | backward (s : CSQP P) (b : CBP P) : Reachable s → Reachable { s with q := { s.q with b := b } }
  | forward (s : CSQP P) (W : World F) : Reachable s → Reachable { s with q := s.q.forward (s.env W) }
  | forwardPlain (s : CSQP P) (W : World F) : Reachable s → Reachable { s with q := s.q.forwardPlain (s.env W) }
  | updateLag (s : CSQP P) (W : World F) : Reachable s → Reachable { s with q := s.q.updateLag (s.env W) }
  | updateRho (s : CSQP P) (W : World F) : Reachable s → Reachable { s with q := s.q.updateRho (s.env W) }
  | resetParams (s : CSQP P) : Reachable s → Reachable { s with q := s.q.resetParams s.c }
  | resetRho (s : CSQP P) : Reachable s → Reachable { s with q := s.q.resetRho s.c }
  | solve (s s' : CSQP P) (W : World F) (fuel : ℕ) (xs : Option (Traj P)) (us : Option (Ctrls P)) (m : ℕ) (ri : F) (o : Out) :
      Reachable s → solve W fuel xs us m ri s = some (o, s') → Reachable s'

theorem dir_zero0 (W : World F) (s : CSQP P) (h : Zero0 s.q) : Zero0 (s.dir W).st.q := by
  rw [dir_st]
  exact (zero0_inv (s.env W)).computeDirection_st W.llt s.q h

theorem direction_zero0 {W : World F} {fuel : ℕ} {chk : Bool} {s s' : CSQP P} {o : Option Out}
    (h : direction W fuel chk s = some (o, s')) (hz : Zero0 s.q) : Zero0 s'.q :=
  direction_inv (fun s => Zero0 s.q) (dir_zero0 W) (fun _ h => h) hz h

theorem calcEval_fs0 (s : CSQP P) : s.calcEval.e.fs 0 = s.e.fs 0 := rfl

theorem entry_zero (s : CSQP P) (h : Zero0 s.q ∧ s.e.fs 0 = zeroV F P.ndx) :
    Zero0 (entry s).q ∧ (entry s).e.fs 0 = zeroV F P.ndx := by
  obtain ⟨q, h1, _, hq⟩ := prepare_set { s with q := { s.q with tick := s.q.tick + 1 } }
  unfold entry
  rw [h1]
  refine ⟨?_, h.2⟩
  rcases hq with rfl | rfl <;> exact h.1

theorem updateReg_set (s : CSQP P) : ∃ p d, s.updateReg.2 = { s with preg := p, dreg := d } := by
  unfold updateReg; split
  · exact ⟨s.preg, s.dreg, rfl⟩
  · split <;> exact ⟨_, _, rfl⟩

/-- invariant rule for one iteration: `I` must survive the evaluation, the direction computation, the checks and the line
search. -/
theorem body_inv {W : World F} {fuel : ℕ} (I : CSQP P → Prop)
    (htick : ∀ (s : CSQP P) tk rc, I s → I { s with q := { s.q with tick := tk, reached := rc } })
    (hprep : ∀ s : CSQP P, I s → I s.prepare)
    (hdir : ∀ (s s' : CSQP P) o, I s → direction W fuel true s = some (o, s') → I s')
    (hchk : ∀ s : CSQP P, I s → I (checked s))
    (hadv : ∀ s : CSQP P, I s → I (lineSearch s.c.par.alphas s.pushFilter.setMerit).2)
    (hreg : ∀ (s : CSQP P) p d n, I s → I { s with preg := p, dreg := d, nRej := n })
    {s s' : CSQP P} {r : Step} (h0 : I s) (h : body W fuel s = some (r, s')) : I s' := by
  have he : I (entry s) := hprep _ (htick s _ s.q.reached h0)
  cases body_cases h with
  | timeUp hu hs hr => subst hs; exact htick s _ _ h0
  | ended hu o h1 hr => exact hdir _ _ _ he h1
  | noQP hu h1 hq hr => exact hdir _ _ _ he h1
  | converged hu s1 h1 hq hk hs hr => subst hs; exact hchk _ (hdir _ _ _ he h1)
  | searched hu s1 h1 hq hk ha =>
    have h2 := hadv _ (hchk _ (hdir _ _ _ he h1))
    cases ha with
    | rejected s2 h3 hs hr => rw [h3] at h2; subst hs; exact hreg s2 s2.preg s2.dreg _ h2
    | accepted s2 h3 hs hr =>
      rw [h3] at h2
      obtain ⟨p, d, e⟩ := updateReg_set s2
      rw [hs, e]; exact hreg s2 _ _ s2.nRej h2

/-- invariant rule for a whole solve. -/
theorem solve_inv1 {W : World F} {fuel : ℕ} (I : CSQP P → Prop)
    (htick : ∀ (s : CSQP P) tk rc, I s → I { s with q := { s.q with tick := tk, reached := rc } })
    (hiter : ∀ (s : CSQP P) i, I s → I { s with iter := i })
    (hprep : ∀ s : CSQP P, I s → I s.prepare)
    (heval : ∀ s : CSQP P, I s → I s.calcEval)
    (hdir : ∀ (s s' : CSQP P) chk o, I s → direction W fuel chk s = some (o, s') → I s')
    (hchk : ∀ s : CSQP P, I s → I (checked s))
    (hadv : ∀ s : CSQP P, I s → I (lineSearch s.c.par.alphas s.pushFilter.setMerit).2)
    (hreg : ∀ (s : CSQP P) p d n, I s → I { s with preg := p, dreg := d, nRej := n })
    {xs : Option (Traj P)} {us : Option (Ctrls P)} {m : ℕ} {ri : F} {s s' : CSQP P} {o : Out}
    (h0 : I (s.start W xs us m ri)) (h : solve W fuel xs us m ri s = some (o, s')) : I s' := by
  have hb : ∀ (s s' : CSQP P) r, I s → body W fuel s = some (r, s') → I s' := fun s s' r h0 h =>
    body_inv I htick hprep (fun s s' o => hdir s s' true o) hchk hadv hreg h0 h
  refine solve_inv (fun _ => I) I (fun _ => I) h0 (fun _ h => h) (fun _ s s' hI h => hiter _ _ (hb _ _ _ hI h))
    (fun _ s s' hI h => hb _ _ _ hI h) (fun _ s o s' hI h => hb _ _ _ hI h) ?_ h
  intro s o s' hJ hx
  cases extra_cases hx with
  | off he ho hs => subst hs; exact hJ
  | ended he hr hd => exact hdir _ _ _ _ (heval _ hJ) hd
  | checked he hr s1 hd hs ho => subst hs; exact hchk _ (hdir _ _ _ _ (heval _ hJ) hd)

/-- the two facts about node 0 every reachable state has. -/
def Node0 (s : CSQP P) : Prop := Zero0 s.q ∧ s.e.fs 0 = zeroV F P.ndx

theorem node0_lineSearch (s : CSQP P) (h : Node0 s) : Node0 (lineSearch s.c.par.alphas s.pushFilter.setMerit).2 := by
  obtain ⟨_, _, _, _, _, _, _, _, _, e⟩ := lineSearch_set s.c.par.alphas s.pushFilter.setMerit
  rw [e]; exact h

theorem start_node0 (W : World F) (xs : Option (Traj P)) (us : Option (Ctrls P)) (m : ℕ) (ri : F) (s : CSQP P) (h : Node0 s) :
    Node0 (s.start W xs us m ri) := by
  unfold start
  by_cases hm : m = 0
  · subst hm; exact h
  · simp only [if_neg hm]; exact h

theorem prepare_node0 (s : CSQP P) (h : Node0 s) : Node0 s.prepare := by
  obtain ⟨q, h1, _, hq⟩ := prepare_set s
  rw [h1]
  refine ⟨?_, h.2⟩
  rcases hq with rfl | rfl <;> exact h.1

theorem direction_node0 {W : World F} {fuel : ℕ} {chk : Bool} {s s' : CSQP P} {o : Option Out} (hI : Node0 s)
    (h : direction W fuel chk s = some (o, s')) : Node0 s' := by
  refine ⟨direction_zero0 h hI.1, ?_⟩
  obtain ⟨q, p, d, rfl⟩ := direction_set h
  exact hI.2

theorem solve_node0 {W : World F} {fuel : ℕ} {xs : Option (Traj P)} {us : Option (Ctrls P)} {m : ℕ} {ri : F} {s s' : CSQP P}
    {o : Out} (h0 : Node0 s) (h : solve W fuel xs us m ri s = some (o, s')) : Node0 s' :=
  solve_inv1 Node0 (fun _ _ _ h => h) (fun _ _ h => h) prepare_node0 (fun _ h => h) (fun _ _ _ _ hI h => direction_node0 hI h)
    (fun _ h => h) node0_lineSearch (fun _ _ _ _ h => h) (start_node0 W xs us m ri s h0) h

theorem Reachable.node0 {s : CSQP P} (h : Reachable s) : Node0 s := by
  induction h with
  | new d rho0 inv0 lag0 => exact ⟨⟨rfl, rfl⟩, rfl⟩
  | setParams s c _ _ ih => exact ih
  | setFilterSize s n _ ih => exact ih
  | setRhoSparse s r _ ih => exact ih
  | dir s W _ ih =>
    refine ⟨dir_zero0 W s ih.1, ?_⟩
    rw [dir_st]; exact ih.2
  | calcEval s _ ih => exact ih
  | checkKKT s _ ih => exact ih
  | tryStep s a _ ih =>
    obtain ⟨d, w, e⟩ := tryStep_set a s
    rw [e]; exact ih
  | backward s b _ ih => exact ih
  | forward s W _ ih => exact ⟨(zero0_inv (s.env W)).fwd _ ih.1, ih.2⟩
  | forwardPlain s W _ ih => exact ⟨(zero0_inv (s.env W)).plain _ ih.1, ih.2⟩
  | updateLag s W _ ih => exact ⟨(zero0_inv (s.env W)).lag _ ih.1, ih.2⟩
  | updateRho s W _ ih => exact ⟨(zero0_inv (s.env W)).updateRho _ ih.1, ih.2⟩
  | resetParams s _ ih =>
    refine ⟨?_, ih.2⟩
    have e : (s.q.resetParams s.c).v.dx = s.q.v.dx ∧ (s.q.resetParams s.c).v.dxt = s.q.v.dxt := by
      unfold CQP.resetParams; cases s.c.resetRho <;> exact ⟨rfl, rfl⟩
    exact ⟨by rw [e.1]; exact ih.1.1, by rw [e.2]; exact ih.1.2⟩
  | resetRho s _ ih => exact ih
  | solve s s' W fuel xs us m ri o _ h ih => exact solve_node0 ih h

end CSQP
end Mim
