import Verif.Props.FDDPStall
import Verif.Lemmas.FDDPMult

/-!
# FDDP at KKT points (C62)

At a KKT point the filter of FDDP refuses every trial (they all coincide with the point), but every refused trial brings the multipliers
of the convergence test up to date; without the filter the null step is accepted.
-/
set_option linter.unusedSectionVars false
set_option linter.unusedSimpArgs false

namespace Mim
open Matrix Spec DDP
variable {K : Type} [Field K] [LinearOrder K] [IsStrictOrderedRing K] {P : Problem K}
variable {llt : LLT K} {fuel : ℕ} {xs : Option (Traj P)} {us : Option (Ctrls P)} {m : ℕ} {s : DDP P}

/-- the regularization after an iteration with regularization `r` whose last trial had step length `a`. -/
def Params.regStep (p : Params K) (a r : K) : K :=
  let r1 := if p.thStepDec < a then max p.regMin (r / p.regDec) else r
  if a ≤ p.thStepInc then min p.regMax (r1 * p.regInc) else r1

namespace DDP

theorem updateReg_step {z : DDP P} (h : z.dreg = z.preg) :
    z.updateReg.2.preg = z.c.par.regStep z.steplength z.preg ∧ z.updateReg.2.dreg = z.c.par.regStep z.steplength z.preg ∧
    (z.updateReg.1 = true ↔ z.steplength ≤ z.c.par.thStepInc ∧ z.c.par.regStep z.steplength z.preg = z.c.par.regMax) := by
  unfold updateReg Params.regStep
  simp only [ltb_exact, leb_exact, decide_eq_true_eq]
  have hd : ∀ r, decReg z.c.par r = max z.c.par.regMin (r / z.c.par.regDec) := fun r => decReg_exact _ _
  have hi : ∀ r, incReg z.c.par r = min z.c.par.regMax (r * z.c.par.regInc) := fun r => incReg_exact _ _
  by_cases h1 : z.c.par.thStepDec < z.steplength <;> by_cases h2 : z.steplength ≤ z.c.par.thStepInc <;>
    simp [h1, h2, decreaseReg, increaseReg, hd, hi, h, eqb_exact]

/-- the rollout of a policy without feed-forward and without gaps from a feasible trajectory is that trajectory. -/
theorem policy_still_open (hsep : Separates P) (hint : ∀ x, P.integrate x 0 = x) {π : Policy P} (hf : Feasible P π.xs π.us)
    (hk : ∀ t, t < P.T → π.k t = 0) (hfs : ∀ t, t ≤ P.T → π.fs t = 0) (cl : Bool) (a : K) :
    (∀ t, t ≤ P.T → π.X cl a t = π.xs t) ∧ (∀ t, t < P.T → π.U cl a t = π.us t) ∧ ∀ t, t ≤ P.T → π.pre cl a t = π.xs t := by
  have hu : ∀ t, t < P.T → π.X cl a t = π.xs t → π.U cl a t = π.us t := by
    intro t ht hx
    unfold Policy.U Policy.u
    rw [hx, hk t ht, (hsep _ _).mpr rfl, sv_exact, mv_exact, smul_zero, Matrix.mulVec_zero, sub_zero, sub_zero]
  have hsh : ∀ t, t ≤ P.T → ∀ x, π.shift cl a t x = x := by
    intro t ht x
    unfold Policy.shift
    split
    · rfl
    · rw [hfs t ht, sv_exact, smul_zero]; exact hint x
  have hx : ∀ t, t ≤ P.T → π.X cl a t = π.xs t ∧ π.pre cl a t = π.xs t := by
    intro t
    induction t with
    | zero =>
      intro ht
      rw [Policy.X_eq, hsh 0 ht, hf.1]; exact ⟨rfl, rfl⟩
    | succ t ih =>
      intro ht
      rw [Policy.X_eq, hsh _ ht]
      obtain ⟨i1, _⟩ := ih (by omega)
      have e : π.pre cl a (t + 1) = π.xs (t + 1) := by
        rw [hf.2 t ht, ← hu t ht i1, ← i1]; rfl
      exact ⟨e, e⟩
  exact ⟨fun t ht => (hx t ht).1, fun t ht => hu t ht (hx t ht.le).1, fun t ht => (hx t ht).2⟩

/-- FDDP's data of the current iteration at a KKT point with multipliers `lam`. -/
structure AtKKT (z : DDP P) (lam : ℕ → Vec K P.ndx) : Prop where
  feas : Feasible P z.xs z.us
  range : TrajInRange P z.xs z.us
  fs : ∀ t, t ≤ P.T → z.e.fs t = 0
  k : ∀ t, t < P.T → z.e.bp.k t = 0
  Vx : ∀ t, t ≤ P.T → z.e.bp.Vx t = lam t

theorem AtKKT.noBlow {z : DDP P} {lam : ℕ → Vec K P.ndx} (h : AtKKT z lam) (hsep : Separates P) (hint : ∀ x, P.integrate x 0 = x)
    (cl : Bool) (a : K) : ¬ z.policy.BlowsUp cl a := by
  obtain ⟨hx, hu, hp⟩ := policy_still_open hsep hint (π := z.policy) h.feas h.k h.fs cl a
  rintro (⟨t, ht, h1 | h1⟩ | h1)
  · exact h.range.cost (costBlowsUp_congr hx hu (.inl ⟨t, ht, h1⟩))
  · rw [hp _ ht] at h1
    have := h.range.state t ht
    change P.badX (z.xs (t + 1)) = true at h1
    rw [this] at h1; cases h1
  · exact h.range.cost (costBlowsUp_congr hx hu (.inr h1))

/-- what the trials leave: null state differences, and (if the differences were null before) the multipliers. -/
def Calm (lam : ℕ → Vec K P.ndx) (D : Prop) (y : DTry P) : Prop :=
  (∀ t, t < P.T → y.dx t = 0) ∧ (D → ∀ t, t ≤ P.T → y.lagMul t = lam t)

theorem expFDDP_dx (s : DDP P) : ∀ t, t < P.T →
    s.expFDDP.y.dx t = if s.feas then s.y.dx t else P.diff (s.y.xs t) (s.xs t) := by
  intro t ht
  unfold expFDDP
  cases hf : s.feas with
  | true => simp
  | false =>
    simp only [Bool.false_eq_true, if_false]
    have : ∀ n (r : (ℕ → Vec K P.ndx) × K), t < n → (forUp n (fun t (r : (ℕ → Vec K P.ndx) × K) =>
        (Function.update r.1 t (P.diff (s.y.xs t) (s.xs t)),
          r.2 - dot (s.e.fs t) (mv (s.e.bp.Vxx t) (P.diff (s.y.xs t) (s.xs t))))) r).1 t = P.diff (s.y.xs t) (s.xs t) := by
      intro n r hn
      induction n with
      | zero => omega
      | succ n ih =>
        rw [forUp_succ]
        simp only []
        rcases Nat.lt_or_eq_of_le (Nat.le_of_lt_succ hn) with h' | rfl
        · rw [Function.update_of_ne (by omega)]; exact ih h'
        · rw [Function.update_self]
    exact this P.T _ ht

theorem AtKKT.trial {z : DDP P} {lam : ℕ → Vec K P.ndx} (h : AtKKT z lam) (hT : 0 < P.T) (hsep : Separates P)
    (hint : ∀ x, P.integrate x 0 = x) {s1 s2 : DDP P} (hs : SameF z s1) {a : K}
    (h2 : tryFDDP a { s1 with steplength := a, nTry := s1.nTry + 1 } = .ok s2) :
    Calm lam (∀ t, t < P.T → s1.y.dx t = 0) (testFDDP a s2).2.y := by
  obtain ⟨st, r, y, n, dV, ex, d0, d1, dv, e⟩ := hs
  obtain ⟨m1, m2, m3⟩ := tryFDDP_mult hT h2
  have hp : (policy { s1 with steplength := a, nTry := s1.nTry + 1 }) = z.policy := by rw [e]; rfl
  rcases tryFDDP_roll a { s1 with steplength := a, nTry := s1.nTry + 1 } with ⟨s3, h3, h4, _⟩ | ⟨s3, h3, _⟩
  swap
  · rw [h3] at h2; cases h2
  rw [h3] at h2
  obtain rfl : s3 = s2 := by cases h2; rfl
  have hX := h4.xs
  rw [hp] at hX
  have hx : ∀ t, t ≤ P.T → s3.y.xs t = z.xs t := fun t ht =>
    (hX t ht).trans ((policy_still_open hsep hint (π := z.policy) h.feas h.k h.fs _ a).1 t ht)
  have e1 : s1.e = z.e ∧ s1.xs = z.xs := by rw [e]; exact ⟨rfl, rfl⟩
  have hdx : ∀ t, t < P.T → s3.y.dx t = 0 := fun t ht => by
    rw [m1 t ht, hx t ht.le]
    change P.diff (s1.xs t) _ = 0
    rw [e1.2]; exact (hsep _ _).mpr rfl
  have harg : ∀ roll (d : Vec K P.ndx) t, t ≤ P.T → multArg roll ({ s1 with steplength := a, nTry := s1.nTry + 1 } : DDP P) d t = d := by
    intro roll d t ht
    unfold multArg
    change (if roll = true then d else d - s1.e.fs t) = d
    rw [e1.1, h.fs t ht, sub_zero, ite_self]
  have hlag : (∀ t, t < P.T → s1.y.dx t = 0) → ∀ t, t ≤ P.T → s3.y.lagMul t = lam t := by
    intro hd t ht
    rcases Nat.lt_or_eq_of_le ht with h' | rfl
    · rw [m2 t h', harg _ _ t ht]
      change mv (s1.e.bp.Vxx t) (s1.y.dx t) + s1.e.bp.Vx t = _
      rw [hd t h', mv_exact, Matrix.mulVec_zero, zero_add, e1.1]; exact h.Vx t ht
    · rw [m3, harg _ _ _ ht, hdx _ (by omega), mv_exact, Matrix.mulVec_zero, zero_add]
      change s1.e.bp.Vx _ = _
      rw [e1.1]; exact h.Vx _ ht
  obtain ⟨y', dV', e3⟩ := h4.frame
  have hxs3 : s3.xs = z.xs := by rw [e3]; exact e1.2
  unfold testFDDP
  split
  · exact ⟨hdx, hlag⟩
  · refine ⟨fun t ht => ?_, hlag⟩
    change s3.expFDDP.y.dx t = 0
    rw [expFDDP_dx s3 t ht, hdx t ht, hx t ht.le, hxs3, (hsep _ _).mpr rfl, ite_self]

theorem AtKKT.line {z : DDP P} {lam : ℕ → Vec K P.ndx} (h : AtKKT z lam) (hT : 0 < P.T) (hsep : Separates P)
    (hint : ∀ x, P.integrate x 0 = x) (D : Prop) :
    (fddp P).Line (fun s s1 => SameF s s1 ∧ (s = z → Calm lam D s1.y)) AcceptFDDP closes where
  exn s s1 s2 a h1 h2 := by
    obtain ⟨i1, i2, i3⟩ := fddp_line.exn s s1 s2 a h1.1 h2
    refine ⟨i1, ⟨i2, fun hz => ?_⟩, i3⟩
    subst hz
    obtain ⟨⟨st, r, y, n, dV, ex, d0, d1, dv, e⟩, hc⟩ := h1
    have hc := hc rfl
    have hp : (policy { s1 with steplength := a, nTry := s1.nTry + 1 }) = s.policy := by rw [e]; rfl
    have h2 : tryFDDP a { s1 with steplength := a, nTry := s1.nTry + 1 } = .exn s2 := h2
    rcases tryFDDP_roll a { s1 with steplength := a, nTry := s1.nTry + 1 } with ⟨s3, h3, _⟩ | ⟨s3, h3, h4⟩
    · rw [h3] at h2; cases h2
    · rw [hp] at h4
      have hbad : (ltb 1 a || ltb a 0) = true := by
        rw [Bool.or_eq_true]
        rcases h4 with h4 | h4 | h4
        · exact .inl h4
        · exact .inr h4
        · exact absurd h4 (h.noBlow hsep hint _ a)
      unfold tryFDDP at h2
      rw [if_pos hbad] at h2
      cases h2
      exact hc
  ok s s1 s2 a h1 h2 := by
    obtain ⟨i1, i2, i3⟩ := fddp_line.ok s s1 s2 a h1.1 h2
    refine ⟨i1, ⟨i2, fun hz => ?_⟩, i3⟩
    subst hz
    have hc := h1.2 rfl
    obtain ⟨c1, c2⟩ := h.trial hT hsep hint h1.1 h2
    exact ⟨c1, fun _ => c2 hc.1⟩

/-- the search at a KKT point. -/
theorem AtKKT.search {z : DDP P} {lam : ℕ → Vec K P.ndx} (h : AtKKT z lam) (hT : 0 < P.T) (hsep : Separates P)
    (hint : ∀ x, P.integrate x 0 = x) {as : List K} (has : z.c.par.alphas = 1 :: as)
    (hacc : (z.c.useFilter = true ∧ ∀ a ∈ z.c.par.alphas, ¬ AcceptFDDP z a) ∨ (z.c.useFilter = false ∧ AcceptFDDP z 1)) :
    Calm lam (∀ t, t < P.T → z.y.dx t = 0) (search (fddp P) z).y ∧ (∀ t, t ≤ P.T → (search (fddp P) z).xs t = z.xs t) ∧
    (∀ t, t < P.T → (search (fddp P) z).us t = z.us t) ∧
    (search (fddp P) z).steplength = if z.c.useFilter then z.c.par.alphas.getLastD 1 else 1 := by
  have hS : SameF z { z with recalc := false } := ⟨_, _, _, _, _, _, _, _, _, rfl⟩
  have hp1 : ¬ ltb (1 : K) 1 = true := by simp
  have hp2 : ¬ ltb (1 : K) 0 = true := by simp
  have hp : (policy { ({ z with recalc := false } : DDP P) with steplength := (1 : K), nTry := z.nTry + 1 }) = z.policy := rfl
  obtain ⟨s4, h4⟩ : ∃ s4, tryFDDP 1 { ({ z with recalc := false } : DDP P) with steplength := (1 : K), nTry := z.nTry + 1 } = .ok s4 := by
    rcases tryFDDP_roll 1 { ({ z with recalc := false } : DDP P) with steplength := (1 : K), nTry := z.nTry + 1 } with
      ⟨s3, h3, _⟩ | ⟨s3, h3, h5⟩
    · exact ⟨s3, h3⟩
    · rw [hp] at h5
      rcases h5 with h5 | h5 | h5
      · exact absurd h5 hp1
      · exact absurd h5 hp2
      · exact absurd h5 (h.noBlow hsep hint _ 1)
  have hcalm := h.trial hT hsep hint hS h4
  have h4' : (fddp P).trial 1 { ({ z with recalc := false } : DDP P) with
        steplength := 1, nTry := ({ z with recalc := false } : DDP P).nTry + 1 } = .ok s4 := h4
  obtain ⟨o1, o2, o3⟩ := fddp_line.ok z { z with recalc := false } s4 1 hS h4'
  have hx := (policy_still_open hsep hint (π := z.policy) h.feas h.k h.fs (z.closes 1) 1)
  rw [search_eq, has]
  rcases hacc with ⟨huf, hrej⟩ | ⟨huf, hacc⟩
  · have ht : ¬ ((fddp P).test 1 s4).1 = true := fun ht => hrej 1 (by rw [has]; simp) (o1.mp ht)
    have hl : lineSearch (fddp P) (1 :: as) { z with recalc := false } = lineSearch (fddp P) as ((fddp P).test 1 s4).2 := by
      conv_lhs => unfold lineSearch
      rw [h4']
      simp only []
      rw [if_neg ht]
    rw [hl]
    rcases (h.line hT hsep hint (∀ t, t < P.T → z.y.dx t = 0)).search z as ((fddp P).test 1 s4).2 ⟨o2, fun _ => hcalm⟩ with
      ⟨_, pre, a, post, _, l1, _, l3, _⟩ | ⟨l0, l1, ⟨l2, l3⟩, l4⟩
    · exact absurd l3 (hrej a (by rw [has, l1]; simp))
    · rw [l0]
      have l3 := l3 rfl
      obtain ⟨st, r, y, n, dV, ex, d0, d1, dv, e⟩ := l2
      refine ⟨l3, fun t _ => ?_, fun t _ => ?_, ?_⟩
      · change (lineSearch (fddp P) as ((fddp P).test 1 s4).2).2.xs t = _; rw [e]
      · change (lineSearch (fddp P) as ((fddp P).test 1 s4).2).2.us t = _; rw [e]
      · change (lineSearch (fddp P) as ((fddp P).test 1 s4).2).2.steplength = _
        rw [l4, o3.step, huf, if_pos rfl]
        cases as <;> rfl
  · have ht : ((fddp P).test 1 s4).1 = true := o1.mpr hacc
    have hl : lineSearch (fddp P) (1 :: as) { z with recalc := false } =
        (true, { (fddp P).commit 1 ((fddp P).test 1 s4).2 with recalc := true }) := by
      unfold lineSearch
      rw [h4']
      simp only []
      rw [if_pos ht]
    rw [hl]
    have hc : ((fddp P).test 1 s4).2.c.useFilter = false := by
      obtain ⟨st, r, y, n, dV, ex, d0, d1, dv, e⟩ := o2
      rw [e]; exact huf
    have hy : (commitFDDP 1 (testFDDP 1 s4).2).y = (testFDDP 1 s4).2.y ∧
        (commitFDDP 1 (testFDDP 1 s4).2).xs = (testFDDP 1 s4).2.y.xs ∧ (commitFDDP 1 (testFDDP 1 s4).2).us = (testFDDP 1 s4).2.y.us ∧
        (commitFDDP 1 (testFDDP 1 s4).2).steplength = (testFDDP 1 s4).2.steplength := by
      have hc : (testFDDP 1 s4).2.c.useFilter = false := hc
      unfold commitFDDP
      rw [hc]
      exact ⟨rfl, rfl, rfl, rfl⟩
    obtain ⟨y1, y2, y3, y4⟩ := hy
    refine ⟨?_, fun t ht => ?_, fun t ht => ?_, ?_⟩
    · change Calm _ _ (commitFDDP 1 (testFDDP 1 s4).2).y
      rw [y1]; exact hcalm
    · change (commitFDDP 1 (testFDDP 1 s4).2).xs t = _
      rw [y2]; exact (o3.xs t ht).trans (hx.1 t ht)
    · change (commitFDDP 1 (testFDDP 1 s4).2).us t = _
      rw [y3]; exact (o3.us t ht).trans (hx.2.1 t ht)
    · change (commitFDDP 1 (testFDDP 1 s4).2).steplength = _
      rw [y4, huf]; exact o3.step

/-- settings under which FDDP stays at a KKT point. -/
structure SaneF (c : DConf K) : Prop where
  tol : 0 ≤ c.tol
  alphas : c.par.alphas.head? = some 1
  filter : c.useFilter = true → 0 < c.filterSize
  grad : c.useFilter = false → 0 < c.par.thGrad

/-- the step length of the last trial at a KKT point. -/
def lastStep (c : DConf K) : K := if c.useFilter then c.par.alphas.getLastD 1 else 1

/-- the regularization is not at its end after an iteration with regularization `r` at a KKT point. -/
def KeepsGoing (c : DConf K) (r : K) : Prop := c.par.thStepInc < lastStep c ∨ c.par.regStep (lastStep c) r ≠ c.par.regMax

/-- FDDP at the head of its loop, standing at `X, U` with regularization `r`. -/
structure StandingF (c : DConf K) (X : Traj P) (U : Ctrls P) (r : K) (s : DDP P) : Prop where
  head : HeadInv s
  c : s.c = c
  xs : ∀ t, t ≤ P.T → s.xs t = X t
  us : ∀ t, t < P.T → s.us t = U t
  preg : s.preg = r
  dreg : s.dreg = r
  filter : s.c.useFilter = true → (∃ f oldc oldg, FDDPInv f oldc oldg s) ∧ s.hist.length = s.iter

theorem improveFDDP_zero {s2 : DDP P} (hfs : ∀ t, t ≤ P.T → s2.e.fs t = 0) (hk : ∀ t, t < P.T → s2.e.bp.k t = 0) :
    (checked (fddp P) s2).m.dg = 0 ∧ (checked (fddp P) s2).m.dq = 0 := by
  have key : ∀ n, n ≤ P.T → ∀ i : K × K, i = (0, 0) → forUp n (fun t (d : K × K) =>
      let d := if P.nu t ≠ 0 then (d.1 + dot (s2.e.bp.Qu t) (s2.e.bp.k t), d.2 - dot (s2.e.bp.k t) (s2.e.bp.Quuk t)) else d
      if s2.feas then d else (d.1 - dot (s2.e.bp.Vx t) (s2.e.fs t), d.2 + dot (s2.e.fs t) (mv (s2.e.bp.Vxx t) (s2.e.fs t)))) i = (0, 0) := by
    intro n hn i hi
    induction n with
    | zero => exact hi
    | succ n ih =>
      rw [forUp_succ, ih (by omega)]
      simp [hk n (by omega), hfs n (by omega)]
  have h0 : (if s2.feas then ((0 : K), (0 : K)) else (0 - dot (s2.e.bp.Vx P.T) (s2.e.fs P.T),
      0 + dot (s2.e.fs P.T) (mv (s2.e.bp.Vxx P.T) (s2.e.fs P.T)))) = (0, 0) := by
    simp [hfs P.T le_rfl]
  have e := key P.T le_rfl _ h0
  refine ⟨?_, ?_⟩
  · exact congrArg Prod.fst e
  · exact congrArg Prod.snd e

theorem dvAt_zero {z : DDP P} (hfs : ∀ t, t ≤ P.T → z.e.fs t = 0) (X : Traj P) : z.dvAt X = 0 := by
  unfold dvAt
  split
  · rfl
  · have : ∀ n, n ≤ P.T → ∀ i : K, i = 0 →
        forUp n (fun t acc => acc - dot (z.e.fs t) (mv (z.e.bp.Vxx t) (P.diff (X t) (z.xs t)))) i = 0 := by
      intro n hn i hi
      induction n with
      | zero => exact hi
      | succ n ih => rw [forUp_succ, ih (by omega), hfs n (by omega)]; simp
    exact this P.T le_rfl _ (by rw [hfs P.T le_rfl]; simp)

theorem gapNorm_zero {fs : ℕ → Vec K P.ndx} (h : ∀ t, t ≤ P.T → fs t = 0) : gapNorm (P := P) fs = 0 := by
  unfold gapNorm
  rw [sumUp_exact, Finset.sum_eq_zero fun t ht => by rw [h t (Finset.mem_range.mp ht).le]; simp, h _ le_rfl]
  simp

theorem gapTryAt_nonneg (s : DDP P) (a : K) : 0 ≤ s.gapTryAt a := by
  unfold gapTryAt
  rw [sumUp_exact]
  exact Finset.sum_nonneg fun t _ => by rw [norm1_exact]; exact Finset.sum_nonneg fun i _ => abs_nonneg _

/-- one iteration of FDDP at a KKT point: it reports success, or it stays and brings the multipliers up to date. -/
theorem StandingF.next {c : DConf K} {X : Traj P} {U : Ctrls P} {r : K} {lam : ℕ → Vec K P.ndx} {s1 : DDP P} (h : StandingF c X U r s1)
    (hT : 0 < P.T) (hllt : LLTExact llt) (hsep : Separates P) (hint : ∀ x, P.integrate x 0 = x) (hP : SymProblem P) (hcv : ConvexProblem P)
    (hc : SaneF c) (hk : IsKKT P 0 X U lam) (hp : 0 ≤ r) (hst : StrictControls P ∨ 0 < r) (hr : TrajInRange P X U)
    (hv : ValueInRange P X U r) (fuel : ℕ) :
    (∃ s', body (fddp P) llt (fuel + 1) s1 = some (some true, s') ∧ (∀ t, t ≤ P.T → s'.xs t = X t) ∧ (∀ t, t < P.T → s'.us t = U t) ∧
      s'.iter = s1.iter) ∨
    (¬ (∀ t, t ≤ P.T → s1.y.lagMul t = lam t) ∧ (KeepsGoing c r → ∃ s3, body (fddp P) llt (fuel + 1) s1 = some (none, s3) ∧
      s3.iter = s1.iter ∧ StandingF c X U (c.par.regStep (lastStep c) r) { s3 with iter := s3.iter + 1 } ∧
      (∀ t, t < P.T → s3.y.dx t = 0) ∧ ((∀ t, t < P.T → s1.y.dx t = 0) → ∀ t, t ≤ P.T → s3.y.lagMul t = lam t))) := by
  have hk1 := isKKT_congr h.xs h.us hk
  have hEv := evald_evalFresh h.head
  obtain ⟨c1, c2, _⟩ := evald_cand s1.recalc s1
  have hd0 := hEv.diff
  rw [c1, c2] at hd0
  have hz : ∀ t, t ≤ P.T → (evald s1.recalc s1).e.fs t = 0 := by
    intro t ht
    cases t with
    | zero => rw [hEv.gap0, c1]; exact vec_zero hk1.init
    | succ t => rw [hEv.gaps t ht, c1, c2]; exact vec_zero (hk1.gaps t ht)
  obtain ⟨s2, h2, hp2, hq2⟩ := retry_head (k := fddp P) (.inr rfl) hllt hP hcv h.head (by rw [h.preg]; exact hp) (by rw [h.dreg]; exact hp)
    (by rw [h.dreg]; exact hst) (by
      rw [h.preg, h.dreg]
      refine inRange_congr (fun _ _ => rfl) rfl (fun t ht => ?_) (valueInRange_congr h.xs h.us hv _ hd0)
      split
      · rfl
      · exact (hz t ht).symm) fuel
  rw [h.preg] at hp2
  rw [h.dreg] at hq2
  obtain ⟨k1, k2, k3, k4, k5, k6, k7, k8, k9⟩ := retry_keeps fddp_laws h2
  have hEv2 := retry_evalFresh fddp_laws h2 h.head
  have hz2 : ∀ t, t ≤ P.T → s2.e.fs t = 0 := by
    intro t ht
    cases t with
    | zero => rw [hEv2.gap0, k1]; exact vec_zero hk1.init
    | succ t => rw [hEv2.gaps t ht, k1, k2]; exact vec_zero (hk1.gaps t ht)
  have hdiff : FreshDiff P s2.y.data s1.xs s1.us := by have := hEv2.diff; rwa [k1, k2] at this
  obtain ⟨d0, d1, dg, dq, hch⟩ := checked_frame fddp_laws s2
  by_cases hconv : kktResidual s2.y.data s2.e.fs s2.y.lagMul ≤ c.tol
  · left
    refine ⟨checked (fddp P) s2, ?_, fun t ht => by rw [hch]; change s2.xs t = _; rw [k1]; exact h.xs t ht,
      fun t ht => by rw [hch]; change s2.us t = _; rw [k2]; exact h.us t ht, by rw [hch]; exact k5⟩
    unfold body
    rw [h2]
    have e1 : ((fddp P).improve s2).checkKKT = checked (fddp P) s2 := rfl
    simp only [e1]
    rw [if_pos]
    rw [hch]
    change leb (kktResidual s2.y.data s2.e.fs s2.y.lagMul) s2.c.tol = true
    rw [k4, h.c]
    simpa using hconv
  right
  refine ⟨fun hl => hconv (kktResidual_exact_zero hdiff hz2 hk1 (fun t ht => by rw [k8]; exact hl t ht) hc.tol), fun hgo => ?_⟩
  obtain ⟨_, hb, _⟩ := retry_spec fddp_laws h2
  obtain ⟨hdir, b0, hb⟩ := hb rfl
  obtain ⟨hk0, hVx⟩ := zero_direction hllt hP hdiff hb hz2 hk1
  obtain ⟨g0, g1⟩ := improveFDDP_zero hz2 hk0
  obtain ⟨f1, f2, f3⟩ := fddp_retry_filter h2
  obtain ⟨_, _, _, _, _, _, _, _, _, e2, _⟩ := pushed_frame fddp_laws s2
  obtain ⟨z, hzdef⟩ : ∃ z, (fddp P).push (checked (fddp P) s2) = z := ⟨_, rfl⟩
  rw [hzdef] at e2
  have hgz : z.m.dg = 0 ∧ z.m.dq = 0 := by rw [← hzdef]; exact ⟨g0, g1⟩
  have hpol : z.policy = s2.policy := by rw [e2]; rfl
  have hzf : z.feas = s2.feas := by rw [e2]
  have hzx : z.xs = s1.xs := by rw [e2]; exact k1
  have hzu : z.us = s1.us := by rw [e2]; exact k2
  have hze : z.e = s2.e := by rw [e2]
  have hzc : z.c = c := by rw [e2]; exact k4.trans h.c
  have hzp : z.preg = r := by rw [e2]; exact hp2
  have hzq : z.dreg = r := by rw [e2]; exact hq2
  have hzy : z.y = s2.y := by rw [e2]
  have hA : AtKKT z lam := by
    refine ⟨?_, ?_, fun t ht => by rw [hze]; exact hz2 t ht, fun t ht => by rw [hze]; exact hk0 t ht,
      fun t ht => by rw [hze]; exact hVx t ht⟩
    · rw [hzx, hzu]; exact kkt_feasible' hsep hk1
    · rw [hzx, hzu]; exact trajInRange_congr h.xs h.us hr
  obtain ⟨as, has⟩ : ∃ as, z.c.par.alphas = 1 :: as := by
    have := hc.alphas
    rw [← hzc] at this
    cases hl : z.c.par.alphas with
    | nil => rw [hl] at this; cases this
    | cons a as => rw [hl] at this; cases this; exact ⟨as, rfl⟩
  have hstill := fun cl (a : K) => policy_still_open hsep hint (π := z.policy) hA.feas hA.k hA.fs cl a
  have hcost : ∀ cl (a : K), trajCost P (z.policy.X cl a) (z.policy.U cl a) = z.e.cost := by
    intro cl a
    obtain ⟨x1, x2, _⟩ := hstill cl a
    rw [hze, hEv2.cost, k1, k2, ← hzx, ← hzu]
    exact trajCost_congr P x1 x2
  have hacc : (z.c.useFilter = true ∧ ∀ a ∈ z.c.par.alphas, ¬ AcceptFDDP z a) ∨ (z.c.useFilter = false ∧ AcceptFDDP z 1) := by
    cases huf : z.c.useFilter with
    | true =>
      left
      refine ⟨rfl, fun a _ hacc => ?_⟩
      have hgap : s2.e.gap = 0 := by
        have : s2.e.gap = gapNorm s2.e.fs := by
          obtain ⟨s0, h0 | h0⟩ := hdir <;> exact dirFDDP_gap h0
        rw [this]
        exact gapNorm_zero hz2
      rw [← hzdef] at hacc
      obtain ⟨⟨f, oldc, oldg, hI⟩, hlen⟩ := h.filter (by rw [h.c, ← hzc]; exact huf)
      have hlen2 : s2.hist.length = s2.iter := by
        simp only [Prod.mk.injEq] at f1
        rw [f1.2.2.2, f2]; exact hlen
      have hI2 := hI.congr f1
      refine fddp_refuses hI2 (by rw [← hI.size, h.c]; exact hc.filter (by rw [← hzc]; exact huf)) hlen2 (by rw [k4, h.c, ← hzc]; exact huf) ?_ ?_ hacc
      · have e := hcost (s2.closes a) a
        rw [hpol, hze] at e
        rw [e]
      · rw [hgap]
        exact gapTryAt_nonneg s2 a
    | false =>
      right
      refine ⟨rfl, by simp, by simp, hA.noBlow hsep hint _ 1, ?_⟩
      rw [huf]
      simp only [Bool.false_eq_true, if_false]
      left
      have e0 : z.predictedFDDP 1 = 0 := by
        unfold predictedFDDP predicted
        rw [dvAt_zero hA.fs, hgz.1, hgz.2]; simp
      refine ⟨by rw [e0]; simp, .inl ?_⟩
      rw [dvAt_zero hA.fs, hgz.1, hzc, ltb_exact, decide_eq_true_eq, add_zero]
      exact hc.grad (by rw [← hzc]; exact huf)
  obtain ⟨q1, q2, q3, q4⟩ := hA.search hT hsep hint has hacc
  obtain ⟨_, _, _, _, _, _, _, _, _, _, _, _, _, _, _, e3, _⟩ := search_frame fddp_laws z
  obtain ⟨_, _, e4⟩ := updateReg_frame (search (fddp P) z)
  have hsc : (search (fddp P) z).c = c := by rw [e3]; exact hzc
  have hsp : (search (fddp P) z).preg = r := by rw [e3]; exact hzp
  have hsq : (search (fddp P) z).dreg = r := by rw [e3]; exact hzq
  have hsl : (search (fddp P) z).steplength = lastStep c := by rw [q4, hzc]; rfl
  obtain ⟨u1, u2, u3⟩ := updateReg_step (hsq.trans hsp.symm)
  rw [hsl, hsp, hsc] at u1 u2 u3
  have hu0 : ¬ (search (fddp P) z).updateReg.1 = true := by
    rw [u3]
    rintro ⟨v1, v2⟩
    rcases hgo with h' | h'
    · exact absurd v1 (not_le.mpr h')
    · exact h' v2
  have hbody : body (fddp P) llt (fuel + 1) s1 = some (none, (search (fddp P) z).updateReg.2.stopping.callbacks) := by
    unfold body
    rw [h2]
    have e1 : ((fddp P).improve s2).checkKKT = checked (fddp P) s2 := rfl
    simp only [e1]
    rw [if_neg, hzdef, if_neg hu0]
    rw [hch]
    change ¬ leb (kktResidual s2.y.data s2.e.fs s2.y.lagMul) s2.c.tol = true
    rw [leb_exact, decide_eq_true_eq, k4, h.c]
    exact hconv
  have b3 : (search (fddp P) z).updateReg.2.stopping.callbacks.iter = s1.iter := by
    change (search (fddp P) z).updateReg.2.iter = _
    rw [e4]
    change (search (fddp P) z).iter = _
    rw [e3]
    change z.iter = _
    rw [e2]; exact k5
  refine ⟨_, hbody, b3, ⟨body_headInv fddp_laws hbody h.head, ?_, ?_, ?_, u1, u2, fun huf => ?_⟩, ?_, ?_⟩
  · change (search (fddp P) z).updateReg.2.c = c
    rw [e4]; exact hsc
  · intro t ht
    change (search (fddp P) z).updateReg.2.xs t = _
    rw [e4]
    change (search (fddp P) z).xs t = _
    rw [q2 t ht, hzx]; exact h.xs t ht
  · intro t ht
    change (search (fddp P) z).updateReg.2.us t = _
    rw [e4]
    change (search (fddp P) z).us t = _
    rw [q3 t ht, hzu]; exact h.us t ht
  · have huf : (search (fddp P) z).updateReg.2.c.useFilter = true := huf
    rw [e4] at huf
    have huf : (search (fddp P) z).c.useFilter = true := huf
    rw [hsc, ← h.c] at huf
    obtain ⟨⟨f, oldc, oldg, hI⟩, hlen⟩ := h.filter huf
    obtain ⟨b1, b2⟩ := fddp_body_filter hI hlen hbody
    refine ⟨⟨f, oldc, oldg, b1.congr rfl⟩, ?_⟩
    change _ = _ + 1
    rw [b3]; exact (b2 rfl).1
  · intro t ht
    change (search (fddp P) z).updateReg.2.y.dx t = 0
    rw [e4]; exact q1.1 t ht
  · intro hd t ht
    change (search (fddp P) z).updateReg.2.y.lagMul t = _
    rw [e4]
    refine q1.2 (fun t ht => ?_) t ht
    rw [hzy, k7]; exact hd t ht

theorem regStep_nonneg {p : Params K} (h1 : 0 ≤ p.regDec) (h2 : 0 ≤ p.regInc) (h3 : 0 ≤ p.regMax) (a : K) {r : K} (hr : 0 ≤ r) :
    0 ≤ p.regStep a r := by
  unfold Params.regStep
  have : 0 ≤ (if p.thStepDec < a then max p.regMin (r / p.regDec) else r) := by
    split
    · exact le_max_of_le_right (div_nonneg hr h1)
    · exact hr
  simp only []
  split
  · exact le_min h3 (mul_nonneg this h2)
  · exact this

theorem regStep_pos {p : Params K} (h1 : 0 < p.regMin) (h2 : 0 < p.regInc) (h3 : 0 < p.regMax) (a : K) {r : K} (hr : 0 < r) :
    0 < p.regStep a r := by
  unfold Params.regStep
  have : 0 < (if p.thStepDec < a then max p.regMin (r / p.regDec) else r) := by
    split
    · exact lt_max_of_lt_left h1
    · exact hr
  simp only []
  split
  · exact lt_min h3 (mul_pos this h2)
  · exact this

/-- three iterations at a KKT point are enough for a `true`. -/
theorem StandingF.settles {c : DConf K} {X : Traj P} {U : Ctrls P} {r : K} {lam : ℕ → Vec K P.ndx} {s1 : DDP P} (h : StandingF c X U r s1)
    (hT : 0 < P.T) (hllt : LLTExact llt) (hsep : Separates P) (hint : ∀ x, P.integrate x 0 = x) (hP : SymProblem P) (hcv : ConvexProblem P)
    (hc : SaneF c) (hk : IsKKT P 0 X U lam) (hp : 0 ≤ r) (hreg : RegOK c.par) (hst : StrictControls P ∨ 0 < r)
    (hr : TrajInRange P X U)
    (hv : ∀ q ∈ [r, c.par.regStep (lastStep c) r, c.par.regStep (lastStep c) (c.par.regStep (lastStep c) r)], ValueInRange P X U q)
    (hgo : ∀ q ∈ [r, c.par.regStep (lastStep c) r], KeepsGoing c q) (fuel m : ℕ) :
    ∃ s', iterate (fddp P) llt (fuel + 1) (m + 3) s1 = some (some true, s') ∧ (∀ t, t ≤ P.T → s'.xs t = X t) ∧
      (∀ t, t < P.T → s'.us t = U t) ∧ s'.iter ≤ s1.iter + 2 := by
  have hM := hreg.min_pos.trans_le hreg.min_le
  have hp1 : ∀ {q : K}, 0 ≤ q → 0 ≤ c.par.regStep (lastStep c) q := fun hq =>
    regStep_nonneg (zero_le_one.trans hreg.dec.le) (zero_le_one.trans hreg.inc.le) hM.le _ hq
  have hst1 : ∀ {q : K}, StrictControls P ∨ 0 < q → StrictControls P ∨ 0 < c.par.regStep (lastStep c) q := fun hq =>
    hq.imp id fun h => regStep_pos hreg.min_pos (zero_lt_one.trans hreg.inc) hM _ h
  rcases h.next hT hllt hsep hint hP hcv hc hk hp hst hr (hv r (by simp)) fuel with
    ⟨s', e, a1, a2, a3⟩ | ⟨_, h3⟩
  · refine ⟨s', ?_, a1, a2, by omega⟩
    unfold iterate; rw [e]
  obtain ⟨s3, e, a3, h3, d3, l3⟩ := h3 (hgo r (by simp))
  rcases h3.next hT hllt hsep hint hP hcv hc hk (hp1 hp) (hst1 hst) hr (hv _ (by simp)) fuel with
    ⟨s', e', a1, a2, b3⟩ | ⟨_, h4⟩
  · have b3 : s'.iter = s3.iter + 1 := b3
    refine ⟨s', ?_, a1, a2, by omega⟩
    unfold iterate; rw [e]; simp only []
    unfold iterate; rw [e']
  obtain ⟨s4, e', b3, h4, d4, l4⟩ := h4 (hgo _ (by simp))
  have b3 : s4.iter = s3.iter + 1 := b3
  rcases h4.next hT hllt hsep hint hP hcv hc hk (hp1 (hp1 hp)) (hst1 (hst1 hst)) hr (hv _ (by simp)) fuel with
    ⟨s', e'', a1, a2, c3⟩ | ⟨hn, _⟩
  · have c3 : s'.iter = s4.iter + 1 := c3
    refine ⟨s', ?_, a1, a2, by omega⟩
    unfold iterate; rw [e]; simp only []
    unfold iterate; rw [e']; simp only []
    unfold iterate; rw [e'']
  · exact absurd (l4 d3) hn

end DDP

/-- **C62.**  Started at an exact KKT point of any problem with convex stage costs (any dynamics, any state manifold with
`integrate x 0 = x`), FDDP – with the filter or with the Goldstein test – returns true and the trajectory it was given, whatever the
solver did before, if it is allowed three iterations and the regularization does not reach `reg_max` in the first two. -/
theorem C62_fddp_kkt_point (hT : 0 < P.T) (hllt : LLTExact llt) (hsep : Separates P) (hint : ∀ x, P.integrate x 0 = x) (hP : SymProblem P)
    (hcv : ConvexProblem P) {X : Traj P} {U : Ctrls P} {lam : ℕ → Vec K P.ndx} (hk : IsKKT P 0 X U lam) (fe : Bool) {r : K} (hp : 0 ≤ r)
    (hc : DDP.SaneF s.c) (hwf : s.c.useFilter = true → FDDPWF s) (hreg : RegOK s.c.par) (hst : StrictControls P ∨ 0 < r)
    (hr : TrajInRange P X U)
    (hv : ∀ q ∈ [r, s.c.par.regStep (lastStep s.c) r, s.c.par.regStep (lastStep s.c) (s.c.par.regStep (lastStep s.c) r)],
      ValueInRange P X U q)
    (hgo : ∀ q ∈ [r, s.c.par.regStep (lastStep s.c) r], KeepsGoing s.c q) (fuel m : ℕ) :
    ∃ s', solve (fddp P) llt (fuel + 1) (some X) (some U) (m + 3) fe r s = some (true, s') ∧ s'.iter ≤ 2 ∧
      (∀ t, t ≤ P.T → s'.xs t = X t) ∧ (∀ t, t < P.T → s'.us t = U t) ∧ IsKKT P s.c.tol s'.xs s'.us s'.y.lagMul := by
  have hS : DDP.StandingF s.c X U r (s.start (some X) (some U) fe r) :=
    ⟨start_headInv s _ _ fe r, rfl, fun _ _ => rfl, fun _ _ => rfl, DDP.start_preg s (some X) (some U) fe r,
      DDP.start_preg s (some X) (some U) fe r, fun huf => ⟨⟨_, _, _, fddp_start_filter (hwf huf)⟩, rfl⟩⟩
  obtain ⟨s', h1, h2, h3, h4⟩ := hS.settles hT hllt hsep hint hP hcv hc hk hp hreg hst hr hv hgo fuel m
  have hsol : solve (fddp P) llt (fuel + 1) (some X) (some U) (m + 3) fe r s = some (true, s') := by
    unfold solve; rw [h1]
  exact ⟨s', hsol, h4, h2, h3, C04_ddp_true_is_kkt (.inr rfl) hsol⟩

end Mim

/-! ## The hypotheses are met by `Ex.lq` -/
namespace Mim.Ex
open Spec Matrix DDP

/-- the default FDDP solver on `lq`, with or without the filter. -/
noncomputable def lqFDDP (f : Bool) : DDP lq := { lqDDP with c := { lqDDP.c with useFilter := f } }

theorem lqFDDP_sane (f : Bool) : SaneF (lqFDDP f).c :=
  ⟨(by cases f <;> decide +kernel), (by cases f <;> decide +kernel), fun _ => (by cases f <;> decide +kernel),
    fun _ => (by cases f <;> decide +kernel)⟩

theorem lq_integrate (x : lq.X) : lq.integrate x 0 = x := add_zero (M := ℚ) x

/-- **C62 is met**: the solution of `lq`, a new solver, `reginit = 0`, the filter or the Goldstein test. -/
theorem C62_example (f fe : Bool) : ∃ s', solve (fddp lq) llt1 20 (some lqX) (some lqU) 3 fe 0 (lqFDDP f) = some (true, s') ∧ s'.iter ≤ 2 ∧
    (∀ t, t ≤ lq.T → s'.xs t = lqX t) ∧ (∀ t, t < lq.T → s'.us t = lqU t) := by
  have hreg : (lqFDDP f).c.par.regStep (lastStep (lqFDDP f).c) 0 = (if f then 0 else 1 / 10 ^ 9) ∧
      (lqFDDP f).c.par.regStep (lastStep (lqFDDP f).c) (if f then 0 else 1 / 10 ^ 9) = (if f then 0 else 1 / 10 ^ 9) := by
    cases f <;> decide +kernel
  obtain ⟨s', h1, h2, h3, h4, _⟩ := C62_fddp_kkt_point (s := lqFDDP f) (by decide) llt1_exact lq_euclid.separates lq_integrate lq_sym
    lq_convex lq_kkt fe (r := 0) le_rfl (lqFDDP_sane f) (fun _ => FDDPWF.new (P := lq) (Data.zero lq))
    ⟨(by cases f <;> decide +kernel), (by cases f <;> decide +kernel), (by cases f <;> decide +kernel), (by cases f <;> decide +kernel)⟩
    (.inl lq_strict) (lq_trajInRange lq_kkt) (by
      intro q hq
      rw [hreg.1, hreg.2] at hq
      simp only [List.mem_cons, List.not_mem_nil, or_false] at hq
      rcases hq with rfl | rfl | rfl
      · exact lq_valueInRange (by decide +kernel) lq_kkt
      · cases f <;> exact lq_valueInRange (by decide +kernel) lq_kkt
      · cases f <;> exact lq_valueInRange (by decide +kernel) lq_kkt) (by
      intro q hq
      rw [hreg.1] at hq
      simp only [List.mem_cons, List.not_mem_nil, or_false] at hq
      right
      rcases hq with rfl | rfl
      · rw [hreg.1]; cases f <;> decide +kernel
      · rw [hreg.2]; cases f <;> decide +kernel) 19 0
  exact ⟨s', h1, h2, h3, h4⟩

end Mim.Ex
