import Verif.Lemmas.PySQPLoop
import Verif.Lemmas.SQPHist
import Verif.Props.SQPLine

/-!
# Two Python `SQP` objects that differ only in leftovers of earlier calls behave alike
-/
set_option linter.unusedSectionVars false
set_option linter.unusedSimpArgs false

namespace Mim
open Spec

theorem forDownR_rel {S S' : Type _} (R : ℕ → S → S' → Prop) (Q : S → S' → Prop) (n : ℕ) (f : ℕ → S → Res S) (f' : ℕ → S' → Res S')
    (hf : ∀ t, t < n → ∀ a b, R (t + 1) a b → Res.Rel (R t) Q (f t a) (f' t b)) {a : S} {b : S'} (h : R n a b) :
    Res.Rel (R 0) Q (forDownR n f a) (forDownR n f' b) := by
  induction n generalizing a b with
  | zero => exact .ok h
  | succ n ih =>
    rw [forDownR_succ, forDownR_succ]
    exact (hf n (by omega) a b h).bind fun a b hab => ih (fun t ht => hf t (by omega)) hab

namespace PySQP
section
variable {F : Type} [Add F] [Sub F] [Mul F] [Div F] [Neg F] [Zero F] [One F] [FloatOps F] {P : Problem F}

/-- same options, same untouched blocks, same candidate. -/
structure Alike (p q : PySQP P) : Prop where
  keep : PySQP.keep p = PySQP.keep q
  xs : ∀ t, t ≤ P.T → p.xs t = q.xs t
  us : ∀ t, t < P.T → p.us t = q.us t

/-- the same filter memory. -/
def SameFilter (p q : PySQP P) : Prop := p.gapList = q.gapList ∧ p.costList = q.costList

/-- everything that the evaluation of the problem at the candidate gives. -/
structure EvalSame (p q : PySQP P) : Prop extends Alike p q where
  data : p.data.SameD q.data
  gap : ∀ t, t ≤ P.T → p.gap t = q.gap t
  cost : p.cost = q.cost
  gapNorm : p.gapNorm = q.gapNorm
  merit : p.merit = q.merit

/-- and everything that the direction consists of. -/
structure Dirs (p q : PySQP P) : Prop extends EvalSame p q where
  S : ∀ t, t ≤ P.T → p.S t = q.S t
  s : ∀ t, t ≤ P.T → p.s t = q.s t
  L : ∀ t, t < P.T → p.L t = q.L t
  l : ∀ t, t < P.T → p.l t = q.l t
  dx : ∀ t, t ≤ P.T → p.dx t = q.dx t
  du : ∀ t, t < P.T → p.du t = q.du t
  lam : ∀ t, t ≤ P.T → p.lagMul t = q.lagMul t

theorem evaluate_alike {p q : PySQP P} (h : Alike p q) : EvalSame p.evaluate q.evaluate := by
  obtain ⟨k1, -, -, -, -, -, -, k8, -⟩ := keep_all h.keep
  have hc : p.evaluate.cost = q.evaluate.cost := by
    rw [evaluate_cost, evaluate_cost, trajCost_congr P h.xs h.us]
  have hg : p.evaluate.gapNorm = q.evaluate.gapNorm := by
    rw [evaluate_gapNorm, evaluate_gapNorm, shootGapNorm_congr P h.xs h.us, k8]
  refine ⟨⟨?_, h.xs, h.us⟩, ?_, ?_, hc, hg, ?_⟩
  · rw [keep_evaluate, keep_evaluate, h.keep]
  · exact calcDiffAll_same (calcAll_same _ _ h.xs h.us) h.xs h.us
  · intro t ht
    rcases Nat.eq_or_lt_of_le ht with rfl | ht
    · rw [(evaluate_gap p).2, (evaluate_gap q).2, k8]
    · rw [(evaluate_gap p).1 t ht, (evaluate_gap q).1 t ht]
      unfold shootGap
      rw [h.xs (t + 1) ht, h.xs t ht.le, h.us t ht]
  · rw [evaluate_merit, evaluate_merit, hc, hg]
    change _ + p.mu * _ = _ + q.mu * _
    rw [k1]

/-- the backward pass from stage `k` on agrees. -/
structure BwdSame (k : ℕ) (p0 q0 p q : PySQP P) : Prop where
  fp : OnlyBwd p0 p
  fq : OnlyBwd q0 q
  S : ∀ t, k ≤ t → t ≤ P.T → p.S t = q.S t
  s : ∀ t, k ≤ t → t ≤ P.T → p.s t = q.s t
  L : ∀ t, k ≤ t → t < P.T → p.L t = q.L t
  l : ∀ t, k ≤ t → t < P.T → p.l t = q.l t

theorem backwardStage_rel (llt : LLT F) {t : ℕ} (ht : t < P.T) {p0 q0 p q : PySQP P} (h0 : EvalSame p0 q0) (h : BwdSame (t + 1) p0 q0 p q) :
    Res.Rel (BwdSame t p0 q0) (fun a b => OnlyBwd p0 a ∧ OnlyBwd q0 b) (backwardStage llt t p) (backwardStage llt t q) := by
  have hS := h.S (t + 1) le_rfl ht
  have hs := h.s (t + 1) le_rfl ht
  have hd : p.data.rd t = q.data.rd t ∧ p.gap t = q.gap t := by
    obtain ⟨_, _, _, _, rfl⟩ := h.fp
    obtain ⟨_, _, _, _, rfl⟩ := h.fq
    exact ⟨h0.data.rd t ht, h0.gap t ht.le⟩
  unfold backwardStage
  simp only [hS, hs, hd.1, hd.2]
  cases llt (P.nu t) _ with
  | none => exact .exn ⟨h.fp, h.fq⟩
  | some sol =>
    refine .ok ⟨h.fp.trans ⟨_, _, _, _, rfl⟩, h.fq.trans ⟨_, _, _, _, rfl⟩, fun j h1 h2 => ?_, fun j h1 h2 => ?_, fun j h1 h2 => ?_,
      fun j h1 h2 => ?_⟩
    · by_cases e : j = t
      · subst e; simp only [Function.update_self]
      · simp only []; rw [Function.update_of_ne e, Function.update_of_ne e]; exact h.S j (by omega) h2
    · by_cases e : j = t
      · subst e; simp only [Function.update_self]
      · simp only []; rw [Function.update_of_ne e, Function.update_of_ne e]; exact h.s j (by omega) h2
    · by_cases e : j = t
      · subst e; simp only [Function.update_self]
      · simp only []; rw [Function.update_of_ne e, Function.update_of_ne e]; exact h.L j (by omega) h2
    · by_cases e : j = t
      · subst e; simp only [Function.update_self]
      · simp only []; rw [Function.update_of_ne e, Function.update_of_ne e]; exact h.l j (by omega) h2

theorem backwardPass_rel (llt : LLT F) {p q : PySQP P} (h : EvalSame p q) :
    Res.Rel (BwdSame 0 p q) (fun a b => OnlyBwd p a ∧ OnlyBwd q b) (backwardPass llt p) (backwardPass llt q) := by
  refine forDownR_rel (fun k => BwdSame k p q) _ P.T _ _ (fun t ht a b hab => backwardStage_rel llt ht h hab) ?_
  refine ⟨⟨_, _, _, _, rfl⟩, ⟨_, _, _, _, rfl⟩, fun t h1 h2 => ?_, fun t h1 h2 => ?_, fun t h1 h2 => by omega, fun t h1 h2 => by omega⟩
  · have : t = P.T := by omega
    subst this
    simp only [Function.update_self, h.data.td]
  · have : t = P.T := by omega
    subst this
    simp only [Function.update_self, h.data.td]

theorem direction_alike (llt : LLT F) {p q : PySQP P} (h : Alike p q) :
    Res.Rel Dirs Alike (computeDirection llt p) (computeDirection llt q) := by
  have he := evaluate_alike h
  have hb := backwardPass_rel llt he
  cases hp : backwardPass llt p.evaluate with
  | exn a =>
    rw [hp] at hb
    generalize hq : backwardPass llt q.evaluate = rb at hb
    cases hb with
    | @exn _ b h =>
      have e1 : computeDirection llt p = .exn a := by unfold computeDirection; rw [hp]; rfl
      have e2 : computeDirection llt q = .exn b := by unfold computeDirection; rw [hq]; rfl
      rw [e1, e2]
      obtain ⟨⟨_, _, _, _, rfl⟩, ⟨_, _, _, _, rfl⟩⟩ := h
      exact .exn ⟨he.keep, he.xs, he.us⟩
  | ok a =>
    rw [hp] at hb
    generalize hq : backwardPass llt q.evaluate = rb at hb
    cases hb with
    | @ok _ b h =>
      have e1 : computeDirection llt p = .ok (computeUpdates a) := by unfold computeDirection; rw [hp]; rfl
      have e2 : computeDirection llt q = .ok (computeUpdates b) := by unfold computeDirection; rw [hq]; rfl
      rw [e1, e2]
      obtain ⟨xp, up, lp, _, _, ep, p0, p1, p2, p3⟩ := computeUpdates_spec a
      obtain ⟨xq, uq, lq, _, _, eq, q0, q1, q2, q3⟩ := computeUpdates_spec b
      rw [ep, eq]
      have hS := h.S
      have hs := h.s
      have hL := h.L
      have hl := h.l
      obtain ⟨⟨_, _, _, _, rfl⟩, ⟨_, _, _, _, rfl⟩⟩ := And.intro h.fp h.fq
      simp only [] at p0 p1 p2 p3 q0 q1 q2 q3 hS hs hL hl
      have hdx : ∀ t, t ≤ P.T → xp t = xq t := by
        intro t
        induction t with
        | zero =>
          intro _
          rw [p0, q0]
          exact (keep_all he.keep).2.2.2.2.2.2.1
        | succ t ih =>
          intro ht
          rw [p2 t ht, q2 t ht, ih (by omega), hL t (by omega) ht, hl t (by omega) ht, he.data.rd t ht, he.gap t (by omega)]
      refine .ok ⟨⟨⟨?_, he.xs, he.us⟩, he.data, he.gap, he.cost, he.gapNorm, he.merit⟩, fun t ht => hS t (by omega) ht,
        fun t ht => hs t (by omega) ht, fun t ht => hL t (by omega) ht, fun t ht => hl t (by omega) ht, hdx, fun t ht => ?_, fun t ht => ?_⟩
      · have := keep_all he.keep
        unfold PySQP.keep
        simp only [p0, q0, this]
      · simp only []
        rw [p1 t ht, q1 t ht, hL t (by omega) ht, hl t (by omega) ht, hdx t ht.le]
      · simp only []
        rw [p3 t ht, q3 t ht, hS t (by omega) ht, hs t (by omega) ht, hdx t ht]

theorem kktCheck_dirs {p q : PySQP P} (h : Dirs p q) : p.kktCheck.KKT = q.kktCheck.KKT ∧ Dirs p.kktCheck q.kktCheck :=
  ⟨kktResidual_same h.data h.gap h.lam,
    ⟨⟨⟨h.keep, h.xs, h.us⟩, h.data, h.gap, h.cost, h.gapNorm, h.merit⟩, h.S, h.s, h.L, h.l, h.dx, h.du, h.lam⟩⟩

theorem stepX_same {p q : PySQP P} (h : Dirs p q) (a : F) (t : ℕ) (ht : t ≤ P.T) : stepX P p.xs p.dx a t = stepX P q.xs q.dx a t := by
  unfold stepX; rw [h.xs t ht, h.dx t ht]

theorem stepU_same {p q : PySQP P} (h : Dirs p q) (a : F) (t : ℕ) (ht : t < P.T) : stepU P p.us p.du a t = stepU P q.us q.du a t := by
  unfold stepU; rw [h.us t ht, h.du t ht]

theorem trialCost_same {p q : PySQP P} (h : Dirs p q) (a : F) : trialCost p a = trialCost q a :=
  trajCost_congr P (stepX_same h a) (stepU_same h a)

theorem trialGap_same {p q : PySQP P} (h : Dirs p q) (a : F) : trialGap p a = trialGap q a := by
  unfold trialGap
  rw [shootGapNorm_congr P (stepX_same h a) (stepU_same h a), (keep_all h.keep).2.2.2.2.2.2.2.2]

theorem good_same {p q : PySQP P} (h : Dirs p q) (hf : SameFilter p q) (iter : ℕ) (a : F) : Good p iter a ↔ Good q iter a := by
  obtain ⟨k1, k2, k3, k4, -⟩ := keep_all h.keep
  unfold Good Dominated
  rw [trialCost_same h, trialGap_same h, k1, k3, k4, hf.1, hf.2, h.merit]

theorem try_dirs (a : F) {p q : PySQP P} (h : Dirs p q) : Dirs (tryStep a p) (tryStep a q) ∧
    (tryStep a p).costTry = (tryStep a q).costTry ∧ (tryStep a p).gapNormTry = (tryStep a q).gapNormTry ∧
    (tryStep a p).meritTry = (tryStep a q).meritTry ∧ (∀ t, t ≤ P.T → (tryStep a p).xsTry t = (tryStep a q).xsTry t) ∧
    (∀ t, t < P.T → (tryStep a p).usTry t = (tryStep a q).usTry t) ∧ (tryStep a p).gapList = p.gapList ∧ (tryStep a p).costList = p.costList ∧
    (tryStep a q).gapList = q.gapList ∧ (tryStep a q).costList = q.costList := by
  have k := keep_all h.keep
  have kp := keep_try a p
  have kq := keep_try a q
  obtain ⟨xt, ut, d, g, e, h1, h2, h3, h4, h5, h6⟩ := tryStep_spec a p
  obtain ⟨xt', ut', d', g', e', h1', h2', h3', h4', h5', h6'⟩ := tryStep_spec a q
  have hc := trialCost_same h a
  have hg := trialGap_same h a
  unfold trialCost at hc
  unfold trialGap at hg
  rw [e] at kp
  rw [e'] at kq
  rw [e, e']
  refine ⟨⟨⟨⟨?_, h.xs, h.us⟩, ⟨⟨?_, ?_⟩, ?_, ?_⟩, h.gap, h.cost, h.gapNorm, h.merit⟩, h.S, h.s, h.L, h.l, h.dx, h.du, h.lam⟩, hc, hg, ?_, ?_, ?_,
    rfl, rfl, rfl, rfl⟩
  · rw [kp, kq, h.keep]
  · intro t ht
    simp only []
    rw [h3.run t ht, h3'.run t ht, stepX_same h a t ht.le, stepU_same h a t ht]
  · simp only []
    rw [h3.ter, h3'.ter, stepX_same h a _ le_rfl]
  · intro t ht
    simp only []
    rw [h4, h4', h.data.rd t ht]
  · simp only []
    rw [h5, h5', h.data.td]
  · simp only []
    rw [hc, hg, k.1]
  · intro t ht
    simp only []
    rw [h1 t ht, h1' t ht, stepX_same h a t ht]
  · intro t ht
    simp only []
    rw [h2 t ht, h2' t ht, stepU_same h a t ht]

/-- the same line search. -/
theorem search_alike (iter n : ℕ) (a : F) {p q : PySQP P} (h : Dirs p q) (hf : SameFilter p q) :
    ∃ r a' p' q', search iter n a p = (r, a', p') ∧ search iter n a q = (r, a', q') ∧ Alike p' q' ∧ SameFilter p' q' ∧
      (r ≠ .accepted → Dirs p' q') := by
  induction n generalizing a p q with
  | zero =>
    refine ⟨_, _, _, _, rfl, rfl, ⟨h.keep, h.xs, h.us⟩, hf, fun _ => ?_⟩
    exact ⟨⟨⟨h.keep, h.xs, h.us⟩, h.data, h.gap, h.cost, h.gapNorm, h.merit⟩, h.S, h.s, h.L, h.l, h.dx, h.du, h.lam⟩
  | succ n ih =>
    obtain ⟨ht, h1, h2, h3, h4, h5, h6, h7, h8, h9⟩ := try_dirs a h
    have hft : SameFilter (tryStep a p) (tryStep a q) := ⟨by rw [h6, h8, hf.1], by rw [h7, h9, hf.2]⟩
    have k := keep_all ht.keep
    have hw : (tryStep a p).worse iter = (tryStep a q).worse iter := by
      unfold worse
      rw [h1, h2, hft.1, hft.2, k.2.2.2.1]
    unfold search
    simp only []
    rw [← k.2.2.1, ← hw, ← h3, ← ht.merit]
    split
    · split
      · exact ih _ ht hft
      · exact ⟨_, _, _, _, rfl, rfl, ⟨ht.keep, h4, h5⟩, hft, fun h => absurd rfl h⟩
    · split
      · exact ⟨_, _, _, _, rfl, rfl, ht.toAlike, hft, fun _ => ht⟩
      · split
        · exact ⟨_, _, _, _, rfl, rfl, ⟨ht.keep, h4, h5⟩, hft, fun h => absurd rfl h⟩
        · exact ih _ ht hft

theorem pushFilter_same {p q : PySQP P} (h : Dirs p q) (hf : SameFilter p q) :
    Dirs p.pushFilter q.pushFilter ∧ SameFilter p.pushFilter q.pushFilter := by
  refine ⟨⟨⟨⟨h.keep, h.xs, h.us⟩, h.data, h.gap, h.cost, h.gapNorm, h.merit⟩, h.S, h.s, h.L, h.l, h.dx, h.du, h.lam⟩, ?_, ?_⟩
  · simp only [pushFilter]; rw [hf.1, h.gapNorm]
  · simp only [pushFilter]; rw [hf.2, h.cost]

theorem SameFilter.direction {llt : LLT F} {p q p' q' : PySQP P} (hf : SameFilter p q) (hp : computeDirection llt p = .ok p')
    (hq : computeDirection llt q = .ok q') : SameFilter p' q' := by
  obtain ⟨a, _, _, _, _, _, -, ⟨_, _, _, _, rfl⟩, rfl, -⟩ := computeDirection_ok hp
  obtain ⟨b, _, _, _, _, _, -, ⟨_, _, _, _, rfl⟩, rfl, -⟩ := computeDirection_ok hq
  exact hf

/-- the outcome of `head` on both. -/
theorem head_alike (llt : LLT F) (al : Option F) {p q : PySQP P} (h : Alike p q) (hf : SameFilter p q) :
    (∃ o p' q', head llt al p = .inl (o, p') ∧ head llt al q = .inl (o, q') ∧ Alike p' q' ∧
      (o ≠ .raised .linAlg → Dirs p' q' ∧ p'.KKT = q'.KKT)) ∨
    (∃ p' q', head llt al p = .inr p' ∧ head llt al q = .inr q' ∧ Dirs p' q' ∧ SameFilter p' q') := by
  have hd := direction_alike llt h
  generalize hp : computeDirection llt p = rp at hd
  generalize hq : computeDirection llt q = rq at hd
  unfold head
  rw [hp, hq]
  cases hd with
  | exn hab => exact .inl ⟨_, _, _, rfl, rfl, hab, fun h => absurd rfl h⟩
  | ok hab =>
    simp only []
    obtain ⟨e, hk⟩ := kktCheck_dirs hab
    have k := keep_all hk.keep
    rw [← e, ← k.2.1, ← k.2.2.2.2.1]
    split
    · exact .inl ⟨_, _, _, rfl, rfl, hk.toAlike, fun _ => ⟨hk, e⟩⟩
    · exact .inr ⟨_, _, rfl, rfl, hk, (hf.direction hp hq :)⟩

theorem iterate_alike (llt : LLT F) (n iter : ℕ) (al : Option F) {p q : PySQP P} (h : Alike p q) (hf : SameFilter p q) :
    (∃ o p' q', iterate llt n iter al p = .inl (o, p') ∧ iterate llt n iter al q = .inl (o, q') ∧ Alike p' q' ∧
      (o = .ret true → Dirs p' q' ∧ p'.KKT = q'.KKT)) ∨
    (∃ al' p' q', iterate llt n iter al p = .inr (al', p') ∧ iterate llt n iter al q = .inr (al', q') ∧ Alike p' q' ∧ SameFilter p' q') := by
  induction n generalizing iter al p q with
  | zero => exact .inr ⟨_, _, _, rfl, rfl, h, hf⟩
  | succ n ih =>
    unfold iterate
    rcases head_alike llt al h hf with ⟨o, p', q', e1, e2, ha, hd⟩ | ⟨p', q', e1, e2, hd, hfd⟩
    · rw [e1, e2]
      exact .inl ⟨o, p', q', rfl, rfl, ha, fun ho => hd (by rw [ho]; intro h; cases h)⟩
    · rw [e1, e2]
      simp only []
      obtain ⟨hd2, hf2⟩ := pushFilter_same hd hfd
      obtain ⟨r, a', p2, q2, s1, s2, ha, hf3, hr⟩ := search_alike iter 10 (lit 1) hd2 hf2
      rw [s1, s2]
      cases r with
      | gaveUp => exact .inl ⟨_, _, _, rfl, rfl, ha, fun h => by cases h⟩
      | accepted => exact ih _ _ ha hf3
      | exhausted => exact ih _ _ ha hf3

theorem solve_alike (llt : LLT F) (xs : Option (Traj P)) (us : Option (Ctrls P)) (m : ℕ) {p q : PySQP P} (h : PySQP.keep p = PySQP.keep q) :
    ∃ o p' q', solve llt xs us m p = (o, p') ∧ solve llt xs us m q = (o, q') ∧ Alike p' q' ∧
      (o = .ret true → Dirs p' q' ∧ p'.KKT = q'.KKT) := by
  have k := keep_all h
  have h0 : Alike (p.start xs us) (q.start xs us) := ⟨h, fun t _ => rfl, fun t _ => rfl⟩
  have hf0 : SameFilter (p.start xs us) (q.start xs us) := by
    refine ⟨?_, ?_⟩ <;> simp only [start, k.2.2.2.1]
  unfold solve
  rcases iterate_alike llt m 0 none h0 hf0 with ⟨o, p', q', e1, e2, ha, hd⟩ | ⟨al, p', q', e1, e2, ha, hf⟩
  · rw [e1, e2]
    exact ⟨o, p', q', rfl, rfl, ha, hd⟩
  · rw [e1, e2]
    simp only []
    have k' := keep_all ha.keep
    rw [← k'.2.2.2.2.2.1]
    split
    · have hd := direction_alike llt ha
      generalize hp : computeDirection llt p' = rp at hd
      generalize hq : computeDirection llt q' = rq at hd
      cases hd with
      | exn hab => exact ⟨_, _, _, rfl, rfl, hab, fun h => by cases h⟩
      | ok hab =>
        simp only []
        obtain ⟨e, hk⟩ := kktCheck_dirs hab
        have k := keep_all hk.keep
        rw [← e, ← k.2.1, ← k.2.2.2.2.1]
        split
        · exact ⟨_, _, _, rfl, rfl, hk.toAlike, fun _ => ⟨hk, e⟩⟩
        · exact ⟨_, _, _, rfl, rfl, hk.toAlike, fun h => by cases h⟩
    · exact ⟨_, _, _, rfl, rfl, ha, fun h => by cases h⟩

end
end PySQP
end Mim
