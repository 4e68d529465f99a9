import Verif.Lemmas.PyQPHist
import Verif.Props.PyCSQP
import Verif.Props.SQPLine
import Verif.Lemmas.CSQPHist

/-!
# Two Python `CSQP` objects that differ only in leftovers of earlier calls behave alike
-/
set_option linter.unusedSectionVars false
set_option linter.unusedSimpArgs false

namespace Mim
open Spec

namespace PyCSQP
section
variable {F : Type} [Add F] [Sub F] [Mul F] [Div F] [Neg F] [Zero F] [One F] [FloatOps F] {P : Problem F}

/-- same options, same untouched blocks, same candidate. -/
structure Alike (p q : PyCSQP P) : Prop where
  keep : PyCSQP.keep p = PyCSQP.keep q
  xs : ∀ t, t ≤ P.T → p.xs t = q.xs t
  us : ∀ t, t < P.T → p.us t = q.us t

/-- the same filter memory. -/
def SameFilter (p q : PyCSQP P) : Prop := p.gapList = q.gapList ∧ p.costList = q.costList

/-- the same multipliers. -/
def SameMult (p q : PyCSQP P) : Prop := (∀ t, t ≤ P.T → p.lagMul t = q.lagMul t) ∧ ∀ t, t ≤ P.T → p.q.y t = q.q.y t

/-- what iteration `i` reads agrees. -/
structure Before (i : ℕ) (p q : PyCSQP P) : Prop extends Alike p q where
  flt : SameFilter p q
  dx0 : p.q.dx 0 = q.q.dx 0
  dxt0 : p.q.dxt 0 = q.q.dxt 0
  y : p.c.resetY = true ∨ ∀ t, t ≤ P.T → p.q.y t = q.q.y t
  mult : (p.auto = false ∧ p.c.osqp = true) ∨ SameMult p q
  rho : i = 0 ∨ p.c.resetRho = true ∨ ((∀ t, t ≤ P.T → p.q.rho t = q.q.rho t) ∧ p.q.rhoSparse = q.q.rhoSparse)

/-- everything that the evaluation of the problem at the candidate gives. -/
structure EvalSame (p q : PyCSQP P) : Prop extends Alike p q where
  data : p.data.SameD q.data
  gap : ∀ t, t ≤ P.T → p.gap t = q.gap t
  cost : p.cost = q.cost
  gapNorm : p.gapNorm = q.gapNorm
  con : p.con = q.con
  merit : p.merit = q.merit
  lagInf : p.auto = false ∨ p.lagInf = q.lagInf

/-- and the filter memory and the step. -/
structure Steps (p q : PyCSQP P) : Prop extends EvalSame p q where
  flt : SameFilter p q
  dx : ∀ t, t ≤ P.T → p.q.dx t = q.q.dx t
  du : ∀ t, t < P.T → p.q.du t = q.q.du t

/-- and everything that the direction consists of. -/
structure Dirs (p q : PyCSQP P) : Prop extends EvalSame p q where
  flt : SameFilter p q
  dir : PyQP.QOut p.c.osqp p.q q.q
  iters : p.q.qpIters = q.q.qpIters

theorem Dirs.toSteps {p q : PyCSQP P} (h : Dirs p q) : Steps p q := ⟨h.toEvalSame, h.flt, h.dir.dx, h.dir.du⟩

theorem auto_same {p q : PyCSQP P} (h : PyCSQP.keep p = PyCSQP.keep q) : p.auto = q.auto := by
  obtain ⟨-, k2, k3, -⟩ := keep_all h
  unfold auto
  rw [k2, k3]

theorem conViol_congr {xs xs' : Traj P} {us us' : Ctrls P} (hx : ∀ t, t ≤ P.T → xs t = xs' t) (hu : ∀ t, t < P.T → us t = us' t) :
    conViol P xs us = conViol P xs' us' := by
  unfold conViol
  rw [hx _ le_rfl, forUp_congr P.T _ (fun t acc => addViol (P.lb t) (P.ub t) (P.calcR t (xs' t) (us' t)).g acc) 0
    (fun t ht s => by rw [hx t ht.le, hu t ht])]

theorem lagNorm_congr {lam lam' : ℕ → Vec F P.ndx} {y y' : (t : ℕ) → Vec F (P.ng t)} (hl : ∀ t, t ≤ P.T → lam t = lam' t)
    (hy : ∀ t, t ≤ P.T → y t = y' t) : lagNorm lam y = lagNorm lam' y' := by
  unfold lagNorm
  rw [forUp_congr (P.T + 1) (fun t m => cppMax m (normInf (lam t))) (fun t m => cppMax m (normInf (lam' t))) 0 (fun t ht s => by rw [hl t (by omega)]),
    forUp_congr (P.T + 1) (fun t m => if P.ng t ≠ 0 then cppMax m (normInf (y t)) else m)
      (fun t m => if P.ng t ≠ 0 then cppMax m (normInf (y' t)) else m) _ (fun t ht s => by rw [hy t (by omega)])]

theorem meritOf_same {p q : PyCSQP P} (hk : PyCSQP.keep p = PyCSQP.keep q) (hl : p.auto = false ∨ p.lagInf = q.lagInf) (c g v : F) :
    p.meritOf c g v = q.meritOf c g v := by
  obtain ⟨-, k2, k3, k4, -⟩ := keep_all hk
  rw [meritOf_eq, meritOf_eq, ← auto_same hk, k2, k3, k4]
  rcases hl with e | e
  · rw [e]; simp only [Bool.false_eq_true, if_false]
  · rw [e]

theorem evaluate_same {p q : PyCSQP P} (h : Alike p q) (hmult : p.auto = false ∨ SameMult p q) : EvalSame p.evaluate q.evaluate := by
  obtain ⟨k1, k2, k3, k4, k5, k6, k7, k8, k9, k10⟩ := keep_all h.keep
  have hc : p.evaluate.cost = q.evaluate.cost := by
    rw [evaluate_cost, evaluate_cost, trajCost_congr P h.xs h.us]
  have hg : p.evaluate.gapNorm = q.evaluate.gapNorm := by
    rw [evaluate_gapNorm, evaluate_gapNorm, shootGapNorm_congr P h.xs h.us, k9]
  have hv : p.evaluate.con = q.evaluate.con := by
    rw [evaluate_con, evaluate_con, conViol_congr h.xs h.us]
  have hk : PyCSQP.keep p.evaluate = PyCSQP.keep q.evaluate := by rw [keep_evaluate, keep_evaluate, h.keep]
  have hl : p.evaluate.auto = false ∨ p.evaluate.lagInf = q.evaluate.lagInf := by
    rcases hmult with e | ⟨e1, e2⟩
    · exact .inl e
    · cases ha : p.auto with
      | false => exact .inl ha
      | true =>
        refine .inr ?_
        have ha' : q.auto = true := (auto_same h.keep).symm.trans ha
        change (if p.auto then lagNorm p.lagMul p.q.y else p.lagInf) = (if q.auto then lagNorm q.lagMul q.q.y else q.lagInf)
        rw [if_pos ha, if_pos ha']
        exact lagNorm_congr e1 e2
  refine ⟨⟨hk, h.xs, h.us⟩, calcDiffAll_same (calcAll_same _ _ h.xs h.us) h.xs h.us, ?_, hc, hg, hv, ?_, hl⟩
  · intro t ht
    rcases Nat.eq_or_lt_of_le ht with rfl | ht
    · rw [(evaluate_gap p).2, (evaluate_gap q).2, k9]
    · rw [(evaluate_gap p).1 t ht, (evaluate_gap q).1 t ht]
      unfold shootGap
      rw [h.xs (t + 1) ht, h.xs t ht.le, h.us t ht]
  · change p.evaluate.meritOf p.evaluate.cost p.evaluate.gapNorm p.evaluate.con = q.evaluate.meritOf q.evaluate.cost q.evaluate.gapNorm q.evaluate.con
    rw [hc, hg, hv, meritOf_same hk hl]

theorem evaluate_alike {i : ℕ} {p q : PyCSQP P} (h : Before i p q) : EvalSame p.evaluate q.evaluate :=
  evaluate_same h.toAlike (h.mult.imp_left And.left)

section
variable [SqrtOps F]

theorem dirAt_alike (L : PyLLT F) (hD : PyQP.Decided P) (i : ℕ) {p q : PyCSQP P} (h : Before i p q) (hg : p.c.eqGuess = true) (hm : p.c.maxQP ≠ 0) :
    Res.Rel Dirs Alike (dirAt L i p) (dirAt L i q) := by
  have he := evaluate_alike h
  obtain ⟨k1, -⟩ := keep_all h.keep
  have hE : PyQP.EnvSame p.evaluate.env q.evaluate.env :=
    ⟨k1, he.data, fun t ht => he.gap t ht.le, h.mult.imp (fun h => h.2) (fun h => h.1)⟩
  have henv : ∀ p : PyCSQP P, (p.evaluate.resetFirst i).env = p.evaluate.env := fun p => by unfold resetFirst; split <;> rfl
  have hq : ∀ p : PyCSQP P, ∃ r, p.evaluate.resetFirst i = { p.evaluate with q := r } := fun p => by
    unfold resetFirst; split
    · exact ⟨_, rfl⟩
    · exact ⟨p.q, rfl⟩
  have hs : PyQP.QStart p.c (p.evaluate.resetFirst i).q (q.evaluate.resetFirst i).q := by
    have hc : p.evaluate.c = p.c := rfl
    have hc' : q.evaluate.c = p.c := k1.symm
    unfold resetFirst
    rw [hc, hc']
    by_cases hi : i = 0 ∧ p.c.resetRho = false
    · rw [if_pos hi, if_pos hi]
      obtain ⟨r1, r2⟩ := PyQP.resetRhoVec_same hD p.c p.q q.q
      exact ⟨h.dx0, h.dxt0, h.y, .inr ⟨r1, r2⟩⟩
    · rw [if_neg hi, if_neg hi]
      refine ⟨h.dx0, h.dxt0, h.y, ?_⟩
      rcases h.rho with e | e | e
      · cases hr : p.c.resetRho with
        | true => exact .inl rfl
        | false => exact absurd ⟨e, hr⟩ hi
      · exact .inl e
      · exact .inr e
  have key := PyQP.computeDirection_same L hD hE (show p.evaluate.env.c.eqGuess = true from hg) hm hs
  unfold dirAt computeDirection
  rw [henv, henv]
  obtain ⟨rp, ep⟩ := hq p
  obtain ⟨rq, eq⟩ := hq q
  rw [ep, eq] at key ⊢
  simp only [] at key ⊢
  generalize PyQP.computeDirection L p.evaluate.env rp = a at key ⊢
  generalize PyQP.computeDirection L q.evaluate.env rq = b at key ⊢
  cases key with
  | exn _ => exact .exn ⟨he.keep, he.xs, he.us⟩
  | ok hab => exact .ok ⟨⟨⟨he.keep, he.xs, he.us⟩, he.data, he.gap, he.cost, he.gapNorm, he.con, he.merit, he.lagInf⟩, h.flt, hab.1, hab.2⟩

end

/-- the same residual and the same new multipliers. -/
theorem kktCheck_dirs {p q : PyCSQP P} (h : Dirs p q) :
    p.kktCheck.KKT = q.kktCheck.KKT ∧ (∀ t, t ≤ P.T → p.kktCheck.lagMul t = q.kktCheck.lagMul t) ∧ Dirs p.kktCheck q.kktCheck := by
  have hl : ∀ t, t ≤ P.T → p.kktCheck.lagMul t = q.kktCheck.lagMul t := by
    intro t ht
    simp only [kktCheck, if_pos ht]
    rw [h.dir.Vxx t ⟨Nat.zero_le _, ht⟩, h.dir.Vx t ⟨Nat.zero_le _, ht⟩, h.dir.dxt t ht]
  refine ⟨?_, hl, ⟨⟨h.keep, h.xs, h.us⟩, h.data, h.gap, h.cost, h.gapNorm, h.con, h.merit, h.lagInf⟩, h.flt, h.dir, h.iters⟩
  have e : ∀ p : PyCSQP P, p.kktCheck.KKT = cppMax (cppMax (cppMax (forUp P.T (fun t K =>
      if t = 0 then cppMax K (normInf ((p.data.rd t).Lu + mv (p.data.rd t).Fu.transpose (p.kktCheck.lagMul (t + 1)) + mv (p.data.rd t).Gu.transpose (p.q.y t)))
      else cppMax (cppMax K (normInf ((p.data.rd t).Lx + mv (p.data.rd t).Fx.transpose (p.kktCheck.lagMul (t + 1)) - p.kktCheck.lagMul t + mv (p.data.rd t).Gx.transpose (p.q.y t))))
        (normInf ((p.data.rd t).Lu + mv (p.data.rd t).Fu.transpose (p.kktCheck.lagMul (t + 1)) + mv (p.data.rd t).Gu.transpose (p.q.y t)))) 0)
      (normInf (p.data.td.Lx - p.kktCheck.lagMul P.T + mv p.data.td.Gx.transpose (p.q.y P.T))))
      (forUp (P.T + 1) (fun t m => cppMax m (normInf (p.gap t))) 0)) p.con := fun p => rfl
  rw [e p, e q, hl _ le_rfl, h.data.td, h.dir.y _ le_rfl, h.con]
  congr 2
  · congr 1
    exact forUp_congr P.T _ _ 0 fun t ht s => by rw [h.data.rd t ht, hl t ht.le, hl (t + 1) ht, h.dir.y t ht.le]
  · exact forUp_congr (P.T + 1) _ _ 0 fun t ht s => by rw [h.gap t (by omega)]

theorem stepX_same {p q : PyCSQP P} (h : Steps p q) (a : F) (t : ℕ) (ht : t ≤ P.T) : stepX P p.xs p.q.dx a t = stepX P q.xs q.q.dx a t := by
  unfold stepX; rw [h.xs t ht, h.dx t ht]

theorem stepU_same {p q : PyCSQP P} (h : Steps p q) (a : F) (t : ℕ) (ht : t < P.T) : stepU P p.us p.q.du a t = stepU P q.us q.q.du a t := by
  unfold stepU; rw [h.us t ht, h.du t ht]

theorem good_same {p q : PyCSQP P} (h : Steps p q) (iter : ℕ) (a : F) : Good p iter a ↔ Good q iter a := by
  obtain ⟨k1, k2, k3, k4, k5, k6, k7, k8, k9, k10⟩ := keep_all h.keep
  have h1 : trialCost p a = trialCost q a := trajCost_congr P (stepX_same h a) (stepU_same h a)
  have h2 : trialGap p a = trialGap q a := by
    unfold trialGap
    rw [shootGapNorm_congr P (stepX_same h a) (stepU_same h a), k10]
  have h3 : trialCon p a = trialCon q a := conViol_congr (stepX_same h a) (stepU_same h a)
  unfold Good Dominated
  rw [h1, h2, h3, k6, k7, h.flt.1, h.flt.2, h.merit, meritOf_same h.keep h.lagInf]

open PySQP (halve)

section
variable [SqrtOps F]

/-- the same line search. -/
theorem search_alike (iter : ℕ) {p q : PyCSQP P} (h : Steps p q) :
    ∃ r p' q', search iter 10 (halve 0) p = (r, p') ∧ search iter 10 (halve 0) q = (r, q') ∧ Alike p' q' ∧ p'.q = p.q ∧ q'.q = q.q ∧
      p'.lagMul = p.lagMul ∧ q'.lagMul = q.lagMul ∧ SameFilter p' q' ∧ p'.KKT = p.KKT ∧ q'.KKT = q.KKT := by
  have k6 := (keep_all h.keep).2.2.2.2.2.1
  generalize hp : search iter 10 (halve 0) p = a
  generalize hq : search iter 10 (halve 0) q = b
  obtain ⟨r, p'⟩ := a
  obtain ⟨r', q'⟩ := b
  have hT : ∀ {x y : PyCSQP P}, Trials x y → y.xs = x.xs ∧ y.us = x.us ∧ y.q = x.q ∧ y.lagMul = x.lagMul ∧ y.gapList = x.gapList ∧ y.costList = x.costList ∧ y.KKT = x.KKT := by
    rintro x y ⟨_, _, _, _, _, _, _, _, _, rfl, -⟩
    exact ⟨rfl, rfl, rfl, rfl, rfl, rfl, rfl⟩
  have key : r = r' ∧ (∀ t, t ≤ P.T → p'.xs t = q'.xs t) ∧ (∀ t, t < P.T → p'.us t = q'.us t) := by
    rcases search_spec iter 10 (Trials.refl p) 0 hp with ⟨rfl, k, a1, a2, a3, a4, a5, a6⟩ | ⟨rfl, a1, a2, a3⟩ | ⟨rfl, a1, -, a2, a3⟩ <;>
    rcases search_spec iter 10 (Trials.refl q) 0 hq with ⟨rfl, k', b1, b2, b3, b4, b5, b6⟩ | ⟨rfl, b1, b2, b3⟩ | ⟨rfl, b1, -, b2, b3⟩
    · have : k = k' := by
        rcases lt_trichotomy k k' with hlt | e | hlt
        · exact absurd ((good_same h iter _).1 a4) (b5 k a1 hlt)
        · exact e
        · exact absurd ((good_same h iter _).2 b4) (a5 k' b1 hlt)
      subst this
      exact ⟨rfl, fun t ht => by rw [a6.xs t ht, b6.xs t ht, stepX_same h _ t ht], fun t ht => by rw [a6.us t ht, b6.us t ht, stepU_same h _ t ht]⟩
    · exact absurd ((good_same h iter _).1 a4) (b2 k a1 a2)
    · exact absurd ((good_same h iter _).1 a4) (b2 k a1 (a3 (k6.trans b1)))
    · exact absurd ((good_same h iter _).2 b4) (a2 k' b1 b2)
    · rw [(hT a3).1, (hT b3).1, (hT a3).2.1, (hT b3).2.1]; exact ⟨rfl, h.xs, h.us⟩
    · rcases a1 with e | e
      · rw [k6, b1] at e; cases e
      · cases e
    · exact absurd ((good_same h iter _).2 b4) (a2 k' b1 (b3 (k6.symm.trans a1)))
    · rcases b1 with e | e
      · rw [← k6, a1] at e; cases e
      · cases e
    · rw [(hT a3).1, (hT b3).1, (hT a3).2.1, (hT b3).2.1]; exact ⟨rfl, h.xs, h.us⟩
  have hfr : ∀ {r : PySQP.Search} {x y : PyCSQP P}, search iter 10 (halve 0) x = (r, y) → y.q = x.q ∧ y.lagMul = x.lagMul ∧ y.gapList = x.gapList ∧ y.costList = x.costList ∧ y.KKT = x.KKT := by
    intro r x y e
    rcases search_spec iter 10 (Trials.refl x) 0 e with ⟨-, k, -, -, -, -, -, h⟩ | ⟨-, -, -, h⟩ | ⟨-, -, -, -, h⟩
    · obtain ⟨_, _, h⟩ := h.frame
      exact (hT h).2.2
    · exact (hT h).2.2
    · exact (hT h).2.2
  obtain ⟨rfl, e1, e2⟩ := key
  obtain ⟨f1, f2, f3, f4, f5⟩ := hfr hp
  obtain ⟨g1, g2, g3, g4, g5⟩ := hfr hq
  refine ⟨r, p', q', rfl, rfl, ⟨?_, e1, e2⟩, f1, g1, f2, g2, ⟨?_, ?_⟩, f5, g5⟩
  · rw [search_keep hp, search_keep hq, h.keep]
  · rw [f3, g3, h.flt.1]
  · rw [f4, g4, h.flt.2]

/-- what two calls that went the same way have in common. -/
structure Result (p q : PyCSQP P) : Prop extends Alike p q where
  mult : SameMult p q
  KKT : p.KKT = q.KKT
  dx : ∀ t, t ≤ P.T → p.q.dx t = q.q.dx t
  du : ∀ t, t < P.T → p.q.du t = q.q.du t

theorem iterate_alike (L : PyLLT F) (hD : PyQP.Decided P) (n i : ℕ) {p q : PyCSQP P} (h : Before i p q) (hg : p.c.eqGuess = true) (hm : p.c.maxQP ≠ 0) :
    (∃ o p' q', iterate L n i p = .inl (o, p') ∧ iterate L n i q = .inl (o, q') ∧ Alike p' q' ∧ ((∃ b, o = .ret b) → Result p' q')) ∨
    (∃ p' q', iterate L n i p = .inr p' ∧ iterate L n i q = .inr q' ∧ Before (i + n) p' q' ∧ (n ≠ 0 → Result p' q') ∧ p'.c = p.c) := by
  induction n generalizing i p q with
  | zero => exact .inr ⟨_, _, rfl, rfl, h, fun e => absurd rfl e, rfl⟩
  | succ n ih =>
    have hd := dirAt_alike L hD i h hg hm
    have e1 : ∀ p : PyCSQP P, (p.evaluate.resetFirst i).computeDirection L = dirAt L i p := fun _ => rfl
    generalize hp : dirAt L i p = rp at hd
    generalize hq : dirAt L i q = rq at hd
    unfold iterate head
    rw [e1, e1, hp, hq]
    cases hd with
    | exn hab => exact .inl ⟨_, _, _, rfl, rfl, hab, fun ⟨b, e⟩ => (by cases e)⟩
    | @ok p1 q1 hab =>
      simp only []
      obtain ⟨k1, k2, k3⟩ := kktCheck_dirs hab
      have kk := keep_all k3.keep
      rw [← k1, ← kk.2.2.2.2.1]
      have hy : ∀ t, t ≤ P.T → p1.kktCheck.q.y t = q1.kktCheck.q.y t := hab.dir.y
      by_cases hcv : ltb p1.kktCheck.KKT p1.kktCheck.tol = true
      · rw [if_pos hcv, if_pos hcv]
        exact .inl ⟨_, _, _, rfl, rfl, k3.toAlike, fun _ => ⟨k3.toAlike, ⟨k2, hy⟩, k1, hab.dir.dx, hab.dir.du⟩⟩
      · rw [if_neg hcv, if_neg hcv]
        simp only []
        have hpush : Dirs p1.kktCheck.pushFilter q1.kktCheck.pushFilter := by
          refine ⟨⟨⟨k3.keep, k3.xs, k3.us⟩, k3.data, k3.gap, k3.cost, k3.gapNorm, k3.con, k3.merit, k3.lagInf⟩, ⟨?_, ?_⟩, k3.dir, k3.iters⟩
          · simp only [pushFilter]; rw [k3.flt.1, k3.gapNorm]
          · simp only [pushFilter]; rw [k3.flt.2, k3.cost]
        obtain ⟨r, p2, q2, s1, s2, ha, f1, f2, f3, f4, hf, f5, f6⟩ := search_alike i hpush.toSteps
        rw [show (lit 1 : F) = halve 0 from rfl, s1, s2]
        have hmult : SameMult p2 q2 := by
          unfold SameMult
          rw [f1, f2, f3, f4]
          exact ⟨k2, hy⟩
        have hK : p2.KKT = q2.KKT := by rw [f5, f6]; exact k1
        have hres : Result p2 q2 := ⟨ha, hmult, hK, by rw [f1, f2]; exact hab.dir.dx, by rw [f1, f2]; exact hab.dir.du⟩
        have hc2 : p2.c = p.c := (keep_all (search_keep s1)).1.trans (keep_all (keep_dirAt hp)).1
        have hb : Before (i + 1) p2 q2 := by
          refine ⟨ha, hf, ?_, ?_, .inr hmult.2, .inr hmult, .inr (.inr ?_)⟩
          · rw [f1, f2]; exact hab.dir.dx 0 (Nat.zero_le _)
          · rw [f1, f2]; exact hab.dir.dxt0
          · rw [f1, f2]; exact ⟨hab.dir.rho, hab.dir.rs⟩
        have hnext : ∀ {o : (PyOut × PyCSQP P) ⊕ PyCSQP P} {o'}, iterate L n (i + 1) p2 = o → iterate L n (i + 1) q2 = o' →
            (∃ x p' q', o = .inl (x, p') ∧ o' = .inl (x, q') ∧ Alike p' q' ∧ ((∃ b, x = .ret b) → Result p' q')) ∨
            (∃ p' q', o = .inr p' ∧ o' = .inr q' ∧ Before (i + (n + 1)) p' q' ∧ (n + 1 ≠ 0 → Result p' q') ∧ p'.c = p.c) := by
          rintro o o' rfl rfl
          rcases ih (i + 1) hb (by rw [hc2]; exact hg) (by rw [hc2]; exact hm) with h | ⟨p', q', h1, h2, h3, h4, h5⟩
          · exact .inl h
          · refine .inr ⟨p', q', h1, h2, by rw [show i + (n + 1) = i + 1 + n by omega]; exact h3, fun _ => ?_, h5.trans hc2⟩
            by_cases hn : n = 0
            · subst hn
              cases h1; cases h2
              exact hres
            · exact h4 hn
        cases r with
        | gaveUp => exact .inl ⟨_, _, _, rfl, rfl, ha, fun _ => hres⟩
        | accepted => exact hnext rfl rfl
        | exhausted => exact hnext rfl rfl

end
end
end PyCSQP
end Mim
