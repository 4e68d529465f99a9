import Verif.Lemmas.DDPMult
import Verif.Lemmas.ConvexLQ
import Verif.Props.DDPLine

/-!
# An iteration of DDP that takes the full step
-/
set_option linter.unusedSectionVars false
set_option linter.unusedSimpArgs false

namespace Mim
open Matrix Spec
variable {K : Type} [Field K] [LinearOrder K] [IsStrictOrderedRing K] {P : Problem K}

/-- the regularization after a full step taken with regularization `r`. -/
def Params.regNext (p : Params K) (r : K) : K := if p.thStepDec < 1 then max p.regMin (r / p.regDec) else r

namespace DDP
variable {llt : LLT K} {fuel : ℕ}

theorem updateReg_full_step {z : DDP P} (h1 : z.steplength = 1) (h2 : z.dreg = z.preg) (h4 : z.c.par.thStepInc < 1) :
    z.updateReg.1 = false ∧ z.updateReg.2 = { z with preg := z.c.par.regNext z.preg, dreg := z.c.par.regNext z.preg } := by
  have hd : decReg z.c.par z.preg = max z.c.par.regMin (z.preg / z.c.par.regDec) := decReg_exact _ _
  unfold updateReg Params.regNext
  simp only [h1, ltb_exact, leb_exact, decide_eq_true_eq]
  by_cases h : z.c.par.thStepDec < 1
  · simp only [h, if_true]
    have e : z.decreaseReg.steplength = 1 := h1
    have e2 : z.decreaseReg.c = z.c := rfl
    rw [e, e2, if_neg (not_le.mpr h4)]
    refine ⟨rfl, ?_⟩
    unfold decreaseReg
    rw [hd]
    simp only [h1]
  · simp only [h, if_false]
    rw [h1, if_neg (not_le.mpr h4)]
    refine ⟨rfl, ?_⟩
    obtain ⟨c, p, q, i, st, x, u, f, w, e, y, m, r, a1, a2, a3, a4, a5⟩ := z
    simp only at h1 h2
    subst h1
    subst h2
    rfl

/-- what an iteration with an accepted full step does. -/
structure FullStep (s1 s2 s3 : DDP P) : Prop where
  c : s3.c = s1.c
  iter : s3.iter = s1.iter
  xs : ∀ t, t ≤ P.T → s3.xs t = s2.policy.X true 1 t
  us : ∀ t, t < P.T → s3.us t = s2.policy.U true 1 t
  feas : s3.feas = true
  recalc : s3.recalc = true
  preg : s3.preg = s1.c.par.regNext s2.preg
  dreg : s3.dreg = s1.c.par.regNext s2.preg
  x0 : s3.y.xs 0 = P.x0
  dx : ∀ t, t < P.T → s3.y.dx t = P.diff (s2.xs t) (s3.xs t)
  lag : ∀ t, t < P.T → s3.y.lagMul t = mv (s2.e.bp.Vxx t) (s1.y.dx t) + s2.e.bp.Vx t
  lagT : s3.y.lagMul P.T = mv (s2.e.bp.Vxx P.T) (s3.y.dx (P.T - 1)) + s2.e.bp.Vx P.T

theorem retry_keeps {k : Kind P} (hk : k.Laws) {s1 s2 : DDP P} {b : Bool} (hr : retry k llt fuel s1 = some (b, s2)) :
    s2.xs = s1.xs ∧ s2.us = s1.us ∧ s2.feas = s1.feas ∧ s2.c = s1.c ∧ s2.iter = s1.iter ∧ s2.y.xs = s1.y.xs ∧ s2.y.dx = s1.y.dx ∧
      s2.y.lagMul = s1.y.lagMul ∧ s2.nRej = s1.nRej := by
  obtain ⟨⟨p, q, bp, g, r, e⟩, _⟩ := retry_spec hk hr
  rw [e]
  cases s1.recalc <;> exact ⟨rfl, rfl, rfl, rfl, rfl, rfl, rfl, rfl, rfl⟩

theorem full_step (hT : 0 < P.T) {s1 s2 : DDP P} (hx : s1.y.xs 0 = P.x0)
    (hr : retry (ddp P) llt fuel s1 = some (true, s2)) (hpq : s2.dreg = s2.preg)
    (hc : ¬ kktResidual s2.y.data s2.e.fs s2.y.lagMul ≤ s1.c.tol) (hal : s1.c.par.alphas.head? = some 1) (hinc : s1.c.par.thStepInc < 1)
    (hacc : AcceptDDP (checked (ddp P) s2) 1) :
    ∃ s3, body (ddp P) llt fuel s1 = some (none, s3) ∧ FullStep s1 s2 s3 := by
  obtain ⟨k1, k2, k3, k4, k5, k6, k7, k8, k9⟩ := retry_keeps ddp_laws hr
  obtain ⟨d0, d1, dg, dq, hch⟩ := checked_frame ddp_laws s2
  obtain ⟨as, has⟩ : ∃ as, s1.c.par.alphas = 1 :: as := by
    cases h : s1.c.par.alphas with
    | nil => rw [h] at hal; cases hal
    | cons a as => rw [h] at hal; cases hal; exact ⟨as, rfl⟩
  generalize hp : checked (ddp P) s2 = p at hch hacc
  have hpy : p.y = s2.y := by rw [hch]
  have hpe : p.e = s2.e := by rw [hch]
  have hpc : p.c = s1.c := by rw [hch]; exact k4
  have hpx : p.xs = s2.xs := by rw [hch]
  have hpu : p.us = s2.us := by rw [hch]
  have hpi : p.iter = s1.iter := by rw [hch]; exact k5
  have hpp : p.preg = s2.preg ∧ p.dreg = s2.dreg := by rw [hch]; exact ⟨rfl, rfl⟩
  have hpol : p.policy = s2.policy := by rw [hch]; rfl
  have hpk : p.m.KKT = kktResidual s2.y.data s2.e.fs s2.y.lagMul := by rw [hch]
  have hS : SameD p { p with recalc := false } := ⟨by change p.y.xs 0 = _; rw [hpy, k6]; exact hx, _, _, _, _, _, _, rfl⟩
  rcases tryDDP_roll 1 ({ p with recalc := false, steplength := 1, nTry := p.nTry + 1 } : DDP P) hS.1 with
    ⟨s4, h4, hok⟩ | ⟨s4, h4, hb⟩
  swap
  · exfalso
    rcases hb with h | h | h
    · rw [hacc.1] at h; cases h
    · rw [hacc.2.1] at h; cases h
    · exact hacc.2.2.1 h
  obtain ⟨y, dV, hf⟩ := hok.frame
  have htest : (testDDP 1 s4).1 = true := ((ddp_line.ok p { p with recalc := false } s4 1 hS h4).1).mpr hacc
  obtain ⟨m1, m2, m3⟩ := tryDDP_mult hT h4
  have hsearch : search (ddp P) p = { commitDDP 1 (testDDP 1 s4).2 with recalc := true } := by
    have hl : lineSearch (ddp P) p.c.par.alphas { p with recalc := false } =
        (true, { commitDDP 1 (testDDP 1 s4).2 with recalc := true }) := by
      have ha : p.c.par.alphas = 1 :: as := by rw [hpc, has]
      rw [ha]
      unfold lineSearch
      have h4' : (ddp P).trial 1 { ({ p with recalc := false } : DDP P) with
        steplength := 1, nTry := ({ p with recalc := false } : DDP P).nTry + 1 } = .ok s4 := h4
      rw [h4']
      simp only []
      have ht' : ((ddp P).test 1 s4).1 = true := htest
      rw [if_pos ht']
      rfl
    rw [search_eq, hl]
    rfl
  generalize hq : search (ddp P) p = q at hsearch
  have q1 : q.xs = s4.y.xs := by rw [hsearch]; rfl
  have q2 : q.us = s4.y.us := by rw [hsearch]; rfl
  have q3 : q.feas = true := by rw [hsearch]; rfl
  have q4 : q.recalc = true := by rw [hsearch]
  have q5 : q.y = s4.y := by rw [hsearch]; rfl
  have q6 : q.steplength = 1 ∧ q.preg = p.preg ∧ q.dreg = p.dreg ∧ q.c = p.c ∧ q.iter = p.iter := by
    rw [hsearch, hf]; exact ⟨rfl, rfl, rfl, rfl, rfl⟩
  obtain ⟨u1, u2⟩ := updateReg_full_step q6.1 (by rw [q6.2.1, q6.2.2.1, hpp.1, hpp.2]; exact hpq)
    (by rw [q6.2.2.2.1, hpc]; exact hinc)
  refine ⟨(q.updateReg.2).stopping.callbacks, ?_, ?_⟩
  · unfold body
    rw [hr]
    have e1 : ((ddp P).improve s2).checkKKT = p := hp
    simp only [e1]
    rw [if_neg (by rw [hpk, hpc]; simpa using hc)]
    have e2 : (ddp P).push p = p := rfl
    rw [e2, hq, u1]
    rfl
  · rw [u2]
    refine ⟨?_, ?_, ?_, ?_, q3, q4, ?_, ?_, ?_, ?_, ?_, ?_⟩
    · exact q6.2.2.2.1.trans hpc
    · exact q6.2.2.2.2.trans hpi
    · intro t ht
      change q.xs t = _
      rw [q1, hok.xs t ht, ← hpol]; rfl
    · intro t ht
      change q.us t = _
      rw [q2, hok.us t ht, ← hpol]; rfl
    · change q.c.par.regNext q.preg = _
      rw [q6.2.2.2.1, hpc, q6.2.1, hpp.1]
    · change q.c.par.regNext q.preg = _
      rw [q6.2.2.2.1, hpc, q6.2.1, hpp.1]
    · change q.y.xs 0 = _
      rw [q5, hok.xs 0 (Nat.zero_le _)]; rfl
    · intro t ht
      change q.y.dx t = P.diff (s2.xs t) (q.xs t)
      rw [q5, m1 t ht, q1, ← hpx]
    · intro t ht
      change q.y.lagMul t = _
      rw [q5, m2 t ht, ← k7, ← hpy, ← hpe]
    · change q.y.lagMul P.T = _ + _
      change _ = mv _ (q.y.dx (P.T - 1)) + _
      rw [q5, m3, ← hpe]

end DDP
end Mim
