import Verif.Lemmas.SQPLoop
import Verif.Spec.OCP

/-!
# `tryStep` computes the trial of the specification
-/
set_option linter.unusedSectionVars false
set_option linter.unusedSimpArgs false

namespace Mim
open Spec

theorem sumUp_succ {F : Type} [Add F] [Zero F] (n : ℕ) (f : ℕ → F) : sumUp (n + 1) f = sumUp n f + f n := rfl
theorem sumUp_zero {F : Type} [Add F] [Zero F] (f : ℕ → F) : sumUp 0 f = 0 := rfl
theorem sumUp_congr {F : Type} [Add F] [Zero F] (n : ℕ) (f g : ℕ → F) (h : ∀ t, t < n → f t = g t) :
    sumUp n f = sumUp n g := by
  induction n with
  | zero => rfl
  | succ n ih =>
    rw [sumUp_succ, sumUp_succ, h n (Nat.lt_succ_self n), ih fun t ht => h t (Nat.lt_succ_of_lt ht)]

theorem sumUp_exact {K : Type} [AddCommMonoid K] (n : ℕ) (f : ℕ → K) : sumUp n f = ∑ t ∈ Finset.range n, f t := by
  induction n with
  | zero => rfl
  | succ n ih => rw [sumUp_succ, ih, Finset.sum_range_succ]

instance {F : Type} : Subsingleton (Vec F 0) := ⟨fun a b => funext fun i => i.elim0⟩

theorem vec_eq_of_zero {F : Type} {n : ℕ} (h : n = 0) (a b : Vec F n) : a = b := by
  subst h; exact Subsingleton.elim a b

namespace SQP
variable {F : Type} [Add F] [Sub F] [Mul F] [Div F] [Neg F] [Zero F] [One F] [FloatOps F] {P : Problem F}

/-- state of the `tryStep` loop before node `t`, relative to the state `s` in which it was called. -/
structure TryInv (s : SQP P) (a : F) (t : ℕ) (s1 : SQP P) : Prop where
  xs : s1.xs = s.xs
  us : s1.us = s.us
  dx : s1.dx = s.dx
  du : s1.du = s.du
  mu : s1.mu = s.mu
  xt : ∀ j, j < t → s1.xsTry j = stepX P s.xs s.dx a j
  ut : ∀ j, j < t → s1.usTry j = stepU P s.us s.du a j
  run : ∀ j, j < t → s1.data.run j = P.calcR j (stepX P s.xs s.dx a j) (stepU P s.us s.du a j)
  cost : s1.costTry = sumUp t (nodeCost P (stepX P s.xs s.dx a) (stepU P s.us s.du a))
  gap : s1.gapTry = sumUp (t - 1) fun j => norm1 (shootGap P (stepX P s.xs s.dx a) (stepU P s.us s.du a) j)

theorem tryStage_inv {s : SQP P} {a : F} {t : ℕ} {s1 s2 : SQP P} (hI : TryInv s a t s1)
    (h : (tryStage a t s1).st = s2) : TryInv s a (t + 1) s2 := by
  have e : ∀ (b : Bool) (s : SQP P), (if b = true then Res.exn s else Res.ok s).st = s := by
    intro b s; cases b <;> rfl
  have hu : (if P.nu t ≠ 0 then Function.update s1.usTry t (s1.us t + sv a (s1.du t)) else s1.usTry) t
      = stepU P s.us s.du a t := by
    split
    · rw [Function.update_self, hI.us, hI.du]; rfl
    · rename_i h0
      exact vec_eq_of_zero (by simpa using h0) _ _
  have hu' : ∀ j, j < t →
      (if P.nu t ≠ 0 then Function.update s1.usTry t (s1.us t + sv a (s1.du t)) else s1.usTry) j
      = s1.usTry j := by
    intro j hj
    split
    · rw [Function.update_of_ne (Nat.ne_of_lt hj)]
    · rfl
  have hx : P.integrate (s1.xs t) (sv a (s1.dx t)) = stepX P s.xs s.dx a t := by
    rw [hI.xs, hI.dx]; rfl
  unfold tryStage at h
  simp only [e, hu, hx, Data.calcNode] at h
  have hc : s1.costTry + nodeCost P (stepX P s.xs s.dx a) (stepU P s.us s.du a) t
      = sumUp (t + 1) (nodeCost P (stepX P s.xs s.dx a) (stepU P s.us s.du a)) := by
    rw [sumUp_succ, hI.cost]
  have hxt : ∀ j, j < t + 1 → Function.update s1.xsTry t (stepX P s.xs s.dx a t) j = stepX P s.xs s.dx a j := by
    intro j hj
    rcases Nat.lt_succ_iff_lt_or_eq.mp hj with hj | rfl
    · rw [Function.update_of_ne (Nat.ne_of_lt hj), hI.xt j hj]
    · rw [Function.update_self]
  have hut : ∀ j, j < t + 1 →
      (if P.nu t ≠ 0 then Function.update s1.usTry t (s1.us t + sv a (s1.du t)) else s1.usTry) j
      = stepU P s.us s.du a j := by
    intro j hj
    rcases Nat.lt_succ_iff_lt_or_eq.mp hj with hj | rfl
    · rw [hu' j hj, hI.ut j hj]
    · exact hu
  have hrun : ∀ j, j < t + 1 → Function.update s1.data.run t
      (P.calcR t (stepX P s.xs s.dx a t) (stepU P s.us s.du a t)) j
      = P.calcR j (stepX P s.xs s.dx a j) (stepU P s.us s.du a j) := by
    intro j hj
    rcases Nat.lt_succ_iff_lt_or_eq.mp hj with hj | rfl
    · rw [Function.update_of_ne (Nat.ne_of_lt hj), hI.run j hj]
    · rw [Function.update_self]
  subst h
  split
  · rename_i ht
    obtain ⟨t', rfl⟩ : ∃ t', t = t' + 1 := ⟨t - 1, by omega⟩
    refine ⟨hI.xs, hI.us, hI.dx, hI.du, hI.mu, hxt, hut, hrun, ?_, ?_⟩
    · simp only [Function.update_self]; exact hc
    · simp only [Nat.add_sub_cancel]
      rw [hI.gap]
      have e1 : Function.update s1.data.run (t' + 1)
        (P.calcR (t' + 1) (stepX P s.xs s.dx a (t' + 1)) (stepU P s.us s.du a (t' + 1))) t' = s1.data.run t' :=
        Function.update_of_ne (by omega) _ _
      change _ + norm1 (P.diff _ (Function.update s1.data.run (t' + 1)
        (P.calcR (t' + 1) (stepX P s.xs s.dx a (t' + 1)) (stepU P s.us s.du a (t' + 1))) t').xnext) = _
      rw [e1, hI.run t' (by omega)]
      rfl
  · rename_i ht
    obtain rfl : t = 0 := by omega
    refine ⟨hI.xs, hI.us, hI.dx, hI.du, hI.mu, hxt, hut, hrun, ?_, ?_⟩
    · simp only [Function.update_self]; exact hc
    · exact hI.gap

theorem tryStage_ok_iff (a : F) (t : ℕ) (s : SQP P) :
    (∃ s', tryStage a t s = .ok s') ↔ bad (tryStage a t s).st.costTry = false := by
  have e : ∀ (s1 : SQP P), (∃ s', (if bad s1.costTry = true then Res.exn s1 else Res.ok s1) = .ok s') ↔
      bad (if bad s1.costTry = true then Res.exn s1 else Res.ok s1).st.costTry = false := by
    intro s1
    cases h : bad s1.costTry <;> simp [Res.st, h]
  exact e _

theorem tryLoop_inv (s : SQP P) (a : F) (s0 : SQP P) (h0 : TryInv s a 0 s0) (n : ℕ) :
    (∀ s1, forUpR n (tryStage a) s0 = .ok s1 → TryInv s a n s1 ∧
      ∀ t, t < n → bad (sumUp (t + 1) (nodeCost P (stepX P s.xs s.dx a) (stepU P s.us s.du a))) = false) ∧
    ((∀ t, t < n → bad (sumUp (t + 1) (nodeCost P (stepX P s.xs s.dx a) (stepU P s.us s.du a))) = false) →
      ∃ s1, forUpR n (tryStage a) s0 = .ok s1) := by
  induction n with
  | zero =>
    refine ⟨fun s1 h => ?_, fun _ => ⟨s0, rfl⟩⟩
    cases h
    exact ⟨h0, fun t ht => absurd ht (Nat.not_lt_zero t)⟩
  | succ n ih =>
    constructor
    · intro s2 h
      obtain ⟨s1, h1, h2⟩ := Res.bind_eq_ok h
      obtain ⟨hI, hb⟩ := ih.1 s1 h1
      have hI2 : TryInv s a (n + 1) s2 := tryStage_inv hI (by rw [h2]; rfl)
      refine ⟨hI2, fun t ht => ?_⟩
      rcases Nat.lt_succ_iff_lt_or_eq.mp ht with ht | rfl
      · exact hb t ht
      · rw [← hI2.cost]
        have := (tryStage_ok_iff a t s1).mp ⟨s2, h2⟩
        rw [h2] at this
        exact this
    · intro hb
      obtain ⟨s1, h1⟩ := ih.2 fun t ht => hb t (Nat.lt_succ_of_lt ht)
      obtain ⟨hI, _⟩ := ih.1 s1 h1
      rw [forUpR_succ, h1, Res.bind_ok]
      rw [tryStage_ok_iff, (tryStage_inv hI rfl).cost]
      exact hb n (Nat.lt_succ_self n)

/-- what a successful `tryStep` leaves behind. -/
structure TryPost (s : SQP P) (a : F) (s' : SQP P) : Prop where
  range : ltb 1 a = false ∧ ltb a 0 = false
  noBlow : ¬ CostBlowsUp P (stepX P s.xs s.dx a) (stepU P s.us s.du a)
  xt : ∀ j, j ≤ P.T → s'.xsTry j = stepX P s.xs s.dx a j
  ut : ∀ j, j < P.T → s'.usTry j = stepU P s.us s.du a j
  fresh : FreshCalc P s'.data (stepX P s.xs s.dx a) (stepU P s.us s.du a)
  cost : s'.costTry = trajCost P (stepX P s.xs s.dx a) (stepU P s.us s.du a)
  gap : s'.gapTry = shootGapNorm P (stepX P s.xs s.dx a) (stepU P s.us s.du a)
  merit : s'.meritTry = s'.costTry + s.mu * s'.gapTry

theorem tryTerminal_st (s : SQP P) (a : F) (s1 : SQP P) (hT : 0 < P.T) (hI : TryInv s a P.T s1) :
    (tryTerminal a s1).st.costTry = trajCost P (stepX P s.xs s.dx a) (stepU P s.us s.du a) ∧
    ((tryTerminal a s1 = .ok (tryTerminal a s1).st) ↔
      bad (trajCost P (stepX P s.xs s.dx a) (stepU P s.us s.du a)) = false) ∧
    (∀ j, j ≤ P.T → (tryTerminal a s1).st.xsTry j = stepX P s.xs s.dx a j) ∧
    (∀ j, j < P.T → (tryTerminal a s1).st.usTry j = stepU P s.us s.du a j) ∧
    FreshCalc P (tryTerminal a s1).st.data (stepX P s.xs s.dx a) (stepU P s.us s.du a) ∧
    (tryTerminal a s1).st.gapTry = shootGapNorm P (stepX P s.xs s.dx a) (stepU P s.us s.du a) ∧
    (tryTerminal a s1).st.meritTry = (tryTerminal a s1).st.costTry + s.mu * (tryTerminal a s1).st.gapTry := by
  have e : ∀ (b : Bool) (s : SQP P), (if b = true then Res.exn s else Res.ok s).st = s := by
    intro b s; cases b <;> rfl
  have hx : P.integrate (s1.xs P.T) (sv a (s1.dx P.T)) = stepX P s.xs s.dx a P.T := by
    rw [hI.xs, hI.dx]; rfl
  have hcost : s1.costTry + (P.calcT (stepX P s.xs s.dx a P.T)).cost
      = trajCost P (stepX P s.xs s.dx a) (stepU P s.us s.du a) := by
    rw [hI.cost]; rfl
  unfold tryTerminal
  simp only [e, hx, Data.calcTer]
  refine ⟨hcost, ?_, ?_, hI.ut, ⟨hI.run, rfl⟩, ?_, ?_⟩
  · rw [hcost]
    cases bad (trajCost P (stepX P s.xs s.dx a) (stepU P s.us s.du a)) <;> simp
  · intro j hj
    rcases Nat.lt_or_eq_of_le hj with hj | rfl
    · rw [Function.update_of_ne (Nat.ne_of_lt hj), hI.xt j hj]
    · rw [Function.update_self]
  · obtain ⟨T', hT'⟩ : ∃ T', P.T = T' + 1 := ⟨P.T - 1, by omega⟩
    unfold shootGapNorm
    have hg := hI.gap
    have hr := hI.run (P.T - 1) (by omega)
    rw [hg, hr]
    have e1 : P.T - 1 + 1 = P.T := by omega
    have : ∀ n, n + 1 = P.T → sumUp n (fun j => norm1 (shootGap P (stepX P s.xs s.dx a) (stepU P s.us s.du a) j)) +
        norm1 (P.diff (stepX P s.xs s.dx a P.T) (P.calcR n (stepX P s.xs s.dx a n) (stepU P s.us s.du a n)).xnext) =
        sumUp P.T fun t => norm1 (shootGap P (stepX P s.xs s.dx a) (stepU P s.us s.du a) t) := by
      intro n hn
      rw [← hn, sumUp_succ]; rfl
    exact this _ e1
  · rw [hI.mu]

theorem tryStep_spec (hT : 0 < P.T) (a : F) (s : SQP P) :
    (∀ s', tryStep a s = .ok s' → TryPost s a s') ∧
    (ltb 1 a = false → ltb a 0 = false → ¬ CostBlowsUp P (stepX P s.xs s.dx a) (stepU P s.us s.du a) →
      ∃ s', tryStep a s = .ok s') := by
  have h0 : TryInv s a 0 { s with nTry := s.nTry + 1, costTry := 0, meritTry := 0, gapTry := 0 } :=
    ⟨rfl, rfl, rfl, rfl, rfl, fun j hj => absurd hj (Nat.not_lt_zero j), fun j hj => absurd hj (Nat.not_lt_zero j),
      fun j hj => absurd hj (Nat.not_lt_zero j), rfl, rfl⟩
  have hl := tryLoop_inv s a _ h0 P.T
  unfold tryStep
  simp only []
  constructor
  · intro s' h
    split at h
    · cases h
    · rename_i hr
      simp only [Bool.or_eq_true, not_or, Bool.not_eq_true] at hr
      obtain ⟨s1, h1, h2⟩ := Res.bind_eq_ok h
      obtain ⟨hI, hb⟩ := hl.1 s1 h1
      obtain ⟨c1, c2, c3, c4, c5, c6, c7⟩ := tryTerminal_st s a s1 hT hI
      have hst : (tryTerminal a s1).st = s' := by rw [h2]; rfl
      rw [hst] at c1 c2 c3 c4 c5 c6 c7
      have c2' := c2.mp h2
      refine ⟨hr, ?_, c3, c4, c5, c1, c6, c7⟩
      rintro (⟨t, ht, hb'⟩ | hb')
      · rw [hb t ht] at hb'; cases hb'
      · rw [c2'] at hb'; cases hb'
  · intro ha1 ha2 hnb
    rw [ha1, ha2]
    simp only [Bool.or_self, Bool.false_eq_true, if_false]
    unfold CostBlowsUp at hnb
    push Not at hnb
    obtain ⟨s1, h1⟩ := hl.2 fun t ht => by simpa using hnb.1 t ht
    obtain ⟨hI, _⟩ := hl.1 s1 h1
    obtain ⟨c1, c2, _⟩ := tryTerminal_st s a s1 hT hI
    rw [h1, Res.bind_ok]
    exact ⟨_, c2.mpr (by simpa using hnb.2)⟩

end SQP
end Mim
