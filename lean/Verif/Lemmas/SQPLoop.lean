import Verif.Lemmas.SQPFrame

/-!
# Case analysis of one SQP iteration and induction over the loop
-/
set_option linter.unusedSectionVars false
set_option linter.unusedSimpArgs false

namespace Mim
namespace SQP
variable {F : Type} [Add F] [Sub F] [Mul F] [Div F] [Neg F] [Zero F] [One F] [FloatOps F] {P : Problem F}

/-- state at the tolerance test of an iteration whose direction computation ended in `s1`. -/
abbrev checked (s1 : SQP P) : SQP P := s1.checkKKT.callbacks

/-- the three ways an iteration ends. -/
inductive BodyCase (llt : LLT F) (fuel : ℕ) (s : SQP P) (r : Option Bool) (s' : SQP P) : Prop
  | gaveUp (hr : retry llt fuel true s = some (false, s')) (hb : r = some false)
  | converged (s1 : SQP P) (hr : retry llt fuel true s = some (true, s1))
      (hk : leb (checked s1).KKT (checked s1).tol = true) (hs : s' = checked s1) (hb : r = some true)
  | searched (s1 : SQP P) (hr : retry llt fuel true s = some (true, s1))
      (hk : leb (checked s1).KKT (checked s1).tol = false)
      (hs : s' = (checked s1).pushFilter.search.updateReg.2)
      (hb : r = if (checked s1).pushFilter.search.updateReg.1 then some false else none)

theorem body_cases {llt : LLT F} {fuel : ℕ} {s : SQP P} {r : Option Bool} {s' : SQP P}
    (h : body llt fuel s = some (r, s')) : BodyCase llt fuel s r s' := by
  unfold body at h
  split at h
  · cases h
  · rename_i s1 hs1
    simp only [Option.some.injEq, Prod.mk.injEq] at h
    obtain ⟨rfl, rfl⟩ := h
    exact .gaveUp hs1 rfl
  · rename_i s1 hs1
    simp only [] at h
    by_cases hk : leb (checked s1).KKT (checked s1).tol = true
    · rw [if_pos hk] at h
      simp only [Option.some.injEq, Prod.mk.injEq] at h
      obtain ⟨rfl, rfl⟩ := h
      exact .converged s1 hs1 hk rfl rfl
    · rw [if_neg hk] at h
      have hk' : leb (checked s1).KKT (checked s1).tol = false := by simpa using hk
      by_cases hs : (checked s1).pushFilter.search.updateReg.1 = true
      · rw [if_pos hs] at h
        simp only [Option.some.injEq, Prod.mk.injEq] at h
        obtain ⟨rfl, rfl⟩ := h
        exact .searched s1 hs1 hk' rfl (by rw [if_pos hs])
      · rw [if_neg hs] at h
        simp only [Option.some.injEq, Prod.mk.injEq] at h
        obtain ⟨rfl, rfl⟩ := h
        exact .searched s1 hs1 hk' rfl (by rw [if_neg hs])

/-- induction over the main loop: `I n s` is an invariant at the head of an iteration with `n` iterations left. -/
theorem iterate_inv (llt : LLT F) (fuel : ℕ) (I : ℕ → SQP P → Prop) (Q : Bool → SQP P → Prop)
    (hstep : ∀ n s s', I (n + 1) s → body llt fuel s = some (none, s') → I n { s' with iter := s'.iter + 1 })
    (hret : ∀ n s b s', I (n + 1) s → body llt fuel s = some (some b, s') → Q b s')
    (n : ℕ) (s : SQP P) (h0 : I n s) (r : Option Bool) (s' : SQP P)
    (h : iterate llt fuel n s = some (r, s')) :
    (r = none ∧ I 0 s') ∨ (∃ b, r = some b ∧ Q b s') := by
  induction n generalizing s with
  | zero =>
    simp only [iterate, Option.some.injEq, Prod.mk.injEq] at h
    obtain ⟨rfl, rfl⟩ := h
    exact .inl ⟨rfl, h0⟩
  | succ n ih =>
    unfold iterate at h
    split at h
    · cases h
    · rename_i b s1 hb
      simp only [Option.some.injEq, Prod.mk.injEq] at h
      obtain ⟨rfl, rfl⟩ := h
      exact .inr ⟨b, rfl, hret n s b s1 h0 hb⟩
    · rename_i s1 hb
      exact ih _ (hstep n s s1 h0 hb) h

/-- the two ways `solve` returns. -/
theorem solve_cases {llt : LLT F} {fuel : ℕ} {xs : Option (Traj P)} {us : Option (Ctrls P)} {m : ℕ} {ri : F}
    {s : SQP P} {b : Bool} {s' : SQP P} (h : solve llt fuel xs us m ri s = some (b, s')) :
    iterate llt fuel m (s.start xs us ri) = some (some b, s') ∨
    ∃ s1, iterate llt fuel m (s.start xs us ri) = some (none, s1) ∧ extraIter llt fuel s1 = some (b, s') := by
  unfold solve at h
  split at h
  · cases h
  · rename_i b1 s1 h1
    simp only [Option.some.injEq, Prod.mk.injEq] at h
    obtain ⟨rfl, rfl⟩ := h
    exact .inl h1
  · rename_i s1 h1
    exact .inr ⟨s1, h1, h⟩

/-- the ways the extra iteration ends. -/
inductive ExtraCase (llt : LLT F) (fuel : ℕ) (s : SQP P) (b : Bool) (s' : SQP P) : Prop
  | off (he : s.extra = false) (hb : b = false) (hs : s' = s)
  | gaveUp (he : s.extra = true) (hr : retry llt fuel true s = some (false, s')) (hb : b = false)
  | checked (he : s.extra = true) (s1 : SQP P) (hr : retry llt fuel true s = some (true, s1))
      (hs : s' = SQP.checked s1) (hb : b = leb (SQP.checked s1).KKT (SQP.checked s1).tol)

theorem extra_cases {llt : LLT F} {fuel : ℕ} {s : SQP P} {b : Bool} {s' : SQP P}
    (h : extraIter llt fuel s = some (b, s')) : ExtraCase llt fuel s b s' := by
  unfold extraIter at h
  split at h
  · rename_i he
    split at h
    · cases h
    · rename_i s1 hs1
      simp only [Option.some.injEq, Prod.mk.injEq] at h
      obtain ⟨rfl, rfl⟩ := h
      exact .gaveUp he hs1 rfl
    · rename_i s1 hs1
      simp only [Option.some.injEq, Prod.mk.injEq] at h
      obtain ⟨rfl, rfl⟩ := h
      exact .checked he s1 hs1 rfl rfl
  · rename_i he
    simp only [Option.some.injEq, Prod.mk.injEq] at h
    obtain ⟨rfl, rfl⟩ := h
    exact .off (by simpa using he) rfl rfl

/-- a successful retry loop ends with a successful `computeDirection` from a state that differs from `s` only in what
`computeDirection` and the regularization updates write, with `recalc = true` unless an earlier attempt failed. -/
theorem retry_true {llt : LLT F} {fuel : ℕ} {r : Bool} {s s1 : SQP P}
    (h : retry llt fuel r s = some (true, s1)) :
    ∃ s0 r0, computeDirection llt r0 s0 = .ok s1 := by
  induction fuel generalizing r s with
  | zero => cases h
  | succ n ih =>
    unfold retry at h
    split at h
    · rename_i s2 hs2
      simp only [Option.some.injEq, Prod.mk.injEq, true_and] at h
      subst h
      exact ⟨s, r, hs2⟩
    · simp only [] at h
      split at h
      · simp at h
      · exact ih h

/-- an observation unaffected by everything `solve` writes during iterations is constant. -/
theorem body_frame {A : Type _} (π : SQP P → A)
    (hd : ∀ s data cost fs gap merit bp dx du lam xg ug,
      π (wDir s data cost fs gap merit bp dx du lam xg ug) = π s)
    (hp : ∀ (s : SQP P) p d, π { s with preg := p, dreg := d } = π s)
    (ht : ∀ s data xsTry usTry fsTry c g m n, π (wTry s data xsTry usTry fsTry c g m n) = π s)
    (hl : ∀ (s : SQP P) a b xs us fe, π { s with steplength := a, isWorse := b, xs := xs, us := us, feas := fe } = π s)
    (hk : ∀ (s : SQP P) k n l, π { s with KKT := k, nKKT := n, log := l } = π s)
    (hf : ∀ (s : SQP P) g c h, π { s with gapList := g, costList := c, hist := h } = π s)
    (hn : ∀ (s : SQP P) n, π { s with nRej := n } = π s)
    {llt : LLT F} {fuel : ℕ} {s : SQP P} {r : Option Bool} {s' : SQP P}
    (h : body llt fuel s = some (r, s')) : π s' = π s := by
  have hc : ∀ s1 : SQP P, π (checked s1) = π s1 := fun s1 => hk s1 _ _ _
  cases body_cases h with
  | gaveUp hr hb => exact retry_frame π hd hp _ _ _ _ _ _ hr
  | converged s1 hr _ hs _ => rw [hs, hc]; exact retry_frame π hd hp _ _ _ _ _ _ hr
  | searched s1 hr _ hs _ =>
    rw [hs, updateReg_frame π hp, search_frame π ht hl hn]
    refine (hf _ _ _ _).trans ?_
    rw [hc]
    exact retry_frame π hd hp _ _ _ _ _ _ hr

theorem solve_frame {A : Type _} (π : SQP P → A)
    (hd : ∀ s data cost fs gap merit bp dx du lam xg ug,
      π (wDir s data cost fs gap merit bp dx du lam xg ug) = π s)
    (hp : ∀ (s : SQP P) p d, π { s with preg := p, dreg := d } = π s)
    (ht : ∀ s data xsTry usTry fsTry c g m n, π (wTry s data xsTry usTry fsTry c g m n) = π s)
    (hl : ∀ (s : SQP P) a b xs us fe, π { s with steplength := a, isWorse := b, xs := xs, us := us, feas := fe } = π s)
    (hk : ∀ (s : SQP P) k n l, π { s with KKT := k, nKKT := n, log := l } = π s)
    (hf : ∀ (s : SQP P) g c h, π { s with gapList := g, costList := c, hist := h } = π s)
    (hn : ∀ (s : SQP P) n, π { s with nRej := n } = π s)
    (hi : ∀ (s : SQP P) i, π { s with iter := i } = π s)
    {llt : LLT F} {fuel : ℕ} {xs : Option (Traj P)} {us : Option (Ctrls P)} {m : ℕ} {ri : F}
    {s : SQP P} {b : Bool} {s' : SQP P} (h : solve llt fuel xs us m ri s = some (b, s')) : π s' = π s := by
  have h0 : π (s.start xs us ri) = π s := by
    have e1 : ∀ (s : SQP P) x u xt, π { s with xs := x, us := u, feas := false, xsTry := xt } = π s := by
      intro s x u xt
      have := hl s s.steplength s.isWorse x u false
      rw [← this]
      exact ht { s with xs := x, us := u, feas := false } s.data xt s.usTry s.fsTry s.costTry s.gapTry s.meritTry s.nTry
    have e2 : ∀ (s : SQP P) p d, π { s with preg := p, dreg := d, iter := 0, hist := [] } = π s := by
      intro s p d
      have a1 := hp s p d
      rw [← a1]
      have a2 := hi { s with preg := p, dreg := d } 0
      rw [← a2]
      exact hf { s with preg := p, dreg := d, iter := 0 } s.gapList s.costList []
    have e3 := e1 s (Function.update (xs.getD fun _ => P.zeroX) 0 P.x0)
      (us.getD fun t => zeroV F (P.nu t)) (Function.update s.xsTry 0 P.x0)
    rw [← e3]
    exact e2 { s with
      xs := Function.update (xs.getD fun _ => P.zeroX) 0 P.x0
      us := us.getD fun t => zeroV F (P.nu t)
      feas := false
      xsTry := Function.update s.xsTry 0 P.x0 } (initReg s.par ri) (initReg s.par ri)
  have hb : ∀ s r s', body llt fuel s = some (r, s') → π s' = π s := fun s r s' h =>
    body_frame π hd hp ht hl hk hf hn h
  have key := fun r s' => iterate_inv llt fuel (fun _ s1 => π s1 = π s) (fun _ s1 => π s1 = π s)
    (fun n s1 s2 hI h => by rw [hi, hb _ _ _ h, hI]) (fun n s1 b s2 hI h => by rw [hb _ _ _ h, hI])
    m (s.start xs us ri) h0 r s'
  rcases solve_cases h with h | ⟨s1, h1, h2⟩
  · rcases key _ _ h with ⟨h', _⟩ | ⟨b', _, h'⟩
    · cases h'
    · exact h'
  · have e1 : π s1 = π s := by
      rcases key _ _ h1 with ⟨_, h'⟩ | ⟨b', h', _⟩
      · exact h'
      · cases h'
    cases extra_cases h2 with
    | off he hb' hs => rw [hs, e1]
    | gaveUp he hr hb' => rw [retry_frame π hd hp _ _ _ _ _ _ hr, e1]
    | checked he s2 hr hs hb' =>
      rw [hs]
      refine (hk s2 _ _ _).trans ?_
      rw [retry_frame π hd hp _ _ _ _ _ _ hr, e1]

end SQP
end Mim
