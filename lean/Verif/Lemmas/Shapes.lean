import Verif.Spec.Shapes

/-!
# Shapes: statements that fit the right sizes, and read only what has been sized

`R` is the table of right sizes, `S` the set of elements known to have their right size.
-/
set_option autoImplicit false
set_option linter.unusedSectionVars false
set_option linter.unusedSimpArgs false

namespace Mim.Shape
open Arr

def E.reads : E → List (Arr × ℕ)
  | .ld a t => [(a, t)]
  | .dat _ _ => []
  | .mul x y => x.reads ++ y.reads
  | .tr x => x.reads
  | .add x y => x.reads ++ y.reads
  | .diag x => x.reads

def St.reads : St → List (Arr × ℕ)
  | .alloc _ _ _ _ => []
  | .resize _ _ _ _ => []
  | .set _ _ e => e.reads
  | .upd a t e => (a, t) :: e.reads
  | .use e _ _ => e.reads
  | .read e => e.reads
  | .dot x y => x.reads ++ y.reads
  | .solveInPlace t b => [(llt, t), (b, t)]
  | .elem a t _ => [(a, t)]

def St.writes : St → List (Arr × ℕ)
  | .alloc a t _ _ => [(a, t)]
  | .resize a t _ _ => [(a, t)]
  | .set a t _ => [(a, t)]
  | _ => []

/-- every element exists exactly when it should; those of `S` have the right size. -/
def Good (R : Store) (S : Arr × ℕ → Prop) (σ : Store) : Prop :=
  ∀ a t, (σ a t).isSome = (R a t).isSome ∧ (S (a, t) → σ a t = R a t)

theorem put_eq_self (R : Store) (a : Arr) (t : ℕ) (s : Sh) : R.put a t s = R ↔ R a t = some s := by
  constructor
  · intro h
    have := congrFun (congrFun h a) t
    simp only [Store.put, and_self, if_true] at this
    exact this.symm
  · intro h
    funext b u
    by_cases hb : b = a ∧ u = t
    · obtain ⟨rfl, rfl⟩ := hb
      simp [Store.put, h]
    · simp [Store.put, hb]

theorem shape_congr {σ R : Store} : ∀ e : E, (∀ p ∈ e.reads, σ p.1 p.2 = R p.1 p.2) → e.shape σ = e.shape R
  | .ld a t, h => h (a, t) (by simp [E.reads])
  | .dat _ _, _ => rfl
  | .mul x y, h => by
      have hx := shape_congr x (fun p hp => h p (by simp [E.reads, hp]))
      have hy := shape_congr y (fun p hp => h p (by simp [E.reads, hp]))
      simp only [E.shape, hx, hy]
  | .tr x, h => by
      have hx := shape_congr x h
      simp only [E.shape, hx]
  | .add x y, h => by
      have hx := shape_congr x (fun p hp => h p (by simp [E.reads, hp]))
      have hy := shape_congr y (fun p hp => h p (by simp [E.reads, hp]))
      simp only [E.shape, hx, hy]
  | .diag x, h => by
      have hx := shape_congr x h
      simp only [E.shape, hx]

/-- at the right sizes the statement succeeds and leaves them. -/
def Fits (R : Store) (s : St) : Prop := s.exec R = some R

theorem Good.put {R : Store} {S : Arr × ℕ → Prop} {σ : Store} (h : Good R S σ) {a : Arr} {t : ℕ} {s : Sh}
    (hs : R a t = some s) : Good R (fun p => S p ∨ p ∈ [(a, t)]) (σ.put a t s) := by
  intro b u
  by_cases hb : b = a ∧ u = t
  · obtain ⟨rfl, rfl⟩ := hb
    simp [Store.put, hs]
  · refine ⟨by simpa [Store.put, hb] using (h b u).1, ?_⟩
    rintro (hS | hS)
    · simpa [Store.put, hb] using (h b u).2 hS
    · simp at hS
      exact absurd hS hb

theorem Good.weaken {R : Store} {S S' : Arr × ℕ → Prop} {σ : Store} (h : Good R S σ) (hS : ∀ p, S' p → S p) :
    Good R S' σ := fun a t => ⟨(h a t).1, fun hp => (h a t).2 (hS _ hp)⟩

theorem one {o : Option Sh} {c : Sh → Prop} [DecidablePred c] {R σ : Store}
    (h : (o.bind fun p => if c p then some R else none) = some R) :
    (o.bind fun p => if c p then some σ else none) = some σ := by
  rcases o with _ | p
  · simp at h
  · simp only [Option.bind_some] at h ⊢
    split at h
    · rename_i hp; simp [hp]
    · simp at h

theorem two {o o' : Option Sh} {c : Sh → Sh → Prop} [∀ p q, Decidable (c p q)] {R σ : Store}
    (h : (o.bind fun p => o'.bind fun q => if c p q then some R else none) = some R) :
    (o.bind fun p => o'.bind fun q => if c p q then some σ else none) = some σ := by
  rcases o with _ | p
  · simp at h
  · simp only [Option.bind_some] at h ⊢
    exact one h

theorem step {R : Store} {S : Arr × ℕ → Prop} {σ : Store} (h : Good R S σ) (s : St) (hf : Fits R s)
    (hr : ∀ p ∈ s.reads, S p) : ∃ σ', s.exec σ = some σ' ∧ Good R (fun p => S p ∨ p ∈ s.writes) σ' := by
  have hc : ∀ e : E, (∀ p ∈ e.reads, S p) → e.shape σ = e.shape R := fun e he =>
    shape_congr e fun p hp => (h p.1 p.2).2 (he p hp)
  have hw : Good R (fun p => S p ∨ p ∈ ([] : List (Arr × ℕ))) σ := h.weaken (by simp)
  cases s with
  | alloc a t r c =>
    refine ⟨_, rfl, h.put ?_⟩
    simp only [Fits, St.exec, Option.some.injEq, put_eq_self] at hf
    exact hf
  | resize a t r c =>
    rcases ha : R a t with _ | p
    · simp [Fits, St.exec, ha] at hf
    · simp only [Fits, St.exec, ha, Option.bind_some, Option.some.injEq, put_eq_self] at hf
      have hf' : some p = some (⟨r, c⟩ : Sh) := by rw [hf]
      have hi := (h a t).1
      rw [ha] at hi
      obtain ⟨q, hq⟩ := Option.isSome_iff_exists.1 (by simpa using hi)
      refine ⟨σ.put a t ⟨r, c⟩, by simp [St.exec, hq], h.put ?_⟩
      rw [ha]
      exact hf'
  | set a t e =>
    rcases ha : R a t with _ | p
    · simp [Fits, St.exec, ha] at hf
    · rcases he : e.shape R with _ | q
      · simp [Fits, St.exec, ha, he] at hf
      · simp only [Fits, St.exec, ha, he, Option.bind_some, Option.some.injEq, put_eq_self] at hf
        have hi := (h a t).1
        rw [ha] at hi
        obtain ⟨q', hq⟩ := Option.isSome_iff_exists.1 (by simpa using hi)
        have hes : e.shape σ = some q := (hc e hr).trans he
        refine ⟨σ.put a t q, by simp [St.exec, hq, hes], h.put ?_⟩
        rw [ha, hf]
  | upd a t e =>
    refine ⟨σ, ?_, hw⟩
    have h1 : σ a t = R a t := (h a t).2 (hr _ (by simp [St.reads]))
    have h2 := hc e fun p hp => hr p (by simp [St.reads, hp])
    simp only [Fits, St.exec] at hf ⊢
    rw [h1, h2]
    exact two hf
  | use e r c =>
    refine ⟨σ, ?_, hw⟩
    have h2 := hc e hr
    simp only [Fits, St.exec] at hf ⊢
    rw [h2]
    exact one hf
  | read e =>
    refine ⟨σ, ?_, hw⟩
    have h2 := hc e hr
    simp only [Fits, St.exec] at hf ⊢
    rw [h2]
    generalize e.shape R = o at hf
    rcases o with _ | p
    · simp at hf
    · simp
  | dot x y =>
    refine ⟨σ, ?_, hw⟩
    have h1 := hc x fun p hp => hr p (by simp [St.reads, hp])
    have h2 := hc y fun p hp => hr p (by simp [St.reads, hp])
    simp only [Fits, St.exec] at hf ⊢
    rw [h1, h2]
    exact two hf
  | solveInPlace t b =>
    refine ⟨σ, ?_, hw⟩
    have h1 : σ llt t = R llt t := (h _ t).2 (hr _ (by simp [St.reads]))
    have h2 : σ b t = R b t := (h _ t).2 (hr _ (by simp [St.reads]))
    simp only [Fits, St.exec] at hf ⊢
    rw [h1, h2]
    exact two hf
  | elem a t i =>
    refine ⟨σ, ?_, hw⟩
    have h1 : σ a t = R a t := (h a t).2 (hr _ (by simp [St.reads]))
    simp only [Fits, St.exec] at hf ⊢
    rw [h1]
    exact one hf

/-- every statement fits and reads only elements of `S` or written before. -/
def Flow (R : Store) : (Arr × ℕ → Prop) → List St → Prop
  | _, [] => True
  | S, s :: l => Fits R s ∧ (∀ p ∈ s.reads, S p) ∧ Flow R (fun p => S p ∨ p ∈ s.writes) l

def wr (l : List St) (p : Arr × ℕ) : Prop := ∃ s ∈ l, p ∈ s.writes

section
variable {R : Store}

theorem Flow.mono : ∀ {l : List St} {S S' : Arr × ℕ → Prop}, (∀ p, S p → S' p) → Flow R S l → Flow R S' l
  | [], _, _, _, _ => trivial
  | s :: l, S, S', h, hl =>
    ⟨hl.1, fun p hp => h p (hl.2.1 p hp), hl.2.2.mono fun p hp => hp.imp (h p) id⟩

theorem Flow.append : ∀ {l m : List St} {S : Arr × ℕ → Prop}, Flow R S l → Flow R S m → Flow R S (l ++ m)
  | [], _, _, _, hm => hm
  | _ :: _, _, _, hl, hm => ⟨hl.1, hl.2.1, hl.2.2.append (hm.mono fun _ hp => Or.inl hp)⟩

/-- appending, when the second list relies on what the first wrote. -/
theorem Flow.append' : ∀ {l m : List St} {S : Arr × ℕ → Prop}, Flow R S l → Flow R (fun p => S p ∨ wr l p) m →
    Flow R S (l ++ m)
  | [], _, _, _, hm => hm.mono fun p hp => by simpa [wr] using hp
  | s :: l, m, S, hl, hm => by
    refine ⟨hl.1, hl.2.1, hl.2.2.append' (hm.mono fun p hp => ?_)⟩
    rcases hp with hp | ⟨s', hs', hp⟩
    · exact Or.inl (Or.inl hp)
    · rcases List.mem_cons.1 hs' with rfl | hs'
      · exact Or.inl (Or.inr hp)
      · exact Or.inr ⟨s', hs', hp⟩

theorem Flow.take : ∀ {l : List St} {S : Arr × ℕ → Prop} (n : ℕ), Flow R S l → Flow R S (l.take n)
  | [], _, n, _ => by simp [Flow]
  | _ :: _, _, 0, _ => trivial
  | _ :: _, _, n + 1, hl => ⟨hl.1, hl.2.1, hl.2.2.take n⟩

theorem Flow.each {S : Arr × ℕ → Prop} {f : ℕ → List St} : ∀ {l : List ℕ}, (∀ t ∈ l, Flow R S (f t)) →
    Flow R S (Shape.each l f)
  | [], _ => trivial
  | t :: l, h => by
    have hh : Shape.each (t :: l) f = f t ++ Shape.each l f := by simp [Shape.each]
    rw [hh]
    exact (h t (by simp)).append (Flow.each fun u hu => h u (by simp [hu]))

theorem Flow.flatMap {α : Type} {S : Arr × ℕ → Prop} {f : α → List St} : ∀ {l : List α}, (∀ t ∈ l, Flow R S (f t)) →
    Flow R S (l.flatMap f)
  | [], _ => trivial
  | t :: l, h => by
    rw [List.flatMap_cons]
    exact (h t (by simp)).append (Flow.flatMap fun u hu => h u (by simp [hu]))

theorem Flow.run : ∀ {l : List St} {S : Arr × ℕ → Prop} {σ : Store}, Flow R S l → Good R S σ →
    ∃ σ', run l σ = some σ' ∧ Good R (fun p => S p ∨ wr l p) σ'
  | [], _, σ, _, h => ⟨σ, rfl, h.weaken fun p hp => by simpa [wr] using hp⟩
  | s :: l, S, σ, hl, h => by
    obtain ⟨σ1, h1, g1⟩ := step h s hl.1 hl.2.1
    obtain ⟨σ2, h2, g2⟩ := hl.2.2.run g1
    refine ⟨σ2, by simp [Shape.run, h1, h2], g2.weaken fun p hp => ?_⟩
    rcases hp with hp | ⟨s', hs', hp⟩
    · exact Or.inl (Or.inl hp)
    · rcases List.mem_cons.1 hs' with rfl | hs'
      · exact Or.inl (Or.inr hp)
      · exact Or.inr ⟨s', hs', hp⟩

end

theorem wr_each {f : ℕ → List St} {l : List ℕ} {p : Arr × ℕ} {t : ℕ} (ht : t ∈ l) (h : wr (f t) p) :
    wr (each l f) p := by
  obtain ⟨s, hs, hp⟩ := h
  exact ⟨s, List.mem_flatMap.2 ⟨t, ht, hs⟩, hp⟩

theorem run_append (l m : List St) (σ : Store) : run (l ++ m) σ = (run l σ).bind (run m) := by
  induction l generalizing σ with
  | nil => simp [run]
  | cons s l ih =>
    simp only [List.cons_append, run]
    rcases s.exec σ with _ | σ'
    · simp
    · simp [ih]

/-! ### Construction -/

/-- an allocation of the right size. -/
def RightAlloc (R : Store) : St → Prop
  | .alloc a t r c => R a t = some ⟨r, c⟩
  | _ => False

/-- allocations of right sizes give right sizes to what they name, and nothing else. -/
theorem run_alloc {R : Store} : ∀ {l : List St} {σ : Store}, (∀ s ∈ l, RightAlloc R s) →
    ∃ σ', run l σ = some σ' ∧ ∀ a t, (wr l (a, t) → σ' a t = R a t) ∧ (¬ wr l (a, t) → σ' a t = σ a t)
  | [], σ, _ => ⟨σ, rfl, fun a t => ⟨fun h => by simp [wr] at h, fun _ => rfl⟩⟩
  | s :: l, σ, h => by
    have hs := h s (by simp)
    cases s with
    | alloc a t r c =>
      obtain ⟨σ', h1, h2⟩ := run_alloc (l := l) (σ := σ.put a t ⟨r, c⟩) fun u hu => h u (by simp [hu])
      refine ⟨σ', by simp [run, St.exec, h1], fun b u => ⟨fun hw => ?_, fun hw => ?_⟩⟩
      · by_cases hl : wr l (b, u)
        · exact (h2 b u).1 hl
        · rw [(h2 b u).2 hl]
          obtain ⟨s', hs', hp⟩ := hw
          rcases List.mem_cons.1 hs' with rfl | hs'
          · simp only [St.writes, List.mem_singleton, Prod.mk.injEq] at hp
            obtain ⟨rfl, rfl⟩ := hp
            simp only [Store.put, and_self, if_true]
            exact hs.symm
          · exact absurd ⟨s', hs', hp⟩ hl
      · have hl : ¬ wr l (b, u) := fun ⟨s', hs', hp⟩ => hw ⟨s', by simp [hs'], hp⟩
        rw [(h2 b u).2 hl]
        have hb : ¬ (b = a ∧ u = t) := by
          rintro ⟨rfl, rfl⟩
          exact hw ⟨_, List.mem_cons_self, by simp [St.writes]⟩
        simp [Store.put, hb]
    | _ => exact absurd hs (by simp [RightAlloc])

end Mim.Shape
