import Verif.Base.Loop
import Mathlib.Data.List.Basic

/-!
# The filter memory as a bounded queue
-/
set_option linter.unusedSectionVars false
set_option linter.unusedSimpArgs false

namespace Mim

namespace Spec
/-- the last `n` elements of a list. -/
def lastN {A : Type _} (n : ℕ) (l : List A) : List A := l.drop (l.length - n)
end Spec
open Spec

section
variable {A : Type _}

theorem lastN_map {B : Type _} (f : A → B) (n : ℕ) (l : List A) : lastN n (l.map f) = (lastN n l).map f := by
  simp [lastN, List.map_drop]

theorem length_lastN (n : ℕ) (l : List A) (h : n ≤ l.length) : (lastN n l).length = n := by
  simp [lastN]; omega

theorem getElem?_lastN (n j : ℕ) (l : List A) (hj : j < n) (hl : j < l.length) (hn : n ≤ l.length) :
    (lastN n l)[n - 1 - j]? = l[l.length - 1 - j]? := by
  unfold lastN
  rw [List.getElem?_drop]
  congr 1
  omega

theorem mem_lastN_iff {n : ℕ} {l : List A} (hn : n ≤ l.length) (e : A) :
    e ∈ lastN n l ↔ ∃ j, j < n ∧ l[l.length - 1 - j]? = some e := by
  rw [List.mem_iff_getElem?]
  constructor
  · rintro ⟨i, hi⟩
    have hlt : i < (lastN n l).length := by
      by_contra hge
      rw [List.getElem?_eq_none (Nat.le_of_not_lt hge)] at hi
      cases hi
    rw [length_lastN n l hn] at hlt
    refine ⟨n - 1 - i, by omega, ?_⟩
    rw [← getElem?_lastN n (n - 1 - i) l (by omega) (by omega) hn]
    have : n - 1 - (n - 1 - i) = i := by omega
    rw [this]; exact hi
  · rintro ⟨j, hj, h⟩
    exact ⟨n - 1 - j, by rw [getElem?_lastN n j l hj (by omega) hn]; exact h⟩

end

namespace CBuf
variable {F : Type}

/-- the buffer is full with capacity `n`. -/
def Full (b : CBuf F) (n : ℕ) : Prop := b.cap = n ∧ b.items.length = n

theorem Full.push {b : CBuf F} {n : ℕ} (h : b.Full n) (x : F) : (b.push x).Full n := by
  unfold CBuf.push Full
  obtain ⟨h1, h2⟩ := h
  split
  · exact ⟨h1, h2⟩
  · split
    · refine ⟨h1, ?_⟩
      simp only [List.length_append, List.length_tail, List.length_singleton]; omega
    · omega

/-- the buffer holds the last `n` entries of `old ++ h`. -/
def Holds (b : CBuf F) (n : ℕ) (old h : List F) : Prop :=
  b.Full n ∧ old.length = n ∧ b.items = lastN n (old ++ h)

theorem Full.holds {b : CBuf F} {n : ℕ} (h : b.Full n) : b.Holds n b.items [] :=
  ⟨h, h.2, by simp [lastN, h.2]⟩

theorem Holds.push {b : CBuf F} {n : ℕ} {old h : List F} (hb : b.Holds n old h) (x : F) :
    (b.push x).Holds n old (h ++ [x]) := by
  obtain ⟨hf, ho, hi⟩ := hb
  refine ⟨hf.push x, ho, ?_⟩
  unfold CBuf.push
  obtain ⟨h1, h2⟩ := hf
  split
  · have hn : n = 0 := by omega
    subst hn
    have : b.items = [] := by simpa using h2
    simp [this, lastN]
  · rw [if_pos (by omega), hi]
    change (lastN n (old ++ h)).tail ++ [x] = _
    unfold lastN
    have hl : (old ++ h).length - n + 1 ≤ (old ++ h).length := by
      simp only [List.length_append]; omega
    have hlen : (old ++ h).length = old.length + h.length := List.length_append
    have e : (old ++ (h ++ [x])).length - n = (old ++ h).length - n + 1 := by
      simp only [List.length_append, List.length_singleton]; omega
    rw [List.tail_drop, e, ← List.append_assoc, List.drop_append_of_le_length hl]

theorem Holds.get [Zero F] {b : CBuf F} {n : ℕ} {old h : List F} (hb : b.Holds n old h) (j : ℕ) (hj : j < n)
    (hh : j < h.length) : h[h.length - 1 - j]? = some (b.get (n - 1 - j)) := by
  obtain ⟨hf, ho, hi⟩ := hb
  unfold CBuf.get
  rw [List.getD_eq_getElem?_getD, hi, getElem?_lastN n j _ hj (by simp; omega) (by simp; omega)]
  have e : (old ++ h).length - 1 - j = old.length + (h.length - 1 - j) := by simp; omega
  rw [e, List.getElem?_append_right (by omega)]
  have e2 : old.length + (h.length - 1 - j) - old.length = h.length - 1 - j := by omega
  rw [e2, List.getElem?_eq_getElem (by omega)]
  rfl

/-- growing (or keeping) the size gives a full buffer. -/
theorem resize_full [Zero F] {b : CBuf F} {n m : ℕ} (h : b.Full n) (hm : n ≤ m) : (b.resize m).Full m := by
  obtain ⟨h1, h2⟩ := h
  unfold resize Full
  split
  · simp; omega
  · have : n = m := by omega
    subst this
    simp; omega

end CBuf
end Mim
