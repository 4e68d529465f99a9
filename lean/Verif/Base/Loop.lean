import Mathlib.Logic.Function.Basic
import Mathlib.Data.Nat.Notation

/-!
# Loops, exceptions, boost::circular_buffer
-/
set_option linter.unusedSectionVars false
set_option linter.unusedSimpArgs false

namespace Mim

/-- Result of a C++ call that mutates the state and may throw: `exn s` carries the state at the throw. -/
inductive Res (S : Type _) where
  | ok (s : S)
  | exn (s : S)
  deriving DecidableEq

namespace Res
variable {S R : Type _}

/-- the state after the call, normal or exceptional. -/
def st : Res S → S
  | ok s => s
  | exn s => s

/-- sequencing: an exception skips the continuation. -/
def bind (r : Res S) (f : S → Res S) : Res S :=
  match r with
  | ok s => f s
  | exn s => exn s

def map (f : S → R) : Res S → Res R
  | ok s => ok (f s)
  | exn s => exn (f s)

/-- run the pure code `f` after the call; an exception skips it. -/
def thenDo (r : Res S) (f : S → S) : Res S := r.bind fun s => ok (f s)

def isOk : Res S → Bool
  | ok _ => true
  | exn _ => false

/-- `if (c) throw`: keep the state. -/
def throwIf (c : Bool) (s : S) : Res S := if c then exn s else ok s

@[simp] theorem throwIf_st (c : Bool) (s : S) : (throwIf c s).st = s := by cases c <;> rfl
@[simp] theorem throwIf_isOk (c : Bool) (s : S) : (throwIf c s).isOk = !c := by cases c <;> rfl
theorem throwIf_eq_ok {c : Bool} {s s' : S} (h : throwIf c s = ok s') : c = false ∧ s' = s := by
  cases c with
  | true => cases h
  | false => cases h; exact ⟨rfl, rfl⟩

@[simp] theorem thenDo_ok (s : S) (f : S → S) : (ok s).thenDo f = ok (f s) := rfl
@[simp] theorem thenDo_exn (s : S) (f : S → S) : (exn s).thenDo f = exn s := rfl
@[simp] theorem bind_ok (s : S) (f : S → Res S) : (ok s).bind f = f s := rfl
@[simp] theorem bind_exn (s : S) (f : S → Res S) : (exn s).bind f = exn s := rfl
@[simp] theorem map_ok (f : S → R) (s : S) : (ok s).map f = ok (f s) := rfl
@[simp] theorem map_exn (f : S → R) (s : S) : (exn s).map f = exn (f s) := rfl

theorem bind_eq_ok {r : Res S} {f : S → Res S} {s' : S} (h : r.bind f = ok s') :
    ∃ s, r = ok s ∧ f s = ok s' := by
  cases r with
  | ok s => exact ⟨s, rfl, h⟩
  | exn s => cases h

theorem thenDo_eq_ok {r : Res S} {f : S → S} {s' : S} (h : r.thenDo f = ok s') : ∃ s, r = ok s ∧ s' = f s := by
  obtain ⟨s, h1, h2⟩ := bind_eq_ok h
  cases h2
  exact ⟨s, h1, rfl⟩

theorem map_eq_ok {r : Res S} {f : S → R} {s' : R} (h : r.map f = ok s') :
    ∃ s, r = ok s ∧ f s = s' := by
  cases r with
  | ok s => exact ⟨s, rfl, by simpa using h⟩
  | exn s => cases h
end Res

section
variable {S : Type _}

/-- `for (t = 0; t < n; ++t) body(t)`. -/
def forUp (n : ℕ) (f : ℕ → S → S) (s : S) : S :=
  match n with
  | 0 => s
  | n + 1 => f n (forUp n f s)

/-- the same with a body that may throw. -/
def forUpR (n : ℕ) (f : ℕ → S → Res S) (s : S) : Res S :=
  match n with
  | 0 => .ok s
  | n + 1 => (forUpR n f s).bind (f n)

/-- `for (t = n - 1; t >= 0; --t) body(t)` with a body that may throw. -/
def forDownR (n : ℕ) (f : ℕ → S → Res S) (s : S) : Res S :=
  match n with
  | 0 => .ok s
  | n + 1 => (f n s).bind (forDownR n f)

/-- `for (t = n - 1; t >= 0; --t) body(t)`. -/
def forDown (n : ℕ) (f : ℕ → S → S) (s : S) : S :=
  match n with
  | 0 => s
  | n + 1 => forDown n f (f n s)

@[simp] theorem forUp_zero (f : ℕ → S → S) (s : S) : forUp 0 f s = s := rfl
@[simp] theorem forUp_succ (n : ℕ) (f : ℕ → S → S) (s : S) : forUp (n + 1) f s = f n (forUp n f s) := rfl
@[simp] theorem forUpR_zero (f : ℕ → S → Res S) (s : S) : forUpR 0 f s = .ok s := rfl
@[simp] theorem forUpR_succ (n : ℕ) (f : ℕ → S → Res S) (s : S) :
    forUpR (n + 1) f s = (forUpR n f s).bind (f n) := rfl
@[simp] theorem forDownR_zero (f : ℕ → S → Res S) (s : S) : forDownR 0 f s = .ok s := rfl
@[simp] theorem forDownR_succ (n : ℕ) (f : ℕ → S → Res S) (s : S) :
    forDownR (n + 1) f s = (f n s).bind (forDownR n f) := rfl
@[simp] theorem forDown_zero (f : ℕ → S → S) (s : S) : forDown 0 f s = s := rfl
@[simp] theorem forDown_succ (n : ℕ) (f : ℕ → S → S) (s : S) :
    forDown (n + 1) f s = forDown n f (f n s) := rfl

/-- invariant rule for `forUp`. -/
theorem forUp_inv (I : ℕ → S → Prop) (n : ℕ) (f : ℕ → S → S) (s : S) (h0 : I 0 s)
    (hs : ∀ t, t < n → ∀ s, I t s → I (t + 1) (f t s)) : I n (forUp n f s) := by
  induction n with
  | zero => exact h0
  | succ n ih => exact hs n (Nat.lt_succ_self n) _ (ih fun t ht => hs t (Nat.lt_succ_of_lt ht))

/-- invariant rule for `forUpR` (normal termination). -/
theorem forUpR_inv (I : ℕ → S → Prop) (n : ℕ) (f : ℕ → S → Res S) (s s' : S) (h0 : I 0 s)
    (hs : ∀ t, t < n → ∀ s s', I t s → f t s = .ok s' → I (t + 1) s')
    (h : forUpR n f s = .ok s') : I n s' := by
  induction n generalizing s' with
  | zero => cases h; exact h0
  | succ n ih =>
    obtain ⟨s1, h1, h2⟩ := Res.bind_eq_ok h
    exact hs n (Nat.lt_succ_self n) _ _ (ih _ (fun t ht => hs t (Nat.lt_succ_of_lt ht)) h1) h2

/-- invariant rule for `forUpR` that also covers the exceptional exit. -/
theorem forUpR_inv_st (I : S → Prop) (n : ℕ) (f : ℕ → S → Res S) (s : S) (h0 : I s)
    (hs : ∀ t, t < n → ∀ s, I s → I (f t s).st) : I (forUpR n f s).st := by
  induction n with
  | zero => exact h0
  | succ n ih =>
    have ih' := ih fun t ht => hs t (Nat.lt_succ_of_lt ht)
    rw [forUpR_succ]
    cases h : forUpR n f s with
    | ok s1 =>
      rw [h] at ih'
      exact hs n (Nat.lt_succ_self n) s1 ih'
    | exn s1 =>
      rw [h] at ih'
      exact ih'

/-- invariant rule for `forDownR` (normal termination). -/
theorem forDownR_inv (I : ℕ → S → Prop) (n : ℕ) (f : ℕ → S → Res S) (s s' : S) (h0 : I n s)
    (hs : ∀ t, t < n → ∀ s s', I (t + 1) s → f t s = .ok s' → I t s')
    (h : forDownR n f s = .ok s') : I 0 s' := by
  induction n generalizing s with
  | zero => cases h; exact h0
  | succ n ih =>
    obtain ⟨s1, h1, h2⟩ := Res.bind_eq_ok h
    exact ih s1 (hs n (Nat.lt_succ_self n) s s1 h0 h1) (fun t ht => hs t (Nat.lt_succ_of_lt ht)) h2

/-- invariant rule for `forDownR` that also covers the exceptional exit. -/
theorem forDownR_inv_st (I : S → Prop) (n : ℕ) (f : ℕ → S → Res S) (s : S) (h0 : I s)
    (hs : ∀ t, t < n → ∀ s, I s → I (f t s).st) : I (forDownR n f s).st := by
  induction n generalizing s with
  | zero => exact h0
  | succ n ih =>
    rw [forDownR_succ]
    have h1 := hs n (Nat.lt_succ_self n) s h0
    cases h : f n s with
    | ok s1 =>
      rw [h] at h1
      exact ih s1 h1 fun t ht => hs t (Nat.lt_succ_of_lt ht)
    | exn s1 =>
      rw [h] at h1
      exact h1

/-- invariant rule for `forDown`. -/
theorem forDown_inv (I : ℕ → S → Prop) (n : ℕ) (f : ℕ → S → S) (s : S) (h0 : I n s)
    (hs : ∀ t, t < n → ∀ s, I (t + 1) s → I t (f t s)) : I 0 (forDown n f s) := by
  induction n generalizing s with
  | zero => exact h0
  | succ n ih =>
    exact ih _ (hs n (Nat.lt_succ_self n) s h0) fun t ht => hs t (Nat.lt_succ_of_lt ht)

end

/-- `boost::circular_buffer<double>`: capacity and contents, oldest element first. -/
structure CBuf (F : Type) where
  cap : ℕ
  items : List F

namespace CBuf
variable {F : Type}

/-- default constructed: capacity 0. -/
def empty : CBuf F := ⟨0, []⟩

/-- `push_back`: a full buffer overwrites its oldest element; a buffer of capacity 0 ignores the value. -/
def push (b : CBuf F) (x : F) : CBuf F :=
  if b.cap = 0 then b
  else if b.items.length = b.cap then ⟨b.cap, b.items.tail ++ [x]⟩
  else ⟨b.cap, b.items ++ [x]⟩

/-- `resize(n)`: growing appends value-initialised elements at the back, raising the capacity if needed;
shrinking removes elements from the back and keeps the capacity. -/
def resize [Zero F] (b : CBuf F) (n : ℕ) : CBuf F :=
  if b.items.length < n then ⟨max b.cap n, b.items ++ List.replicate (n - b.items.length) 0⟩
  else ⟨b.cap, b.items.take n⟩

/-- `operator[]`; out-of-range access is undefined behaviour in C++ (an assertion in debug mode) and returns `0`
here; `Props/Filter` proves that the solvers never do that. -/
def get [Zero F] (b : CBuf F) (i : ℕ) : F := b.items.getD i 0

end CBuf
end Mim
