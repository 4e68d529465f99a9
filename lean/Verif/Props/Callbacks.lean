import Verif.Model.Callbacks
import Verif.Base.Dbl
import Mathlib.Data.Rat.Cast.Order

/-!
# C39: CallbackVerbose
-/
set_option linter.unusedSectionVars false
set_option linter.unusedSimpArgs false

namespace Mim.Cb

/-! ## specification -/

/-- the text `w` stands in `line` from column `k` on. -/
def At (line : Str) (k : ℕ) (w : Str) : Prop := ∃ a b, line = a ++ w ++ b ∧ a.length = k

/-- `block` is `title` centred in a field of `w` columns (one more space on the right if the space cannot be split evenly). -/
def Centred (w : ℕ) (title block : Str) : Prop :=
  block.length = w ∧ ∃ l r, block = spaces l ++ title ++ spaces r ∧ l ≤ r ∧ r ≤ l + 1

theorem At.mk {line a w b : Str} {k : ℕ} (h : line = a ++ (w ++ b)) (hk : a.length = k) : At line k w :=
  ⟨a, b, by rw [h, List.append_assoc], hk⟩

/-! ## centering -/

/-- **C39, centering.**  A text that fits is centred in exactly `width` columns; a text that is too long is never truncated: it is
returned unchanged, or with one trailing space when it is too long by an odd number of characters. -/
theorem C39_center (str : Str) (width : ℤ) :
    ((str.length : ℤ) ≤ width → Centred width.toNat str (centerString str width)) ∧
    (width < str.length → centerString str width = str ++ (if (str.length - width) % 2 = 0 then [] else [' '])) := by
  constructor
  · intro h
    obtain ⟨n, hn⟩ : ∃ n : ℕ, width = str.length + n := ⟨(width - str.length).toNat, by omega⟩
    subst hn
    have e : centerString str (str.length + n) = spaces (n / 2) ++ str ++ spaces (n - n / 2) := by
      unfold centerString
      simp only [if_true, add_sub_cancel_left]
      have h2 : (n : ℤ).tdiv 2 = ((n / 2 : ℕ) : ℤ) := rfl
      have h3 : (n : ℤ).tmod 2 = ((n % 2 : ℕ) : ℤ) := rfl
      rw [h2, h3]
      have hl : (if (0 : ℤ) < n then ((n / 2 : ℕ) : ℤ) else 0) = ((n / 2 : ℕ) : ℤ) := by split <;> omega
      rw [hl]
      have hr : (if ((n % 2 : ℕ) : ℤ) ≠ 0 then ((n / 2 : ℕ) : ℤ) + 1 else ((n / 2 : ℕ) : ℤ)) = ((n - n / 2 : ℕ) : ℤ) := by
        split <;> omega
      rw [hr, Int.toNat_natCast, Int.toNat_natCast]
    refine ⟨?_, n / 2, n - n / 2, e, by omega, by omega⟩
    rw [e]
    simp only [List.length_append, spaces, List.length_replicate]
    omega
  · intro h
    obtain ⟨n, hn⟩ : ∃ n : ℕ, width = str.length - n := ⟨(str.length - width).toNat, by omega⟩
    subst hn
    unfold centerString
    simp only [if_true]
    have e1 : (str.length : ℤ) - n - str.length = -n := by ring
    have e2 : (str.length : ℤ) - (str.length - n) = n := by ring
    rw [e1, e2, if_neg (by omega : ¬ (0 : ℤ) < -n)]
    have h3 : (-(n : ℤ)).tmod 2 = -((n % 2 : ℕ) : ℤ) := by rw [Int.neg_tmod]; rfl
    rw [h3]
    by_cases hp : n % 2 = 0
    · rw [if_neg (by simp [hp]), if_pos (by omega)]; simp [spaces]
    · rw [if_pos (by simp; omega), if_neg (by omega)]; simp [spaces]

theorem center_length {str : Str} {p : ℤ} (h : (str.length : ℤ) ≤ 6 + p) : (centerString str (6 + p)).length = (6 + p).toNat :=
  ((C39_center str (6 + p)).1 h).1

/-! ## precision -/

/-- **C39, precision.**  The constructor throws exactly for a negative precision; a failing `set_precision` changes nothing. -/
theorem C39_precision (p : ℤ) (v : Verbose) :
    (Verbose.new p = none ↔ p < 0) ∧ (setPrecision p v = none ↔ p < 0) ∧
    (∀ c, Verbose.new p = some c → c.precision = p) ∧ ∀ v', setPrecision p v = some v' → v'.precision = p ∧ v'.header = v.header := by
  unfold Verbose.new setPrecision
  by_cases h : p < 0 <;> simp [h]

section
variable {F : Type} [Add F] [Sub F] [Mul F] [Div F] [Neg F] [Zero F] [One F] [FloatOps F]
variable {fmt : Style → ℕ → F → Str} {v : View F} {o : OStream} {c : Verbose}

/-! ## what is written -/

theorem run_append (o : OStream) (a b : List (Ins F)) : o.run fmt (a ++ b) = (o.run fmt a).run fmt b := List.foldl_append

/-- what a list of insertions without `setw` writes. -/
def text (fmt : Style → ℕ → F → Str) : Style → ℕ → List (Ins F) → Str
  | _, _, [] => []
  | s, p, .setw _ :: l => text fmt s p l
  | _, p, .style s :: l => text fmt s p l
  | s, _, .setprecision p :: l => text fmt s p l
  | s, p, .str w :: l => w ++ text fmt s p l
  | s, p, .nat n :: l => Nat.toDigits 10 n ++ text fmt s p l
  | s, p, .num x :: l => fmt s p x ++ text fmt s p l

def noSetw : List (Ins F) → Bool
  | [] => true
  | .setw _ :: _ => false
  | _ :: l => noSetw l

theorem run_out (l : List (Ins F)) (h : noSetw l = true) (o : OStream) (ho : o.width = 0) :
    (o.run fmt l).out = o.out ++ text fmt o.style o.prec l ∧ (o.run fmt l).width = 0 := by
  induction l generalizing o with
  | nil => exact ⟨(List.append_nil _).symm, ho⟩
  | cons i l ih =>
    cases i with
    | setw n => cases h
    | style s => exact ih h { o with style := s } ho
    | setprecision p => exact ih h { o with prec := p } ho
    | str w =>
      have := ih h (o.put w) rfl
      refine ⟨?_, this.2⟩
      rw [show (o.run fmt (.str w :: l)) = (o.put w).run fmt l from rfl, this.1]
      simp [OStream.put, ho, spaces, text]
    | nat n =>
      have := ih h (o.put (Nat.toDigits 10 n)) rfl
      refine ⟨?_, this.2⟩
      rw [show (o.run fmt (.nat n :: l)) = (o.put (Nat.toDigits 10 n)).run fmt l from rfl, this.1]
      simp [OStream.put, ho, spaces, text]
    | num x =>
      have := ih h (o.put (fmt o.style o.prec x)) rfl
      refine ⟨?_, this.2⟩
      rw [show (o.run fmt (.num x :: l)) = (o.put (fmt o.style o.prec x)).run fmt l from rfl, this.1]
      simp [OStream.put, ho, spaces, text]

def fmtStep (a : Style × ℕ) : Ins F → Style × ℕ
  | .style s => (s, a.2)
  | .setprecision p => (a.1, p)
  | _ => a

theorem run_fmt (l : List (Ins F)) (o : OStream) : ((o.run fmt l).style, (o.run fmt l).prec) = l.foldl fmtStep (o.style, o.prec) := by
  induction l generalizing o with
  | nil => rfl
  | cons i l ih =>
    cases i with
    | setw n => exact ih { o with width := n }
    | style s => exact ih { o with style := s }
    | setprecision p => exact ih { o with prec := p }
    | str w => exact ih (o.put w)
    | nat n => exact ih (o.put _)
    | num x => exact ih (o.put _)

/-- the iteration number right-adjusted in four columns and two spaces. -/
def iterField (n : ℕ) : Str := spaces (4 - (Nat.toDigits 10 n).length) ++ Nat.toDigits 10 n ++ sep

theorem iterField_length {n : ℕ} (h : n < 10000) : (iterField n).length = 6 := by
  have := (Nat.length_toDigits_le_iff (b := 10) (n := n) (k := 4) (by omega) (by omega)).mpr h
  simp [iterField, spaces, sep]; omega

/-- the characters of the rows. -/
theorem text_sqp (s : Style) (q p : ℕ) : text fmt s q (rowSQP p v) =
    fmt .scientific p v.merit ++ sep ++ fmt .scientific p v.cost ++ sep ++ fmt .scientific p v.gap ++ sep ++ sep
      ++ (if ltb v.KKT v.tol then "     ---- ".toList ++ sep ++ sep ++ fmt .scientific p v.KKT ++ sep ++ sep
          else fmt .scientific p v.step ++ sep ++ fmt .scientific p v.KKT ++ sep ++ sep ++ sepShort) := by
  unfold rowSQP
  split <;> simp [text]

theorem text_csqp (s : Style) (q p : ℕ) : text fmt s q (rowCSQP p v) =
    fmt .scientific p v.merit ++ sep ++ fmt .scientific p v.cost ++ sep ++ fmt .scientific p v.gap ++ sep ++ sep
      ++ fmt .scientific p v.con
      ++ (if ltb v.KKT v.tol then
            sep ++ "       ---- ".toList ++ sep ++ "     ---- ".toList ++ sep ++ sep ++ fmt .scientific p v.KKT ++ sep ++ sepShort
              ++ "    -----".toList ++ sep
          else
            sep ++ sep ++ sep ++ fmt .scientific p ((v.xgrad + v.ugrad) / lit 2) ++ sep ++ sep ++ sep ++ fmt .fixed p v.step ++ sep ++ sep
              ++ fmt .scientific p v.KKT ++ sep ++ sep ++ sepShort ++ sepShort ++ fmt .fixed 0 v.qpIters ++ sep) := by
  unfold rowCSQP
  split <;> simp [text]

theorem noSetw_sqp (p : ℕ) : noSetw (rowSQP p v ++ [.str ['\n']]) = true := by unfold rowSQP; split <;> simp [noSetw]
theorem noSetw_csqp (p : ℕ) : noSetw (rowCSQP p v ++ [.str ['\n']]) = true := by unfold rowCSQP; split <;> simp [noSetw]

theorem text_append (l m : List (Ins F)) (s : Style) (q : ℕ) : ∃ s' q', text fmt s q (l ++ m) = text fmt s q l ++ text fmt s' q' m := by
  induction l generalizing s q with
  | nil => exact ⟨s, q, rfl⟩
  | cons i l ih =>
    cases i with
    | setw n => exact ih s q
    | style s => exact ih s q
    | setprecision p => exact ih s p
    | str w => obtain ⟨s', q', e⟩ := ih s q; exact ⟨s', q', by simp [text, e]⟩
    | nat n => obtain ⟨s', q', e⟩ := ih s q; exact ⟨s', q', by simp [text, e]⟩
    | num x => obtain ⟨s', q', e⟩ := ih s q; exact ⟨s', q', by simp [text, e]⟩

theorem text_newline (l : List (Ins F)) (s : Style) (q : ℕ) : text fmt s q (l ++ [.str ['\n']]) = text fmt s q l ++ ['\n'] := by
  obtain ⟨s', q', e⟩ := text_append (fmt := fmt) l [.str ['\n']] s q
  rw [e]; rfl

/-- the line of values printed by a call. -/
def line (fmt : Style → ℕ → F → Str) (t : String) (p : ℕ) (v : View F) : Str :=
  iterField v.iter ++ text fmt .general 0 (if t = "CSQP" then rowCSQP p v else rowSQP p v)

/-- the header lines. -/
theorem header_sqp (c : Verbose) : (updateHeader "SQP" c).1 = false ∧ (updateHeader "SQP" c).2.precision = c.precision := ⟨rfl, rfl⟩
theorem header_csqp (c : Verbose) : (updateHeader "CSQP" c).1 = false ∧ (updateHeader "CSQP" c).2.precision = c.precision :=
  ⟨rfl, rfl⟩

theorem iter_out (o : OStream) (ho : o.width = 0) (n : ℕ) :
    (o.run fmt [.setw 4, .nat n, .str sep]).out = o.out ++ iterField n ∧ (o.run fmt [.setw 4, .nat n, .str sep]).width = 0 := by
  simp [OStream.run, OStream.ins, OStream.put, iterField, spaces]

theorem call_matching (dyn : Dyn) (t : String) (ho : o.width = 0)
    (h : (dyn = .sqp ∧ t = "SQP") ∨ (dyn = .csqp ∧ t = "CSQP")) :
    ∃ o' c', call fmt dyn t v o c = .done o' c' ∧ c'.precision = c.precision ∧ o'.width = 0 ∧
      o'.out = o.out ++ (if v.iter % 10 = 0 then (updateHeader t c).2.header ++ ['\n'] else [])
        ++ line fmt t c.precision.toNat v ++ ['\n'] := by
  have hp : ∀ w : Str, (o.run fmt [.str w, .str ['\n']]).out = o.out ++ (w ++ ['\n']) ∧ (o.run fmt [.str w, .str ['\n']]).width = 0 := by
    intro w; simp [OStream.run, OStream.ins, OStream.put, ho, spaces]
  rcases h with ⟨rfl, rfl⟩ | ⟨rfl, rfl⟩
  · have hs : ("SQP" = "CSQP") = False := by simp
    unfold call line
    by_cases hi : v.iter % 10 = 0
    · simp only [hi, if_true, (header_sqp c).1, (header_sqp c).2, Bool.false_eq_true, if_false, hs]
      have h1 := hp (updateHeader "SQP" c).2.header
      have h2 := iter_out (fmt := fmt) _ h1.2 v.iter
      have h3 := run_out (fmt := fmt) _ (noSetw_sqp (v := v) c.precision.toNat) _ h2.2
      refine ⟨_, _, rfl, rfl, h3.2, ?_⟩
      rw [h3.1, text_newline, h2.1, h1.1, text_sqp, text_sqp]
      simp only [List.append_assoc]
    · simp only [hi, Bool.false_eq_true, if_false, hs]
      have h2 := iter_out (fmt := fmt) _ ho v.iter
      have h3 := run_out (fmt := fmt) _ (noSetw_sqp (v := v) c.precision.toNat) _ h2.2
      refine ⟨_, _, rfl, rfl, h3.2, ?_⟩
      rw [h3.1, text_newline, h2.1, text_sqp, text_sqp]
      simp only [List.append_assoc, List.append_nil, List.nil_append]
  · unfold call line
    by_cases hi : v.iter % 10 = 0
    · simp only [hi, if_true, (header_csqp c).1, (header_csqp c).2, Bool.false_eq_true, if_false]
      have h1 := hp (updateHeader "CSQP" c).2.header
      have h2 := iter_out (fmt := fmt) _ h1.2 v.iter
      have h3 := run_out (fmt := fmt) _ (noSetw_csqp (v := v) c.precision.toNat) _ h2.2
      refine ⟨_, _, rfl, rfl, h3.2, ?_⟩
      rw [h3.1, text_newline, h2.1, h1.1, text_csqp, text_csqp]
      simp only [List.append_assoc]
    · simp only [hi, Bool.false_eq_true, if_false, if_true]
      have h2 := iter_out (fmt := fmt) _ ho v.iter
      have h3 := run_out (fmt := fmt) _ (noSetw_csqp (v := v) c.precision.toNat) _ h2.2
      refine ⟨_, _, rfl, rfl, h3.2, ?_⟩
      rw [h3.1, text_newline, h2.1, text_csqp, text_csqp]
      simp only [List.append_assoc, List.append_nil, List.nil_append]

/-! ## properties -/

/-- **C39, output of a call.**  Attached to SolverSQP or SolverCSQP, with the solver type these solvers pass, a call neither throws nor
is undefined: it appends to the output exactly one line of values, preceded by the header line exactly when the iteration number is a
multiple of ten.  The line starts with the iteration number, merit, cost and gap norm; it ends with the step length and the residual
for SQP and additionally shows the constraint violation, the mean step norm and the QP iterations for CSQP.  The step length (and the
norms) are replaced by dashes exactly when the residual is below the tolerance. -/
theorem C39_output (dyn : Dyn) (hd : dyn = .sqp ∨ dyn = .csqp) (ho : o.width = 0) :
    ∃ o' c', call fmt dyn dyn.passes v o c = .done o' c' ∧ c'.precision = c.precision ∧
      o'.out = o.out ++ (if v.iter % 10 = 0 then (updateHeader dyn.passes c).2.header ++ ['\n'] else [])
        ++ iterField v.iter
        ++ (let n := fmt .scientific c.precision.toNat
            n v.merit ++ sep ++ n v.cost ++ sep ++ n v.gap ++ sep ++ sep
            ++ (if dyn = .sqp then
                  if ltb v.KKT v.tol then "     ---- ".toList ++ sep ++ sep ++ n v.KKT ++ sep ++ sep
                  else n v.step ++ sep ++ n v.KKT ++ sep ++ sep ++ sepShort
                else n v.con ++
                  if ltb v.KKT v.tol then
                    sep ++ "       ---- ".toList ++ sep ++ "     ---- ".toList ++ sep ++ sep ++ n v.KKT ++ sep ++ sepShort
                      ++ "    -----".toList ++ sep
                  else
                    sep ++ sep ++ sep ++ n ((v.xgrad + v.ugrad) / lit 2) ++ sep ++ sep ++ sep ++ fmt .fixed c.precision.toNat v.step
                      ++ sep ++ sep ++ n v.KKT ++ sep ++ sep ++ sepShort ++ sepShort ++ fmt .fixed 0 v.qpIters ++ sep))
        ++ ['\n'] := by
  rcases hd with rfl | rfl
  · obtain ⟨o', c', h1, h2, -, h4⟩ := call_matching (fmt := fmt) (v := v) (o := o) (c := c) .sqp "SQP" ho (.inl ⟨rfl, rfl⟩)
    refine ⟨o', c', h1, h2, ?_⟩
    rw [h4]
    unfold line
    rw [if_neg (show ¬ "SQP" = "CSQP" by simp), text_sqp]
    simp only [Dyn.passes, List.append_assoc, if_true]
  · obtain ⟨o', c', h1, h2, -, h4⟩ := call_matching (fmt := fmt) (v := v) (o := o) (c := c) .csqp "CSQP" ho (.inr ⟨rfl, rfl⟩)
    refine ⟨o', c', h1, h2, ?_⟩
    rw [h4]
    unfold line
    rw [if_pos rfl, text_csqp]
    simp only [Dyn.passes, List.append_assoc, reduceCtorEq, if_false]

/-- **C39, formatting state.**  The callback does not restore the formatting of `std::cout`: after a call on a SolverCSQP the stream is
in fixed notation with precision 0 (numbers printed by the user afterwards are rounded to integers), after a call on a SolverSQP in
scientific notation with the callback's precision. -/
theorem C39_stream_state (o' : OStream) (c' : Verbose) :
    (call fmt .csqp "CSQP" v o c = .done o' c' → o'.style = .fixed ∧ o'.prec = 0) ∧
    (call fmt .sqp "SQP" v o c = .done o' c' → o'.style = .scientific ∧ o'.prec = c.precision.toNat) := by
  constructor
  · intro h
    unfold call at h
    have h1 : (if v.iter % 10 = 0 then updateHeader "CSQP" c else (false, c)).1 = false := by split <;> rfl
    simp only [h1, Bool.false_eq_true, if_false, if_true, Out.done.injEq] at h
    obtain ⟨rfl, -⟩ := h
    generalize (o.run fmt _ : OStream) = o1
    generalize (if v.iter % 10 = 0 then o1 else o) = o2
    rw [run_append, ← Prod.mk.injEq, run_fmt, run_fmt]
    unfold rowCSQP
    cases ltb v.KKT v.tol <;>
      simp only [Bool.false_eq_true, if_false, if_true, List.foldl_append, List.foldl_cons, List.foldl_nil, fmtStep]
  · intro h
    unfold call at h
    have h1 : (if v.iter % 10 = 0 then updateHeader "SQP" c else (false, c)).1 = false := by split <;> rfl
    have h2 : (if v.iter % 10 = 0 then updateHeader "SQP" c else (false, c)).2.precision = c.precision := by split <;> rfl
    have hs : ("SQP" = "CSQP") = False := by simp
    simp only [h1, h2, hs, Bool.false_eq_true, if_false, if_true, Out.done.injEq] at h
    obtain ⟨rfl, -⟩ := h
    generalize (o.run fmt _ : OStream) = o1
    generalize (if v.iter % 10 = 0 then o1 else o) = o2
    rw [run_append, ← Prod.mk.injEq, run_fmt, run_fmt]
    unfold rowSQP
    split <;> simp only [List.foldl_append, List.foldl_cons, List.foldl_nil, fmtStep]

/-- **C39, DDP and FDDP.**  They pass "SQP" although they are not SolverSQP objects: every call of the verbose callback from these
solvers is undefined behaviour. -/
theorem C39_ddp_undefined (dyn : Dyn) (hd : dyn = .ddp ∨ dyn = .fddp) : call fmt dyn dyn.passes v o c = .ub := by
  rcases hd with rfl | rfl
  all_goals
    have h1 : (if v.iter % 10 = 0 then updateHeader "SQP" c else (false, c)).1 = false := by split <;> rfl
    unfold call
    simp only [Dyn.passes, h1, Bool.false_eq_true, if_false]
    rw [if_neg (show ¬ "SQP" = "CSQP" by simp), if_pos trivial, if_neg (by simp)]

/-- **C39, unsupported solver types.**  Without a solver type the call throws.  With an unsupported one it throws, writing nothing, only
in iterations that are multiples of ten; in the other iterations it silently prints the iteration number alone. -/
theorem C39_unsupported (dyn : Dyn) (t : String) (h1 : t ≠ "SQP") (h2 : t ≠ "CSQP") (ho : o.width = 0) :
    callUntyped o c = .thrown o c ∧
    (v.iter % 10 = 0 → ∃ c', call fmt dyn t v o c = .thrown o c' ∧ c'.precision = c.precision) ∧
    (v.iter % 10 ≠ 0 → ∃ o', call fmt dyn t v o c = .done o' c ∧ o'.out = o.out ++ iterField v.iter ++ ['\n']) := by
  refine ⟨rfl, fun hi => ?_, fun hi => ?_⟩
  · unfold call updateHeader
    simp only [hi, h1, h2, if_true, if_false]
    exact ⟨_, rfl, rfl⟩
  · unfold call
    simp only [hi, h1, h2, if_false, Bool.false_eq_true]
    refine ⟨_, rfl, ?_⟩
    have e := iter_out (fmt := fmt) _ ho v.iter
    have e' := run_out (fmt := fmt) [.str ['\n']] rfl _ e.2
    rw [e'.1, e.1]; rfl

/-- **C39, columns (SQP).**  If every number takes `6 + precision` columns (the comment in the source) and the precision is at least 2,
the titles merit, cost, gaps and step are centred over fields of that width, and the values of merit, cost and gap norm stand exactly
below their titles; the step length and the residual are printed two columns to the right of theirs. -/
theorem C39_sqp_columns (hp : 2 ≤ c.precision) (hi : v.iter < 10000)
    (hf : ∀ x, (fmt .scientific c.precision.toNat x).length = (6 + c.precision).toNat) :
    let w := (6 + c.precision).toNat
    let H := (updateHeader "SQP" c).2.header
    let L := line fmt "SQP" c.precision.toNat v
    (∃ b, At H 6 b ∧ Centred w "merit".toList b) ∧ At L 6 (fmt .scientific c.precision.toNat v.merit) ∧
    (∃ b, At H (6 + (w + 2)) b ∧ Centred w "cost".toList b) ∧ At L (6 + (w + 2)) (fmt .scientific c.precision.toNat v.cost) ∧
    (∃ b, At H (6 + 2 * (w + 2)) b ∧ Centred w "||gaps||".toList b) ∧
      At L (6 + 2 * (w + 2)) (fmt .scientific c.precision.toNat v.gap) ∧
    (∃ b, At H (6 + 3 * (w + 2)) b ∧ Centred w "step".toList b) ∧
    (6 ≤ c.precision → ∃ b, At H (6 + 4 * (w + 2)) b ∧ Centred w "KKT criteria".toList b) ∧
    (ltb v.KKT v.tol = false → At L (6 + 3 * (w + 2) + 2) (fmt .scientific c.precision.toNat v.step) ∧
      At L (6 + 4 * (w + 2) + 2) (fmt .scientific c.precision.toNat v.KKT)) := by
  intro w H L
  have hi6 := iterField_length hi
  have c1 : ∀ t : Str, (t.length : ℤ) ≤ 6 + c.precision → Centred w t (centerString t (6 + c.precision)) :=
    fun t h => (C39_center t _).1 h
  have m1 := c1 "merit".toList (by simp; omega)
  have m2 := c1 "cost".toList (by simp; omega)
  have m3 := c1 "||gaps||".toList (by simp; omega)
  have m4 := c1 "step".toList (by simp; omega)
  have hH : H = "iter".toList ++ sep ++ centerString "merit".toList (6 + c.precision) ++ sep ++ centerString "cost".toList (6 + c.precision)
      ++ sep ++ centerString "||gaps||".toList (6 + c.precision) ++ sep ++ centerString "step".toList (6 + c.precision) ++ sep
      ++ centerString "KKT criteria".toList (6 + c.precision) ++ sep := rfl
  have hL : L = iterField v.iter ++ text fmt .general 0 (rowSQP c.precision.toNat v) := by
    change iterField v.iter ++ text fmt .general 0 (if "SQP" = "CSQP" then _ else _) = _
    rw [if_neg (by simp)]
  rw [text_sqp] at hL
  generalize centerString "merit".toList (6 + c.precision) = b1 at *
  generalize centerString "cost".toList (6 + c.precision) = b2 at *
  generalize centerString "||gaps||".toList (6 + c.precision) = b3 at *
  generalize centerString "step".toList (6 + c.precision) = b4 at *
  have hf1 := hf v.merit
  have hf2 := hf v.cost
  have hf3 := hf v.gap
  have hf4 := hf v.step
  generalize fmt .scientific c.precision.toNat v.merit = f1 at *
  generalize fmt .scientific c.precision.toNat v.cost = f2 at *
  generalize fmt .scientific c.precision.toNat v.gap = f3 at *
  generalize fmt .scientific c.precision.toNat v.step = f4 at *
  generalize fmt .scientific c.precision.toNat v.KKT = f5 at *
  have e1 := m1.1
  have e2 := m2.1
  have e3 := m3.1
  have e4 := m4.1
  have hw : (6 + c.precision).toNat = w := rfl
  rw [hw] at hf1 hf2 hf3 hf4
  have hs : sep.length = 2 := rfl
  have hit : "iter".toList.length = 4 := by decide
  refine ⟨⟨b1, ?_, m1⟩, ?_, ⟨b2, ?_, m2⟩, ?_, ⟨b3, ?_, m3⟩, ?_, ⟨b4, ?_, m4⟩, ?_, ?_⟩
  · exact .mk (a := "iter".toList ++ sep) (by rw [hH]; simp only [List.append_assoc]; rfl) (by simp [hs])
  · exact .mk (a := iterField v.iter) (by rw [hL]; simp only [List.append_assoc]; rfl) hi6
  · exact .mk (a := "iter".toList ++ sep ++ b1 ++ sep) (by rw [hH]; simp only [List.append_assoc]; rfl)
      (by simp [hs, e1]; omega)
  · exact .mk (a := iterField v.iter ++ f1 ++ sep) (by rw [hL]; simp only [List.append_assoc]; rfl) (by simp only [List.length_append, hs, hi6, hf1]; omega)
  · exact .mk (a := "iter".toList ++ sep ++ b1 ++ sep ++ b2 ++ sep) (by rw [hH]; simp only [List.append_assoc]; rfl)
      (by simp [hs, e1, e2]; omega)
  · exact .mk (a := iterField v.iter ++ f1 ++ sep ++ f2 ++ sep) (by rw [hL]; simp only [List.append_assoc]; rfl)
      (by simp [hs, hi6, hf1, hf2]; omega)
  · exact .mk (a := "iter".toList ++ sep ++ b1 ++ sep ++ b2 ++ sep ++ b3 ++ sep) (by rw [hH]; simp only [List.append_assoc]; rfl)
      (by simp [hs, e1, e2, e3]; omega)
  · intro h6
    refine ⟨_, ?_, c1 "KKT criteria".toList (by simp; omega)⟩
    exact .mk (a := "iter".toList ++ sep ++ b1 ++ sep ++ b2 ++ sep ++ b3 ++ sep ++ b4 ++ sep)
      (by rw [hH]; simp only [List.append_assoc]; rfl) (by simp [hs, e1, e2, e3, e4]; omega)
  · intro hk
    rw [hk] at hL
    constructor
    · exact .mk (a := iterField v.iter ++ f1 ++ sep ++ f2 ++ sep ++ f3 ++ sep ++ sep)
        (by rw [hL]; simp only [List.append_assoc, Bool.false_eq_true, if_false]; rfl) (by simp [hs, hi6, hf1, hf2, hf3]; omega)
    · exact .mk (a := iterField v.iter ++ f1 ++ sep ++ f2 ++ sep ++ f3 ++ sep ++ sep ++ f4 ++ sep)
        (by rw [hL]; simp only [List.append_assoc, Bool.false_eq_true, if_false]; rfl) (by simp [hs, hi6, hf1, hf2, hf3, hf4]; omega)

end

/-! ## the hypotheses are met -/

/-- a format that writes `6 + p` characters. -/
def fmtEx (_ : Style) (p : ℕ) (_ : ℚ) : Str := '1' :: '.' :: (List.replicate p '0' ++ "e+00".toList)

def viewEx : View ℚ := ⟨20, 1, 1, 1, 1, 1, 1, 1, 1, 1, 1⟩

example : ∃ c, Verbose.new = some c ∧ 2 ≤ c.precision ∧ viewEx.iter < 10000 ∧
    ∀ x, (fmtEx .scientific c.precision.toNat x).length = (6 + c.precision).toNat :=
  ⟨⟨3, []⟩, rfl, by decide, by decide, fun _ => by simp [fmtEx]⟩

/-- a title that does not fit at the default precision and gets one extra space: the columns to its right are displaced. -/
example : centerString "||Constraint||".toList 9 = "||Constraint|| ".toList ∧ centerString "KKT criteria".toList 9 = "KKT criteria ".toList
    ∧ centerString "step".toList 9 = "  step   ".toList := by decide

end Mim.Cb
