import Verif.Model.Logger
import Verif.Props.CSQPCallbacks
import Verif.Props.CSQPLine
import Verif.Props.SQPDescent
import Verif.Props.CSQPNoCon

/-!
# C99: what `CallbackLogger` records
-/
set_option linter.unusedSectionVars false
set_option linter.unusedSimpArgs false
set_option autoImplicit false

namespace Mim
open Spec

namespace Log
section
variable {F : Type} {P : Problem F}

theorem entries_appendAt (d : Dict P) (key : String) (v : Val P) (k : String) :
    entries (appendAt key v d) k = if k = key ∧ d.any (fun e => e.1 = key) then entries d k ++ [v] else entries d k := by
  induction d with
  | nil => simp [appendAt, entries]
  | cons e d ih =>
    unfold appendAt
    by_cases he : e.1 = key
    · rw [if_pos he]
      unfold entries
      by_cases hk : k = key
      · simp [he, hk]
      · have : ¬ e.1 = k := fun h => hk (h.symm.trans he)
        simp [this, hk]
    · rw [if_neg he]
      unfold entries
      rw [ih]
      by_cases hk : e.1 = k
      · have : k ≠ key := fun h => he (hk.trans h)
        simp [hk, this]
      · simp only [hk, if_false, List.any_cons, he, decide_false, Bool.false_or]

theorem entries_new (d : Dict P) (key k : String) : entries (d ++ [(key, [])]) k = entries d k := by
  induction d with
  | nil => simp [entries]
  | cons e d ih => simp only [List.cons_append, entries, ih]

/-- `safe_append` adds the value at the end of the list under its key and changes no other list. -/
theorem entries_safeAppend (d : Dict P) (key : String) (v : Val P) (k : String) :
    entries (safeAppend key v d) k = entries d k ++ if k = key then [v] else [] := by
  unfold safeAppend
  rw [entries_appendAt]
  by_cases h : d.any (fun e => e.1 = key) = true
  · rw [if_pos h]
    by_cases hk : k = key <;> simp [hk, h]
  · rw [if_neg h, entries_new]
    by_cases hk : k = key <;> simp [hk]

/-- the values recorded under a key by one pass over a list of fields. -/
theorem record_entries (get : String → Option (Val P)) (val : String → Val P) (fs : List (String × String))
    (h : ∀ f ∈ fs, get f.2 = some (val f.2)) (d : Dict P) :
    ∃ d', record get fs d = .done d' ∧ ∀ k, entries d' k = entries d k ++ (fs.filter (fun f => f.1 = k)).map (fun f => val f.2) := by
  induction fs generalizing d with
  | nil => exact ⟨d, rfl, fun k => by simp⟩
  | cons f fs ih =>
    obtain ⟨d', h1, h2⟩ := ih (fun g hg => h g (List.mem_cons_of_mem _ hg)) (safeAppend f.1 (val f.2) d)
    refine ⟨d', ?_, fun k => ?_⟩
    · unfold record; rw [h f List.mem_cons_self]; exact h1
    · rw [h2 k, entries_safeAppend]
      by_cases hk : f.1 = k
      · simp [hk]
      · have : ¬ k = f.1 := fun h => hk h.symm
        simp [hk, this]

theorem filter_nodup {fs : List (String × String)} (hn : (fs.map Prod.fst).Nodup) {f : String × String} (hf : f ∈ fs) :
    fs.filter (fun g => g.1 = f.1) = [f] := by
  induction fs with
  | nil => cases hf
  | cons g fs ih =>
    rw [List.map_cons, List.nodup_cons] at hn
    rcases List.mem_cons.mp hf with rfl | hf
    · have : fs.filter (fun g => decide (g.1 = f.1)) = [] := by
        rw [List.filter_eq_nil_iff]
        intro x hx
        simp only [decide_eq_true_eq]
        exact fun e => hn.1 (e ▸ List.mem_map_of_mem hx)
      simp [this]
    · have : ¬ g.1 = f.1 := fun e => hn.1 (e ▸ List.mem_map_of_mem hf)
      simp [this, ih hn.2 hf]

/-- a series of calls. -/
theorem calls_entries {S : Type} (ty : String) (get : S → String → Option (Val P)) (val : S → String → Val P)
    {fs : List (String × String)} (hfs : fields ty = some fs) (hn : (fs.map Prod.fst).Nodup)
    (h : ∀ s, ∀ f ∈ fs, get s f.2 = some (val s f.2)) (l : List S) (d : Dict P) :
    ∃ d', calls ty get l d = .done d' ∧ (∀ f ∈ fs, entries d' f.1 = entries d f.1 ++ l.map (fun s => val s f.2)) ∧
      ∀ k, (∀ f ∈ fs, f.1 ≠ k) → entries d' k = entries d k := by
  induction l generalizing d with
  | nil => exact ⟨d, rfl, fun f _ => by simp, fun _ _ => rfl⟩
  | cons s l ih =>
    obtain ⟨d1, h1, h2⟩ := record_entries (get s) (val s) fs (h s) d
    obtain ⟨d2, h3, h4, h5⟩ := ih d1
    refine ⟨d2, ?_, fun f hf => ?_, fun k hk => ?_⟩
    · unfold calls call
      rw [hfs]
      simp only [h1]
      exact h3
    · rw [h4 f hf, h2, filter_nodup hn hf]; simp
    · rw [h5 k hk, h2, List.filter_eq_nil_iff.mpr (by simpa using fun a b hab => hk (a, b) hab)]; simp

end
end Log

section
variable {F : Type} [Add F] [Sub F] [Mul F] [Div F] [Neg F] [Zero F] [One F] [FloatOps F] {P : Problem F}
open Log

/-- **C99 (a).**  Attached to a `SolverCSQP`, a logger that is called in the states `l` (in this order) adds under each of its 13 keys exactly one entry
per call, the value the attribute had in that state, and nothing else changes. -/
theorem C99_logger_csqp (l : List (CSQP P)) (d : Dict P) : ∃ d', calls (Cb.Dyn.passes .csqp) attrCSQP l d = .done d' ∧
    entries d' "us" = entries d "us" ++ l.map (fun s => .ctrls s.us) ∧
    entries d' "xs" = entries d "xs" ++ l.map (fun s => .traj s.xs) ∧
    entries d' "fs" = entries d "fs" ++ l.map (fun s => .gaps s.e.fs) ∧
    entries d' "iter" = entries d "iter" ++ l.map (fun s => .nat s.iter) ∧
    entries d' "cost" = entries d "cost" ++ l.map (fun s => .num s.e.cost) ∧
    entries d' "merit" = entries d "merit" ++ l.map (fun s => .num s.m.merit) ∧
    entries d' "preg" = entries d "preg" ++ l.map (fun s => .num s.preg) ∧
    entries d' "dreg" = entries d "dreg" ++ l.map (fun s => .num s.dreg) ∧
    entries d' "step" = entries d "step" ++ l.map (fun s => .num s.steplength) ∧
    entries d' "gap_norm" = entries d "gap_norm" ++ l.map (fun s => .num s.e.gap) ∧
    entries d' "constraint_norm" = entries d "constraint_norm" ++ l.map (fun s => .num s.e.con) ∧
    entries d' "qp_iter" = entries d "qp_iter" ++ l.map (fun s => .nat s.q.qpIters) ∧
    entries d' "KKT" = entries d "KKT" ++ l.map (fun s => .num s.m.KKT) ∧
    ∀ k, k ∉ ["us", "xs", "fs", "iter", "cost", "merit", "preg", "dreg", "step", "gap_norm", "constraint_norm", "qp_iter", "KKT"] →
      entries d' k = entries d k := by
  obtain ⟨d', h1, h2, h3⟩ := calls_entries (Cb.Dyn.passes .csqp) (attrCSQP (P := P)) (fun s a => (attrCSQP s a).getD (.nat 0)) (fs := _) rfl (by decide)
    (fun s f hf => by
      fin_cases hf <;> rfl) l d
  refine ⟨d', h1, h2 ("us", "us") ?_, h2 ("xs", "xs") ?_, h2 ("fs", "fs") ?_, h2 ("iter", "iter") ?_, h2 ("cost", "cost") ?_, h2 ("merit", "merit") ?_, h2 ("preg", "preg") ?_, h2 ("dreg", "dreg") ?_,
    h2 ("step", "stepLength") ?_, h2 ("gap_norm", "gap_norm") ?_, h2 ("constraint_norm", "constraint_norm") ?_,
    h2 ("qp_iter", "qp_iters") ?_, h2 ("KKT", "KKT") ?_, fun k hk => h3 k fun f hf e => hk ?_⟩
  all_goals first
    | decide
    | (rw [← e]; fin_cases hf <;> decide)

/-- **C99 (b).**  The same for a `SolverSQP` and the 10 keys it has. -/
theorem C99_logger_sqp (l : List (SQP P)) (d : Dict P) : ∃ d', calls (Cb.Dyn.passes .sqp) attrSQP l d = .done d' ∧
    entries d' "us" = entries d "us" ++ l.map (fun s => .ctrls s.us) ∧
    entries d' "xs" = entries d "xs" ++ l.map (fun s => .traj s.xs) ∧
    entries d' "fs" = entries d "fs" ++ l.map (fun s => .gaps s.fs) ∧
    entries d' "iter" = entries d "iter" ++ l.map (fun s => .nat s.iter) ∧
    entries d' "cost" = entries d "cost" ++ l.map (fun s => .num s.cost) ∧
    entries d' "merit" = entries d "merit" ++ l.map (fun s => .num s.merit) ∧
    entries d' "preg" = entries d "preg" ++ l.map (fun s => .num s.preg) ∧
    entries d' "dreg" = entries d "dreg" ++ l.map (fun s => .num s.dreg) ∧
    entries d' "step" = entries d "step" ++ l.map (fun s => .num s.steplength) ∧
    entries d' "KKT" = entries d "KKT" ++ l.map (fun s => .num s.KKT) ∧
    ∀ k, k ∉ ["us", "xs", "fs", "iter", "cost", "merit", "preg", "dreg", "step", "KKT"] → entries d' k = entries d k := by
  obtain ⟨d', h1, h2, h3⟩ := calls_entries (Cb.Dyn.passes .sqp) (attrSQP (P := P)) (fun s a => (attrSQP s a).getD (.nat 0)) (fs := _) rfl (by decide)
    (fun s f hf => by
      fin_cases hf <;> rfl) l d
  refine ⟨d', h1, h2 ("us", "us") ?_, h2 ("xs", "xs") ?_, h2 ("fs", "fs") ?_, h2 ("iter", "iter") ?_, h2 ("cost", "cost") ?_, h2 ("merit", "merit") ?_, h2 ("preg", "preg") ?_, h2 ("dreg", "dreg") ?_,
    h2 ("step", "stepLength") ?_, h2 ("KKT", "KKT") ?_, fun k hk => h3 k fun f hf e => hk ?_⟩
  all_goals first
    | decide
    | (rw [← e]; fin_cases hf <;> decide)

/-- **C99 (c).**  DDP and FDDP pass "SQP" to their callbacks but have no `merit`: the call raises AttributeError (not the NotImplementedError written for
solvers that are not supported) after the five keys before `merit` got an entry: the lists no longer have the same length. -/
theorem C99_logger_ddp (dyn : Cb.Dyn) (hd : dyn = .ddp ∨ dyn = .fddp) (s : DDP P) (d : Dict P) : ∃ d', call dyn.passes (attrDDP s) d = .attributeError d' ∧
    entries d' "us" = entries d "us" ++ [.ctrls s.us] ∧ entries d' "xs" = entries d "xs" ++ [.traj s.xs] ∧
    entries d' "fs" = entries d "fs" ++ [.gaps s.e.fs] ∧ entries d' "iter" = entries d "iter" ++ [.nat s.iter] ∧
    entries d' "cost" = entries d "cost" ++ [.num s.e.cost] ∧
    ∀ k, k ∉ ["us", "xs", "fs", "iter", "cost"] → entries d' k = entries d k := by
  obtain ⟨d', h1, h2⟩ := record_entries (attrDDP s) (fun a => (attrDDP s a).getD (.nat 0))
    [("us", "us"), ("xs", "xs"), ("fs", "fs"), ("iter", "iter"), ("cost", "cost")] (fun f hf => by fin_cases hf <;> rfl) d
  have e : call dyn.passes (attrDDP s) d = .attributeError d' := by
    have h1' : Out.done (safeAppend "cost" (Val.num s.e.cost) (safeAppend "iter" (Val.nat s.iter) (safeAppend "fs" (Val.gaps s.e.fs)
      (safeAppend "xs" (Val.traj s.xs) (safeAppend "us" (Val.ctrls s.us) d))))) = Out.done d' := h1
    cases h1'
    rcases hd with rfl | rfl <;> rfl
  refine ⟨d', e, ?_, ?_, ?_, ?_, ?_, fun k hk => ?_⟩
  · rw [h2]; rfl
  · rw [h2]; rfl
  · rw [h2]; rfl
  · rw [h2]; rfl
  · rw [h2]; rfl
  · rw [h2, List.filter_eq_nil_iff.mpr ?_]
    · simp
    · intro f hf
      simp only [decide_eq_true_eq]
      rintro rfl
      exact hk (by fin_cases hf <;> decide)

/-- any other string: NotImplementedError, nothing recorded. -/
theorem C99_logger_other (ty : String) (h1 : ty ≠ "CSQP") (h2 : ty ≠ "SQP") (get : String → Option (Val P)) (d : Dict P) :
    call ty get d = .notImplemented d := by
  unfold call fields
  rw [if_neg h1, if_neg h2]

end
end Mim
