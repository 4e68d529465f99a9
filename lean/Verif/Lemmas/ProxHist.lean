import Verif.Lemmas.CSQPHist
import Verif.Lemmas.ProxReach

/-!
# Two PROXQP solver states that differ only in leftovers of earlier calls behave alike
-/
set_option linter.unusedSectionVars false
set_option linter.unusedSimpArgs false

namespace Mim

/-! ## Writes at fixed positions -/

section
variable {F : Type}

/-- `f` overwrites the positions in `w`, with values that do not depend on what was there, and no others. -/
structure OW2 (f : FMat F → FMat F) (w : ℕ → ℕ → Prop) : Prop where
  off : ∀ M i j, ¬ w i j → f M i j = M i j
  on : ∀ M M' i j, (w i j ∨ M i j = M' i j) → f M i j = f M' i j

theorem OW2.id : OW2 (F := F) (fun M => M) fun _ _ => False := ⟨fun _ _ _ _ => rfl, fun _ _ _ _ h => h.resolve_left fun h => h⟩

theorem OW2.set {m n : ℕ} (r c : ℕ) (A : Mat F m n) :
    OW2 (setBlock r c A) fun i j => (r ≤ i ∧ i < r + m) ∧ (c ≤ j ∧ j < c + n) := by
  refine ⟨fun M i j h => ?_, fun M M' i j h => ?_⟩
  · simp only [setBlock, dif_neg h]
  · simp only [setBlock]
    split
    · rfl
    · rename_i hn; exact h.resolve_left hn

theorem OW2.comp {f g : FMat F → FMat F} {w v : ℕ → ℕ → Prop} (hg : OW2 g v) (hf : OW2 f w) :
    OW2 (fun M => g (f M)) fun i j => v i j ∨ w i j := by
  refine ⟨fun M i j h => ?_, fun M M' i j h => ?_⟩
  · rw [hg.off _ _ _ fun k => h (.inl k), hf.off _ _ _ fun k => h (.inr k)]
  · refine hg.on _ _ _ _ ?_
    rcases h with (h | h) | h
    · exact .inl h
    · exact .inr (hf.on _ _ _ _ (.inl h))
    · exact .inr (hf.on _ _ _ _ (.inr h))

/-- `f` overwrites the positions in `w` of a vector. -/
structure OW1 {X : Type} (f : FVec X → FVec X) (w : ℕ → Prop) : Prop where
  off : ∀ M i, ¬ w i → f M i = M i
  on : ∀ M M' i, (w i ∨ M i = M' i) → f M i = f M' i

variable {X : Type}

theorem OW1.id : OW1 (fun M : FVec X => M) fun _ => False := ⟨fun _ _ _ => rfl, fun _ _ _ h => h.resolve_left fun h => h⟩

theorem OW1.set {m : ℕ} (r : ℕ) (A : Vec X m) : OW1 (setSeg r A) fun i => r ≤ i ∧ i < r + m := by
  refine ⟨fun M i h => ?_, fun M M' i h => ?_⟩
  · simp only [setSeg, dif_neg h]
  · simp only [setSeg]
    split
    · rfl
    · rename_i hn; exact h.resolve_left hn

theorem OW1.comp {f g : FVec X → FVec X} {w v : ℕ → Prop} (hg : OW1 g v) (hf : OW1 f w) : OW1 (fun M => g (f M)) fun i => v i ∨ w i := by
  refine ⟨fun M i h => ?_, fun M M' i h => ?_⟩
  · rw [hg.off _ _ fun k => h (.inl k), hf.off _ _ fun k => h (.inr k)]
  · refine hg.on _ _ _ ?_
    rcases h with (h | h) | h
    · exact .inl h
    · exact .inr (hf.on _ _ _ (.inl h))
    · exact .inr (hf.on _ _ _ (.inr h))

theorem OW2.twice {f g : FMat F → FMat F} {w : ℕ → ℕ → Prop} (hf : OW2 f w) (hg : OW2 g w) (M : FMat F) : f (g M) = f M := by
  funext i j
  refine hf.on _ _ _ _ ?_
  by_cases h : w i j
  · exact .inl h
  · exact .inr (hg.off _ _ _ h)

theorem OW1.twice {f g : FVec X → FVec X} {w : ℕ → Prop} (hf : OW1 f w) (hg : OW1 g w) (M : FVec X) : f (g M) = f M := by
  funext i
  refine hf.on _ _ _ ?_
  by_cases h : w i
  · exact .inl h
  · exact .inr (hg.off _ _ h)

theorem OW2.loop {D : Type} (n : ℕ) (f : D → ℕ → FMat F → FMat F) (h : ∀ t, ∃ w, ∀ d, OW2 (f d t) w) : ∃ w, ∀ d, OW2 (forUp n (f d)) w := by
  induction n with
  | zero => exact ⟨_, fun d => OW2.id⟩
  | succ n ih =>
    obtain ⟨w, hw⟩ := ih
    obtain ⟨v, hv⟩ := h n
    exact ⟨_, fun d => (hv d).comp (hw d)⟩

theorem OW1.loop {D : Type} (n : ℕ) (f : D → ℕ → FVec X → FVec X) (h : ∀ t, ∃ w, ∀ d, OW1 (f d t) w) : ∃ w, ∀ d, OW1 (forUp n (f d)) w := by
  induction n with
  | zero => exact ⟨_, fun d => OW1.id⟩
  | succ n ih =>
    obtain ⟨w, hw⟩ := ih
    obtain ⟨v, hv⟩ := h n
    exact ⟨_, fun d => (hv d).comp (hw d)⟩

theorem forUp_field {S T : Type} (n : ℕ) (f : ℕ → S → S) (g : ℕ → T → T) (p : S → T) (h : ∀ t s, p (f t s) = g t (p s)) (s : S) :
    p (forUp n f s) = forUp n g (p s) := by
  induction n with
  | zero => rfl
  | succ n ih => rw [forUp_succ, forUp_succ, h, ih]
end

namespace PROX
section
variable {F : Type} [Add F] [Sub F] [Mul F] [Div F] [Neg F] [Zero F] [One F] [FloatOps F] {P : Problem F}

/-- the writes of one stage, matrix by matrix. -/
def wP (d : Data P) (t : ℕ) (M : FMat F) : FMat F :=
  setBlock (P.nEq + offs P.nu t) (P.nEq + offs P.nu t) (d.rd t).Luu (if 0 < t then
    setBlock (P.nEq + offs P.nu t) ((t - 1) * P.ndx) (d.rd t).Lxu.transpose
      (setBlock ((t - 1) * P.ndx) (P.nEq + offs P.nu t) (d.rd t).Lxu (setBlock ((t - 1) * P.ndx) ((t - 1) * P.ndx) (d.rd t).Lxx M)) else M)

def wA (d : Data P) (t : ℕ) (M : FMat F) : FMat F :=
  setBlock (t * P.ndx) (t * P.ndx) (idMat P.ndx) (setBlock (t * P.ndx) (P.nEq + offs P.nu t) (-(d.rd t).Fu)
    (if 0 < t then setBlock (t * P.ndx) ((t - 1) * P.ndx) (-(d.rd t).Fx) M else M))

def wC (d : Data P) (t : ℕ) (M : FMat F) : FMat F :=
  if P.ng t ≠ 0 then setBlock (offs P.ng t) (P.T * P.ndx + t * P.nu t) (d.rd t).Gu
    (if 0 < t then setBlock (offs P.ng t) ((t - 1) * P.ndx) (d.rd t).Gx M else M) else M

def wq (d : Data P) (t : ℕ) (v : FVec F) : FVec F :=
  setSeg (P.nEq + offs P.nu t) (d.rd t).Lu (if 0 < t then setSeg ((t - 1) * P.ndx) (d.rd t).Lx v else v)

def wb (fs : ℕ → Vec F P.ndx) (t : ℕ) (v : FVec F) : FVec F := setSeg (t * P.ndx) (fs (t + 1)) v

def wl (d : Data P) (t : ℕ) (v : FVec (Option F)) : FVec (Option F) :=
  if P.ng t ≠ 0 then setSeg (offs P.ng t) (loRow (P.lb t) (d.run t).g) v else v

def wu (d : Data P) (t : ℕ) (v : FVec (Option F)) : FVec (Option F) :=
  if P.ng t ≠ 0 then setSeg (offs P.ng t) (loRow (P.ub t) (d.run t).g) v else v

theorem fillStage_fields (d : Data P) (fs : ℕ → Vec F P.ndx) (t : ℕ) (m : PQP F) :
    (fillStage d fs t m).P = wP d t m.P ∧ (fillStage d fs t m).A = wA d t m.A ∧ (fillStage d fs t m).C = wC d t m.C ∧
    (fillStage d fs t m).q = wq d t m.q ∧ (fillStage d fs t m).b = wb fs t m.b ∧ (fillStage d fs t m).l = wl d t m.l ∧
    (fillStage d fs t m).u = wu d t m.u := by
  unfold fillStage wP wA wC wq wb wl wu
  simp only []
  by_cases h1 : 0 < t <;> by_cases h2 : P.ng t = 0 <;> simp [h1, h2]

theorem wP_ow (t : ℕ) : ∃ w, ∀ d : Data P, OW2 (wP d t) w := by
  by_cases h : 0 < t
  · unfold wP; simp only [if_pos h]
    exact ⟨_, fun d => (OW2.set _ _ _).comp ((OW2.set _ _ _).comp ((OW2.set _ _ _).comp (OW2.set _ _ _)))⟩
  · unfold wP; simp only [if_neg h]
    exact ⟨_, fun d => OW2.set _ _ _⟩

theorem wA_ow (t : ℕ) : ∃ w, ∀ d : Data P, OW2 (wA d t) w := by
  by_cases h : 0 < t
  · unfold wA; simp only [if_pos h]
    exact ⟨_, fun d => (OW2.set _ _ _).comp ((OW2.set _ _ _).comp (OW2.set _ _ _))⟩
  · unfold wA; simp only [if_neg h]
    exact ⟨_, fun d => (OW2.set _ _ _).comp (OW2.set _ _ _)⟩

theorem wC_ow (t : ℕ) : ∃ w, ∀ d : Data P, OW2 (wC d t) w := by
  by_cases h2 : P.ng t ≠ 0
  · by_cases h : 0 < t
    · unfold wC; simp only [if_pos h, if_pos h2]
      exact ⟨_, fun d => (OW2.set _ _ _).comp (OW2.set _ _ _)⟩
    · unfold wC; simp only [if_neg h, if_pos h2]
      exact ⟨_, fun d => OW2.set _ _ _⟩
  · unfold wC; simp only [if_neg h2]
    exact ⟨_, fun d => OW2.id⟩

theorem wq_ow (t : ℕ) : ∃ w, ∀ d : Data P, OW1 (wq d t) w := by
  by_cases h : 0 < t
  · unfold wq; simp only [if_pos h]
    exact ⟨_, fun d => (OW1.set _ _).comp (OW1.set _ _)⟩
  · unfold wq; simp only [if_neg h]
    exact ⟨_, fun d => OW1.set _ _⟩

theorem wb_ow (t : ℕ) : ∃ w, ∀ fs : ℕ → Vec F P.ndx, OW1 (wb fs t) w := ⟨_, fun _ => OW1.set _ _⟩

theorem wl_ow (t : ℕ) : ∃ w, ∀ d : Data P, OW1 (wl d t) w := by
  by_cases h2 : P.ng t ≠ 0
  · unfold wl; simp only [if_pos h2]
    exact ⟨_, fun d => OW1.set _ _⟩
  · unfold wl; simp only [if_neg h2]
    exact ⟨_, fun d => OW1.id⟩

theorem wu_ow (t : ℕ) : ∃ w, ∀ d : Data P, OW1 (wu d t) w := by
  by_cases h2 : P.ng t ≠ 0
  · unfold wu; simp only [if_pos h2]
    exact ⟨_, fun d => OW1.set _ _⟩
  · unfold wu; simp only [if_neg h2]
    exact ⟨_, fun d => OW1.id⟩

/-- the matrices left by the assembly. -/
def tC (d : Data P) (M : FMat F) : FMat F := if P.ng P.T ≠ 0 then setBlock (offs P.ng P.T) ((P.T - 1) * P.ndx) d.td.Gx M else M
def tl (d : Data P) (v : FVec (Option F)) : FVec (Option F) := if P.ng P.T ≠ 0 then setSeg (offs P.ng P.T) (loRow (P.lb P.T) d.ter.g) v else v
def tu (d : Data P) (v : FVec (Option F)) : FVec (Option F) := if P.ng P.T ≠ 0 then setSeg (offs P.ng P.T) (loRow (P.ub P.T) d.ter.g) v else v

theorem tC_ow : ∃ w, ∀ d : Data P, OW2 (tC d) w := by
  by_cases h2 : P.ng P.T ≠ 0
  · unfold tC; simp only [if_pos h2]; exact ⟨_, fun d => OW2.set _ _ _⟩
  · unfold tC; simp only [if_neg h2]; exact ⟨_, fun d => OW2.id⟩

theorem tl_ow : ∃ w, ∀ d : Data P, OW1 (tl d) w := by
  by_cases h2 : P.ng P.T ≠ 0
  · unfold tl; simp only [if_pos h2]; exact ⟨_, fun d => OW1.set _ _⟩
  · unfold tl; simp only [if_neg h2]; exact ⟨_, fun d => OW1.id⟩

theorem tu_ow : ∃ w, ∀ d : Data P, OW1 (tu d) w := by
  by_cases h2 : P.ng P.T ≠ 0
  · unfold tu; simp only [if_pos h2]; exact ⟨_, fun d => OW1.set _ _⟩
  · unfold tu; simp only [if_neg h2]; exact ⟨_, fun d => OW1.id⟩

theorem assemble_fields (d : Data P) (fs : ℕ → Vec F P.ndx) (m : PQP F) :
    (assemble d fs m).P = setBlock ((P.T - 1) * P.ndx) ((P.T - 1) * P.ndx) d.td.Lxx (forUp P.T (wP d) m.P) ∧
    (assemble d fs m).A = forUp P.T (wA d) m.A ∧ (assemble d fs m).C = tC d (forUp P.T (wC d) m.C) ∧
    (assemble d fs m).q = setSeg ((P.T - 1) * P.ndx) d.td.Lx (forUp P.T (wq d) m.q) ∧ (assemble d fs m).b = forUp P.T (wb fs) m.b ∧
    (assemble d fs m).l = tl d (forUp P.T (wl d) m.l) ∧ (assemble d fs m).u = tu d (forUp P.T (wu d) m.u) := by
  have hP := forUp_field P.T (fillStage d fs) (wP d) PQP.P (fun t s => (fillStage_fields d fs t s).1) m
  have hA := forUp_field P.T (fillStage d fs) (wA d) PQP.A (fun t s => (fillStage_fields d fs t s).2.1) m
  have hC := forUp_field P.T (fillStage d fs) (wC d) PQP.C (fun t s => (fillStage_fields d fs t s).2.2.1) m
  have hq := forUp_field P.T (fillStage d fs) (wq d) PQP.q (fun t s => (fillStage_fields d fs t s).2.2.2.1) m
  have hb := forUp_field P.T (fillStage d fs) (wb fs) PQP.b (fun t s => (fillStage_fields d fs t s).2.2.2.2.1) m
  have hl := forUp_field P.T (fillStage d fs) (wl d) PQP.l (fun t s => (fillStage_fields d fs t s).2.2.2.2.2.1) m
  have hu := forUp_field P.T (fillStage d fs) (wu d) PQP.u (fun t s => (fillStage_fields d fs t s).2.2.2.2.2.2) m
  rw [← hP, ← hA, ← hC, ← hq, ← hb, ← hl, ← hu]
  unfold assemble fillTerminal tC tl tu
  simp only []
  by_cases h2 : P.ng P.T = 0 <;> simp [h2]

/-- the assembly overwrites everything an earlier assembly has written. -/
theorem assemble_twice (d d' : Data P) (fs fs' : ℕ → Vec F P.ndx) (m : PQP F) : assemble d fs (assemble d' fs' m) = assemble d fs m := by
  obtain ⟨a1, a2, a3, a4, a5, a6, a7⟩ := assemble_fields d fs m
  obtain ⟨b1, b2, b3, b4, b5, b6, b7⟩ := assemble_fields d' fs' m
  obtain ⟨c1, c2, c3, c4, c5, c6, c7⟩ := assemble_fields d fs (assemble d' fs' m)
  obtain ⟨uP, hP⟩ := OW2.loop P.T (wP (P := P)) wP_ow
  obtain ⟨uA, hA⟩ := OW2.loop P.T (wA (P := P)) wA_ow
  obtain ⟨uC, hC⟩ := OW2.loop P.T (wC (P := P)) wC_ow
  obtain ⟨uq, hq⟩ := OW1.loop P.T (wq (P := P)) wq_ow
  obtain ⟨ub, hb⟩ := OW1.loop P.T (wb (P := P)) wb_ow
  obtain ⟨ul, hl⟩ := OW1.loop P.T (wl (P := P)) wl_ow
  obtain ⟨uu, hu⟩ := OW1.loop P.T (wu (P := P)) wu_ow
  obtain ⟨vC, kC⟩ := tC_ow (P := P)
  obtain ⟨vl, kl⟩ := tl_ow (P := P)
  obtain ⟨vu, ku⟩ := tu_ow (P := P)
  have e1 : (assemble d fs (assemble d' fs' m)).P = (assemble d fs m).P := by
    rw [c1, b1, a1]
    exact ((OW2.set _ _ d.td.Lxx).comp (hP d)).twice ((OW2.set _ _ d'.td.Lxx).comp (hP d')) m.P
  have e2 : (assemble d fs (assemble d' fs' m)).A = (assemble d fs m).A := by
    rw [c2, b2, a2]; exact (hA d).twice (hA d') m.A
  have e3 : (assemble d fs (assemble d' fs' m)).C = (assemble d fs m).C := by
    rw [c3, b3, a3]; exact ((kC d).comp (hC d)).twice ((kC d').comp (hC d')) m.C
  have e4 : (assemble d fs (assemble d' fs' m)).q = (assemble d fs m).q := by
    rw [c4, b4, a4]; exact ((OW1.set _ d.td.Lx).comp (hq d)).twice ((OW1.set _ d'.td.Lx).comp (hq d')) m.q
  have e5 : (assemble d fs (assemble d' fs' m)).b = (assemble d fs m).b := by
    rw [c5, b5, a5]; exact (hb fs).twice (hb fs') m.b
  have e6 : (assemble d fs (assemble d' fs' m)).l = (assemble d fs m).l := by
    rw [c6, b6, a6]; exact ((kl d).comp (hl d)).twice ((kl d').comp (hl d')) m.l
  have e7 : (assemble d fs (assemble d' fs' m)).u = (assemble d fs m).u := by
    rw [c7, b7, a7]; exact ((ku d).comp (hu d)).twice ((ku d').comp (hu d')) m.u
  generalize assemble d fs (assemble d' fs' m) = x at *
  generalize assemble d fs m = y at *
  cases x; cases y
  simp only at e1 e2 e3 e4 e5 e6 e7
  subst e1 e2 e3 e4 e5 e6 e7
  rfl

/-- the assembly reads the derivatives, constraint values and gaps of the nodes only. -/
theorem assemble_same {d d' : Data P} (h : d.SameD d') {fs fs' : ℕ → Vec F P.ndx} (hf : ∀ t, t ≤ P.T → fs t = fs' t) (m : PQP F) :
    assemble d fs m = assemble d' fs' m := by
  unfold assemble
  rw [forUp_congr' P.T (fillStage d fs) (fillStage d' fs') fun t ht => by
    funext m
    unfold fillStage
    simp only [h.rd t ht, h.run t ht, hf (t + 1) ht]]
  unfold fillTerminal
  simp only [h.td, h.ter]

/-- an assembly would give the same result. -/
def MSame (P : Problem F) (m m' : PQP F) : Prop := ∀ (d : Data P) (fs : ℕ → Vec F P.ndx), assemble d fs m = assemble d fs m'

theorem Reachable.msame {s : PROX P} (d0 : Data P) (h : Reachable s) : MSame P s.m (PROX.new d0).m := by
  refine h.pred (fun s => MSame P s.m (PROX.new d0).m) (fun _ _ _ => rfl) (fun _ _ h => h) (fun _ _ h => h) ?_
    (fun _ _ _ _ _ _ h => h) (fun _ _ h => h) (fun _ h => h) (fun _ _ _ _ h => h) ?_ (fun _ h => h) (fun _ h => h) (fun _ _ h => h)
    (fun _ _ _ _ h => h)
  · intro s h d fs
    refine Eq.trans ?_ (h d fs)
    exact assemble_twice d _ fs _ s.m
  · intro s h
    obtain ⟨d, w, iw, n, r, xs, us, fe, ac, sl, _, _, e⟩ := search_set s
    rw [e]; exact h

theorem Reachable.fs0 {s : PROX P} (h : Reachable s) : s.e.fs 0 = zeroV F P.ndx := by
  refine h.pred (fun s => s.e.fs 0 = zeroV F P.ndx) (fun _ => rfl) (fun _ _ h => h) (fun _ _ h => h) (fun _ h => h)
    (fun _ _ _ _ _ _ h => h) (fun _ _ h => h) (fun _ h => h) (fun _ _ _ _ h => h) ?_ (fun _ h => h) (fun _ h => h) (fun _ _ h => h)
    (fun _ _ _ _ h => h)
  intro s h
  obtain ⟨d, w, iw, n, r, xs, us, fe, ac, sl, _, _, e⟩ := search_set s
  rw [e]; exact h

/-! ## Relational invariants -/

theorem residual_same {d d' : Data P} (h : d.SameD d') {fs fs' lam lam' : ℕ → Vec F P.ndx} (hf : ∀ t, t ≤ P.T → fs t = fs' t)
    (hl : ∀ t, 0 < t → t ≤ P.T → lam t = lam' t) {y y' : (t : ℕ) → Vec F (P.ng t)} (hy : ∀ t, t ≤ P.T → y t = y' t) {con con' : F}
    (hT : 0 < P.T) (hc : con = con') : residual d fs lam y con = residual d' fs' lam' y' con' := by
  unfold residual
  simp only []
  rw [forUp_congr' P.T _ (fun t K => cppMax (if t = 0 then K
      else cppMax K (normInf ((d'.rd t).Lx + mv (d'.rd t).Fx.transpose (lam' (t + 1)) - lam' t + mv (d'.rd t).Gx.transpose (y' t))))
      (normInf ((d'.rd t).Lu + mv (d'.rd t).Fu.transpose (lam' (t + 1)) + mv (d'.rd t).Gu.transpose (y' t)))) fun t ht => by
    funext K
    by_cases h0 : t = 0
    · subst h0
      simp only [if_true]
      rw [h.rd 0 ht, hl (0 + 1) (by omega) (by omega), hy 0 ht.le]
    · simp only [if_neg h0]
      rw [h.rd t ht, hl (t + 1) (by omega) (by omega), hl t (by omega) ht.le, hy t ht.le]]
  rw [forUp_congr' P.T (fun t m => cppMax m (normInf (fs (t + 1)))) (fun t m => cppMax m (normInf (fs' (t + 1)))) fun t ht => by
    funext m; rw [hf (t + 1) (by omega)]]
  rw [h.td, hl _ hT le_rfl, hy _ le_rfl, hc]

/-- parameters, control state, candidate, previous multipliers. -/
structure Alike (l l' : List (CbEvent F)) (s s' : PROX P) : Prop where
  c : s.c = s'.c
  preg : s.preg = s'.preg
  dreg : s.dreg = s'.dreg
  iter : s.iter = s'.iter
  costs : s.costList = s'.costList
  gaps : s.gapList = s'.gapList
  cons : s.conList = s'.conList
  xs : ∀ t, t ≤ P.T → s.xs t = s'.xs t
  us : ∀ t, t < P.T → s.us t = s'.us t
  fs0 : s.e.fs 0 = s'.e.fs 0
  dx0 : s.dx 0 = s'.dx 0
  m : MSame P s.m s'.m
  lam : ∀ t, 0 < t → t ≤ P.T → s.lam t = s'.lam t
  y : ∀ t, t ≤ P.T → s.y t = s'.y t
  log : ∃ e, s.log = l ++ e ∧ s'.log = l' ++ e

/-- after `calc`. -/
structure Eval (l l' : List (CbEvent F)) (s s' : PROX P) : Prop extends Alike l l' s s' where
  data : s.data.SameD s'.data
  fs : ∀ t, t ≤ P.T → s.e.fs t = s'.e.fs t
  cost : s.e.cost = s'.e.cost
  gap : s.e.gap = s'.e.gap
  con : s.e.con = s'.e.con
  merit : s.merit = s'.merit
  meq : s.m = s'.m

/-- after a direction. -/
structure Dir (l l' : List (CbEvent F)) (s s' : PROX P) : Prop extends Eval l l' s s' where
  KKT : s.KKT = s'.KKT
  dx : ∀ t, t ≤ P.T → s.dx t = s'.dx t
  du : ∀ t, t < P.T → s.du t = s'.du t
  it : s.qpIters = s'.qpIters
  pri : s.pri = s'.pri
  dua : s.dua = s'.dua

variable {l l' : List (CbEvent F)} {s s' : PROX P}

theorem calcEval_alike (h : Alike l l' s s') : Eval l l' s.calcEval s'.calcEval := by
  have hd := calcAll_same s.data s'.data h.xs h.us
  have hD := calcDiffAll_same hd h.xs h.us
  have hf : ∀ t, t ≤ P.T → s.calcEval.e.fs t = s'.calcEval.e.fs t := fun t ht => CSQP.calcFs_same hD.toSame h.xs h.fs0 t ht
  have hg : s.calcEval.e.gap = s'.calcEval.e.gap := by
    change sumUp P.T (fun t => norm1 (s.calcEval.e.fs (t + 1))) = sumUp P.T (fun t => norm1 (s'.calcEval.e.fs (t + 1)))
    exact sumUp_congr P.T _ _ fun t ht => by rw [hf _ (by omega)]
  have hn : s.calcEval.e.con = s'.calcEval.e.con := CSQP.conNorm_same hD.toSame
  have hc : s.calcEval.e.cost = s'.calcEval.e.cost := hD.toSame.cost
  have hm : s.calcEval.m = s'.calcEval.m := by
    change assemble s.calcEval.data s.calcEval.e.fs s.m = assemble s'.calcEval.data s'.calcEval.e.fs s'.m
    exact (assemble_same hD hf s.m).trans (h.m _ _)
  refine ⟨⟨h.c, h.preg, h.dreg, h.iter, h.costs, h.gaps, h.cons, h.xs, h.us, hf 0 (by omega), h.dx0, fun d fs => by rw [hm], h.lam, h.y, h.log⟩,
    hD, hf, hc, hg, hn, ?_, hm⟩
  change s.calcEval.e.cost + s.c.muDyn * s.calcEval.e.gap + s.c.muCon * s.calcEval.e.con =
    s'.calcEval.e.cost + s'.c.muDyn * s'.calcEval.e.gap + s'.c.muCon * s'.calcEval.e.con
  rw [hc, hg, hn, h.c]

variable {qp : PSolve F}

/-- ProxSuite answers the same question the same way. -/
def Det (qp : PSolve F) : Prop := ∀ i j m, qp i m = qp j m

theorem computeDirection_alike (hq : Det qp) (hT : 0 < P.T) (r : Bool) (h : if r then Alike l l' s s' else Eval l l' s s') :
    Res.Rel (Dir l l') (Eval l l') (s.computeDirection qp r) (s'.computeDirection qp r) := by
  have he : Eval l l' (if r then s.calcEval else s) (if r then s'.calcEval else s') := by
    cases r with
    | true => exact calcEval_alike h
    | false => exact h
  unfold computeDirection
  generalize (if r then s.calcEval else s) = a at *
  generalize (if r then s'.calcEval else s') = b at *
  have hK : a.checkKKT.KKT = b.checkKKT.KKT := residual_same he.data he.fs he.lam he.y hT he.con
  have e : qp a.checkKKT.nQP a.checkKKT.m = qp b.checkKKT.nQP b.checkKKT.m := by
    rw [hq _ b.checkKKT.nQP]
    change qp _ a.m = qp _ b.m
    rw [he.meq]
  simp only []
  rw [e]
  split
  · exact .exn ⟨⟨he.c, he.preg, he.dreg, he.iter, he.costs, he.gaps, he.cons, he.xs, he.us, he.fs0, he.dx0, he.m, he.lam, he.y, he.log⟩,
      he.data, he.fs, he.cost, he.gap, he.con, he.merit, he.meq⟩
  · refine .ok ⟨⟨⟨he.c, he.preg, he.dreg, he.iter, he.costs, he.gaps, he.cons, he.xs, he.us, he.fs0, he.dx0, he.m, ?_, ?_, he.log⟩,
      he.data, he.fs, he.cost, he.gap, he.con, he.merit, he.meq⟩, hK, ?_, ?_, rfl, rfl, rfl⟩
    · intro t h0 ht
      obtain ⟨t, rfl⟩ : ∃ k, t = k + 1 := ⟨t - 1, by omega⟩
      simp only [readAnswer, if_pos (show t < P.T from ht)]
    · intro t ht
      simp only [readAnswer, if_pos ht]
    · intro t ht
      cases t with
      | zero => exact he.dx0
      | succ t => simp only [readAnswer, if_pos (show t < P.T from ht)]
    · intro t ht
      simp only [readAnswer, if_pos ht]

theorem Eval.reg (h : Eval l l' s s') : Eval l l' s.increaseReg s'.increaseReg := by
  have e : incReg s.c.par s.preg = incReg s'.c.par s'.preg := by rw [h.c, h.preg]
  exact ⟨⟨h.c, e, e, h.iter, h.costs, h.gaps, h.cons, h.xs, h.us, h.fs0, h.dx0, h.m, h.lam, h.y, h.log⟩,
      h.data, h.fs, h.cost, h.gap, h.con, h.merit, h.meq⟩

theorem retry_alike (hq : Det qp) (hT : 0 < P.T) (fuel : ℕ) (r : Bool) (h : if r then Alike l l' s s' else Eval l l' s s') :
    (retry qp fuel r s = none ∧ retry qp fuel r s' = none) ∨
    (∃ a b, retry qp fuel r s = some (true, a) ∧ retry qp fuel r s' = some (true, b) ∧ Dir l l' a b) ∨
    ∃ a b, retry qp fuel r s = some (false, a) ∧ retry qp fuel r s' = some (false, b) ∧ Eval l l' a b := by
  induction fuel generalizing r s s' with
  | zero => exact .inl ⟨rfl, rfl⟩
  | succ n ih =>
    have hc := computeDirection_alike hq hT r h
    unfold retry
    generalize s.computeDirection qp r = x at *
    generalize s'.computeDirection qp r = y at *
    cases hc with
    | @ok a b h => exact .inr (.inl ⟨a, b, rfl, rfl, h⟩)
    | @exn a b h =>
      have h' := h.reg
      have hp : eqb a.increaseReg.preg a.increaseReg.c.par.regMax = eqb b.increaseReg.preg b.increaseReg.c.par.regMax := by
        rw [h'.c, h'.preg]
      simp only [hp]
      split
      · exact .inr (.inr ⟨_, _, rfl, rfl, h'⟩)
      · exact ih false h'

/-- during a line search. -/
structure Trial (l l' : List (CbEvent F)) (s s' : PROX P) : Prop extends Alike l l' s s' where
  data : s.data.Same s'.data
  cost : s.e.cost = s'.e.cost
  gap : s.e.gap = s'.e.gap
  merit : s.merit = s'.merit
  KKT : s.KKT = s'.KKT
  dx : ∀ t, t ≤ P.T → s.dx t = s'.dx t
  du : ∀ t, t < P.T → s.du t = s'.du t

theorem push_alike (h : Dir l l' s s') : Trial l l' s.pushFilter s'.pushFilter := by
  refine ⟨⟨h.c, h.preg, h.dreg, h.iter, ?_, ?_, ?_, h.xs, h.us, h.fs0, h.dx0, h.m, h.lam, h.y, h.log⟩,
    h.data.toSame, h.cost, h.gap, h.merit, h.KKT, h.dx, h.du⟩
  · change s.costList.push s.e.cost = s'.costList.push s'.e.cost
    rw [h.costs, h.cost]
  · change s.gapList.push s.e.gap = s'.gapList.push s'.e.gap
    rw [h.gaps, h.gap]
  · change s.conList.push s.e.con = s'.conList.push s'.e.con
    rw [h.cons, h.con]

structure Tried (l l' : List (CbEvent F)) (s s' : PROX P) : Prop extends Trial l l' s s' where
  step : s.steplength = s'.steplength
  wxs : ∀ t, t ≤ P.T → s.w.xs t = s'.w.xs t
  wus : ∀ t, t < P.T → s.w.us t = s'.w.us t
  wcost : s.w.cost = s'.w.cost
  wgap : s.w.gap = s'.w.gap
  wcon : s.w.con = s'.w.con

structure Done (l l' : List (CbEvent F)) (s s' : PROX P) : Prop extends Tried l l' s s' where
  wmerit : s.w.merit = s'.w.merit

/-- a trial that failed. -/
def Failed (l l' : List (CbEvent F)) (s s' : PROX P) : Prop := Trial l l' s s' ∧ s.steplength = s'.steplength

theorem move_alike (a : F) (h : Trial l l' s s') (hs : s.steplength = s'.steplength) :
    Tried l l' ({ s with nTry := s.nTry + 1, w := { s.w with cost := 0, merit := 0, gap := 0, con := 0 } }.tryMove a)
      ({ s' with nTry := s'.nTry + 1, w := { s'.w with cost := 0, merit := 0, gap := 0, con := 0 } }.tryMove a) := by
  refine ⟨⟨⟨h.c, h.preg, h.dreg, h.iter, h.costs, h.gaps, h.cons, h.xs, h.us, h.fs0, h.dx0, h.m, h.lam, h.y, h.log⟩, h.data, h.cost, h.gap, h.merit, h.KKT,
    h.dx, h.du⟩, hs, fun t ht => ?_, fun t ht => ?_, rfl, rfl, rfl⟩
  · simp only [tryMove, if_pos ht]
    rw [h.xs t ht, h.dx t ht]
  · simp only [tryMove]
    by_cases h0 : P.nu t = 0
    · exact vec_eq_of_zero h0 _ _
    · rw [if_pos ⟨ht, h0⟩, if_pos ⟨ht, h0⟩, h.us t ht, h.du t ht]

theorem tryStage_alike {n : ℕ} (hn : n < P.T) (h : Tried l l' s s') : Res.Rel (Tried l l') (Failed l l') (tryStage n s) (tryStage n s') := by
  have hd := SQP.Same.node h.data n (h.wxs n hn.le) (h.wus n hn)
  have er := hd.run n hn
  have ec : s.w.cost + ((s.data.calcNode n (s.w.xs n) (s.w.us n)).run n).cost =
      s'.w.cost + ((s'.data.calcNode n (s'.w.xs n) (s'.w.us n)).run n).cost := by rw [h.wcost, er]
  have tr : ∀ w w' : CTry P, Trial l l' { s with data := s.data.calcNode n (s.w.xs n) (s.w.us n), w := w }
      { s' with data := s'.data.calcNode n (s'.w.xs n) (s'.w.us n), w := w' } := fun w w' =>
    ⟨⟨h.c, h.preg, h.dreg, h.iter, h.costs, h.gaps, h.cons, h.xs, h.us, h.fs0, h.dx0, h.m, h.lam, h.y, h.log⟩, hd, h.cost, h.gap, h.merit, h.KKT,
    h.dx, h.du⟩
  unfold tryStage Res.throwIf
  simp only []
  rw [ec]
  split
  · exact .exn ⟨tr _ _, h.step⟩
  · refine .ok ⟨tr _ _, h.step, h.wxs, h.wus, rfl, ?_, ?_⟩
    · simp only []; rw [h.wgap, h.wxs (n + 1) hn, er]
    · simp only []; rw [h.wcon, er]

theorem tryTerminal_alike (h : Tried l l' s s') : Res.Rel (Done l l') (Failed l l') (tryTerminal s) (tryTerminal s') := by
  have hd : (s.data.calcTer (s.w.xs P.T)).Same (s'.data.calcTer (s'.w.xs P.T)) := by
    refine ⟨h.data.run, ?_⟩
    simp only [Data.calcTer]; rw [h.wxs _ le_rfl]
  have et := hd.ter
  have ec : s.w.cost + (s.data.calcTer (s.w.xs P.T)).ter.cost = s'.w.cost + (s'.data.calcTer (s'.w.xs P.T)).ter.cost := by rw [h.wcost, et]
  have en : addViol (P.lb P.T) (P.ub P.T) (s.data.calcTer (s.w.xs P.T)).ter.g s.w.con =
      addViol (P.lb P.T) (P.ub P.T) (s'.data.calcTer (s'.w.xs P.T)).ter.g s'.w.con := by rw [h.wcon, et]
  have tr : ∀ w w' : CTry P, Trial l l' { s with data := s.data.calcTer (s.w.xs P.T), w := w }
      { s' with data := s'.data.calcTer (s'.w.xs P.T), w := w' } := fun w w' =>
    ⟨⟨h.c, h.preg, h.dreg, h.iter, h.costs, h.gaps, h.cons, h.xs, h.us, h.fs0, h.dx0, h.m, h.lam, h.y, h.log⟩, hd, h.cost, h.gap, h.merit, h.KKT,
    h.dx, h.du⟩
  unfold tryTerminal Res.throwIf
  simp only []
  rw [ec, en]
  split
  · exact .exn ⟨tr _ _, h.step⟩
  · refine .ok ⟨⟨tr _ _, h.step, h.wxs, h.wus, rfl, h.wgap, rfl⟩, ?_⟩
    simp only []
    rw [← h.c, ← h.wgap]

theorem tryStep_alike (a : F) (h : Trial l l' s s') (hs : s.steplength = s'.steplength) : Res.Rel (Done l l') (Failed l l') (s.tryStep a) (s'.tryStep a) := by
  unfold tryStep
  simp only []
  split
  · exact .exn ⟨⟨⟨h.c, h.preg, h.dreg, h.iter, h.costs, h.gaps, h.cons, h.xs, h.us, h.fs0, h.dx0, h.m, h.lam, h.y, h.log⟩, h.data, h.cost, h.gap, h.merit, h.KKT,
      h.dx, h.du⟩, hs⟩
  · exact (forUpR_rel (fun _ => Tried l l') (Failed l l') P.T tryStage tryStage
      (fun t ht a b k => tryStage_alike ht k) (move_alike a h hs)).bind fun a b k => tryTerminal_alike k

theorem worse_alike (h : Done l l' s s') : s.worse = s'.worse := by
  unfold worse
  rw [h.costs, h.gaps, h.cons, h.c, h.iter, h.wcost, h.wgap, h.wcon]

theorem accept_alike (a : F) (h : Done l l' s s') : Failed l l' (s.accept a) (s'.accept a) :=
  ⟨⟨⟨h.c, h.preg, h.dreg, h.iter, h.costs, h.gaps, h.cons, h.wxs, h.wus, h.fs0, h.dx0, h.m, h.lam, h.y, h.log⟩, h.data, h.cost, h.gap, h.merit, h.KKT,
      h.dx, h.du⟩, h.step⟩

theorem lineSearch_alike (as : List F) (h : Trial l l' s s') (hs : as ≠ [] ∨ s.steplength = s'.steplength) :
    (lineSearch as s).1 = (lineSearch as s').1 ∧ Failed l l' (lineSearch as s).2 (lineSearch as s').2 := by
  induction as generalizing s s' with
  | nil => exact ⟨rfl, h, hs.resolve_left (by simp)⟩
  | cons a as ih =>
    have key := tryStep_alike (s := { s with steplength := a }) (s' := { s' with steplength := a }) a
      ⟨⟨h.c, h.preg, h.dreg, h.iter, h.costs, h.gaps, h.cons, h.xs, h.us, h.fs0, h.dx0, h.m, h.lam, h.y, h.log⟩, h.data, h.cost, h.gap, h.merit, h.KKT,
      h.dx, h.du⟩ rfl
    unfold lineSearch
    generalize tryStep a { s with steplength := a } = r at *
    generalize tryStep a { s' with steplength := a } = r' at *
    cases key with
    | exn k => exact ih k.1 (.inr k.2)
    | @ok b b' k =>
      simp only []
      rw [show b'.c.useFilter = b.c.useFilter by rw [k.c]]
      split
      · rw [← worse_alike k]
        have k2 : Done l l' { b with isWorse := b.worse } { b' with isWorse := b.worse } :=
          ⟨⟨⟨⟨k.c, k.preg, k.dreg, k.iter, k.costs, k.gaps, k.cons, k.xs, k.us, k.fs0, k.dx0, k.m, k.lam, k.y, k.log⟩, k.data, k.cost, k.gap, k.merit, k.KKT,
            k.dx, k.du⟩, k.step, k.wxs, k.wus, k.wcost, k.wgap, k.wcon⟩, k.wmerit⟩
        split
        · exact ih k2.toTrial (.inr k2.step)
        · exact ⟨rfl, accept_alike a k2⟩
      · rw [← k.wmerit, ← k.merit]
        split
        · exact ⟨rfl, accept_alike a k⟩
        · exact ih k.toTrial (.inr k.step)

theorem search_alike (h : Trial l l' s s') (ha : s.c.par.alphas ≠ []) : Failed l l' s.search s'.search := by
  obtain ⟨k1, k2⟩ := lineSearch_alike s.c.par.alphas h (.inl ha)
  unfold search
  rw [← h.c]
  generalize lineSearch s.c.par.alphas s = r at *
  generalize lineSearch s.c.par.alphas s' = r' at *
  obtain ⟨b, a⟩ := r
  obtain ⟨b', a'⟩ := r'
  simp only at k1 k2
  subst k1
  simp only []
  split
  · exact k2
  · obtain ⟨k, ks⟩ := k2
    exact ⟨⟨⟨k.c, k.preg, k.dreg, k.iter, k.costs, k.gaps, k.cons, k.xs, k.us, k.fs0, k.dx0, k.m, k.lam, k.y, k.log⟩, k.data, k.cost, k.gap, k.merit, k.KKT,
            k.dx, k.du⟩, ks⟩

theorem Failed.reg (h : Failed l l' s s') {p p' q q' : F} (hp : p = p') (hq : q = q') :
    Failed l l' { s with preg := p, dreg := q } { s' with preg := p', dreg := q' } := by
  obtain ⟨k, ks⟩ := h
  exact ⟨⟨⟨k.c, hp, hq, k.iter, k.costs, k.gaps, k.cons, k.xs, k.us, k.fs0, k.dx0, k.m, k.lam, k.y, k.log⟩, k.data, k.cost, k.gap, k.merit, k.KKT,
            k.dx, k.du⟩, ks⟩

theorem updateReg_alike (h : Failed l l' s s') : s.updateReg.1 = s'.updateReg.1 ∧ Failed l l' s.updateReg.2 s'.updateReg.2 := by
  have e2 : decReg s.c.par s.preg = decReg s'.c.par s'.preg := by rw [h.1.c, h.1.preg]
  have h1 : Failed l l' (if ltb s.c.par.thStepDec s.steplength then s.decreaseReg else s)
      (if ltb s'.c.par.thStepDec s'.steplength then s'.decreaseReg else s') := by
    rw [show ltb s'.c.par.thStepDec s'.steplength = ltb s.c.par.thStepDec s.steplength by rw [h.1.c, h.2]]
    split
    · exact h.reg e2 e2
    · exact h
  unfold updateReg
  generalize (if ltb s.c.par.thStepDec s.steplength then s.decreaseReg else s) = a at *
  generalize (if ltb s'.c.par.thStepDec s'.steplength then s'.decreaseReg else s') = b at *
  have e1 : incReg a.c.par a.preg = incReg b.c.par b.preg := by rw [h1.1.c, h1.1.preg]
  simp only []
  rw [show leb b.steplength b.c.par.thStepInc = leb a.steplength a.c.par.thStepInc by rw [h1.1.c, h1.2]]
  split
  · refine ⟨?_, h1.reg e1 e1⟩
    change eqb (incReg a.c.par a.preg) a.c.par.regMax = eqb (incReg b.c.par b.preg) b.c.par.regMax
    rw [e1, h1.1.c]
  · exact ⟨rfl, h1⟩

theorem log_alike (hc : s.c = s'.c) (hi : s.iter = s'.iter) (hK : s.KKT = s'.KKT) (ho : s.e.cost = s'.e.cost) (hg : s.e.gap = s'.e.gap)
    (h : ∃ e, s.log = l ++ e ∧ s'.log = l' ++ e) : ∃ e, s.callbacks.log = l ++ e ∧ s'.callbacks.log = l' ++ e := by
  obtain ⟨e, e1, e2⟩ := h
  unfold callbacks
  simp only []
  rw [← hc, ← hi, ← hK, ← ho, ← hg]
  split
  · exact ⟨e ++ [⟨0, s.iter, s.KKT, s.e.cost, s.e.gap⟩], by rw [e1, List.append_assoc], by rw [e2, List.append_assoc]⟩
  · exact ⟨e, e1, e2⟩

theorem body_alike (hq : Det qp) (hT : 0 < P.T) (fuel : ℕ) (ha : s.c.par.alphas ≠ []) (h : Alike l l' s s') :
    (body qp fuel s = none ∧ body qp fuel s' = none) ∨
    ∃ r a a', body qp fuel s = some (r, a) ∧ body qp fuel s' = some (r, a') ∧ Alike l l' a a' ∧ (r = some true → Dir l l' a a') := by
  unfold body
  have h0 : Alike l l' { s with wasFeas := false } { s' with wasFeas := false } :=
    ⟨h.c, h.preg, h.dreg, h.iter, h.costs, h.gaps, h.cons, h.xs, h.us, h.fs0, h.dx0, h.m, h.lam, h.y, h.log⟩
  rcases retry_alike hq hT fuel true h0 with ⟨e, e'⟩ | ⟨a, b, e, e', k⟩ | ⟨a, b, e, e', k⟩
  · rw [e, e']; exact .inl ⟨rfl, rfl⟩
  · have hac : a.c = s.c := by
      cases retry_post e with
      | found j a _ _ _ _ hs => subst hs; rfl
      | gaveUp j _ _ _ _ hs => subst hs; rfl
    rw [e, e']
    simp only []
    rw [show leb b.KKT b.c.tol = leb a.KKT a.c.tol by rw [k.KKT, k.c]]
    split
    · refine .inr ⟨_, _, _, rfl, rfl, ?_⟩
      have hl := log_alike k.c k.iter k.KKT k.cost k.gap k.log
      have : Dir l l' a.callbacks b.callbacks :=
        ⟨⟨⟨k.c, k.preg, k.dreg, k.iter, k.costs, k.gaps, k.cons, k.xs, k.us, k.fs0, k.dx0, k.m, k.lam, k.y, hl⟩,
          k.data, k.fs, k.cost, k.gap, k.con, k.merit, k.meq⟩, k.KKT, k.dx, k.du, k.it, k.pri, k.dua⟩
      exact ⟨this.toAlike, fun _ => this⟩
    · obtain ⟨j1, j2⟩ := updateReg_alike (search_alike (push_alike k) (by change a.c.par.alphas ≠ []; rw [hac]; exact ha))
      rw [← j1]
      split
      · exact .inr ⟨_, _, _, rfl, rfl, j2.1.toAlike, fun e => by cases e⟩
      · refine .inr ⟨_, _, _, rfl, rfl, ?_, fun e => by cases e⟩
        have k := j2.1
        exact ⟨k.c, k.preg, k.dreg, k.iter, k.costs, k.gaps, k.cons, k.xs, k.us, k.fs0, k.dx0, k.m, k.lam, k.y, log_alike k.c k.iter k.KKT k.cost k.gap k.log⟩
  · rw [e, e']; exact .inr ⟨_, _, _, rfl, rfl, k.toAlike, fun e => by cases e⟩

theorem iterate_alike (hq : Det qp) (hT : 0 < P.T) (fuel n : ℕ) (ha : s.c.par.alphas ≠ []) (h : Alike l l' s s') :
    (iterate qp fuel n s = none ∧ iterate qp fuel n s' = none) ∨
    ∃ r a a', iterate qp fuel n s = some (r, a) ∧ iterate qp fuel n s' = some (r, a') ∧ Alike l l' a a' ∧ (r = some true → Dir l l' a a') := by
  induction n generalizing s s' with
  | zero => exact .inr ⟨_, _, _, rfl, rfl, h, fun e => by cases e⟩
  | succ n ih =>
    unfold iterate
    rcases body_alike hq hT fuel ha h with ⟨e, e'⟩ | ⟨r, a, a', e, e', k, kd⟩
    · rw [e, e']; exact .inl ⟨rfl, rfl⟩
    · have hc := (body_iter e).2
      rw [e, e']
      match r, kd with
      | some b, kd => exact .inr ⟨_, _, _, rfl, rfl, k, kd⟩
      | none, kd =>
        simp only []
        exact ih (s := { a with iter := a.iter + 1 }) (s' := { a' with iter := a'.iter + 1 }) (by simp only []; rw [hc]; exact ha)
          ⟨k.c, k.preg, k.dreg, by simp only [k.iter], k.costs, k.gaps, k.cons, k.xs, k.us, k.fs0, k.dx0, k.m, k.lam, k.y, k.log⟩

theorem solve_alike (hq : Det qp) (hT : 0 < P.T) (fuel : ℕ) (xs : Option (Traj P)) (us : Option (Ctrls P)) (m : ℕ) (ri : F)
    (ha : s.c.par.alphas ≠ []) (hc : s.c = s'.c) (h1 : s.costList = s'.costList) (h2 : s.gapList = s'.gapList) (h3 : s.conList = s'.conList)
    (hf : s.e.fs 0 = s'.e.fs 0) (hx : s.dx 0 = s'.dx 0) (hm : MSame P s.m s'.m) (hl : ∀ t, 0 < t → t ≤ P.T → s.lam t = s'.lam t)
    (hy : ∀ t, t ≤ P.T → s.y t = s'.y t) :
    (solve qp fuel xs us m ri s = none ∧ solve qp fuel xs us m ri s' = none) ∨
    ∃ r a a', solve qp fuel xs us m ri s = some (r, a) ∧ solve qp fuel xs us m ri s' = some (r, a') ∧ Alike s.log s'.log a a' ∧
      (r = true → Dir s.log s'.log a a') := by
  have e : initReg s.c.par ri = initReg s'.c.par ri := by rw [hc]
  have h0 : Alike s.log s'.log (s.start xs us ri) (s'.start xs us ri) :=
    ⟨hc, e, e, rfl, h1, h2, h3, fun _ _ => rfl, fun _ _ => rfl, hf, hx, hm, hl, hy, [], by simp [start], by simp [start]⟩
  unfold solve
  rcases iterate_alike hq hT fuel m (s := s.start xs us ri) (s' := s'.start xs us ri) ha h0 with ⟨e, e'⟩ | ⟨r, a, a', e, e', k, kd⟩
  · rw [e, e']; exact .inl ⟨rfl, rfl⟩
  · rw [e, e']
    match r, kd with
    | some b, kd => exact .inr ⟨_, _, _, rfl, rfl, k, fun hb => kd (by rw [hb])⟩
    | none, kd => exact .inr ⟨_, _, _, rfl, rfl, k, fun e => by cases e⟩

end
end PROX
end Mim
