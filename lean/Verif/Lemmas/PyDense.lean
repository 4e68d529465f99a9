import Verif.Model.PyDense
import Verif.Lemmas.ProxSystem

/-!
# The dense QP of the Python `CSQP` holds the entries `SolverPROXQP` assembles
-/
set_option linter.unusedSectionVars false
set_option linter.unusedSimpArgs false

namespace Mim

/-- two blocks with disjoint column ranges can be written in either order. -/
theorem setBlock_comm {F : Type} {r c m n r' c' m' n' : ℕ} (A : Mat F m n) (B : Mat F m' n') (M : FMat F)
    (h : c + n ≤ c' ∨ c' + n' ≤ c) : setBlock r c A (setBlock r' c' B M) = setBlock r' c' B (setBlock r c A M) := by
  funext i j
  unfold setBlock
  split_ifs <;> first | rfl | omega

section
variable {F : Type} [Add F] [Sub F] [Mul F] [Div F] [Neg F] [Zero F] [One F] [FloatOps F] {P : Problem F}

namespace PyDense
variable {d : Data P} {gap : ℕ → Vec F P.ndx} {m : PQP F}

theorem offs_nu (hu : ∀ t, P.nu t = P.nu 0) (t : ℕ) : offs P.nu t = t * P.nu 0 := by
  have : P.nu = fun _ => P.nu 0 := funext hu
  rw [this, offs_const]

theorem fillStage_P (hu : ∀ t, P.nu t = P.nu 0) (t : ℕ) : (fillStage d gap t m).P = PROX.stageP d t m.P := by
  unfold fillStage PROX.stageP Problem.nEq
  simp only [offs_nu hu]
  by_cases h : 0 < t
  · simp [h, show 1 ≤ t from h]
  · obtain rfl : t = 0 := by omega
    simp

theorem fillStage_A (hu : ∀ t, P.nu t = P.nu 0) {t : ℕ} (ht : t < P.T) : (fillStage d gap t m).A = PROX.stageA d t m.A := by
  have hle : t * P.ndx + P.ndx ≤ P.T * P.ndx := PROX.x_le (P := P) ht
  unfold fillStage PROX.stageA Problem.nEq
  simp only [offs_nu hu]
  by_cases h : 0 < t
  · obtain ⟨k, rfl⟩ : ∃ k, t = k + 1 := ⟨t - 1, by omega⟩
    have e : k * P.ndx + P.ndx = (k + 1) * P.ndx := by ring
    simp only [h, show 1 ≤ k + 1 from h, if_true, Nat.add_sub_cancel]
    rw [setBlock_comm _ (idMat P.ndx) _ (.inl (by omega)), setBlock_comm _ (-(d.rd (k + 1)).Fu) _ (.inl (by omega))]
  · obtain rfl : t = 0 := by omega
    simp

theorem fillStage_q (hu : ∀ t, P.nu t = P.nu 0) (t : ℕ) : (fillStage d gap t m).q = setSeg (P.nEq + offs P.nu t) (d.rd t).Lu
    (if 0 < t then setSeg ((t - 1) * P.ndx) (d.rd t).Lx m.q else m.q) := by
  unfold fillStage Problem.nEq
  simp only [offs_nu hu]
  by_cases h : 0 < t
  · simp [h, show 1 ≤ t from h]
  · obtain rfl : t = 0 := by omega
    simp

theorem fillStage_b (t : ℕ) : (fillStage d gap t m).b = setSeg (t * P.ndx) (gap t) m.b := by
  unfold fillStage
  simp only []
  split <;> rfl

theorem fillStage_C (t : ℕ) : (fillStage d gap t m).C = m.C := by
  unfold fillStage
  simp only []
  split <;> rfl

theorem fillStage_l (t : ℕ) : (fillStage d gap t m).l = m.l := by
  unfold fillStage
  simp only []
  split <;> rfl

theorem fillStage_u (t : ℕ) : (fillStage d gap t m).u = m.u := by
  unfold fillStage
  simp only []
  split <;> rfl

theorem fillRows_P (t : ℕ) : (fillRows d t m).P = m.P := by
  unfold fillRows
  simp only []
  split_ifs <;> rfl
theorem fillRows_q (t : ℕ) : (fillRows d t m).q = m.q := by
  unfold fillRows
  simp only []
  split_ifs <;> rfl
theorem fillRows_A (t : ℕ) : (fillRows d t m).A = m.A := by
  unfold fillRows
  simp only []
  split_ifs <;> rfl
theorem fillRows_b (t : ℕ) : (fillRows d t m).b = m.b := by
  unfold fillRows
  simp only []
  split_ifs <;> rfl
theorem fillRows_C (hu : ∀ t, P.nu t = P.nu 0) (t : ℕ) : (fillRows d t m).C = PROX.stageC d t m.C := by
  unfold fillRows PROX.stageC Problem.nEq
  simp only [hu t]
  by_cases h1 : 0 < t <;> by_cases h2 : P.ng t = 0 <;> simp [h1, h2]
theorem fillRows_l (t : ℕ) : (fillRows d t m).l =
    if P.ng t ≠ 0 then setSeg (offs P.ng t) (loRow (P.lb t) (d.run t).g) m.l else m.l := by
  unfold fillRows
  simp only []
  by_cases h1 : 0 < t <;> by_cases h2 : P.ng t = 0 <;> simp [h1, h2]
theorem fillRows_u (t : ℕ) : (fillRows d t m).u =
    if P.ng t ≠ 0 then setSeg (offs P.ng t) (loRow (P.ub t) (d.run t).g) m.u else m.u := by
  unfold fillRows
  simp only []
  by_cases h1 : 0 < t <;> by_cases h2 : P.ng t = 0 <;> simp [h1, h2]

/-- the loop over the rows keeps a component that one row keeps. -/
theorem forUp_id {S R : Type} (g : S → R) (n : ℕ) (f : ℕ → S → S) (s : S) (h : ∀ t s, g (f t s) = g s) : g (forUp n f s) = g s := by
  rw [forUp_comm g n f (fun _ r => r) s fun t _ s => h t s]
  exact forUp_inv (fun _ r => r = g s) n _ _ rfl fun _ _ _ h => h

private theorem pqp_ext {a b : PQP F} (h1 : a.P = b.P) (h2 : a.q = b.q) (h3 : a.A = b.A) (h4 : a.b = b.b) (h5 : a.C = b.C) (h6 : a.l = b.l)
    (h7 : a.u = b.u) : a = b := by
  cases a; cases b; simp_all

/-- with one control dimension the QP is the one a new `SolverPROXQP` assembles. -/
theorem assemble_eq (hu : ∀ t, P.nu t = P.nu 0) (d : Data P) (gap : ℕ → Vec F P.ndx) :
    assemble d gap = PROX.assemble d (fun t => gap (t - 1)) (zeroQP F) := by
  have h1 : assemble d gap = fillRowsTer d (forUp P.T (fillRows d) (fillTerminal d (forUp P.T (fillStage d gap) (zeroQP F)))) := rfl
  have h2 : PROX.assemble d (fun t => gap (t - 1)) (zeroQP F) =
      PROX.fillTerminal d (forUp P.T (PROX.fillStage d fun t => gap (t - 1)) (zeroQP F)) := rfl
  have tP : ∀ m : PQP F, (fillRowsTer d m).P = m.P := by intro m; unfold fillRowsTer; simp only []; split_ifs <;> rfl
  have tq : ∀ m : PQP F, (fillRowsTer d m).q = m.q := by intro m; unfold fillRowsTer; simp only []; split_ifs <;> rfl
  have tA : ∀ m : PQP F, (fillRowsTer d m).A = m.A := by intro m; unfold fillRowsTer; simp only []; split_ifs <;> rfl
  have tb : ∀ m : PQP F, (fillRowsTer d m).b = m.b := by intro m; unfold fillRowsTer; simp only []; split_ifs <;> rfl
  have xP : P.T * P.ndx - P.ndx = (P.T - 1) * P.ndx := by
    rcases Nat.eq_zero_or_pos P.T with h | h
    · simp [h]
    · obtain ⟨n, hn⟩ : ∃ n, P.T = n + 1 := ⟨P.T - 1, by omega⟩
      rw [hn, Nat.add_sub_cancel, Nat.succ_mul, Nat.add_sub_cancel]
  refine pqp_ext ?_ ?_ ?_ ?_ ?_ ?_ ?_
  · rw [PROX.assemble_P, h1, tP, forUp_id (fun m : PQP F => m.P) _ _ _ fun t s => fillRows_P t]
    unfold fillTerminal
    simp only [xP]
    rw [forUp_comm (fun m : PQP F => m.P) P.T (fillStage d gap) (PROX.stageP d) _ fun t _ s => fillStage_P hu t]
  · rw [h1, h2, tq, forUp_id (fun m : PQP F => m.q) _ _ _ fun t s => fillRows_q t]
    have e : ∀ N : PQP F, (PROX.fillTerminal d N).q = setSeg ((P.T - 1) * P.ndx) d.td.Lx N.q := by
      intro N; unfold PROX.fillTerminal; simp only []; split <;> rfl
    rw [e]
    unfold fillTerminal
    simp only []
    rw [forUp_comm (fun m : PQP F => m.q) P.T (fillStage d gap) (fun t v => setSeg (P.nEq + offs P.nu t) (d.rd t).Lu
        (if 0 < t then setSeg ((t - 1) * P.ndx) (d.rd t).Lx v else v)) _ fun t _ s => fillStage_q hu t,
      forUp_comm (fun m : PQP F => m.q) P.T (PROX.fillStage d _) (fun t v => setSeg (P.nEq + offs P.nu t) (d.rd t).Lu
        (if 0 < t then setSeg ((t - 1) * P.ndx) (d.rd t).Lx v else v)) _ fun t _ s => PROX.fillStage_q t]
  · rw [h1, h2, tA, forUp_id (fun m : PQP F => m.A) _ _ _ fun t s => fillRows_A t]
    have e : ∀ N : PQP F, (PROX.fillTerminal d N).A = N.A := by
      intro N; unfold PROX.fillTerminal; simp only []; split <;> rfl
    rw [e]
    unfold fillTerminal
    simp only []
    rw [forUp_comm (fun m : PQP F => m.A) P.T (fillStage d gap) (PROX.stageA d) _ fun t ht s => fillStage_A hu ht,
      forUp_comm (fun m : PQP F => m.A) P.T (PROX.fillStage d _) (PROX.stageA d)]
    intro t _ s
    unfold PROX.fillStage PROX.stageA
    simp only []
    split <;> split <;> rfl
  · rw [h1, h2, tb, forUp_id (fun m : PQP F => m.b) _ _ _ fun t s => fillRows_b t]
    have e : ∀ N : PQP F, (PROX.fillTerminal d N).b = N.b := by
      intro N; unfold PROX.fillTerminal; simp only []; split <;> rfl
    rw [e]
    unfold fillTerminal
    simp only []
    rw [forUp_comm (fun m : PQP F => m.b) P.T (fillStage d gap) (fun t v => setSeg (t * P.ndx) (gap t) v) _ fun t _ s => fillStage_b t,
      forUp_comm (fun m : PQP F => m.b) P.T (PROX.fillStage d _) (fun t v => setSeg (t * P.ndx) (gap (t + 1 - 1)) v) _
        fun t _ s => PROX.fillStage_b t]
    rfl
  · rw [PROX.assemble_C, h1]
    have e : ∀ m : PQP F, (fillRowsTer d m).C = if P.ng P.T ≠ 0 then setBlock (offs P.ng P.T) ((P.T - 1) * P.ndx) d.td.Gx m.C else m.C := by
      intro m; unfold fillRowsTer; simp only []; split_ifs <;> rfl
    rw [e, forUp_comm (fun m : PQP F => m.C) P.T (fillRows d) (PROX.stageC d) _ fun t _ s => fillRows_C hu t]
    have e2 : (fillTerminal d (forUp P.T (fillStage d gap) (zeroQP F))).C = (zeroQP F).C :=
      forUp_id (fun m : PQP F => m.C) _ _ _ fun t s => fillStage_C t
    rw [e2]
  · rw [h1, h2]
    have e : ∀ m : PQP F, (fillRowsTer d m).l = if P.ng P.T ≠ 0 then setSeg (offs P.ng P.T) (loRow (P.lb P.T) d.ter.g) m.l else m.l := by
      intro m; unfold fillRowsTer; simp only []; split_ifs <;> rfl
    have e' : ∀ m : PQP F, (PROX.fillTerminal d m).l = if P.ng P.T ≠ 0 then setSeg (offs P.ng P.T) (loRow (P.lb P.T) d.ter.g) m.l else m.l := by
      intro N; unfold PROX.fillTerminal; simp only []; split <;> rfl
    rw [e, e', forUp_comm (fun m : PQP F => m.l) P.T (fillRows d) (fun t v => if P.ng t ≠ 0 then setSeg (offs P.ng t) (loRow (P.lb t) (d.run t).g) v else v) _
        fun t _ s => fillRows_l t,
      forUp_comm (fun m : PQP F => m.l) P.T (PROX.fillStage d _) (fun t v => if P.ng t ≠ 0 then setSeg (offs P.ng t) (loRow (P.lb t) (d.run t).g) v else v) _ fun t _ s => PROX.fillStage_l t]
    have e2 : (fillTerminal d (forUp P.T (fillStage d gap) (zeroQP F))).l = (zeroQP F).l :=
      forUp_id (fun m : PQP F => m.l) _ _ _ fun t s => fillStage_l t
    rw [e2]
  · rw [h1, h2]
    have e : ∀ m : PQP F, (fillRowsTer d m).u = if P.ng P.T ≠ 0 then setSeg (offs P.ng P.T) (loRow (P.ub P.T) d.ter.g) m.u else m.u := by
      intro m; unfold fillRowsTer; simp only []; split_ifs <;> rfl
    have e' : ∀ m : PQP F, (PROX.fillTerminal d m).u = if P.ng P.T ≠ 0 then setSeg (offs P.ng P.T) (loRow (P.ub P.T) d.ter.g) m.u else m.u := by
      intro N; unfold PROX.fillTerminal; simp only []; split <;> rfl
    rw [e, e', forUp_comm (fun m : PQP F => m.u) P.T (fillRows d) (fun t v => if P.ng t ≠ 0 then setSeg (offs P.ng t) (loRow (P.ub t) (d.run t).g) v else v) _
        fun t _ s => fillRows_u t,
      forUp_comm (fun m : PQP F => m.u) P.T (PROX.fillStage d _) (fun t v => if P.ng t ≠ 0 then setSeg (offs P.ng t) (loRow (P.ub t) (d.run t).g) v else v) _ fun t _ s => PROX.fillStage_u t]
    have e2 : (fillTerminal d (forUp P.T (fillStage d gap) (zeroQP F))).u = (zeroQP F).u :=
      forUp_id (fun m : PQP F => m.u) _ _ _ fun t s => fillStage_u t
    rw [e2]

/-- the entries of the QP. -/
theorem ent (hT : 0 < P.T) (hu : ∀ t, P.nu t = P.nu 0) (d : Data P) (gap : ℕ → Vec F P.ndx) :
    PROX.Ent d (fun t => gap (t - 1)) (assemble d gap) := by
  rw [assemble_eq hu]
  exact (PROX.Pattern.assemble hT (PROX.ColsOK.of_const hu) (PROX.Pattern.new d)).1

end PyDense
end
end Mim
