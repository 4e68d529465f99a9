import Verif.Spec.Hpipm
import Verif.Lemmas.PyDense
import Verif.Lemmas.ProxQuad
import Verif.Lemmas.Fejer

/-!
# What is passed to HPIPM and what is read from its answer
-/
set_option linter.unusedSectionVars false
set_option linter.unusedSimpArgs false

namespace Mim
namespace PyDense

section
variable {F : Type} [Add F] [Sub F] [Mul F] [Div F] [Neg F] [Zero F] [One F] [FloatOps F] {P : Problem F}
variable (d : Data P) (gap : ℕ → Vec F P.ndx)

/-- the stagewise QP after the nodes `0..n-1`. -/
structure OcpUpTo (n : ℕ) (m : OcpQP P) : Prop where
  run : ∀ t, t < n → m.B t = (d.rd t).Fu ∧ m.b t = gap t ∧ m.R t = (d.rd t).Luu ∧ m.r t = (d.rd t).Lu ∧ m.D t = (d.rd t).Gu ∧
    m.lg t = finRow (P.lb t) (d.run t).g ∧ m.lgOn t = finMask (P.lb t) ∧ m.ug t = finRow (P.ub t) (d.run t).g ∧ m.ugOn t = finMask (P.ub t)
  pos : ∀ t, 0 < t → t < n → m.A t = (d.rd t).Fx ∧ m.S t = (d.rd t).Lxu.transpose ∧ m.Q t = (d.rd t).Lxx ∧ m.q t = (d.rd t).Lx ∧
    m.C t = (d.rd t).Gx
  zero : m.A 0 = 0 ∧ m.S 0 = 0 ∧ m.Q 0 = 0 ∧ m.q 0 = zeroV F _ ∧ m.C 0 = 0

theorem OcpUpTo.stage {n : ℕ} {m : OcpQP P} (h : OcpUpTo d gap n m) : OcpUpTo d gap (n + 1) (ocpStage d gap n m) := by
  obtain ⟨h1, h2, h3⟩ := h
  have hlt : ∀ t, t < n + 1 → t = n ∨ (t ≠ n ∧ t < n) := fun t ht => by omega
  rcases Nat.eq_zero_or_pos n with rfl | hn
  · refine ⟨fun t ht => ?_, fun t h0 ht => by omega, ?_⟩
    · obtain rfl : t = 0 := by omega
      simp [ocpStage]
    · simpa [ocpStage] using h3
  · have hn' : 1 ≤ n := hn
    refine ⟨fun t ht => ?_, fun t h0 ht => ?_, ?_⟩
    · rcases hlt t ht with rfl | ⟨hne, ht⟩
      · simp [ocpStage, hn']
      · simpa [ocpStage, hn', Function.update_of_ne hne] using h1 t ht
    · rcases hlt t ht with rfl | ⟨hne, ht⟩
      · simp [ocpStage, hn']
      · simpa [ocpStage, hn', Function.update_of_ne hne] using h2 t h0 ht
    · have hne : (0 : ℕ) ≠ n := by omega
      simpa [ocpStage, hn', Function.update_of_ne hne] using h3

theorem ocp_upTo (n : ℕ) : OcpUpTo d gap n (forUp n (ocpStage d gap) (ocpZero P)) := by
  induction n with
  | zero => exact ⟨fun t ht => by omega, fun t _ ht => by omega, rfl, rfl, rfl, rfl, rfl⟩
  | succ n ih => rw [forUp_succ]; exact ih.stage

/-- the entries of the stagewise QP. -/
theorem ocp_spec (hT : 0 < P.T) : OcpUpTo d gap P.T (ocp d gap) ∧ (ocp d gap).Q P.T = d.td.Lxx ∧ (ocp d gap).q P.T = d.td.Lx ∧
    (ocp d gap).C P.T = d.td.Gx ∧ (ocp d gap).lg P.T = finRow (P.lb P.T) d.ter.g ∧ (ocp d gap).lgOn P.T = finMask (P.lb P.T) ∧
    (ocp d gap).ug P.T = finRow (P.ub P.T) d.ter.g ∧ (ocp d gap).ugOn P.T = finMask (P.ub P.T) := by
  obtain ⟨h1, h2, h3⟩ := ocp_upTo d gap P.T
  unfold ocp
  generalize forUp P.T (ocpStage d gap) (ocpZero P) = m at h1 h2 h3 ⊢
  have h0 : (0 : ℕ) ≠ P.T := by omega
  by_cases hg : 0 < P.ng P.T
  · refine ⟨⟨fun t ht => ?_, fun t hp ht => ?_, ?_⟩, ?_⟩
    · simpa [ocpTerminal, hg, Function.update_of_ne (show t ≠ P.T by omega)] using h1 t ht
    · simpa [ocpTerminal, hg, Function.update_of_ne (show t ≠ P.T by omega)] using h2 t hp ht
    · simpa [ocpTerminal, hg, Function.update_of_ne h0] using h3
    · simp [ocpTerminal, hg]
  · have hz : ∀ i : Fin (P.ng P.T), False := fun i => hg (by have := i.2; omega)
    refine ⟨⟨fun t ht => ?_, fun t hp ht => ?_, ?_⟩, by simp [ocpTerminal, hg], by simp [ocpTerminal, hg], ?_, ?_, ?_, ?_, ?_⟩
    · simpa [ocpTerminal, hg, Function.update_of_ne (show t ≠ P.T by omega)] using h1 t ht
    · simpa [ocpTerminal, hg, Function.update_of_ne (show t ≠ P.T by omega)] using h2 t hp ht
    · simpa [ocpTerminal, hg, Function.update_of_ne h0] using h3
    · ext i; exact (hz i).elim
    · funext i; exact (hz i).elim
    · funext i; exact (hz i).elim
    · funext i; exact (hz i).elim
    · funext i; exact (hz i).elim

variable {d gap}

/-- the step stacked for the reading. -/
theorem ocpRes_spec (hu : ∀ t, P.nu t = P.nu 0) (a : HOSol P) :
    (∀ t, t < P.T → ∀ i : Fin P.ndx, ocpRes a (t * P.ndx + i) = a.x (t + 1) i) ∧
    ∀ t, t < P.T → ∀ i : Fin (P.nu t), ocpRes a (P.T * P.ndx + t * P.nu 0 + i) = a.u t i := by
  have key : ∀ n, n ≤ P.T → (∀ t, t < n → ∀ i : Fin P.ndx, (forUp n (fun t r => setSeg (P.T * P.ndx + t * P.nu 0) (a.u t)
        (setSeg (t * P.ndx) (a.x (t + 1)) r)) fun _ => (0 : F)) (t * P.ndx + i) = a.x (t + 1) i) ∧
      ∀ t, t < n → ∀ i : Fin (P.nu t), (forUp n (fun t r => setSeg (P.T * P.ndx + t * P.nu 0) (a.u t)
        (setSeg (t * P.ndx) (a.x (t + 1)) r)) fun _ => (0 : F)) (P.T * P.ndx + t * P.nu 0 + i) = a.u t i := by
    intro n
    induction n with
    | zero => exact fun _ => ⟨fun t ht => by omega, fun t ht => by omega⟩
    | succ n ih =>
      intro hn
      obtain ⟨i1, i2⟩ := ih (by omega)
      refine ⟨fun t ht i => ?_, fun t ht i => ?_⟩
      · rw [forUp_succ]
        have := blk_lt i.2 (show t < P.T by omega)
        rw [setSeg_out _ _ (.inl (by omega))]
        rcases Nat.lt_succ_iff_lt_or_eq.mp ht with ht | rfl
        · rw [setSeg_out _ _ (blk_ne i.2 (by omega))]
          exact i1 t ht i
        · exact setSeg_in _ _ i
      · rw [forUp_succ]
        have hn' : P.nu n = P.nu 0 := hu n
        have hi : (i : ℕ) < P.nu 0 := (hu t) ▸ i.2
        rcases Nat.lt_succ_iff_lt_or_eq.mp ht with ht | rfl
        · have hb := blk_ne (n := P.nu 0) hi (show t ≠ n by omega)
          have hx : n * P.ndx + P.ndx ≤ P.T * P.ndx := by
            calc n * P.ndx + P.ndx = (n + 1) * P.ndx := by ring
              _ ≤ P.T * P.ndx := Nat.mul_le_mul_right _ hn
          rw [setSeg_out _ _ (by rw [hn']; omega), setSeg_out _ _ (.inr (by omega))]
          exact i2 t ht i
        · exact setSeg_in _ _ i
  exact key P.T le_rfl

theorem ocpPi_spec (a : HOSol P) : ∀ t, t < P.T → ∀ i : Fin P.ndx, ocpPi a (t * P.ndx + i) = -a.pi t i := by
  have key : ∀ n, n ≤ P.T → ∀ t, t < n → ∀ i : Fin P.ndx,
      (forUp n (fun t r => setSeg (t * P.ndx) (-a.pi t) r) fun _ => (0 : F)) (t * P.ndx + i) = -a.pi t i := by
    intro n
    induction n with
    | zero => exact fun _ t ht => by omega
    | succ n ih =>
      intro hn t ht i
      rw [forUp_succ]
      rcases Nat.lt_succ_iff_lt_or_eq.mp ht with ht | rfl
      · rw [setSeg_out _ _ (blk_ne i.2 (by omega))]
        exact ih (by omega) t ht i
      · exact setSeg_in _ _ i
  exact key P.T le_rfl

theorem ocpLam_spec (a : HOSol P) : ∀ t, t ≤ P.T → ∀ i : Fin (P.ng t), ocpLam a (offs P.ng t + i) = a.lamUg t i := by
  have key : ∀ n, ∀ t, t < n → ∀ i : Fin (P.ng t), (forUp n (fun t r => if 0 < P.ng t then setSeg (offs P.ng t) (a.lamUg t) r else r)
      fun _ => (0 : F)) (offs P.ng t + i) = a.lamUg t i := by
    intro n
    induction n with
    | zero => exact fun t ht => by omega
    | succ n ih =>
      intro t ht i
      rw [forUp_succ]
      rcases Nat.lt_succ_iff_lt_or_eq.mp ht with ht | rfl
      · split
        · rw [setSeg_out _ _ (offs_ne i.2 (by omega))]
          exact ih t ht i
        · exact ih t ht i
      · rw [if_pos (by have := i.2; omega)]
        exact setSeg_in _ _ i
  exact fun t ht => key (P.T + 1) t (by omega)

end
end PyDense
end Mim
