import Verif.Lemmas.QPIter

/-!
# `update_lagrangian_parameters` and `apply_rho_update`, node by node
-/
set_option linter.unusedSectionVars false
set_option linter.unusedSimpArgs false

namespace Mim
section
variable {F : Type} [Add F] [Sub F] [Mul F] [Div F] [Neg F] [Zero F] [One F] [FloatOps F] {P : Problem F}
variable {E : QEnv P}
open QP

/-- constraint values of the new step at a running node. -/
def Cd (E : QEnv P) (v : CVars P) (t : ℕ) : Vec F (P.ng t) := mv (E.d.rd t).Gx (v.dxt t) + mv (E.d.rd t).Gu (v.dut t)
/-- the same at the terminal node. -/
def CdT (E : QEnv P) (v : CVars P) : Vec F (P.ng P.T) := mv E.d.td.Gx (v.dxt P.T)

/-- new `(z_relaxed, z, y)` of a running node. -/
def admmR (E : QEnv P) (v : CVars P) (t : ℕ) :=
  admmNode E.c.alpha (P.lb t) (P.ub t) (E.d.run t).g (Cd E v t) (v.z t) (v.y t) (v.rho t) (v.inv t)
/-- the same for the terminal node. -/
def admmT (E : QEnv P) (v : CVars P) :=
  admmNode E.c.alpha (P.lb P.T) (P.ub P.T) E.d.ter.g (CdT E v) (v.z P.T) (v.y P.T) (v.rho P.T) (v.inv P.T)

/-- what the update does to the ADMM variables. -/
structure LagOK (E : QEnv P) (v v' : CVars P) : Prop where
  dx : ∀ t, t ≤ P.T → v'.dx t = v.dxt t
  du : ∀ t, t < P.T → v'.du t = v.dut t
  dxt : v'.dxt = v.dxt
  dut : v'.dut = v.dut
  rho : v'.rho = v.rho
  inv : v'.inv = v.inv
  zPrev : ∀ t, t ≤ P.T → v'.zPrev t = v.z t
  run : ∀ t, t < P.T → v'.zRel t = (admmR E v t).1 ∧ v'.z t = (admmR E v t).2.1 ∧ v'.y t = (admmR E v t).2.2
  ter : v'.zRel P.T = (admmT E v).1 ∧ v'.z P.T = (admmT E v).2.1 ∧ v'.y P.T = (admmT E v).2.2

/-- what one stage does. -/
theorem lagStage_spec (it t : ℕ) (v : CVars P) (n : CNorms F) :
    let v' := (lagStage E it t (v, n)).1
    v'.dx = Function.update v.dx t (v.dxt t) ∧ v'.du = Function.update v.du t (v.dut t) ∧ v'.dxt = v.dxt ∧ v'.dut = v.dut ∧
    v'.rho = v.rho ∧ v'.inv = v.inv ∧ v'.zPrev t = v.z t ∧ v'.zRel t = (admmR E v t).1 ∧ v'.z t = (admmR E v t).2.1 ∧
    v'.y t = (admmR E v t).2.2 ∧ ∀ j, j ≠ t → v'.zPrev j = v.zPrev j ∧ v'.zRel j = v.zRel j ∧ v'.z j = v.z j ∧ v'.y j = v.y j := by
  unfold lagStage
  by_cases h : P.ng t = 0
  · simp only [h, if_true]
    exact ⟨trivial, trivial, trivial, trivial, trivial, trivial, vec_empty h _ _, vec_empty h _ _, vec_empty h _ _,
      vec_empty h _ _, fun j _ => ⟨trivial, trivial, trivial, trivial⟩⟩
  · simp only [h, if_false]
    refine ⟨trivial, trivial, trivial, trivial, trivial, trivial, ?_, ?_, ?_, ?_, fun j hj => ?_⟩
    · simp only [Function.update_self]
    · simp only [Function.update_self]; rfl
    · simp only [Function.update_self]; rfl
    · simp only [Function.update_self]; rfl
    · simp only [Function.update_of_ne hj, and_self]

theorem lagTerm_spec (it : ℕ) (v : CVars P) (n : CNorms F) :
    let v' := (lagTerm E it (v, n)).1
    v'.dx = Function.update v.dx P.T (v.dxt P.T) ∧ v'.du = v.du ∧ v'.dxt = v.dxt ∧ v'.dut = v.dut ∧
    v'.rho = v.rho ∧ v'.inv = v.inv ∧ v'.zPrev P.T = v.z P.T ∧ v'.zRel P.T = (admmT E v).1 ∧ v'.z P.T = (admmT E v).2.1 ∧
    v'.y P.T = (admmT E v).2.2 ∧
    ∀ j, j ≠ P.T → v'.zPrev j = v.zPrev j ∧ v'.zRel j = v.zRel j ∧ v'.z j = v.z j ∧ v'.y j = v.y j := by
  unfold lagTerm
  by_cases h : P.ng P.T = 0
  · simp only [h, ne_eq, not_true_eq_false, if_false]
    exact ⟨trivial, trivial, trivial, trivial, trivial, trivial, vec_empty h _ _, vec_empty h _ _, vec_empty h _ _,
      vec_empty h _ _, fun j _ => ⟨trivial, trivial, trivial, trivial⟩⟩
  · simp only [h, ne_eq, not_false_eq_true, if_true]
    refine ⟨trivial, trivial, trivial, trivial, trivial, trivial, ?_, ?_, ?_, ?_, fun j hj => ?_⟩
    · simp only [Function.update_self]
    · simp only [Function.update_self]; rfl
    · simp only [Function.update_self]; rfl
    · simp only [Function.update_self]; rfl
    · simp only [Function.update_of_ne hj, and_self]

theorem lagUp_spec (it n : ℕ) (v : CVars P) (nn : CNorms F) :
    let v' := (forUp n (lagStage E it) (v, nn)).1
    v'.dxt = v.dxt ∧ v'.dut = v.dut ∧ v'.rho = v.rho ∧ v'.inv = v.inv ∧
    (∀ t, t < n → v'.dx t = v.dxt t ∧ v'.du t = v.dut t ∧ v'.zPrev t = v.z t ∧ v'.zRel t = (admmR E v t).1 ∧
      v'.z t = (admmR E v t).2.1 ∧ v'.y t = (admmR E v t).2.2) ∧
    ∀ t, n ≤ t → v'.z t = v.z t ∧ v'.y t = v.y t := by
  simp only []
  refine forUp_inv (fun n (s : CVars P × CNorms F) => s.1.dxt = v.dxt ∧ s.1.dut = v.dut ∧ s.1.rho = v.rho ∧
    s.1.inv = v.inv ∧
    (∀ t, t < n → s.1.dx t = v.dxt t ∧ s.1.du t = v.dut t ∧ s.1.zPrev t = v.z t ∧ s.1.zRel t = (admmR E v t).1 ∧
      s.1.z t = (admmR E v t).2.1 ∧ s.1.y t = (admmR E v t).2.2) ∧
    ∀ t, n ≤ t → s.1.z t = v.z t ∧ s.1.y t = v.y t) n _ (v, nn)
    ⟨rfl, rfl, rfl, rfl, fun t ht => by omega, fun t _ => ⟨rfl, rfl⟩⟩ ?_
  rintro t ht ⟨v1, n1⟩ ⟨i1, i2, i3, i4, i5, i6⟩
  simp only [] at i1 i2 i3 i4 i5 i6
  obtain ⟨s1, s2, s3, s4, s5, s6, s7, s8, s9, s10, s11⟩ := lagStage_spec (E := E) it t v1 n1
  have ea : admmR E v1 t = admmR E v t := by
    unfold admmR Cd
    rw [i1, i2, i3, i4, (i6 t le_rfl).1, (i6 t le_rfl).2]
  refine ⟨s3.trans i1, s4.trans i2, s5.trans i3, s6.trans i4, fun j hj => ?_, fun j hj => ?_⟩
  · rw [s1, s2]
    by_cases e : j = t
    · subst e
      rw [s7, s8, s9, s10, ea, Function.update_self, Function.update_self, i1, i2]
      exact ⟨rfl, rfl, (i6 j le_rfl).1, rfl, rfl, rfl⟩
    · obtain ⟨a1, a2, a3, a4⟩ := s11 j e
      rw [a1, a2, a3, a4, Function.update_of_ne e, Function.update_of_ne e]
      exact i5 j (by omega)
  · obtain ⟨_, _, a3, a4⟩ := s11 j (by omega)
    rw [a3, a4]; exact i6 j (by omega)

/-- **`update_lagrangian_parameters`, node by node.** -/
theorem updateLag_ok (q : CQP P) : LagOK E q.v (q.updateLag E).v := by
  unfold CQP.updateLag
  simp only []
  obtain ⟨u1, u2, u3, u4, u5, u6⟩ := lagUp_spec (E := E) q.qpIters P.T q.v ⟨negInf, negInf, negInf, negInf⟩
  generalize forUp P.T (lagStage E q.qpIters) (q.v, ⟨negInf, negInf, negInf, negInf⟩) = s at *
  obtain ⟨v1, n1⟩ := s
  simp only [] at u1 u2 u3 u4 u5 u6
  obtain ⟨s1, s2, s3, s4, s5, s6, s7, s8, s9, s10, s11⟩ := lagTerm_spec (E := E) q.qpIters v1 n1
  have ea : admmT E v1 = admmT E q.v := by
    unfold admmT CdT
    rw [u1, u3, u4, (u6 P.T le_rfl).1, (u6 P.T le_rfl).2]
  refine ⟨fun t ht => ?_, fun t ht => ?_, s3.trans u1, s4.trans u2, s5.trans u3, s6.trans u4, fun t ht => ?_,
    fun t ht => ?_, ?_⟩
  · rw [s1]
    rcases Nat.eq_or_lt_of_le ht with rfl | ht
    · rw [Function.update_self, u1]
    · rw [Function.update_of_ne (by omega)]; exact (u5 t ht).1
  · rw [s2]; exact (u5 t ht).2.1
  · rcases Nat.eq_or_lt_of_le ht with rfl | ht
    · rw [s7]; exact (u6 _ le_rfl).1
    · rw [(s11 t (by omega)).1]; exact (u5 t ht).2.2.1
  · obtain ⟨_, a2, a3, a4⟩ := s11 t (by omega)
    rw [a2, a3, a4]; exact (u5 t ht).2.2.2
  · rw [s8, s9, s10, ea]; exact ⟨rfl, rfl, rfl⟩

/-! ## penalties -/

variable [SqrtOps F]

/-- the variables other than the penalties are untouched by the penalty update. -/
theorem updateRho_v (q : CQP P) : ∃ r i, (q.updateRho E).v = { q.v with rho := r, inv := i } := by
  unfold CQP.updateRho
  simp only []
  split
  · split
    · exact ⟨_, _, rfl⟩
    · exact ⟨_, _, rfl⟩
  · exact ⟨_, _, rfl⟩

end
end Mim
