import Verif.Lemmas.Hpipm
import Verif.Props.PyDense

/-!
# C91: what the Python `CSQP` asks HPIPM and what it keeps of the answer
-/
set_option linter.unusedSectionVars false
set_option linter.unusedSimpArgs false
set_option autoImplicit false

namespace Mim
open Spec Matrix

section
variable {K : Type} [Field K] [LinearOrder K] [IsStrictOrderedRing K] {P : Problem K}

namespace Spec
/-- a stacked vector satisfies the constraints of the dense QP passed to HPIPM. -/
def HDenseFeasible (nv ne ni : ℕ) (m : PyDense.HDense K) (z : FVec K) : Prop :=
  (∀ i, i < ne → prod nv m.A z i = m.b i) ∧
  ∀ i, i < ni → (m.lgOn i = true → m.lg i ≤ prod nv m.C z i) ∧ (m.ugOn i = true → prod nv m.C z i ≤ m.ug i)

/-- its objective `½ z'Hz + g'z`. -/
def hdenseObj (nv : ℕ) (m : PyDense.HDense K) (z : FVec K) : K :=
  (∑ i ∈ Finset.range nv, z i * prod nv m.H z i) / 2 + ∑ i ∈ Finset.range nv, m.g i * z i
end Spec

namespace PyDense

theorem masked_box {n : ℕ} (lb ub : Fin n → Option K) (g c : Vec K n) :
    MaskedBox (finRow lb g) (finMask lb) (finRow ub g) (finMask ub) c ↔ InBox lb ub (g + c) := by
  unfold MaskedBox InBox finRow finMask
  refine forall_congr' fun i => and_congr ?_ ?_
  · cases h : lb i with
    | none => simp
    | some l => simp [add_comm]
  · cases h : ub i with
    | none => simp
    | some l => simp only [Option.isSome_some, Option.getD_some, Option.some.injEq, forall_eq', Pi.add_apply, forall_const]
                constructor <;> intro h <;> linarith

theorem masked_cone {n : ℕ} {lb ub : Fin n → Option K} {g c ll lu : Vec K n}
    (h : MaskedMult (finRow lb g) (finMask lb) (finRow ub g) (finMask ub) c ll lu) :
    NormalCone lb ub (g + c) (lu - ll) ∧ ∀ i, 0 ≤ lu i ∧ 0 ≤ ll i ∧ (0 < ll i → lb i = some ((g + c) i)) := by
  have hl : ∀ i, 0 < ll i → lb i = some ((g + c) i) := by
    intro i hi
    obtain ⟨a, b⟩ := (h i).2.2.1 hi
    unfold finMask at a
    unfold finRow at b
    cases e : lb i with
    | none => rw [e] at a; cases a
    | some l => rw [e, Option.getD_some] at b; rw [Pi.add_apply, b]; congr 1; ring
  have hu : ∀ i, 0 < lu i → ub i = some ((g + c) i) := by
    intro i hi
    obtain ⟨a, b⟩ := (h i).2.2.2 hi
    unfold finMask at a
    unfold finRow at b
    cases e : ub i with
    | none => rw [e] at a; cases a
    | some l => rw [e, Option.getD_some] at b; rw [Pi.add_apply, b]; congr 1; ring
  refine ⟨fun i => ⟨fun hp => hu i ?_, fun hp => hl i ?_⟩, fun i => ⟨(h i).2.1, (h i).1, hl i⟩⟩
  · rw [Pi.sub_apply] at hp; have := (h i).1; linarith
  · rw [Pi.sub_apply] at hp; have := (h i).2.1; linarith

theorem ocp_feasible (hT : 0 < P.T) (d : Data P) (gap : ℕ → Vec K P.ndx) (x : ℕ → Vec K P.ndx) (u : (t : ℕ) → Vec K (P.nu t)) :
    OcpFeasible (ocp d gap) x u ↔ QPFeasible d (fun t => gap (t - 1)) (fix0 x) u := by
  obtain ⟨⟨h1, h2, h3⟩, hQ, hq, hC, hl, hlo, hg, hgo⟩ := ocp_spec d gap hT
  have eA : ∀ t, t < P.T → (ocp d gap).A t *ᵥ x t = (d.rd t).Fx *ᵥ fix0 x t := by
    intro t ht
    cases t with
    | zero => rw [h3.1, zero_mulVec]; exact (mulVec_zero _).symm
    | succ t => rw [(h2 _ (Nat.succ_pos t) ht).1]; rfl
  have eC : ∀ t, t < P.T → (ocp d gap).C t *ᵥ x t = (d.rd t).Gx *ᵥ fix0 x t := by
    intro t ht
    cases t with
    | zero => rw [h3.2.2.2.2, zero_mulVec]; exact (mulVec_zero _).symm
    | succ t => rw [(h2 _ (Nat.succ_pos t) ht).2.2.2.2]; rfl
  have eT : fix0 x P.T = x P.T := by
    obtain ⟨n, hn⟩ : ∃ n, P.T = n + 1 := ⟨P.T - 1, by omega⟩
    rw [hn]; rfl
  have ec : ∀ t, t < P.T → (MaskedBox ((ocp d gap).lg t) ((ocp d gap).lgOn t) ((ocp d gap).ug t) ((ocp d gap).ugOn t)
      ((ocp d gap).C t *ᵥ x t + (ocp d gap).D t *ᵥ u t) ↔ InBox (P.lb t) (P.ub t) ((d.run t).g + conLin d t (fix0 x t) (u t))) := by
    intro t ht
    obtain ⟨-, -, -, -, a5, a6, a7, a8, a9⟩ := h1 t ht
    rw [eC t ht, a5, a6, a7, a8, a9]
    exact masked_box _ _ _ _
  have ecT : MaskedBox ((ocp d gap).lg P.T) ((ocp d gap).lgOn P.T) ((ocp d gap).ug P.T) ((ocp d gap).ugOn P.T)
      ((ocp d gap).C P.T *ᵥ x P.T) ↔ InBox (P.lb P.T) (P.ub P.T) (d.ter.g + d.td.Gx *ᵥ fix0 x P.T) := by
    rw [hl, hlo, hg, hgo, hC, eT]
    exact masked_box _ _ _ _
  have ed : ∀ t, t < P.T → (x (t + 1) = (ocp d gap).A t *ᵥ x t + (ocp d gap).B t *ᵥ u t + (ocp d gap).b t ↔
      fix0 x (t + 1) = (d.rd t).Fx *ᵥ fix0 x t + (d.rd t).Fu *ᵥ u t + gap (t + 1 - 1)) := by
    intro t ht
    obtain ⟨a1, a2, -⟩ := h1 t ht
    rw [eA t ht, a1, a2]
    exact Iff.rfl
  exact ⟨fun h => ⟨rfl, fun t ht => (ed t ht).1 (h.dyn t ht), fun t ht => (ec t ht).1 (h.con t ht), ecT.1 h.conT⟩,
    fun h => ⟨fun t ht => (ed t ht).2 (h.dyn t ht), fun t ht => (ec t ht).2 (h.con t ht), ecT.2 h.conT⟩⟩

theorem ocp_cost (hT : 0 < P.T) (d : Data P) (gap : ℕ → Vec K P.ndx) (x : ℕ → Vec K P.ndx) (u : (t : ℕ) → Vec K (P.nu t)) :
    ocpCost (ocp d gap) x u = quadModel d (fix0 x) u := by
  obtain ⟨⟨h1, h2, h3⟩, hQ, hq, -⟩ := ocp_spec d gap hT
  have eT : fix0 x P.T = x P.T := by
    obtain ⟨n, hn⟩ : ∃ n, P.T = n + 1 := ⟨P.T - 1, by omega⟩
    rw [hn]; rfl
  unfold ocpCost quadModel
  rw [hQ, hq, eT, Finset.sum_congr rfl fun t ht => ?_]
  · ring
  · have ht := Finset.mem_range.mp ht
    obtain ⟨-, -, a3, a4, -⟩ := h1 t ht
    rw [a3, a4]
    cases t with
    | zero =>
      obtain ⟨-, b2, b3, b4, -⟩ := h3
      have e : fix0 x 0 = 0 := rfl
      rw [b2, b3, b4, e, zeroV_exact]
      simp only [zero_mulVec, mulVec_zero, dotProduct_zero, zero_dotProduct]
      ring
    | succ t =>
      obtain ⟨-, b2, b3, b4, -⟩ := h2 _ (Nat.succ_pos t) ht
      have e : fix0 x (t + 1) = x (t + 1) := rfl
      rw [b2, b3, b4, e]
      have : u (t + 1) ⬝ᵥ ((d.rd (t + 1)).Lxuᵀ *ᵥ x (t + 1)) = x (t + 1) ⬝ᵥ ((d.rd (t + 1)).Lxu *ᵥ u (t + 1)) := by
        rw [mulVec_transpose, dotProduct_comm, ← dotProduct_mulVec]
      rw [this]
      ring

/-- a KKT point of the stagewise QP is one of the linearised problem. -/
theorem ocp_kkt (hT : 0 < P.T) {d : Data P} {gap : ℕ → Vec K P.ndx} {a : HOSol P} (h : OcpKKT (ocp d gap) a) :
    QPKKT d (fun t => gap (t - 1)) 0 0 (fix0 a.x) a.u (fun t => a.pi (t - 1)) (fun t => a.lamUg t - a.lamLg t) ∧
    (∀ t, t < P.T → ∀ i, 0 ≤ a.lamUg t i ∧ 0 ≤ a.lamLg t i ∧ (0 < a.lamLg t i → P.lb t i = some (((d.run t).g + conLin d t (fix0 a.x t) (a.u t)) i))) ∧
    ∀ i, 0 ≤ a.lamUg P.T i ∧ 0 ≤ a.lamLg P.T i ∧ (0 < a.lamLg P.T i → P.lb P.T i = some ((d.ter.g + d.td.Gx *ᵥ fix0 a.x P.T) i)) := by
  obtain ⟨⟨h1, h2, h3⟩, hQ, hq, hC, hl, hlo, hg, hgo⟩ := ocp_spec d gap hT
  have eT : fix0 a.x P.T = a.x P.T := by
    obtain ⟨n, hn⟩ : ∃ n, P.T = n + 1 := ⟨P.T - 1, by omega⟩
    rw [hn]; rfl
  have ex : ∀ t, 0 < t → fix0 a.x t = a.x t := by
    intro t ht
    obtain ⟨n, rfl⟩ : ∃ n, t = n + 1 := ⟨t - 1, by omega⟩
    rfl
  have eC : ∀ t, t < P.T → (ocp d gap).C t *ᵥ a.x t = (d.rd t).Gx *ᵥ fix0 a.x t := by
    intro t ht
    cases t with
    | zero => rw [h3.2.2.2.2, zero_mulVec]; exact (mulVec_zero _).symm
    | succ t => rw [(h2 _ (Nat.succ_pos t) ht).2.2.2.2]; rfl
  have hm : ∀ t, t < P.T → MaskedMult (finRow (P.lb t) (d.run t).g) (finMask (P.lb t)) (finRow (P.ub t) (d.run t).g) (finMask (P.ub t))
      (conLin d t (fix0 a.x t) (a.u t)) (a.lamLg t) (a.lamUg t) := by
    intro t ht
    have := h.mult t ht
    obtain ⟨-, -, -, -, a5, a6, a7, a8, a9⟩ := h1 t ht
    rw [eC t ht, a5, a6, a7, a8, a9] at this
    exact this
  have hmT := h.multT
  rw [hl, hlo, hg, hgo, hC, ← eT] at hmT
  refine ⟨⟨(ocp_feasible hT d gap _ _).1 h.feas, fun t h0 ht => ?_, fun t ht => ?_, ?_, fun t ht => (masked_cone (hm t ht)).1, (masked_cone hmT).1⟩,
    fun t ht => (masked_cone (hm t ht)).2, (masked_cone hmT).2⟩
  · have := h.stat_x t h0 ht
    obtain ⟨b1, b2, b3, b4, b5⟩ := h2 t h0 ht
    rw [b1, b2, b3, b4, b5, transpose_transpose] at this
    rw [ex t h0, zero_smul, add_zero, ← this]
    rfl
  · have := h.stat_u t ht
    obtain ⟨b1, -, b3, b4, b5, -⟩ := h1 t ht
    have eS : (ocp d gap).S t *ᵥ a.x t = (d.rd t).Lxuᵀ *ᵥ fix0 a.x t := by
      cases t with
      | zero => rw [h3.2.1, zero_mulVec]; exact (mulVec_zero _).symm
      | succ t => rw [(h2 _ (Nat.succ_pos t) ht).2.1]; rfl
    rw [b1, b3, b4, b5, eS] at this
    rw [zero_smul, add_zero]
    exact this
  · have := h.stat_T
    rw [hQ, hq, hC] at this
    rw [eT, zero_smul, add_zero]
    exact this

/-- the answer of HPIPM stacked and read back. -/
theorem ocp_read (hu : ∀ t, P.nu t = P.nu 0) (a : HOSol P) :
    (∀ t, t ≤ P.T → stX P (ocpRes a) t = fix0 a.x t) ∧ (∀ t, t < P.T → stU P (ocpRes a) t = a.u t) ∧
    (∀ t, 0 < t → t ≤ P.T → stLam P (ocpPi a) t = a.pi (t - 1)) ∧ ∀ t, t ≤ P.T → stY P (ocpLam a) t = a.lamUg t := by
  obtain ⟨h1, h2⟩ := ocpRes_spec hu a
  refine ⟨fun t ht => ?_, fun t ht => ?_, fun t h0 ht => ?_, fun t ht => ?_⟩
  · cases t with
    | zero => rfl
    | succ t => funext i; exact h1 t (by omega) i
  · funext i
    unfold stU
    rw [offs_nu hu]
    exact h2 t ht i
  · obtain ⟨n, rfl⟩ : ∃ n, t = n + 1 := ⟨t - 1, by omega⟩
    funext i
    change -ocpPi a (n * P.ndx + i) = _
    rw [ocpPi_spec a n (by omega) i, neg_neg]
    rfl
  · funext i; exact ocpLam_spec a t ht i

theorem dense_answer (hT : 0 < P.T) (hu : ∀ t, P.nu t = P.nu 0) {hp : ℕ → HDense K → Option (HDSol K)}
    (hh : HDenseExact P.nVars P.nEq P.nIn hp) {k : ℕ} {mem : (hpipmDense P hp).Mem} {d : Data P} {gap : ℕ → Vec K P.ndx} {a : PAns K}
    (hr : (hpipmDense P hp).run k (inputs d gap) = (some a, mem)) :
    (∀ t, t ≤ P.T → ∀ i, 0 ≤ stY P a.z t i) ∧ ∃ lo : (t : ℕ) → Vec K (P.ng t), LowerMult d (stX P a.x) (stU P a.x) lo ∧
      QPKKT d (fun t => gap (t - 1)) 0 0 (stX P a.x) (stU P a.x) (stLam P a.y) (fun t => stY P a.z t - lo t) := by
  have hE := ent hT hu d gap
  have hr' : (match hp k (toHDense (assemble d gap)) with
    | none => (none, (k + 1 : ℕ))
    | some a => (some (PAns.mk a.v (fun i => -a.pi i) a.lamUg a.iters a.pri a.dua), k + 1)) = (some a, mem) := hr
  generalize assemble d gap = Q at hE hr'
  cases ho : hp k (toHDense Q) with
  | none => rw [ho] at hr'; cases hr'
  | some b =>
    rw [ho] at hr'
    obtain ⟨e, -⟩ := Prod.mk.inj hr'
    obtain rfl := Option.some.inj e
    have hk := hh _ _ _ ho
    have hlo : ∀ i, i < P.nIn → 0 < b.lamLg i → Q.l i = some (prod P.nVars Q.C b.v i) := by
      intro i hi hp
      obtain ⟨e1, e2⟩ := hk.lg i hi hp
      change (Q.l i).isSome = true at e1
      change prod P.nVars Q.C b.v i = (Q.l i).getD 0 at e2
      cases e : Q.l i with
      | none => rw [e] at e1; cases e1
      | some l => rw [e, Option.getD_some] at e2; rw [e2]
    have hup : ∀ i, i < P.nIn → 0 < b.lamUg i → Q.u i = some (prod P.nVars Q.C b.v i) := by
      intro i hi hp
      obtain ⟨e1, e2⟩ := hk.ug i hi hp
      change (Q.u i).isSome = true at e1
      change prod P.nVars Q.C b.v i = (Q.u i).getD 0 at e2
      cases e : Q.u i with
      | none => rw [e] at e1; cases e1
      | some l => rw [e, Option.getD_some] at e2; rw [e2]
    have hd : DenseKKT P.nVars P.nEq P.nIn Q b.v (fun i => -b.pi i) (fun j => b.lamUg j - b.lamLg j) := by
      refine ⟨fun i hi => ?_, hk.eq, fun i hi l hl => ?_, fun i hi l hl => ?_, fun i hi hp => ?_, fun i hi hp => ?_⟩
      · have h1 := hk.stat i hi
        have h2 : prodT P.nEq Q.A (fun i => -b.pi i) i = -prodT P.nEq Q.A b.pi i := by
          unfold prodT
          rw [← Finset.sum_neg_distrib]
          exact Finset.sum_congr rfl fun _ _ => by ring
        rw [h2, ← sub_eq_add_neg]
        exact h1
      · have h1 := hk.lo i hi (by change (Q.l i).isSome = true; rw [hl]; rfl)
        change (Q.l i).getD 0 ≤ _ at h1
        rw [hl] at h1
        exact h1
      · have h1 := hk.up i hi (by change (Q.u i).isSome = true; rw [hl]; rfl)
        change _ ≤ (Q.u i).getD 0 at h1
        rw [hl] at h1
        exact h1
      · have := (hk.pos i hi).1
        exact hup i hi (by linarith)
      · have := (hk.pos i hi).2
        exact hlo i hi (by linarith)
    have hin : ∀ t (i : Fin (P.ng t)), t ≤ P.T → offs P.ng t + i < P.nIn := by
      intro t i ht
      exact offs_lt (d := P.ng) (Nat.lt_succ_of_le ht) i.2
    have hq := PROX.qpkkt_of_dense hT hE hd
    refine ⟨fun t ht i => (hk.pos _ (hin t i ht)).2, stY P b.lamLg, ⟨fun t ht i => (hk.pos _ (hin t i ht)).1, fun t ht i hp => ?_, fun i hp => ?_⟩, hq⟩
    · have h1 := hlo _ (hin t i ht.le) hp
      rw [PROX.rowC hE.hC b.v ht i, hE.hv.l t i ht] at h1
      cases e : P.lb t i with
      | none => rw [e] at h1; cases h1
      | some l =>
        rw [e] at h1
        simp only [Option.map_some, Option.some.injEq] at h1
        rw [Pi.add_apply, ← h1]; congr 1; ring
    · have h1 := hlo _ (hin P.T i le_rfl) hp
      rw [PROX.rowC_T hE.hC b.v hT i, hE.hv.lT i] at h1
      cases e : P.lb P.T i with
      | none => rw [e] at h1; cases h1
      | some l =>
        rw [e] at h1
        simp only [Option.map_some, Option.some.injEq] at h1
        rw [Pi.add_apply, ← h1]; congr 1; ring

theorem ocp_answer (hT : 0 < P.T) (hu : ∀ t, P.nu t = P.nu 0) {debug : Bool} {hp : ℕ → OcpQP P → Option (HOSol P)}
    (hh : OcpExact hp) {k : ℕ} {mem : (hpipmOcp P debug hp).Mem} {d : Data P} {gap : ℕ → Vec K P.ndx} {a : PAns K}
    (hr : (hpipmOcp P debug hp).run k (inputs d gap) = (some a, mem)) :
    ∃ (lam : ℕ → Vec K P.ndx) (y : (t : ℕ) → Vec K (P.ng t)), QPKKT d (fun t => gap (t - 1)) 0 0 (stX P a.x) (stU P a.x) lam y ∧
    (debug = true → ∀ t, t ≤ P.T → ∀ i, 0 ≤ stY P a.z t i) ∧
    ∃ lo : (t : ℕ) → Vec K (P.ng t), LowerMult d (stX P a.x) (stU P a.x) lo ∧
      (debug = true → QPKKT d (fun t => gap (t - 1)) 0 0 (stX P a.x) (stU P a.x) (stLam P a.y) (fun t => stY P a.z t - lo t)) := by
  have hr' : (match hp k (ocp d gap) with
    | none => (none, (k + 1 : ℕ))
    | some a => (some (PAns.mk (ocpRes a) (if debug then ocpPi a else fun _ => 0) (if debug then ocpLam a else fun _ => 0) a.iters a.pri a.dua),
        k + 1)) = (some a, mem) := hr
  cases ho : hp k (ocp d gap) with
  | none => rw [ho] at hr'; cases hr'
  | some b =>
    rw [ho] at hr'
    obtain ⟨e, -⟩ := Prod.mk.inj hr'
    obtain rfl := Option.some.inj e
    obtain ⟨hk, hm, hmT⟩ := ocp_kkt hT (hh _ _ _ ho)
    obtain ⟨r1, r2, r3, r4⟩ := ocp_read hu b
    have hall : ∀ t, t ≤ P.T → ∀ i, 0 ≤ b.lamUg t i ∧ 0 ≤ b.lamLg t i := by
      intro t ht i
      rcases Nat.lt_or_eq_of_le ht with ht | rfl
      · exact ⟨(hm t ht i).1, (hm t ht i).2.1⟩
      · exact ⟨(hmT i).1, (hmT i).2.1⟩
    refine ⟨_, _, PROX.qpkkt_congr hk r1 r2 (fun _ _ _ => rfl) (fun _ _ => rfl) hT, fun hd t ht i => ?_, b.lamLg,
      ⟨fun t ht i => (hall t ht i).2, fun t ht i hp => ?_, fun i hp => ?_⟩, fun hd => ?_⟩
    · subst hd
      change 0 ≤ stY P (ocpLam b) t i
      rw [r4 t ht]; exact (hall t ht i).1
    · change P.lb t i = some (((d.run t).g + conLin d t (stX P (ocpRes b) t) (stU P (ocpRes b) t)) i)
      rw [r1 t ht.le, r2 t ht]
      exact (hm t ht i).2.2 hp
    · change P.lb P.T i = some ((d.ter.g + d.td.Gx *ᵥ stX P (ocpRes b) P.T) i)
      rw [r1 P.T le_rfl]
      exact (hmT i).2.2 hp
    · subst hd
      refine PROX.qpkkt_congr hk r1 r2 r3 (fun t ht => ?_) hT
      change stY P (ocpLam b) t - _ = _
      rw [r4 t ht]

end PyDense

namespace PyFull
variable [SqrtOps K]

/-- **C91 (a).**  The stagewise QP passed to HPIPM (`HPIPM_OCP`) at the current candidate is the linearised problem: HPIPM's `x_0` is a free
variable that occurs nowhere else, and whatever its value, a trajectory is feasible iff the step with `dx_0 = 0` satisfies the linearised
dynamics and constraints, and its cost is the quadratic model of that step.  Infinite bounds are switched off. -/
theorem C91_hpipm_ocp_problem (hT : 0 < P.T) (p : PyCSQP P) :
    let d := p.evaluate.data
    let m := PyDense.ocp d p.evaluate.gap
    (FreshCalc P d p.xs p.us ∧ FreshDiff P d p.xs p.us) ∧
    (∀ x u, OcpFeasible m x u ↔ QPFeasible d (gapsAt P p.xs p.us) (fix0 x) u) ∧ ∀ x u, ocpCost m x u = quadModel d (fix0 x) u :=
  ⟨PyCSQP.evaluate_fresh p, fun x u => (PyDense.ocp_feasible hT _ _ x u).trans (QPFeasible.congr_fs (gapAt p)), PyDense.ocp_cost hT _ _⟩

/-- **C91 (b).**  The same for the dense QP passed to HPIPM (`HPIPM_DENSE`), for a problem with one control dimension. -/
theorem C91_hpipm_dense_problem (hT : 0 < P.T) (hu : ∀ t, P.nu t = P.nu 0) (p : PyCSQP P) :
    let d := p.evaluate.data
    let m := PyDense.toHDense (PyDense.assemble d p.evaluate.gap)
    (∀ z, HDenseFeasible P.nVars P.nEq P.nIn m z ↔ QPFeasible d (gapsAt P p.xs p.us) (stX P z) (stU P z)) ∧
    ∀ z, hdenseObj P.nVars m z = quadModel d (stX P z) (stU P z) := by
  intro d m
  obtain ⟨-, h2, h3, -⟩ := C84_dense_problem hT hu p
  refine ⟨fun z => Iff.trans ?_ (h3 z), fun z => h2 z⟩
  refine and_congr Iff.rfl (forall_congr' fun i => forall_congr' fun _ => ?_)
  have h : ∀ (b : Option K) (c : K), ((b.isSome = true → b.getD 0 ≤ c) ↔ ∀ l, b = some l → l ≤ c) ∧
      ((b.isSome = true → c ≤ b.getD 0) ↔ ∀ l, b = some l → c ≤ l) := by
    intro b c
    cases b with
    | none => simp
    | some l => simp
  exact and_congr (h ((PyDense.assemble d p.evaluate.gap).l i) _).1 (h ((PyDense.assemble d p.evaluate.gap).u i) _).2

/-- **C91 (c), `HPIPM_DENSE`.**  With an exact HPIPM, the stored step and dynamics multipliers belong to a KKT point of the linearised
problem of the candidate; of the multipliers of the constraints only the part of the upper bounds is stored: it is nonnegative, and the
multipliers of the KKT point are `y - lo` where `lo` are those of the lower bounds. -/
theorem C91_hpipm_dense_direction (hT : 0 < P.T) (hu : ∀ t, P.nu t = P.nu 0) {hp : ℕ → PyDense.HDense K → Option (PyDense.HDSol K)}
    (hh : HDenseExact P.nVars P.nEq P.nIn hp) {s s1 : PyFull (PyDense.hpipmDense P hp)}
    (h : computeDirection { s with p := s.p.evaluate } = .ok s1) :
    (∀ t, t ≤ P.T → ∀ i, 0 ≤ s1.p.q.y t i) ∧ ∃ lo : (t : ℕ) → Vec K (P.ng t), LowerMult s1.p.data s1.p.q.dx s1.p.q.du lo ∧
      QPKKT s1.p.data (gapsAt P s.p.xs s.p.us) 0 0 s1.p.q.dx s1.p.q.du s1.p.lagMul (fun t => s1.p.q.y t - lo t) := by
  obtain ⟨a, m, hr, rfl⟩ := computeDirection_ok h
  obtain ⟨r1, r2, r3, r4⟩ := read_spec (B := PyDense.hpipmDense P hp) hu a { p := s.p.evaluate, m := m, nQP := s.nQP }
  obtain ⟨k1, lo, k2, k3⟩ := PyDense.dense_answer hT hu hh hr
  have e : (readAnswer a { p := s.p.evaluate, m := m, nQP := s.nQP } : PyFull (PyDense.hpipmDense P hp)).p.data = s.p.evaluate.data := rfl
  refine ⟨fun t ht i => by rw [r4 t ht]; exact k1 t ht i, lo, k2.congr (fun t ht => r1 t ht) r2, ?_⟩
  exact QPKKT.congr_fs (gapAt s.p) (PROX.qpkkt_congr k3 r1 r2 r3 (fun t ht => by rw [r4 t ht]) hT)

/-- **C91 (c), `HPIPM_OCP` with `DEBUG`.**  The same. -/
theorem C91_hpipm_ocp_direction (hT : 0 < P.T) (hu : ∀ t, P.nu t = P.nu 0) {hp : ℕ → PyDense.OcpQP P → Option (PyDense.HOSol P)}
    (hh : OcpExact hp) {s s1 : PyFull (PyDense.hpipmOcp P true hp)}
    (h : computeDirection { s with p := s.p.evaluate } = .ok s1) :
    (∀ t, t ≤ P.T → ∀ i, 0 ≤ s1.p.q.y t i) ∧ ∃ lo : (t : ℕ) → Vec K (P.ng t), LowerMult s1.p.data s1.p.q.dx s1.p.q.du lo ∧
      QPKKT s1.p.data (gapsAt P s.p.xs s.p.us) 0 0 s1.p.q.dx s1.p.q.du s1.p.lagMul (fun t => s1.p.q.y t - lo t) := by
  obtain ⟨a, m, hr, rfl⟩ := computeDirection_ok h
  obtain ⟨r1, r2, r3, r4⟩ := read_spec (B := PyDense.hpipmOcp P true hp) hu a { p := s.p.evaluate, m := m, nQP := s.nQP }
  obtain ⟨-, -, -, k1, lo, k2, k3⟩ := PyDense.ocp_answer hT hu hh hr
  refine ⟨fun t ht i => by rw [r4 t ht]; exact k1 rfl t ht i, lo, k2.congr (fun t ht => r1 t ht) r2, ?_⟩
  exact QPKKT.congr_fs (gapAt s.p) (PROX.qpkkt_congr (k3 rfl) r1 r2 r3 (fun t ht => by rw [r4 t ht]) hT)

/-- **C91 (d), the step.**  With an exact HPIPM (dense, or stagewise with or without `DEBUG`) and symmetric positive semidefinite Hessians,
the step minimises the quadratic model among all steps that satisfy the linearised dynamics and constraints. -/
theorem C91_hpipm_optimal (hT : 0 < P.T) (hu : ∀ t, P.nu t = P.nu 0) :
    (∀ {hp : ℕ → PyDense.HDense K → Option (PyDense.HDSol K)}, HDenseExact P.nVars P.nEq P.nIn hp → ∀ {s s1 : PyFull (PyDense.hpipmDense P hp)},
      computeDirection { s with p := s.p.evaluate } = .ok s1 → SymHess s1.p.data → Convex s1.p.data 0 0 →
      QPFeasible s1.p.data (gapsAt P s.p.xs s.p.us) s1.p.q.dx s1.p.q.du ∧
      ∀ x u, QPFeasible s1.p.data (gapsAt P s.p.xs s.p.us) x u → quadModel s1.p.data s1.p.q.dx s1.p.q.du ≤ quadModel s1.p.data x u) ∧
    ∀ {debug : Bool} {hp : ℕ → PyDense.OcpQP P → Option (PyDense.HOSol P)}, OcpExact hp → ∀ {s s1 : PyFull (PyDense.hpipmOcp P debug hp)},
      computeDirection { s with p := s.p.evaluate } = .ok s1 → SymHess s1.p.data → Convex s1.p.data 0 0 →
      QPFeasible s1.p.data (gapsAt P s.p.xs s.p.us) s1.p.q.dx s1.p.q.du ∧
      ∀ x u, QPFeasible s1.p.data (gapsAt P s.p.xs s.p.us) x u → quadModel s1.p.data s1.p.q.dx s1.p.q.du ≤ quadModel s1.p.data x u := by
  constructor
  · intro hp hh s s1 h hsym hcx
    obtain ⟨-, lo, -, hk⟩ := C91_hpipm_dense_direction hT hu hh h
    refine ⟨hk.feas, fun x u hf => ?_⟩
    have := QPKKT.global hsym hcx hk hf
    rwa [PROX.cost_quadModel, PROX.cost_quadModel] at this
  · intro debug hp hh s s1 h hsym hcx
    obtain ⟨a, m, hr, rfl⟩ := computeDirection_ok h
    obtain ⟨r1, r2, -, -⟩ := read_spec (B := PyDense.hpipmOcp P debug hp) hu a { p := s.p.evaluate, m := m, nQP := s.nQP }
    obtain ⟨lam, y, k1, -⟩ := PyDense.ocp_answer hT hu hh hr
    have hk := QPKKT.congr_fs (gapAt s.p) (PROX.qpkkt_congr k1 r1 r2 (fun t _ _ => rfl) (fun t _ => rfl) hT)
    refine ⟨hk.feas, fun x u hf => ?_⟩
    have := QPKKT.global hsym hcx hk hf
    rwa [PROX.cost_quadModel, PROX.cost_quadModel] at this

/-- **C91 (e).**  For a problem without lower bounds the kept multipliers are all of them: with an exact HPIPM, `HPIPM_DENSE` and
`HPIPM_OCP` with `DEBUG` are back ends whose answers are KKT points of the linearised problem, so that C88 applies to them. -/
theorem C91_hpipm_no_lower (hT : 0 < P.T) (hu : ∀ t, P.nu t = P.nu 0) (hn : NoLower P) :
    (∀ {hp : ℕ → PyDense.HDense K → Option (PyDense.HDSol K)}, HDenseExact P.nVars P.nEq P.nIn hp → BackExact (PyDense.hpipmDense P hp)) ∧
    ∀ {hp : ℕ → PyDense.OcpQP P → Option (PyDense.HOSol P)}, OcpExact hp → BackExact (PyDense.hpipmOcp P true hp) := by
  constructor
  · intro hp hh mem d gap a mem' hr
    obtain ⟨-, lo, k2, k3⟩ := PyDense.dense_answer hT hu hh hr
    exact PROX.qpkkt_congr k3 (fun _ _ => rfl) (fun _ _ => rfl) (fun _ _ _ => rfl) (fun t ht => by rw [k2.zero hn t ht, sub_zero]) hT
  · intro hp hh mem d gap a mem' hr
    obtain ⟨-, -, -, -, lo, k2, k3⟩ := PyDense.ocp_answer hT hu hh hr
    exact PROX.qpkkt_congr (k3 rfl) (fun _ _ => rfl) (fun _ _ => rfl) (fun _ _ _ => rfl) (fun t ht => by rw [k2.zero hn t ht, sub_zero]) hT

end PyFull
end
end Mim
