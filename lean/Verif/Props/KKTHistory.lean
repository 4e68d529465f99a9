import Verif.Lemmas.KKTInv
import Verif.Lemmas.SQPTry
import Verif.Lemmas.SQPHist
import Verif.Spec.Examples

/-!
# C93: what SolverKKT remembers from earlier solves
-/
set_option linter.unusedSectionVars false
set_option linter.unusedSimpArgs false
set_option autoImplicit false

namespace Mim

/-- a linear solver reads the `n × n` entries of the matrix and the `n` of the right-hand side, nothing else. -/
def Spec.LULocal {F : Type} (lu : LU F) : Prop :=
  ∀ (n : ℕ) (M M' : FMat F) (v v' : FVec F), (∀ i j, i < n → j < n → M i j = M' i j) → (∀ i, i < n → v i = v' i) → lu n M v = lu n M' v'

section
variable {F : Type} [Add F] [Sub F] [Mul F] [Div F] [Neg F] [Zero F] [One F] [FloatOps F] {P : Problem F}

namespace KKT
open Spec

/-- A state of the solver the public API can produce: construction, changes of the parameters, `calcDiff` and the other public methods through
`solve` and `computeDirection`, foreign evaluations of the problem. -/
inductive Reachable : KKT P → Prop
  | new (d : Data P) : Reachable (KKT.new d)
  | setParams (s : KKT P) (c : KConf F) : Reachable s → Reachable { s with c := c }
  | data (s : KKT P) (d : Data P) : Reachable s → Reachable { s with data := d }
  | setCandidate (s : KKT P) (xs : Traj P) (us : Ctrls P) (f : Bool) : Reachable s → Reachable { s with xs := xs, us := us, feas := f }
  | direction (s : KKT P) (lu : LU F) : Reachable s → Reachable (s.direction lu)
  | calcDiff (s : KKT P) : Reachable s → Reachable s.calcDiff
  | tryStep (s : KKT P) (a : F) : Reachable s → Reachable (s.trial a)
  | improve (s : KKT P) : Reachable s → Reachable s.improve
  | stopping (s : KKT P) : Reachable s → Reachable s.stopping
  | solve (s : KKT P) (lu : LU F) (xs : Option (Traj P)) (us : Option (Ctrls P)) (m : ℕ) (f : Bool) : Reachable s →
      Reachable (KKT.solve lu xs us m f s).2

theorem Reachable.inv {s : KKT P} (h : Reachable s) : Inv s := by
  induction h with
  | new d => exact inv_new d
  | setParams s c _ ih => exact ⟨ih.pattern, ih.fs⟩
  | data s d _ ih => exact ⟨ih.pattern, ih.fs⟩
  | setCandidate s xs us f _ ih => exact ⟨ih.pattern, ih.fs⟩
  | direction s lu _ ih => exact inv_direction lu ih
  | calcDiff s _ ih => exact ⟨(entries_assemble ih.pattern).toKPart.toKPattern, ih.fs⟩
  | tryStep s a _ ih => exact ⟨ih.pattern, ih.fs⟩
  | improve s _ ih => exact ⟨ih.pattern, ih.fs⟩
  | stopping s _ ih => exact ⟨ih.pattern, ih.fs⟩
  | solve s lu xs us m f _ ih => exact inv_solve lu xs us m f ih

/-- every position of the stacked vector belongs to a state, a control or a multiplier. -/
theorem cover {i : ℕ} (h : i < P.nS) : (∃ t, t ≤ P.T ∧ ∃ j : Fin P.ndx, i = t * P.ndx + j) ∨
    (∃ t, t < P.T ∧ ∃ j : Fin (P.nu t), i = P.nX + offs P.nu t + j) ∨
    ∃ t, t ≤ P.T ∧ ∃ j : Fin P.ndx, i = P.nP + (t * P.ndx + j) := by
  have cov : ∀ k, k < P.nX → ∃ t, t ≤ P.T ∧ ∃ j : Fin P.ndx, k = t * P.ndx + j := by
    intro k hk
    have hk' : k < offs (fun _ => P.ndx) (P.T + 1) := by rw [offs_const]; exact hk
    obtain ⟨t, ht, j, hj, e⟩ := offs_cover hk'
    rw [offs_const] at e
    exact ⟨t, by omega, ⟨j, hj⟩, e⟩
  by_cases h1 : i < P.nX
  · exact Or.inl (cov i h1)
  · by_cases h2 : i < P.nP
    · obtain ⟨t, ht, j, hj, e⟩ := offs_cover (d := P.nu) (n := P.T) (j := i - P.nX) (by rw [Problem.nP, Problem.nU] at h2; omega)
      exact Or.inr (Or.inl ⟨t, ht, ⟨j, hj⟩, by simp only; omega⟩)
    · obtain ⟨t, ht, j, e⟩ := cov (i - P.nP) (by rw [Problem.nS] at h; omega)
      exact Or.inr (Or.inr ⟨t, ht, j, by omega⟩)

/-- equal data of the nodes of the problem. -/
structure SameD (d d' : Data P) : Prop where
  run : ∀ t, t < P.T → d.run t = d'.run t
  ter : d.ter = d'.ter
  rd : ∀ t, t < P.T → d.rd t = d'.rd t
  td : d.td = d'.td

theorem sameD_fresh (d d' : Data P) (xs : Traj P) (us : Ctrls P) :
    SameD ((d.calcAll xs us).calcDiffAll xs us) ((d'.calcAll xs us).calcDiffAll xs us) :=
  ⟨fun t ht => (if_pos ht).trans (if_pos ht).symm, rfl, fun t ht => (if_pos ht).trans (if_pos ht).symm, rfl⟩

theorem entries_eq {d d' : Data P} {M M' : FMat F} (hd : SameD d d') (h : Entries d M) (h' : Entries d' M') {i j : ℕ} (hi : i < P.nS)
    (hj : j < P.nS) : M i j = M' i j := by
  have lx : ∀ (t t' : ℕ) (i j : Fin P.ndx), t ≤ P.T → t' ≤ P.T → M (P.nP + (t * P.ndx + i)) (t' * P.ndx + j) = M' (P.nP + (t * P.ndx + i)) (t' * P.ndx + j) := by
    intro t t' i j ht ht'
    by_cases e : t = t' + 1
    · subst e; rw [h.efx t' i j (by omega), h'.efx t' i j (by omega), hd.rd t' (by omega)]
    · rw [h.elx t t' i j ht ht' (fun k => e k.1), h'.elx t t' i j ht ht' (fun k => e k.1)]
  have lu : ∀ (t t' : ℕ) (i : Fin P.ndx) (j : Fin (P.nu t')), t ≤ P.T → t' < P.T →
      M (P.nP + (t * P.ndx + i)) (P.nX + offs P.nu t' + j) = M' (P.nP + (t * P.ndx + i)) (P.nX + offs P.nu t' + j) := by
    intro t t' i j ht ht'
    by_cases e : t = t' + 1
    · subst e; rw [h.efu t' i j ht', h'.efu t' i j ht', hd.rd t' ht']
    · rw [h.lu t t' i j ht ht' e, h'.lu t t' i j ht ht' e]
  rcases cover hi with ⟨t, ht, a, rfl⟩ | ⟨t, ht, a, rfl⟩ | ⟨t, ht, a, rfl⟩ <;>
    rcases cover hj with ⟨t', ht', b, rfl⟩ | ⟨t', ht', b, rfl⟩ | ⟨t', ht', b, rfl⟩
  · by_cases e : t = t'
    · subst e
      rcases Nat.lt_or_eq_of_le ht with k | k
      · rw [h.exx t a b k, h'.exx t a b k, hd.rd t k]
      · subst k; rw [h.exxT, h'.exxT, hd.td]
    · rw [h.xx t t' a b ht ht' e, h'.xx t t' a b ht ht' e]
  · by_cases e : t = t'
    · subst e; rw [h.exu t a b ht', h'.exu t a b ht', hd.rd t ht']
    · rw [h.xu t t' a b ht ht' e, h'.xu t t' a b ht ht' e]
  · rw [h.exl t t' a b ht ht', h'.exl t t' a b ht ht', lx t' t b a ht' ht]
  · by_cases e : t = t'
    · subst e; rw [h.eux t a b ht, h'.eux t a b ht, hd.rd t ht]
    · rw [h.ux t t' a b ht ht' e, h'.ux t t' a b ht ht' e]
  · by_cases e : t = t'
    · subst e; rw [h.euu t a b ht, h'.euu t a b ht, hd.rd t ht]
    · rw [h.uu t t' a b ht ht' e, h'.uu t t' a b ht ht' e]
  · rw [h.eul t t' a b ht ht', h'.eul t t' a b ht ht', lu t' t b a ht' ht]
  · exact lx t t' a b ht ht'
  · exact lu t t' a b ht ht'
  · rw [h.ll t t' a b ht ht', h'.ll t t' a b ht ht']

theorem ref_eq {d d' : Data P} {xs : Traj P} {v v' : FVec F} (hd : SameD d d') (h : RefEntries d xs v) (h' : RefEntries d' xs v') {i : ℕ}
    (hi : i < P.nS) : v i = v' i := by
  rcases cover hi with ⟨t, ht, a, rfl⟩ | ⟨t, ht, a, rfl⟩ | ⟨t, ht, a, rfl⟩
  · rcases Nat.lt_or_eq_of_le ht with k | k
    · rw [h.x t a k, h'.x t a k, hd.rd t k]
    · subst k; rw [h.xT, h'.xT, hd.td]
  · rw [h.u t a ht, h'.u t a ht, hd.rd t ht]
  · cases t with
    | zero => rw [Nat.zero_mul, Nat.zero_add, h.l0, h'.l0]
    | succ t => rw [h.l t a ht, h'.l t a ht, hd.run t ht]

theorem totalCost_calc (d d' : Data P) (xs : Traj P) (us : Ctrls P) : (d.calcAll xs us).totalCost = (d'.calcAll xs us).totalCost := by
  unfold Data.totalCost
  rw [sumUp_congr P.T (fun t => ((d.calcAll xs us).run t).cost) (fun t => ((d'.calcAll xs us).run t).cost)
    (fun t ht => congrArg RunCalc.cost ((if_pos ht).trans (if_pos ht).symm))]
  rfl

theorem residual_eq {d d' : Data P} (hr : ∀ t, t < P.T → d.rd t = d'.rd t) (ht : d.td = d'.td) {fs fs' lam : ℕ → Vec F P.ndx} (hf : fs = fs') :
    residual d fs lam = residual d' fs' lam := by
  subst hf
  unfold residual
  simp only []
  rw [forUp_congr' P.T _ (fun t K => cppMax (cppMax K (normInf ((d'.rd t).Lx + mv (d'.rd t).Fx.transpose (lam (t + 1)) - lam t)))
    (normInf ((d'.rd t).Lu + mv (d'.rd t).Fu.transpose (lam (t + 1))))) (fun t h => by rw [hr t h]), ht]

theorem dF_eq {d d' : Data P} (hr : ∀ t, t < P.T → d.rd t = d'.rd t) (lam : ℕ → Vec F P.ndx) (v : FVec F) : dF d lam v = dF d' lam v := by
  unfold dF
  simp only []
  rw [forUp_congr' P.T _ (fun t v => setSeg (P.nX + offs P.nu t) (-mv (d'.rd t).Fu.transpose (lam (t + 1)))
    (setSeg (t * P.ndx) (lam t - mv (d'.rd t).Fx.transpose (lam (t + 1))) v)) (fun t h => by rw [hr t h])]

/-- two solvers at the beginning of an iteration; `l`, `l'` are the logs at the beginning of `solve`. -/
structure Pre (l l' : List (ℕ × F)) (s s' : KKT P) : Prop where
  c : s.c = s'.c
  iter : s.iter = s'.iter
  xs : s.xs = s'.xs
  us : s.us = s'.us
  feas : s.feas = s'.feas
  was : s.wasFeas = s'.wasFeas
  inv : Inv s
  inv' : Inv s'
  log : ∃ e, s.log = l ++ e ∧ s'.log = l' ++ e

/-- … and after the direction was computed. -/
structure Mid (l l' : List (ℕ × F)) (s s' : KKT P) : Prop extends Pre l l' s s' where
  cost : s.cost = s'.cost
  dxs : s.dxs = s'.dxs
  dus : s.dus = s'.dus
  lam : s.lam = s'.lam
  d0 : s.d0 = s'.d0
  d1 : s.d1 = s'.d1
  res : s.kktRes = s'.kktRes
  rd : ∀ t, t < P.T → s.data.rd t = s'.data.rd t
  td : s.data.td = s'.data.td
  ref : ∀ i, i < P.nS → s.ref i = s'.ref i

theorem direction_mid {lu : LU F} (hlu : LULocal lu) (hT : 0 < P.T) {l l' : List (ℕ × F)} {s s' : KKT P} (h : Pre l l' s s') :
    Mid l l' (s.direction lu).improve (s'.direction lu).improve := by
  have hd : SameD ((s.data.calcAll s.xs s.us).calcDiffAll s.xs s.us) ((s'.data.calcAll s.xs s.us).calcDiffAll s.xs s.us) := sameD_fresh _ _ _ _
  have hE : ∀ i j, i < P.nS → j < P.nS → s.calcDiff.kkt i j = s'.calcDiff.kkt i j := by
    intro i j hi hj
    refine entries_eq (d' := (s'.data.calcAll s'.xs s'.us).calcDiffAll s'.xs s'.us) ?_ (entries_assemble h.inv.pattern) (entries_assemble h.inv'.pattern) hi hj
    rw [← h.xs, ← h.us]; exact hd
  have hR : ∀ i, i < P.nS → s.calcDiff.ref i = s'.calcDiff.ref i := by
    intro i hi
    have h2 := refEntries (d := (s'.data.calcAll s'.xs s'.us).calcDiffAll s'.xs s'.us) hT s'.xs s'.ref
    rw [← h.xs, ← h.us] at h2
    change assembleRef _ s.xs s.ref i = assembleRef _ s'.xs s'.ref i
    rw [← h.xs, ← h.us]
    exact ref_eq hd (refEntries hT s.xs s.ref) h2 hi
  have hpd : lu P.nS s.calcDiff.kkt (fun i => -(s.calcDiff.ref i)) = lu P.nS s'.calcDiff.kkt (fun i => -(s'.calcDiff.ref i)) :=
    hlu _ _ _ _ _ hE fun i hi => by rw [hR i hi]
  have hpd' : (s.direction lu).pd = (s'.direction lu).pd := hpd
  have hnP : P.nP ≤ P.nS := Nat.le_add_right _ _
  have hfs : s.fs = s'.fs := funext fun t => (h.inv.fs t).trans (h.inv'.fs t).symm
  have hdat : SameD (s.direction lu).data (s'.direction lu).data := by
    change SameD _ ((s'.data.calcAll s'.xs s'.us).calcDiffAll s'.xs s'.us)
    rw [← h.xs, ← h.us]; exact hd
  have hlam : (s.direction lu).lam = (s'.direction lu).lam := funext fun t => by
    change seg _ _ (s.direction lu).pd = seg _ _ (s'.direction lu).pd
    rw [hpd']
  have i1 : Inv (s.direction lu).improve := ⟨(inv_direction lu h.inv).pattern, (inv_direction lu h.inv).fs⟩
  have i2 : Inv (s'.direction lu).improve := ⟨(inv_direction lu h.inv').pattern, (inv_direction lu h.inv').fs⟩
  have e0 : (s.direction lu).improve.cost = (s'.direction lu).improve.cost := by
      change (s.data.calcAll s.xs s.us).totalCost = (s'.data.calcAll s'.xs s'.us).totalCost
      rw [← h.xs, ← h.us]; exact totalCost_calc _ _ _ _
  have e1 : (s.direction lu).improve.dxs = (s'.direction lu).improve.dxs := funext fun t => by
      change seg _ _ (s.direction lu).pd = seg _ _ (s'.direction lu).pd
      rw [hpd']
  have e2 : (s.direction lu).improve.dus = (s'.direction lu).improve.dus := funext fun t => by
      change seg _ _ (s.direction lu).pd = seg _ _ (s'.direction lu).pd
      rw [hpd']
  have e3 : (s.direction lu).improve.d0 = (s'.direction lu).improve.d0 := by
      change -dot (seg 0 P.nP s.calcDiff.ref) (seg 0 P.nP (s.direction lu).pd) = -dot (seg 0 P.nP s'.calcDiff.ref) (seg 0 P.nP (s'.direction lu).pd)
      rw [hpd', show (seg 0 P.nP s.calcDiff.ref : Vec F P.nP) = seg 0 P.nP s'.calcDiff.ref from funext fun i => hR _ (by have := i.2; omega)]
  have e4 : (s.direction lu).improve.d1 = (s'.direction lu).improve.d1 := by
      change -dot (mv (Matrix.of fun i j : Fin P.nP => s.calcDiff.kkt i j) (seg 0 P.nP (s.direction lu).pd)) (seg 0 P.nP (s.direction lu).pd) =
        -dot (mv (Matrix.of fun i j : Fin P.nP => s'.calcDiff.kkt i j) (seg 0 P.nP (s'.direction lu).pd)) (seg 0 P.nP (s'.direction lu).pd)
      rw [hpd', show (Matrix.of fun i j : Fin P.nP => s.calcDiff.kkt i j) = Matrix.of fun i j : Fin P.nP => s'.calcDiff.kkt i j from
        funext fun i => funext fun j => hE _ _ (by have := i.2; omega) (by have := j.2; omega)]
  have e5 : (s.direction lu).improve.kktRes = (s'.direction lu).improve.kktRes := by
      change residual (s.direction lu).data s.fs (s.direction lu).lam = residual (s'.direction lu).data s'.fs (s'.direction lu).lam
      rw [hlam]
      exact residual_eq hdat.rd hdat.td hfs
  have e6 : (s.direction lu).improve.lam = (s'.direction lu).improve.lam := hlam
  have e7 : ∀ t, t < P.T → (s.direction lu).improve.data.rd t = (s'.direction lu).improve.data.rd t := hdat.rd
  have e8 : (s.direction lu).improve.data.td = (s'.direction lu).improve.data.td := hdat.td
  have e9 : ∀ i, i < P.nS → (s.direction lu).improve.ref i = (s'.direction lu).improve.ref i := hR
  have b1 : (s.direction lu).improve.c = (s'.direction lu).improve.c := by simp only [improve, direction, split, primalDual, calcDiff]; exact h.c
  have b2 : (s.direction lu).improve.iter = (s'.direction lu).improve.iter := by simp only [improve, direction, split, primalDual, calcDiff]; exact h.iter
  have b3 : (s.direction lu).improve.xs = (s'.direction lu).improve.xs := by simp only [improve, direction, split, primalDual, calcDiff]; exact h.xs
  have b4 : (s.direction lu).improve.us = (s'.direction lu).improve.us := by simp only [improve, direction, split, primalDual, calcDiff]; exact h.us
  have b5 : (s.direction lu).improve.feas = (s'.direction lu).improve.feas := by simp only [improve, direction, split, primalDual, calcDiff]; exact h.feas
  have b6 : (s.direction lu).improve.wasFeas = (s'.direction lu).improve.wasFeas := by simp only [improve, direction, split, primalDual, calcDiff]; exact h.was
  have b7 : ∃ e, (s.direction lu).improve.log = l ++ e ∧ (s'.direction lu).improve.log = l' ++ e := by simp only [improve, direction, split, primalDual, calcDiff]; exact h.log
  generalize (s.direction lu).improve = q at *
  generalize (s'.direction lu).improve = q' at *
  exact ⟨⟨b1, b2, b3, b4, b5, b6, i1, i2, b7⟩, e0, e1, e2, e6, e3, e4, e5, e7, e8, e9⟩

theorem search_mid {l l' : List (ℕ × F)} : ∀ (as : List F) (s s' : KKT P), Mid l l' s s' → Mid l l' (search as s) (search as s')
  | [], _, _, h => h
  | a :: as, s, s', h => by
    have hx : (trial a { s with steplength := a }).xsTry = (trial a { s' with steplength := a }).xsTry := by
      change (fun t => P.integrate (s.xs t) (sv a (s.dxs t))) = fun t => P.integrate (s'.xs t) (sv a (s'.dxs t))
      rw [h.xs, h.dxs]
    have hu : (trial a { s with steplength := a }).usTry = (trial a { s' with steplength := a }).usTry := by
      change (fun t => if P.nu t ≠ 0 then s.us t + sv a (s.dus t) else s.usTry t) = fun t => if P.nu t ≠ 0 then s'.us t + sv a (s'.dus t) else s'.usTry t
      funext t
      by_cases e : P.nu t ≠ 0
      · rw [if_pos e, if_pos e, h.us, h.dus]
      · rw [if_neg e, if_neg e]
        funext i
        exact absurd i.2 (by omega)
    have hc : (trial a { s with steplength := a }).costTry = (trial a { s' with steplength := a }).costTry := by
      change (s.data.calcAll (trial a { s with steplength := a }).xsTry (trial a { s with steplength := a }).usTry).totalCost =
        (s'.data.calcAll (trial a { s' with steplength := a }).xsTry (trial a { s' with steplength := a }).usTry).totalCost
      rw [hx, hu]; exact totalCost_calc _ _ _ _
    have hV : (trial a { s with steplength := a }).dV = (trial a { s' with steplength := a }).dV := by
      change s.cost - (trial a { s with steplength := a }).costTry = s'.cost - (trial a { s' with steplength := a }).costTry
      rw [hc, h.cost]
    have hcond : (ltb s.d0 s.c.thGrad || !s.feas || ltb (s.c.thAccept * (a * s.d0 + lit (1 / 2) * a * a * s.d1)) (trial a { s with steplength := a }).dV) =
        (ltb s'.d0 s'.c.thGrad || !s'.feas || ltb (s'.c.thAccept * (a * s'.d0 + lit (1 / 2) * a * a * s'.d1)) (trial a { s' with steplength := a }).dV) := by
      rw [hV, h.d0, h.d1, h.c, h.feas]
    rw [search, search]
    simp only []
    change Mid l l' (if (ltb s.d0 s.c.thGrad || !s.feas || ltb (s.c.thAccept * (a * s.d0 + lit (1 / 2) * a * a * s.d1)) (trial a { s with steplength := a }).dV) = true
      then _ else _) (if (ltb s'.d0 s'.c.thGrad || !s'.feas || ltb (s'.c.thAccept * (a * s'.d0 + lit (1 / 2) * a * a * s'.d1)) (trial a { s' with steplength := a }).dV) = true
      then _ else _)
    rw [hcond]
    split
    · exact
      { c := h.c, iter := h.iter, xs := hx, us := hu, feas := rfl, was := h.feas, inv := ⟨h.inv.pattern, h.inv.fs⟩, inv' := ⟨h.inv'.pattern, h.inv'.fs⟩
        log := h.log, cost := hc, dxs := h.dxs, dus := h.dus, lam := h.lam, d0 := h.d0, d1 := h.d1, res := h.res, rd := h.rd, td := h.td, ref := h.ref }
    · refine search_mid as _ _ ?_
      exact
      { c := h.c, iter := h.iter, xs := h.xs, us := h.us, feas := h.feas, was := h.was, inv := ⟨h.inv.pattern, h.inv.fs⟩, inv' := ⟨h.inv'.pattern, h.inv'.fs⟩
        log := h.log, cost := h.cost, dxs := h.dxs, dus := h.dus, lam := h.lam, d0 := h.d0, d1 := h.d1, res := h.res, rd := h.rd, td := h.td, ref := h.ref }

theorem body_mid {lu : LU F} (hlu : LULocal lu) (hT : 0 < P.T) {l l' : List (ℕ × F)} {s s' : KKT P} (h : Pre l l' s s') :
    (body lu s).1 = (body lu s').1 ∧ Mid l l' (body lu s).2 (body lu s').2 := by
  have h1 := direction_mid hlu hT h
  have h2 := search_mid (s.direction lu).improve.c.alphas _ _ h1
  have hs : (search (s.direction lu).improve.c.alphas (s.direction lu).improve).stopping.stop =
      (search (s.direction lu).improve.c.alphas (s'.direction lu).improve).stopping.stop := by
    unfold stopping
    simp only []
    have hnP : P.nP ≤ P.nS := Nat.le_add_right _ _
    rw [h2.lam, dF_eq h2.rd]
    congr 1
    · exact congrArg sqNorm (funext fun i => by rw [h2.ref i (by have := i.2; omega)])
    · refine congrArg sqNorm (funext fun i => ?_)
      exact h2.ref _ (by have := i.2; unfold Problem.nS; omega)
  have hc : (s'.direction lu).improve.c = (s.direction lu).improve.c := h1.c.symm
  unfold body
  simp only []
  rw [hc, ← h1.res]
  split
  · exact ⟨rfl, h1⟩
  · have hm : Mid l l' (search (s.direction lu).improve.c.alphas (s.direction lu).improve).stopping.callbacks
        (search (s.direction lu).improve.c.alphas (s'.direction lu).improve).stopping.callbacks := by
      obtain ⟨e, e1, e2⟩ := h2.log
      exact
      { c := h2.c, iter := h2.iter, xs := h2.xs, us := h2.us, feas := h2.feas, was := h2.was, inv := ⟨h2.inv.pattern, h2.inv.fs⟩, inv' := ⟨h2.inv'.pattern, h2.inv'.fs⟩
        log := by
          refine ⟨e ++ (List.range (search (s.direction lu).improve.c.alphas (s.direction lu).improve).c.ncb).map fun _ =>
            ((search (s.direction lu).improve.c.alphas (s.direction lu).improve).iter, (search (s.direction lu).improve.c.alphas (s.direction lu).improve).kktRes), ?_, ?_⟩
          · rw [← List.append_assoc, ← e1]; rfl
          · rw [← List.append_assoc, ← e2, h2.c, h2.iter, h2.res]; rfl
        cost := h2.cost, dxs := h2.dxs, dus := h2.dus, lam := h2.lam, d0 := h2.d0, d1 := h2.d1, res := h2.res, rd := h2.rd, td := h2.td, ref := h2.ref }
    have hcond : ((search (s.direction lu).improve.c.alphas (s.direction lu).improve).stopping.callbacks.wasFeas &&
        ltb (search (s.direction lu).improve.c.alphas (s.direction lu).improve).stopping.callbacks.stop
          (search (s.direction lu).improve.c.alphas (s.direction lu).improve).stopping.callbacks.c.thStop) =
        ((search (s.direction lu).improve.c.alphas (s'.direction lu).improve).stopping.callbacks.wasFeas &&
        ltb (search (s.direction lu).improve.c.alphas (s'.direction lu).improve).stopping.callbacks.stop
          (search (s.direction lu).improve.c.alphas (s'.direction lu).improve).stopping.callbacks.c.thStop) := by
      change (_ && ltb (search (s.direction lu).improve.c.alphas (s.direction lu).improve).stopping.stop _) =
        (_ && ltb (search (s.direction lu).improve.c.alphas (s'.direction lu).improve).stopping.stop _)
      rw [hs, hm.was, hm.c]
    rw [hcond]
    split
    · exact ⟨rfl, hm⟩
    · exact ⟨rfl, hm⟩

theorem iterate_mid {lu : LU F} (hlu : LULocal lu) (hT : 0 < P.T) {l l' : List (ℕ × F)} : ∀ (n : ℕ) (s s' : KKT P), Pre l l' s s' →
    (iterate lu n s).1 = (iterate lu n s').1 ∧ Pre l l' (iterate lu n s).2 (iterate lu n s').2 ∧
      (0 < n → Mid l l' (iterate lu n s).2 { (iterate lu n s').2 with iter := (iterate lu n s').2.iter })
  | 0, _, _, h => ⟨rfl, h, fun k => absurd k (by omega)⟩
  | n + 1, s, s', h => by
    obtain ⟨hb, hm⟩ := body_mid hlu hT h
    rw [iterate, iterate]
    generalize body lu s = r at hb hm ⊢
    generalize body lu s' = r' at hb hm ⊢
    obtain ⟨o, q⟩ := r
    obtain ⟨o', q'⟩ := r'
    obtain rfl : o = o' := hb
    cases o with
    | some b => exact ⟨rfl, hm.toPre, fun _ => hm⟩
    | none =>
      simp only [] at hm ⊢
      have hp : Mid l l' { q with iter := q.iter + 1 } { q' with iter := q'.iter + 1 } :=
        { c := hm.c, iter := congrArg (· + 1) hm.iter, xs := hm.xs, us := hm.us, feas := hm.feas, was := hm.was
          inv := ⟨hm.inv.pattern, hm.inv.fs⟩, inv' := ⟨hm.inv'.pattern, hm.inv'.fs⟩
          log := hm.log, cost := hm.cost, dxs := hm.dxs, dus := hm.dus, lam := hm.lam, d0 := hm.d0, d1 := hm.d1, res := hm.res, rd := hm.rd, td := hm.td, ref := hm.ref }
      obtain ⟨i1, i2, i3⟩ := iterate_mid hlu hT n _ _ hp.toPre
      refine ⟨i1, i2, fun _ => ?_⟩
      cases n with
      | zero => exact hp
      | succ n => exact i3 (Nat.succ_pos n)

/-- what two calls of `solve` have in common: the trajectory, flag, number of iterations, the callbacks' events; and, if there was an iteration,
cost, direction, multipliers, residual and the two numbers of `expectedImprovement`. -/
structure SameAnswer (l l' : List (ℕ × F)) (m : ℕ) (a a' : KKT P) : Prop where
  xs : a.xs = a'.xs
  us : a.us = a'.us
  feas : a.feas = a'.feas
  iter : a.iter = a'.iter
  events : ∃ e, a.log = l ++ e ∧ a'.log = l' ++ e
  cost : 0 < m → a.cost = a'.cost
  dxs : 0 < m → a.dxs = a'.dxs
  dus : 0 < m → a.dus = a'.dus
  lam : 0 < m → a.lam = a'.lam
  res : 0 < m → a.kktRes = a'.kktRes
  d : 0 < m → a.d0 = a'.d0 ∧ a.d1 = a'.d1

end KKT
open Spec

theorem KKT.history_inv {lu : LU F} (hlu : LULocal lu) (hT : 0 < P.T) {s s' : KKT P} (hr : KKT.Inv s) (hr' : KKT.Inv s')
    (hc : s.c = s'.c) (hw : s.wasFeas = s'.wasFeas) (xs : Option (Traj P)) (us : Option (Ctrls P)) (m : ℕ) (feas : Bool) :
    (KKT.solve lu xs us m feas s).1 = (KKT.solve lu xs us m feas s').1 ∧
    KKT.SameAnswer s.log s'.log m (KKT.solve lu xs us m feas s).2 (KKT.solve lu xs us m feas s').2 ∧
    (KKT.solve lu xs us m feas s).2.wasFeas = (KKT.solve lu xs us m feas s').2.wasFeas := by
  obtain ⟨h1, h2, h3⟩ := KKT.iterate_mid hlu hT m
    { s with xs := xs.getD fun _ => P.zeroX, us := us.getD fun t => zeroV F (P.nu t), feas := feas, iter := 0 }
    { s' with xs := xs.getD fun _ => P.zeroX, us := us.getD fun t => zeroV F (P.nu t), feas := feas, iter := 0 }
    { c := hc, iter := rfl, xs := rfl, us := rfl, feas := rfl, was := hw, inv := ⟨hr.pattern, hr.fs⟩, inv' := ⟨hr'.pattern, hr'.fs⟩
      log := ⟨[], (List.append_nil _).symm, (List.append_nil _).symm⟩ }
  unfold KKT.solve
  simp only []
  generalize KKT.iterate lu m { s with xs := xs.getD fun _ => P.zeroX, us := us.getD fun t => zeroV F (P.nu t), feas := feas, iter := 0 } = r at h1 h2 h3 ⊢
  generalize KKT.iterate lu m { s' with xs := xs.getD fun _ => P.zeroX, us := us.getD fun t => zeroV F (P.nu t), feas := feas, iter := 0 } = r' at h1 h2 h3 ⊢
  obtain ⟨o, q⟩ := r
  obtain ⟨o', q'⟩ := r'
  obtain rfl : o = o' := h1
  have ha : KKT.SameAnswer s.log s'.log m q q' :=
    ⟨h2.xs, h2.us, h2.feas, h2.iter, h2.log, fun k => (h3 k).cost, fun k => (h3 k).dxs, fun k => (h3 k).dus, fun k => (h3 k).lam,
      fun k => (h3 k).res, fun k => ⟨(h3 k).d0, (h3 k).d1⟩⟩
  cases o with
  | some b => exact ⟨rfl, ha, h2.was⟩
  | none => exact ⟨rfl, ha, h2.was⟩

/-- **C93 (a).**  SolverKKT: two objects for the same problem with any histories, the same parameters now and the same `was_feasible`, and a linear
solver that reads only the system it is given: every call of `solve` gives both the same returned value, trajectory, flags, iteration count
and callback events, and if `maxiter ≥ 1` the same cost, direction, multipliers, residual and expected improvement. -/
theorem C93_kkt_history {lu : LU F} (hlu : LULocal lu) (hT : 0 < P.T) {s s' : KKT P} (hr : KKT.Reachable s) (hr' : KKT.Reachable s')
    (hc : s.c = s'.c) (hw : s.wasFeas = s'.wasFeas) (xs : Option (Traj P)) (us : Option (Ctrls P)) (m : ℕ) (feas : Bool) :
    (KKT.solve lu xs us m feas s).1 = (KKT.solve lu xs us m feas s').1 ∧
    KKT.SameAnswer s.log s'.log m (KKT.solve lu xs us m feas s).2 (KKT.solve lu xs us m feas s').2 ∧
    (KKT.solve lu xs us m feas s).2.wasFeas = (KKT.solve lu xs us m feas s').2.wasFeas :=
  KKT.history_inv hlu hT hr.inv hr'.inv hc hw xs us m feas

namespace KKT

theorem search_was (b : Bool) {s : KKT P} {a : F} {as : List F} (hf : s.feas = false) :
    search (a :: as) { s with wasFeas := b } = search (a :: as) s := by
  rw [search, search]
  simp only []
  have e : ∀ w : Bool, (trial a { s with wasFeas := w, steplength := a }).feas = false := fun _ => hf
  have h : ∀ w : Bool, (ltb (trial a { s with wasFeas := w, steplength := a }).d0 (trial a { s with wasFeas := w, steplength := a }).c.thGrad ||
      !(trial a { s with wasFeas := w, steplength := a }).feas) = true := fun w => by rw [e w]; simp
  have h' : (ltb (trial a { s with steplength := a }).d0 (trial a { s with steplength := a }).c.thGrad ||
      !(trial a { s with steplength := a }).feas) = true := h s.wasFeas
  rw [if_pos (by simp only [h b, Bool.true_or]), if_pos (by simp only [h', Bool.true_or])]
  rfl

/-- the iteration started with another value of `was_feasible_`. -/
theorem body_was (lu : LU F) (b : Bool) {s : KKT P} (hf : s.feas = false) (ha : s.c.alphas ≠ []) :
    body lu { s with wasFeas := b } =
      if leb (s.direction lu).improve.kktRes (s.direction lu).improve.c.tol then (some true, { (s.direction lu).improve with wasFeas := b })
      else body lu s := by
  have e : (KKT.direction lu { s with wasFeas := b }).improve = { (s.direction lu).improve with wasFeas := b } := rfl
  obtain ⟨a, as, has⟩ : ∃ a as, (s.direction lu).improve.c.alphas = a :: as := by
    cases h : s.c.alphas with
    | nil => exact absurd h ha
    | cons a as => exact ⟨a, as, by simp only [improve, direction, split, primalDual, calcDiff]; exact h⟩
  have hfe : (s.direction lu).improve.feas = false := by simp only [improve, direction, split, primalDual, calcDiff]; exact hf
  unfold body
  rw [e]
  generalize (s.direction lu).improve = q at has hfe ⊢
  simp only []
  split
  · rfl
  · rw [has, search_was b hfe]

end KKT

/-- **C93 (b).**  … and if `is_feasible` is false, as by default, and there is a step length to try, the histories do not matter at all:
`was_feasible` need not be the same. -/
theorem C93_kkt_history_default {lu : LU F} (hlu : LULocal lu) (hT : 0 < P.T) {s s' : KKT P} (hr : KKT.Reachable s) (hr' : KKT.Reachable s')
    (hc : s.c = s'.c) (ha : s.c.alphas ≠ []) (xs : Option (Traj P)) (us : Option (Ctrls P)) (m : ℕ) :
    (KKT.solve lu xs us m false s).1 = (KKT.solve lu xs us m false s').1 ∧
    KKT.SameAnswer s.log s'.log m (KKT.solve lu xs us m false s).2 (KKT.solve lu xs us m false s').2 := by
  have hi : KKT.Inv { s' with wasFeas := s.wasFeas } := ⟨hr'.inv.pattern, hr'.inv.fs⟩
  obtain ⟨h1, h2, -⟩ := KKT.history_inv hlu hT hr.inv hi hc rfl xs us m false
  have key : (KKT.solve lu xs us m false { s' with wasFeas := s.wasFeas }).1 = (KKT.solve lu xs us m false s').1 ∧
      ∃ b, (KKT.solve lu xs us m false { s' with wasFeas := s.wasFeas }).2 = { (KKT.solve lu xs us m false s').2 with wasFeas := b } := by
    cases m with
    | zero => exact ⟨rfl, s.wasFeas, rfl⟩
    | succ m =>
      unfold KKT.solve
      simp only []
      rw [KKT.iterate, KKT.iterate, KKT.body_was lu s.wasFeas
        (s := { s' with xs := xs.getD fun _ => P.zeroX, us := us.getD fun t => zeroV F (P.nu t), feas := false, iter := 0 }) rfl (by rw [hc] at ha; exact ha)]
      generalize hq : ({ s' with xs := xs.getD fun _ => P.zeroX, us := us.getD fun t => zeroV F (P.nu t), feas := false, iter := 0 } : KKT P) = q
      by_cases k : leb (q.direction lu).improve.kktRes (q.direction lu).improve.c.tol = true
      · rw [if_pos k, KKT.body, if_pos k]
        exact ⟨rfl, s.wasFeas, rfl⟩
      · rw [if_neg k]
        exact ⟨rfl, _, rfl⟩
  obtain ⟨k1, b, k2⟩ := key
  rw [k2] at h2
  exact ⟨h1.trans k1, h2.xs, h2.us, h2.feas, h2.iter, h2.events, h2.cost, h2.dxs, h2.dus, h2.lam, h2.res, h2.d⟩

end

namespace Ex
open Spec

/-- one control `u`, `x⁺ = x + u`, cost `(u² - 1)²/2` with the Gauss–Newton Hessian `4u²`, no other cost. -/
def well : Problem ℚ where
  T := 1
  ndx := 1
  nu _ := 1
  ng _ := 0
  X := ℚ
  integrate x d := x + d 0
  diff a b := fun _ => b - a
  zeroX := 0
  x0 := 0
  calcR _ x u := ⟨(u 0 * u 0 - 1) * (u 0 * u 0 - 1) / 2, x + u 0, fun i => i.elim0⟩
  calcDiffR _ _ u := ⟨fun _ => 0, fun _ => 2 * u 0 * (u 0 * u 0 - 1), m1 0, m1 0, m1 (4 * u 0 * u 0), m1 1, m1 1,
    Matrix.of fun i => i.elim0, Matrix.of fun i => i.elim0⟩
  calcT _ := ⟨0, fun i => i.elim0⟩
  calcDiffT _ := ⟨fun _ => 0, m1 0, Matrix.of fun i => i.elim0⟩
  badX _ := false
  lb _ i := i.elim0
  ub _ i := i.elim0

/-- the solution of the systems of `well`: the multipliers vanish, `x₀` stays and `x₁` moves with the control. -/
def wellLU : LU ℚ := fun n M b i => if n = 5 then if i = 1 ∨ i = 2 then b 2 / M 2 2 else 0 else 0

theorem wellLU_local : LULocal wellLU := by
  intro n M M' v v' hM hv
  funext i
  unfold wellLU
  by_cases h : n = 5
  · rw [if_pos h, if_pos h, hM 2 2 (by omega) (by omega), hv 2 (by omega)]
  · rw [if_neg h, if_neg h]

/-- the feasible trajectory of `well` with control `u`. -/
def wellX (u : ℚ) : Traj well := fun t => if t = 0 then (0 : ℚ) else u

/-- a fresh solver, and one that has solved the problem from the feasible trajectory with `u = 2`. -/
def wellNew : KKT well := KKT.new (Data.zero well)
def wellOld : KKT well := (KKT.solve wellLU (some (wellX 2)) (some fun _ _ => 2) 1 true wellNew).2

theorem wellOld_reachable : KKT.Reachable wellOld := .solve _ _ _ _ _ _ (.new _)

/-- the systems of `well`: `wellLU` solves them. -/
def wellSolved (s : KKT well) : Bool :=
  let q := s.calcDiff
  (List.range 5).all fun i => (List.range 5).foldl (fun a j => a + q.kkt i j * wellLU 5 q.kkt (fun k => -(q.ref k)) j) 0 == -(q.ref i)

/-- the call `solve(xs, us, 1, is_feasible = true)` with the feasible trajectory of `u = 10⁻⁵`. -/
def wellAsk (s : KKT well) : Bool × Bool × ℚ × ℚ :=
  let r := KKT.solve wellLU (some (wellX (1 / 100000))) (some fun _ _ => 1 / 100000) 1 true s
  (r.1, wellSolved { s with xs := wellX (1 / 100000), us := fun _ _ => 1 / 100000 }, r.2.us 0 (0 : Fin 1), r.2.kktRes)

/-- **C93 (c).**  With `is_feasible = true` the remembered `was_feasible` matters: default parameters, the same call.  The new object returns
`false`, the one that has solved before returns `true`; both leave the control where it was, with the same residual `≈ 2·10⁻⁵`. -/
theorem C93_was_feasible_matters : KKT.Reachable wellNew ∧ KKT.Reachable wellOld ∧ wellNew.wasFeas = false ∧ wellOld.wasFeas = true ∧
    wellAsk wellNew = (false, true, 1 / 100000, 2 / 100000 * (1 - 1 / 10 ^ 10)) ∧
    wellAsk wellOld = (true, true, 1 / 100000, 2 / 100000 * (1 - 1 / 10 ^ 10)) :=
  ⟨.new _, wellOld_reachable, rfl, by decide +kernel, by decide +kernel, by decide +kernel⟩

/-- two histories that meet the hypotheses of (b); the parameters of the old object are set again. -/
example : (KKT.solve wellLU none none 7 false { wellOld with c := wellNew.c }).1 = (KKT.solve wellLU none none 7 false wellNew).1 :=
  (C93_kkt_history_default wellLU_local (by decide) (.setParams _ _ wellOld_reachable) (.new _) rfl (by decide +kernel) none none 7).1

end Ex
end Mim
