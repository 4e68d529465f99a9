import Verif.Model.PyCSQP
import Verif.Lemmas.SQPHist
import Verif.Lemmas.Backward

/-!
# Two states of the Python QP solver that differ only in leftovers of earlier calls behave alike
-/
set_option linter.unusedSectionVars false
set_option linter.unusedSimpArgs false

namespace Mim
namespace PyQP
section
variable {F : Type} [Add F] [Sub F] [Mul F] [Div F] [Neg F] [Zero F] [One F] [FloatOps F] {P : Problem F}

theorem update_same {β : ℕ → Type} {A : ℕ → Prop} {f g : (j : ℕ) → β j} {t : ℕ} {x y : β t} (h : ∀ j, A j → f j = g j) (e : x = y) (j : ℕ)
    (hj : A j) : Function.update f t x j = Function.update g t y j := by
  by_cases et : j = t
  · subst et; rw [Function.update_self, Function.update_self, e]
  · rw [Function.update_of_ne et, Function.update_of_ne et, h j hj]

/-- the QP solver is shown the same problem. -/
structure EnvSame (E E' : PyEnv P) : Prop where
  c : E.c = E'.c
  d : E.d.SameD E'.d
  gap : ∀ t, t < P.T → E.gap t = E'.gap t
  lam : E.c.osqp = true ∨ ∀ t, t ≤ P.T → E.lam t = E'.lam t

/-- what a QP iteration reads agrees. -/
structure QIn (q q' : PyQP P) : Prop where
  dx : ∀ t, t ≤ P.T → q.dx t = q'.dx t
  du : ∀ t, t < P.T → q.du t = q'.du t
  z : ∀ t, t ≤ P.T → q.z t = q'.z t
  y : ∀ t, t ≤ P.T → q.y t = q'.y t
  rho : ∀ t, t ≤ P.T → q.rho t = q'.rho t
  rs : q.rhoSparse = q'.rhoSparse
  dxt0 : q.dxt 0 = q'.dxt 0

/-- and the arrays of the backward pass from stage `k` on. -/
structure QB (k : ℕ) (q q' : PyQP P) : Prop extends QIn q q' where
  Vx : ∀ t, k ≤ t ∧ t ≤ P.T → q.Vx t = q'.Vx t
  Vxx : ∀ t, k ≤ t ∧ t ≤ P.T → q.Vxx t = q'.Vxx t
  K : ∀ t, k ≤ t ∧ t < P.T → q.K t = q'.K t
  kk : ∀ t, k ≤ t ∧ t < P.T → q.k t = q'.k t

/-- and the step of the forward pass. -/
structure QF (q q' : PyQP P) : Prop extends QB 0 q q' where
  dxt : ∀ t, t ≤ P.T → q.dxt t = q'.dxt t
  dut : ∀ t, t < P.T → q.dut t = q'.dut t

/-- the norms agree; `kkt_dual` may differ when it is not used. -/
structure NSame (osqp : Bool) (n n' : PyNorms F) : Prop where
  p : n.p = n'.p
  d : n.d = n'.d
  kp : n.kp = n'.kp
  p0 : n.p0 = n'.p0
  p1 : n.p1 = n'.p1
  dr : n.dr = n'.dr
  kd : osqp = true ∨ n.kd = n'.kd

/-- everything a QP iteration leaves. -/
structure QOut (osqp : Bool) (q q' : PyQP P) : Prop extends QF q q' where
  n : NSame osqp q.n q'.n

theorem stageGains_same (L : PyLLT F) {t : ℕ} {q q' : PyQP P} (h : QB (t + 1) q q') (a : Vec F P.ndx)
    (b : Mat F P.ndx P.ndx) (c : Vec F (P.nu t)) (d : Mat F (P.nu t) (P.nu t)) (e : Mat F P.ndx (P.nu t)) :
    QB t (stageGains L t a b c d e q) (stageGains L t a b c d e q') := by
  have up : ∀ {β : ℕ → Type} {f g : (j : ℕ) → β j} {A : ℕ → Prop} {x : β t} (_ : ∀ j, t + 1 ≤ j ∧ A j → f j = g j) (j : ℕ) (_ : t ≤ j ∧ A j),
      Function.update f t x j = Function.update g t x j := by
    intro β f g A x hfg j hj
    by_cases et : j = t
    · subst et; rw [Function.update_self, Function.update_self]
    · rw [Function.update_of_ne et, Function.update_of_ne et]; exact hfg j ⟨by omega, hj.2⟩
  refine ⟨⟨h.dx, h.du, h.z, h.y, h.rho, h.rs, h.dxt0⟩, ?_, ?_, ?_, ?_⟩
  · exact up (A := fun j => j ≤ P.T) h.Vx
  · exact up (A := fun j => j ≤ P.T) h.Vxx
  · exact up (A := fun j => j < P.T) h.K
  · exact up (A := fun j => j < P.T) h.kk

theorem terminal_same {E E' : PyEnv P} (hE : EnvSame E E') {q q' : PyQP P} (h : QIn q q') : QB P.T (terminal E q) (terminal E' q') := by
  have one : ∀ {β : ℕ → Type} {f g : (j : ℕ) → β j} {x : β P.T} (j : ℕ) (_ : P.T ≤ j ∧ j ≤ P.T),
      Function.update f P.T x j = Function.update g P.T x j := by
    intro β f g x j hj
    have : j = P.T := by omega
    subst this; rw [Function.update_self, Function.update_self]
  unfold terminal
  simp only [← hE.c, ← hE.d.td, ← h.dx _ le_rfl, ← h.rho _ le_rfl, ← h.y _ le_rfl, ← h.z _ le_rfl]
  split
  · exact ⟨⟨h.dx, h.du, h.z, h.y, h.rho, h.rs, h.dxt0⟩, one, one, fun t ht => by omega, fun t ht => by omega⟩
  · exact ⟨⟨h.dx, h.du, h.z, h.y, h.rho, h.rs, h.dxt0⟩, one, one, fun t ht => by omega, fun t ht => by omega⟩

theorem backwardStage_same (L : PyLLT F) {E E' : PyEnv P} (hE : EnvSame E E') {t : ℕ} (ht : t < P.T) {q q' : PyQP P} (h : QB (t + 1) q q') :
    QB t (backwardStage L E t q) (backwardStage L E' t q') := by
  unfold backwardStage
  simp only [← hE.c, ← hE.d.rd t ht, ← hE.gap t ht, ← h.Vx (t + 1) ⟨le_rfl, ht⟩, ← h.Vxx (t + 1) ⟨le_rfl, ht⟩, ← h.y t ht.le, ← h.rho t ht.le,
    ← h.z t ht.le, ← h.dx t ht.le, ← h.du t ht]
  exact stageGains_same L h _ _ _ _ _

theorem down_same {f f' : ℕ → PyQP P → PyQP P} (hf : ∀ t, t < P.T → ∀ a b, QB (t + 1) a b → QB t (f t a) (f' t b)) (n : ℕ) (hn : n ≤ P.T)
    {a b : PyQP P} (h : QB n a b) : QB 0 (forDown n f a) (forDown n f' b) := by
  induction n generalizing a b with
  | zero => exact h
  | succ n ih => exact ih (by omega) (hf n (by omega) _ _ h)

theorem backwardPass_same (L : PyLLT F) {E E' : PyEnv P} (hE : EnvSame E E') {q q' : PyQP P} (h : QIn q q') :
    QB 0 (q.backwardPass L E) (q'.backwardPass L E') :=
  down_same (fun t ht a b hab => backwardStage_same L hE ht hab) P.T le_rfl (terminal_same hE h)

/-- the warm start needs less: the penalties, `z` and `y` are not read. -/
theorem plainPass_same (L : PyLLT F) {E E' : PyEnv P} (hE : EnvSame E E') (q q' : PyQP P) :
    (∀ t, t < P.T → (q.plainPass L E).K t = (q'.plainPass L E').K t) ∧ (∀ t, t < P.T → (q.plainPass L E).k t = (q'.plainPass L E').k t) := by
  have key : ∀ n, n ≤ P.T → ∀ a b : PyQP P,
      ((∀ t, n ≤ t ∧ t ≤ P.T → a.Vx t = b.Vx t) ∧ (∀ t, n ≤ t ∧ t ≤ P.T → a.Vxx t = b.Vxx t) ∧ (∀ t, n ≤ t ∧ t < P.T → a.K t = b.K t) ∧
        (∀ t, n ≤ t ∧ t < P.T → a.k t = b.k t)) →
      (∀ t, t < P.T → (forDown n (plainStage L E) a).K t = (forDown n (plainStage L E') b).K t) ∧
      (∀ t, t < P.T → (forDown n (plainStage L E) a).k t = (forDown n (plainStage L E') b).k t) := by
    intro n
    induction n with
    | zero => intro _ a b h; exact ⟨fun t ht => h.2.2.1 t ⟨Nat.zero_le _, ht⟩, fun t ht => h.2.2.2 t ⟨Nat.zero_le _, ht⟩⟩
    | succ n ih =>
      rintro hn a b ⟨h1, h2, h3, h4⟩
      refine ih (by omega) (plainStage L E n a) (plainStage L E' n b) ?_
      have up : ∀ {β : ℕ → Type} {f g : (j : ℕ) → β j} {A : ℕ → Prop} {x : β n} (_ : ∀ j, n + 1 ≤ j ∧ A j → f j = g j) (j : ℕ) (_ : n ≤ j ∧ A j),
          Function.update f n x j = Function.update g n x j := by
        intro β f g A x hfg j hj
        by_cases et : j = n
        · subst et; rw [Function.update_self, Function.update_self]
        · rw [Function.update_of_ne et, Function.update_of_ne et]; exact hfg j ⟨by omega, hj.2⟩
      unfold plainStage
      simp only [← hE.d.rd n hn, ← hE.gap n hn, ← h1 (n + 1) ⟨le_rfl, hn⟩, ← h2 (n + 1) ⟨le_rfl, hn⟩]
      exact ⟨up (A := fun j => j ≤ P.T) h1, up (A := fun j => j ≤ P.T) h2, up (A := fun j => j < P.T) h3, up (A := fun j => j < P.T) h4⟩
  unfold plainPass
  rw [← hE.d.td]
  have one : ∀ {β : ℕ → Type} {f g : (j : ℕ) → β j} {x : β P.T} (j : ℕ) (_ : P.T ≤ j ∧ j ≤ P.T),
      Function.update f P.T x j = Function.update g P.T x j := by
    intro β f g x j hj
    have : j = P.T := by omega
    subst this; rw [Function.update_self, Function.update_self]
  exact key P.T le_rfl _ _ ⟨one, one, fun t ht => by omega, fun t ht => by omega⟩

theorem plainPass_rest (L : PyLLT F) (E : PyEnv P) (q : PyQP P) : (q.plainPass L E).dx = q.dx ∧ (q.plainPass L E).du = q.du ∧
    (q.plainPass L E).z = q.z ∧ (q.plainPass L E).y = q.y ∧ (q.plainPass L E).rho = q.rho ∧ (q.plainPass L E).rhoSparse = q.rhoSparse ∧
    (q.plainPass L E).dxt = q.dxt := by
  have key : ∀ n, ∀ a : PyQP P, (forDown n (plainStage L E) a).dx = a.dx ∧ (forDown n (plainStage L E) a).du = a.du ∧
      (forDown n (plainStage L E) a).z = a.z ∧ (forDown n (plainStage L E) a).y = a.y ∧ (forDown n (plainStage L E) a).rho = a.rho ∧
      (forDown n (plainStage L E) a).rhoSparse = a.rhoSparse ∧ (forDown n (plainStage L E) a).dxt = a.dxt := by
    intro n
    induction n with
    | zero => intro a; exact ⟨rfl, rfl, rfl, rfl, rfl, rfl, rfl⟩
    | succ n ih => intro a; exact ih (plainStage L E n a)
  exact key P.T _

/-- the forward passes: states and controls agree if the first state and the gains do. -/
theorem fwd_same {E E' : PyEnv P} (hE : EnvSame E E') {q q' : PyQP P} (hK : ∀ t, t < P.T → q.K t = q'.K t) (hk : ∀ t, t < P.T → q.k t = q'.k t)
    (x x' : (ℕ → Vec F P.ndx) × ((t : ℕ) → Vec F (P.nu t))) (h0 : x.1 0 = x'.1 0) (n : ℕ) (hn : n ≤ P.T) :
    (∀ t, t ≤ n → (forUp n (fwdStage E q) x).1 t = (forUp n (fwdStage E' q') x').1 t) ∧
    (∀ t, t < n → (forUp n (fwdStage E q) x).2 t = (forUp n (fwdStage E' q') x').2 t) := by
  induction n with
  | zero => exact ⟨fun t ht => by obtain rfl : t = 0 := by omega
                                  exact h0, fun t ht => absurd ht (Nat.not_lt_zero _)⟩
  | succ n ih =>
    obtain ⟨i1, i2⟩ := ih (by omega)
    rw [forUp_succ, forUp_succ]
    unfold fwdStage at *
    simp only [← hE.d.rd n hn, ← hE.gap n hn, ← hK n hn, ← hk n hn]
    constructor
    · intro t ht
      by_cases et : t = n + 1
      · subst et; rw [Function.update_self, Function.update_self, i1 n le_rfl]
      · rw [Function.update_of_ne et, Function.update_of_ne et]; exact i1 t (by omega)
    · intro t ht
      by_cases et : t = n
      · subst et; rw [Function.update_self, Function.update_self, i1 t le_rfl]
      · rw [Function.update_of_ne et, Function.update_of_ne et]; exact i2 t (by omega)

theorem fwd_first (E : PyEnv P) (q : PyQP P) (x : (ℕ → Vec F P.ndx) × ((t : ℕ) → Vec F (P.nu t))) (n : ℕ) :
    (forUp n (fwdStage E q) x).1 0 = x.1 0 := by
  induction n with
  | zero => rfl
  | succ n ih =>
    rw [forUp_succ]
    unfold fwdStage
    simp only []
    rw [Function.update_of_ne (by omega)]
    exact ih

theorem forwardPass_same {E E' : PyEnv P} (hE : EnvSame E E') {q q' : PyQP P} (h : QB 0 q q') : QF (q.forwardPass E) (q'.forwardPass E') := by
  obtain ⟨a1, a2⟩ := fwd_same hE (fun t ht => h.K t ⟨Nat.zero_le _, ht⟩) (fun t ht => h.kk t ⟨Nat.zero_le _, ht⟩) (q.dxt, q.dut) (q'.dxt, q'.dut) h.dxt0 P.T le_rfl
  exact ⟨⟨⟨h.dx, h.du, h.z, h.y, h.rho, h.rs, a1 0 (Nat.zero_le _)⟩, h.Vx, h.Vxx, h.K, h.kk⟩, a1, a2⟩

theorem lagStage_same {E E' : PyEnv P} (hE : EnvSame E E') (it : ℕ) {t : ℕ} (ht : t < P.T) {q q' : PyQP P} (h : QOut E.c.osqp q q') :
    QOut E.c.osqp (lagStage E it t q) (lagStage E' it t q') := by
  unfold lagStage
  rw [← h.dxt t ht.le, ← h.dut t ht, ← hE.c, ← hE.d.rd t ht, ← hE.d.run t ht, ← h.z t ht.le, ← h.y t ht.le, ← h.rho t ht.le]
  split
  · exact { h with dx := update_same h.dx rfl, du := update_same h.du rfl }
  · simp only []
    refine { h with
      dx := update_same h.dx rfl, du := update_same h.du rfl, z := update_same h.z rfl, y := update_same h.y rfl, n := ?_ }
    split
    · obtain ⟨n1, n2, n3, n4, n5, n6, n7⟩ := h.n
      refine ⟨by rw [n1], by rw [n2], by rw [n3], by rw [n4], by rw [n5], by rw [n6], ?_⟩
      rcases n7 with e | e
      · exact .inl e
      · rcases hE.lam with e' | e'
        · exact .inl e'
        · refine .inr ?_
          simp only []
          rw [e, e' (t + 1) ht, e' t ht.le]
    · exact h.n

theorem lagTerm_same {E E' : PyEnv P} (hE : EnvSame E E') (it : ℕ) {q q' : PyQP P} (h : QOut E.c.osqp q q') :
    QOut E.c.osqp (lagTerm E it q) (lagTerm E' it q') := by
  unfold lagTerm
  simp only []
  rw [← h.dxt _ le_rfl, ← hE.c, ← hE.d.td, ← hE.d.ter, ← h.z _ le_rfl, ← h.y _ le_rfl, ← h.rho _ le_rfl]
  split
  · refine { h with dx := update_same h.dx rfl, z := update_same h.z rfl, y := update_same h.y rfl, n := ?_ }
    split
    · obtain ⟨n1, n2, n3, n4, n5, n6, n7⟩ := h.n
      refine ⟨by rw [n1], by rw [n2], by rw [n3], by rw [n4], by rw [n5], by rw [n6], ?_⟩
      rcases n7 with e | e
      · exact .inl e
      · rcases hE.lam with e' | e'
        · exact .inl e'
        · refine .inr ?_
          simp only []
          rw [e, e' _ le_rfl]
    · exact h.n
  · exact { h with dx := update_same h.dx rfl }

theorem updateLag_same {E E' : PyEnv P} (hE : EnvSame E E') (it : ℕ) {q q' : PyQP P} (h : QF q q') :
    QOut E.c.osqp (q.updateLag E it) (q'.updateLag E' it) := by
  unfold updateLag
  refine lagTerm_same hE it ?_
  exact forUp_rel (fun _ => QOut E.c.osqp) P.T _ _ (fun t ht a b hab => lagStage_same hE it ht hab)
    { h with n := ⟨rfl, rfl, rfl, rfl, rfl, rfl, .inr rfl⟩ }

theorem applyRho_same (c : PyConf F) (r : F) {o : Bool} {q q' : PyQP P} (h : QOut o q q') : QOut o (applyRho c r q) (applyRho c r q') := by
  refine { h with rho := fun t ht => ?_ }
  simp only [applyRho, if_pos ht]
  rw [h.rho t ht]

section
variable [SqrtOps F]

theorem updateRho_same {E E' : PyEnv P} (hE : EnvSame E E') (it : ℕ) {q q' : PyQP P} (h : QOut E.c.osqp q q') :
    QOut E.c.osqp (q.updateRho E it) (q'.updateRho E' it) := by
  obtain ⟨n1, n2, n3, n4, n5, n6, n7⟩ := h.n
  have hs : (if E.c.osqp then (q.n.p * q.n.dr) / (q.n.d * pr q.n) else q.n.kp / q.n.kd) =
      (if E.c.osqp then (q'.n.p * q'.n.dr) / (q'.n.d * pr q'.n) else q'.n.kp / q'.n.kd) := by
    unfold pr
    rw [n1, n2, n3, n4, n5, n6]
    split
    · rfl
    · rename_i ho
      rw [n7.resolve_left ho]
  unfold updateRho
  simp only []
  rw [← hE.c, ← hs, ← h.rs]
  generalize (if E.c.osqp then (q.n.p * q.n.dr) / (q.n.d * pr q.n) else q.n.kp / q.n.kd) = sc
  have h1 : ∀ r e : F, QOut E.c.osqp { q with rhoSparse := r, rhoEst := e } { q' with rhoSparse := r, rhoEst := e } := fun r e =>
    ⟨⟨⟨⟨h.dx, h.du, h.z, h.y, h.rho, rfl, h.dxt0⟩, h.Vx, h.Vxx, h.K, h.kk⟩, h.dxt, h.dut⟩, h.n⟩
  split
  · exact applyRho_same _ _ (h1 _ _)
  · exact ⟨⟨⟨⟨h.dx, h.du, h.z, h.y, h.rho, rfl, h.dxt0⟩, h.Vx, h.Vxx, h.K, h.kk⟩, h.dxt, h.dut⟩, h.n⟩

theorem step_same (L : PyLLT F) {E E' : PyEnv P} (hE : EnvSame E E') (it : ℕ) {q q' : PyQP P} (h : QIn q q') :
    QOut E.c.osqp (q.step L E it) (q'.step L E' it) :=
  updateRho_same hE it (updateLag_same hE it (forwardPass_same hE (backwardPass_same L hE h)))

theorem converged_same {E E' : PyEnv P} (hE : EnvSame E E') (it : ℕ) {q q' : PyQP P} (h : QOut E.c.osqp q q') :
    q.converged E it = q'.converged E' it := by
  obtain ⟨n1, n2, n3, n4, n5, n6, -⟩ := h.n
  unfold converged pr
  rw [← hE.c, n1, n2, n4, n5, n6]

theorem loop_same (L : PyLLT F) {E E' : PyEnv P} (hE : EnvSame E E') (n : ℕ) (it : ℕ) {q q' : PyQP P} (h : QIn q q')
    (hn : n ≠ 0 ∨ QOut E.c.osqp q q') :
    QOut E.c.osqp (loop L E n it q) (loop L E' n it q') ∧ (loop L E n it q).qpIters = (loop L E' n it q').qpIters := by
  induction n generalizing it q q' with
  | zero => exact ⟨{ hn.resolve_left (fun e => e rfl) with }, rfl⟩
  | succ n ih =>
    have hs := step_same L hE it h
    unfold loop
    simp only []
    rw [← converged_same hE it hs]
    split
    · exact ⟨{ hs with }, rfl⟩
    · exact ih (it + 1) hs.toQIn (.inr hs)

end

/-- the bounds of every two-sided constraint are close to each other or comparable (they are numbers): no penalty keeps its old value. -/
def Decided (P : Problem F) : Prop := ∀ t, t ≤ P.T → ∀ i l u, P.lb t i = some l → P.ub t i = some u →
  ltb (absf (l - u)) (lit (1 / 10 ^ 6)) = true ∨ ltb l u = true ∨ ltb u l = true

theorem pyRhoRow_same (hD : Decided P) {t : ℕ} (ht : t ≤ P.T) (i : Fin (P.ng t)) (m r o o' : F) :
    pyRhoRow m r (P.lb t i) (P.ub t i) o = pyRhoRow m r (P.lb t i) (P.ub t i) o' := by
  have h := hD t ht i
  unfold pyRhoRow
  cases hl : P.lb t i with
  | none => cases hu : P.ub t i <;> rfl
  | some l =>
    cases hu : P.ub t i with
    | none => rfl
    | some u =>
      rcases h l u hl hu with e | e | e
      · simp only [e, if_true]
      · simp only [e, Bool.true_or, if_true]
      · simp only [e, Bool.or_true, if_true]

/-- what a direction reads: nothing but the first blocks of the step, the penalties (unless reset) and the multipliers (unless reset). -/
structure QStart (c : PyConf F) (q q' : PyQP P) : Prop where
  dx0 : q.dx 0 = q'.dx 0
  dxt0 : q.dxt 0 = q'.dxt 0
  y : c.resetY = true ∨ ∀ t, t ≤ P.T → q.y t = q'.y t
  rho : c.resetRho = true ∨ ((∀ t, t ≤ P.T → q.rho t = q'.rho t) ∧ q.rhoSparse = q'.rhoSparse)

theorem resetRhoVec_same (hD : Decided P) (c : PyConf F) (q q' : PyQP P) :
    (∀ t, t ≤ P.T → (q.resetRhoVec c).rho t = (q'.resetRhoVec c).rho t) ∧ (q.resetRhoVec c).rhoSparse = (q'.resetRhoVec c).rhoSparse := by
  refine ⟨fun t ht => ?_, rfl⟩
  funext i
  simp only [resetRhoVec, applyRho, if_pos ht]
  exact pyRhoRow_same hD ht i _ _ _ _

theorem resetParams_same (hD : Decided P) (c : PyConf F) {q q' : PyQP P} (h : QStart c q q') :
    (q.resetParams c).dx 0 = (q'.resetParams c).dx 0 ∧ (q.resetParams c).dxt 0 = (q'.resetParams c).dxt 0 ∧
    (∀ t, t ≤ P.T → (q.resetParams c).z t = (q'.resetParams c).z t) ∧ (∀ t, t ≤ P.T → (q.resetParams c).y t = (q'.resetParams c).y t) ∧
    (∀ t, t ≤ P.T → (q.resetParams c).rho t = (q'.resetParams c).rho t) ∧ (q.resetParams c).rhoSparse = (q'.resetParams c).rhoSparse := by
  obtain ⟨r1, r2⟩ := resetRhoVec_same hD c q q'
  unfold resetParams
  simp only []
  by_cases hr : c.resetRho = true <;> by_cases hy : c.resetY = true
  · simp only [hr, hy, if_true]
    refine ⟨h.dx0, h.dxt0, (fun _ _ => by first | rfl | trivial), (fun _ _ => by first | rfl | trivial), r1, r2⟩
  · have h' := h.y.resolve_left hy
    simp only [hr, hy, if_true]
    exact ⟨h.dx0, h.dxt0, fun _ _ => rfl, h', r1, r2⟩
  · have h' := h.rho.resolve_left hr
    simp only [hr, hy, if_true]
    refine ⟨h.dx0, h.dxt0, (fun _ _ => by first | rfl | trivial), (fun _ _ => by first | rfl | trivial), h'.1, h'.2⟩
  · have h1 := h.rho.resolve_left hr
    have h2 := h.y.resolve_left hy
    simp only [hr, hy]
    exact ⟨h.dx0, h.dxt0, fun _ _ => rfl, h2, h1.1, h1.2⟩

section
variable [SqrtOps F]

theorem computeDirection_same (L : PyLLT F) (hD : Decided P) {E E' : PyEnv P} (hE : EnvSame E E') (hg : E.c.eqGuess = true) (hm : E.c.maxQP ≠ 0)
    {q q' : PyQP P} (h : QStart E.c q q') :
    Res.Rel (fun a b => QOut E.c.osqp a b ∧ a.qpIters = b.qpIters) (fun _ _ => True) (q.computeDirection L E) (q'.computeDirection L E') := by
  unfold computeDirection
  simp only []
  rw [← hE.c]
  split
  · exact .exn trivial
  · refine .ok (loop_same L hE _ 1 ?_ (.inl hm))
    obtain ⟨r1, r2, r3, r4, r5, r6⟩ := resetParams_same hD E.c h
    generalize q.resetParams E.c = a at *
    generalize q'.resetParams E.c = b at *
    unfold warm
    rw [← hE.c, if_pos hg, if_pos hg]
    obtain ⟨p1, p2⟩ := plainPass_same L hE a b
    obtain ⟨a1, a2, a3, a4, a5, a6, a7⟩ := plainPass_rest L E a
    obtain ⟨b1, b2, b3, b4, b5, b6, b7⟩ := plainPass_rest L E' b
    obtain ⟨f1, f2⟩ := fwd_same hE p1 p2 ((a.plainPass L E).dx, (a.plainPass L E).du) ((b.plainPass L E').dx, (b.plainPass L E').du)
      (by rw [a1, b1]; exact r1) P.T le_rfl
    refine ⟨f1, f2, ?_, ?_, ?_, ?_, ?_⟩
    · change ∀ t, t ≤ P.T → (a.plainPass L E).z t = (b.plainPass L E').z t
      rw [a3, b3]; exact r3
    · change ∀ t, t ≤ P.T → (a.plainPass L E).y t = (b.plainPass L E').y t
      rw [a4, b4]; exact r4
    · change ∀ t, t ≤ P.T → (a.plainPass L E).rho t = (b.plainPass L E').rho t
      rw [a5, b5]; exact r5
    · change (a.plainPass L E).rhoSparse = (b.plainPass L E').rhoSparse
      rw [a6, b6]; exact r6
    · change (a.plainPass L E).dxt 0 = (b.plainPass L E').dxt 0
      rw [a7, b7]; exact r2

end
end
end PyQP
end Mim
