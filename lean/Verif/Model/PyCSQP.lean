import Verif.Model.CSQP
import Verif.Model.PySQP

/-!
# The Python prototype `CSQP` with the method "StagewiseQP"
(/repo/python/csqp.py and its base class `StagewiseADMM` in /repo/python/qp_solvers/stagewise_qp.py)

The model describes the class for problems whose nodes all have the same positive number of controls and `ndx > 0` (as for
`Model/PySQP`: NumPy raises otherwise) and no Crocoddyl equality constraints (`allocateData` asserts `nh = 0`).  The second base
class `QPSolvers` (dense QPs handed to OSQP, HPIPM, ProxQP, …; `using_qp = 1`) is not modelled.

Simplifications common to all definitions.  Arrays are values: no two attributes share an array that is later written in place.
Printing is dropped (all formats accept all values), and with it `with_callbacks`, `verboseQP`, `x_grad_norm`, `u_grad_norm`,
which are only printed.  `assert np.linalg.norm(self.dx[0]) < 1e-6` (stagewise_qp.py:425, 448) is dropped: `dx[0]` is zero in
every reachable state (`PyCSQP.Reachable.zero0`).  `max(a, b)`/`min(a, b)` of Python return `a` unless `b` is larger/smaller, as
`std::max`/`std::min`.  `max(abs(v))` of a non-empty array is `normInf v`.
-/
set_option linter.unusedSectionVars false
set_option linter.unusedSimpArgs false

namespace Mim

/-- Attributes of `StagewiseADMM` that no method called by `CSQP.solve` writes, stagewise_qp.py:35-58. -/
structure PyConf (F : Type) where
  maxQP : ℕ
  epsAbs : F
  epsRel : F
  adaptTol : F
  interval : ℕ
  alpha : F
  eqGuess : Bool
  osqp : Bool
  resetRho : Bool
  resetY : Bool
  sigma : F
  rhoBase : F
  rhoMin : F
  rhoMax : F

/-- `norm_primal norm_dual kkt_primal kkt_dual norm_primal_rel[0] norm_primal_rel[1] norm_dual_rel`, stagewise_qp.py:260-265. -/
structure PyNorms (F : Type) where
  p : F
  d : F
  kp : F
  kd : F
  p0 : F
  p1 : F
  dr : F

/-- Attributes of `StagewiseADMM` written by `computeDirection`, stagewise_qp.py:559-596: `dx du dx_tilde du_tilde z dz_relaxed
y rho_vec Vx Vxx K k`, the norms, `rho_sparse`, `rho_estimate_sparse`, `qp_iters`.  Index `P.T` is `[-1]`. -/
structure PyQP {F : Type} (P : Problem F) where
  dx : ℕ → Vec F P.ndx
  du : (t : ℕ) → Vec F (P.nu t)
  dxt : ℕ → Vec F P.ndx
  dut : (t : ℕ) → Vec F (P.nu t)
  z : (t : ℕ) → Vec F (P.ng t)
  zRel : (t : ℕ) → Vec F (P.ng t)
  y : (t : ℕ) → Vec F (P.ng t)
  rho : (t : ℕ) → Vec F (P.ng t)
  Vx : ℕ → Vec F P.ndx
  Vxx : ℕ → Mat F P.ndx P.ndx
  K : (t : ℕ) → Mat F (P.nu t) P.ndx
  k : (t : ℕ) → Vec F (P.nu t)
  n : PyNorms F
  rhoSparse : F
  rhoEst : F
  qpIters : ℕ

/-- What `computeDirection` reads and does not write: configuration, the problem's datas, `gap`, `lag_mul`. -/
structure PyEnv {F : Type} (P : Problem F) where
  c : PyConf F
  d : Data P
  gap : ℕ → Vec F P.ndx
  lam : ℕ → Vec F P.ndx

/-- `eigenpy.LLT(H).solve`: the code never asks whether the factorisation succeeded; when it fails (`llt` returns `none`) the
result is whatever Eigen computes from the unfinished factor, an arbitrary function `junk` here. -/
structure PyLLT (F : Type) where
  llt : LLT F
  junk : (n : ℕ) → Mat F n n → Vec F n → Vec F n

/-- the solver object's `solve`. -/
def PyLLT.solve {F : Type} (L : PyLLT F) (n : ℕ) (H : Mat F n n) : Vec F n → Vec F n := (L.llt n H).getD (L.junk n H)

section
variable {F : Type} [Add F] [Sub F] [Mul F] [Div F] [Neg F] [Zero F] [One F] [FloatOps F]

/-- one row of `apply_rho_update`, stagewise_qp.py:233-238 = 241-257.  `lb != ub` is "one is less than the other". -/
def pyRhoRow (rhoMin r : F) (lb ub : Option F) (old : F) : F :=
  match lb, ub with
  | none, none => rhoMin
  | some l, some u =>
    if ltb (absf (l - u)) (lit (1 / 10 ^ 6)) then lit (10 ^ 3) * r
    else if ltb l u || ltb u l then r
    else old
  | _, _ => r

/-- `rho_mat @ G` for `rho_mat = rho_vec * np.eye(ng)`, a diagonal matrix (stagewise_qp.py:462, 481). -/
def pyRhoMul {m n : ℕ} (rho : Vec F m) (G : Mat F m n) : Mat F m n := diagMul rho G

namespace PyQP
variable {P : Problem F}

/-- `apply_rho_update(r)`, stagewise_qp.py:230-257. -/
def applyRho (c : PyConf F) (r : F) (q : PyQP P) : PyQP P :=
  { q with rho := fun t => if t ≤ P.T then fun i => pyRhoRow c.rhoMin r (P.lb t i) (P.ub t i) (q.rho t i) else q.rho t }

/-- `reset_rho_vec()`, stagewise_qp.py:584-586. -/
def resetRhoVec (c : PyConf F) (q : PyQP P) : PyQP P := applyRho c c.rhoBase { q with rhoSparse := c.rhoBase }

/-- `reset_params()`, stagewise_qp.py:62-76: new zero arrays. -/
def resetParams (c : PyConf F) (q : PyQP P) : PyQP P :=
  let q := if c.resetRho then q.resetRhoVec c else q
  let q := { q with z := fun t => zeroV F (P.ng t), zRel := fun t => zeroV F (P.ng t) }
  if c.resetY then { q with y := fun t => zeroV F (P.ng t) } else q

/-- the value of one stage from its Q-terms: `Q_llt`, `K`, `k`, `Vx`, `Vxx` and the symmetrisation,
stagewise_qp.py:504-513 = 532-541. -/
def stageGains (L : PyLLT F) (t : ℕ) (Qx : Vec F P.ndx) (Qxx : Mat F P.ndx P.ndx) (Qu : Vec F (P.nu t))
    (Quu : Mat F (P.nu t) (P.nu t)) (Qxu : Mat F P.ndx (P.nu t)) (q : PyQP P) : PyQP P :=
  let sol := L.solve (P.nu t) Quu
  let K := solveCols sol Qxu.transpose
  let k := sol Qu
  let Vx := Qx - mv K.transpose Qu
  let Vxx := Qxx - mm Qxu K
  { q with
    K := Function.update q.K t K
    k := Function.update q.k t k
    Vx := Function.update q.Vx t Vx
    Vxx := Function.update q.Vxx t (symm Vxx) }

/-- terminal `Vx`, `Vxx` of `backwardPass`, stagewise_qp.py:462-473. -/
def terminal (E : PyEnv P) (q : PyQP P) : PyQP P :=
  let Vxx := addDiag E.d.td.Lxx E.c.sigma
  let Vx := E.d.td.Lx - sv E.c.sigma (q.dx P.T)
  if P.ng P.T ≠ 0 then
    { q with
      Vxx := Function.update q.Vxx P.T (Vxx + mm E.d.td.Gx.transpose (pyRhoMul (q.rho P.T) E.d.td.Gx))
      Vx := Function.update q.Vx P.T
        (Vx + mv E.d.td.Gx.transpose (q.y P.T - cw (q.rho P.T) (q.z P.T))) }
  else { q with Vxx := Function.update q.Vxx P.T Vxx, Vx := Function.update q.Vx P.T Vx }

/-- one stage of `backwardPass`, stagewise_qp.py:475-513. -/
def backwardStage (L : PyLLT F) (E : PyEnv P) (t : ℕ) (q : PyQP P) : PyQP P :=
  let r := E.d.rd t
  let Vxp := q.Vx (t + 1) + mv (q.Vxx (t + 1)) (E.gap t)
  let Qx := r.Lx + mv r.Fx.transpose Vxp
  let Qxx := r.Lxx + mm (mm r.Fx.transpose (q.Vxx (t + 1))) r.Fx
  let Qu := r.Lu + mv r.Fu.transpose Vxp
  let Quu := r.Luu + mm (mm r.Fu.transpose (q.Vxx (t + 1))) r.Fu
  let Qxu := r.Lxu + mm (mm r.Fx.transpose (q.Vxx (t + 1))) r.Fu
  let sh := q.y t - cw (q.rho t) (q.z t)
  let con := P.ng t ≠ 0
  let conx := P.ng t ≠ 0 ∧ 0 < t
  let Qx := if conx then Qx + mv r.Gx.transpose sh else Qx
  let Qxx := if conx then Qxx + mm r.Gx.transpose (pyRhoMul (q.rho t) r.Gx) else Qxx
  let Qxu := if conx then Qxu + mm r.Gx.transpose (pyRhoMul (q.rho t) r.Gu) else Qxu
  let Qu := if con then Qu + mv r.Gu.transpose sh else Qu
  let Quu := if con then Quu + mm r.Gu.transpose (pyRhoMul (q.rho t) r.Gu) else Quu
  stageGains L t (Qx - sv E.c.sigma (q.dx t)) (addDiag Qxx E.c.sigma) (Qu - sv E.c.sigma (q.du t))
    (addDiag Quu E.c.sigma) Qxu q

/-- `backwardPass()`, stagewise_qp.py:461-513. -/
def backwardPass (L : PyLLT F) (E : PyEnv P) (q : PyQP P) : PyQP P := forDown P.T (backwardStage L E) (terminal E q)

/-- one stage of `backwardPass_without_constraints`, stagewise_qp.py:519-541. -/
def plainStage (L : PyLLT F) (E : PyEnv P) (t : ℕ) (q : PyQP P) : PyQP P :=
  let r := E.d.rd t
  let Vxp := q.Vx (t + 1) + mv (q.Vxx (t + 1)) (E.gap t)
  stageGains L t (r.Lx + mv r.Fx.transpose Vxp) (r.Lxx + mm (mm r.Fx.transpose (q.Vxx (t + 1))) r.Fx)
    (r.Lu + mv r.Fu.transpose Vxp) (r.Luu + mm (mm r.Fu.transpose (q.Vxx (t + 1))) r.Fu)
    (r.Lxu + mm (mm r.Fx.transpose (q.Vxx (t + 1))) r.Fu) q

/-- `backwardPass_without_constraints()`, stagewise_qp.py:515-541. -/
def plainPass (L : PyLLT F) (E : PyEnv P) (q : PyQP P) : PyQP P :=
  forDown P.T (plainStage L E)
    { q with Vxx := Function.update q.Vxx P.T E.d.td.Lxx, Vx := Function.update q.Vx P.T E.d.td.Lx }

/-- one node of the forward passes, stagewise_qp.py:426-439 = 449-459 (`x` holds `dx_tilde, du_tilde` or `dx, du`). -/
def fwdStage (E : PyEnv P) (q : PyQP P) (t : ℕ) (x : (ℕ → Vec F P.ndx) × ((t : ℕ) → Vec F (P.nu t))) :
    (ℕ → Vec F P.ndx) × ((t : ℕ) → Vec F (P.nu t)) :=
  let r := E.d.rd t
  (Function.update x.1 (t + 1) (mv (r.Fx - mm r.Fu (q.K t)) (x.1 t) - mv r.Fu (q.k t) + E.gap t),
    Function.update x.2 t (-(mv (q.K t) (x.1 t)) - q.k t))

/-- `forwardPass()`, stagewise_qp.py:423-444. -/
def forwardPass (E : PyEnv P) (q : PyQP P) : PyQP P :=
  let x := forUp P.T (fwdStage E q) (q.dxt, q.dut)
  { q with dxt := x.1, dut := x.2 }

/-- `forwardPass_without_constraints()`, stagewise_qp.py:446-459. -/
def forwardPlain (E : PyEnv P) (q : PyQP P) : PyQP P :=
  let x := forUp P.T (fwdStage E q) (q.dx, q.du)
  { q with dx := x.1, du := x.2 }

/-- is `iter` an update iteration? `(iter) % self.rho_update_interval == 0 and iter > 1`, stagewise_qp.py:166, 221, 294, 379. -/
def due (c : PyConf F) (iter : ℕ) : Bool := iter % c.interval == 0 && decide (1 < iter)

/-- `np.clip(v, lb - g, ub - g)` row by row with the new `z` and `y`, stagewise_qp.py:281-288 = 363-374. -/
def admmNode (alpha : F) {m : ℕ} (lb ub : Fin m → Option F) (g Cd z y rho : Vec F m) : Vec F m × Vec F m × Vec F m :=
  let zr := sv alpha Cd + sv (1 - alpha) z
  let z' : Vec F m := fun i => clampRow (lb i) (ub i) (g i) (zr i + y i / rho i)
  (zr, z', y + cw rho (zr - z'))

/-- `np.max(np.abs(np.clip(lb - c - g, 0, inf)))` and the same for `c + g - ub`, stagewise_qp.py:321-338, 392-397. -/
def rowsOut {m : ℕ} (lb ub : Fin m → Option F) (c g : Vec F m) : F × F :=
  (normInf fun i => match lb i with | none => 0 | some l => cppMax (l - c i - g i) 0,
   normInf fun i => match ub i with | none => 0 | some u => cppMax (c i + g i - u) 0)

/-- one running node of `update_lagrangian_parameters`, stagewise_qp.py:267-351. -/
def lagStage (E : PyEnv P) (iter t : ℕ) (q : PyQP P) : PyQP P :=
  if P.ng t = 0 then
    { q with dx := Function.update q.dx t (q.dxt t), du := Function.update q.du t (q.dut t) }
  else
    let r := E.d.rd t
    let Cd := mv r.Gx (q.dxt t) + mv r.Gu (q.dut t)
    let x := admmNode E.c.alpha (P.lb t) (P.ub t) (E.d.run t).g Cd (q.z t) (q.y t) (q.rho t)
    let w := cw (q.rho t) (x.2.1 - q.z t)
    let dx := q.dxt t
    let du := q.dut t
    let n := q.n
    let sx := mv r.Lxx dx + mv r.Lxu du + r.Lx + mv r.Fx.transpose (E.lam (t + 1)) - E.lam t + mv r.Gx.transpose x.2.2
    let su := mv r.Luu du + mv r.Lxu.transpose dx + r.Lu + mv r.Fu.transpose (E.lam (t + 1)) + mv r.Gu.transpose x.2.2
    let l := rowsOut (P.lb t) (P.ub t) (mv r.Gx dx + mv r.Gu du) (E.d.run t).g
    { q with
      zRel := Function.update q.zRel t x.1
      z := Function.update q.z t x.2.1
      y := Function.update q.y t x.2.2
      dx := Function.update q.dx t dx
      du := Function.update q.du t du
      n := if due E.c iter then
          { p := cppMax n.p (normInf (Cd - x.2.1))
            d := cppMax (cppMax n.d (normInf (mv r.Gx.transpose w))) (normInf (mv r.Gu.transpose w))
            kp := cppMax (cppMax n.kp l.1) l.2
            kd := cppMax (cppMax n.kd (normInf sx)) (normInf su)
            p0 := cppMax n.p0 (normInf Cd)
            p1 := cppMax n.p1 (normInf x.2.1)
            dr := cppMax (cppMax n.dr (normInf (mv r.Gx.transpose x.2.2))) (normInf (mv r.Gu.transpose x.2.2)) }
        else n }

/-- the terminal node, stagewise_qp.py:353-408. -/
def lagTerm (E : PyEnv P) (iter : ℕ) (q : PyQP P) : PyQP P :=
  let q := { q with dx := Function.update q.dx P.T (q.dxt P.T) }
  if P.ng P.T ≠ 0 then
    let G := E.d.td.Gx
    let dx := q.dxt P.T
    let Cd := mv G dx
    let x := admmNode E.c.alpha (P.lb P.T) (P.ub P.T) E.d.ter.g Cd (q.z P.T) (q.y P.T) (q.rho P.T)
    let w := cw (q.rho P.T) (x.2.1 - q.z P.T)
    let n := q.n
    let l := rowsOut (P.lb P.T) (P.ub P.T) Cd E.d.ter.g
    { q with
      zRel := Function.update q.zRel P.T x.1
      z := Function.update q.z P.T x.2.1
      y := Function.update q.y P.T x.2.2
      n := if due E.c iter then
          { p := cppMax n.p (normInf (Cd - x.2.1))
            d := cppMax n.d (normInf (mv G.transpose w))
            kp := cppMax (cppMax n.kp l.1) l.2
            kd := cppMax n.kd (normInf (mv E.d.td.Lxx dx + E.d.td.Lx - E.lam P.T + mv G.transpose x.2.2))
            p0 := cppMax n.p0 (normInf Cd)
            p1 := cppMax n.p1 (normInf x.2.1)
            dr := cppMax n.dr (normInf (mv G.transpose x.2.2)) }
        else n }
  else q

/-- `update_lagrangian_parameters(iter)`, stagewise_qp.py:259-409. -/
def updateLag (E : PyEnv P) (iter : ℕ) (q : PyQP P) : PyQP P :=
  lagTerm E iter (forUp P.T (lagStage E iter) { q with n := ⟨negInf, negInf, negInf, negInf, negInf, negInf, negInf⟩ })

/-- `norm_primal_rel = max(norm_primal_rel)`, stagewise_qp.py:409. -/
def pr (n : PyNorms F) : F := cppMax n.p0 n.p1

variable [SqrtOps F]

/-- `update_rho_sparse(iter)`, stagewise_qp.py:208-228. -/
def updateRho (E : PyEnv P) (iter : ℕ) (q : PyQP P) : PyQP P :=
  let scale := if E.c.osqp then (q.n.p * q.n.dr) / (q.n.d * pr q.n) else q.n.kp / q.n.kd
  let est := cppMin (cppMax (SqrtOps.sqrt scale * q.rhoSparse) E.c.rhoMin) E.c.rhoMax
  let q := { q with rhoEst := est }
  if due E.c iter && (ltb (q.rhoSparse * E.c.adaptTol) est || ltb est (q.rhoSparse / E.c.adaptTol)) then
    applyRho E.c est { q with rhoSparse := est }
  else q

/-- the convergence test, stagewise_qp.py:166-172. -/
def converged (E : PyEnv P) (iter : ℕ) (q : PyQP P) : Bool :=
  due E.c iter && leb q.n.p (E.c.epsAbs + E.c.epsRel * pr q.n) && leb q.n.d (E.c.epsAbs + E.c.epsRel * q.n.dr)

/-- one QP iteration, stagewise_qp.py:155-164: `backwardPass` is called in both branches. -/
def step (L : PyLLT F) (E : PyEnv P) (iter : ℕ) (q : PyQP P) : PyQP P :=
  (((q.backwardPass L E).forwardPass E).updateLag E iter).updateRho E iter

/-- the loop of `computeDirection`, stagewise_qp.py:153-206, in front of iteration `iter` with `n` iterations left; `qp_iters`
is set to the last value of the loop variable. -/
def loop (L : PyLLT F) (E : PyEnv P) : ℕ → ℕ → PyQP P → PyQP P
  | 0, iter, q => { q with qpIters := iter - 1 }
  | n + 1, iter, q =>
    let q := q.step L E iter
    if q.converged E iter then { q with qpIters := iter } else loop L E n (iter + 1) q

/-- the warm start, stagewise_qp.py:149-151. -/
def warm (L : PyLLT F) (E : PyEnv P) (q : PyQP P) : PyQP P :=
  if E.c.eqGuess then (q.plainPass L E).forwardPlain E else q

/-- `computeDirection()`, stagewise_qp.py:146-206.  With `rho_update_interval = 0` the first `%` raises `ZeroDivisionError`. -/
def computeDirection (L : PyLLT F) (E : PyEnv P) (q : PyQP P) : Res (PyQP P) :=
  let q := (q.resetParams E.c).warm L E
  if E.c.interval = 0 ∧ E.c.maxQP ≠ 0 then .exn q else .ok (loop L E E.c.maxQP 1 q)

end PyQP

/-- Attributes of the class `CSQP`, csqp.py:29-56 and stagewise_qp.py:588-638.  `gap[t]` is the gap between the end of node `t`
and `xs[t+1]`.  `nRej` is a ghost counter of line searches that accepted no step. -/
structure PyCSQP {F : Type} (P : Problem F) where
  c : PyConf F
  mu1 : F
  mu2 : F
  lagCoef : F
  tol : F
  useFilter : Bool
  filterSize : ℕ
  extra : Bool
  xs : Traj P
  us : Ctrls P
  xsTry : Traj P
  usTry : Ctrls P
  data : Data P
  gap : ℕ → Vec F P.ndx
  gapTry : ℕ → Vec F P.ndx
  q : PyQP P
  lagMul : ℕ → Vec F P.ndx
  lagInf : F
  cost : F
  costTry : F
  gapNorm : F
  gapNormTry : F
  con : F
  conTry : F
  merit : F
  meritTry : F
  KKT : F
  gapList : CBuf F
  costList : CBuf F
  conList : CBuf F
  nRej : ℕ

namespace PyCSQP
variable {P : Problem F}

/-- a freshly constructed `CSQP(shootingProblem, "StagewiseQP", use_filter_line_search)`, csqp.py:29-56, stagewise_qp.py:29-60,
559-638.  `d` is the content of the problem's datas.  Attributes that do not exist before the first `solve` have values that are
never read. -/
def new (useFilter : Bool) (d : Data P) : PyCSQP P where
  c :=
    { maxQP := 1000, epsAbs := lit (1 / 10 ^ 4), epsRel := lit (1 / 10 ^ 4), adaptTol := lit 5, interval := 25
      alpha := lit (16 / 10), eqGuess := true, osqp := true, resetRho := false, resetY := false
      sigma := lit (1 / 10 ^ 6), rhoBase := lit (1 / 10), rhoMin := lit (1 / 10 ^ 6), rhoMax := lit (10 ^ 3) }
  mu1 := lit 10
  mu2 := lit 10
  lagCoef := lit (101 / 100)
  tol := lit (1 / 10 ^ 6)
  useFilter := useFilter
  filterSize := 1
  extra := false
  xs _ := P.zeroX
  us t := zeroV F (P.nu t)
  xsTry := Function.update (fun _ => P.zeroX) 0 P.x0
  usTry t := zeroV F (P.nu t)
  data := d
  gap _ := zeroV F P.ndx
  gapTry _ := zeroV F P.ndx
  q :=
    { dx := fun _ => zeroV F P.ndx, du := fun t => zeroV F (P.nu t), dxt := fun _ => zeroV F P.ndx
      dut := fun t => zeroV F (P.nu t), z := fun t => zeroV F (P.ng t), zRel := fun t => zeroV F (P.ng t)
      y := fun t => zeroV F (P.ng t), rho := fun t => zeroV F (P.ng t), Vx := fun _ => zeroV F P.ndx
      Vxx := fun _ => Matrix.of fun _ _ => 0, K := fun _ => Matrix.of fun _ _ => 0, k := fun t => zeroV F (P.nu t)
      n := ⟨0, 0, 0, 0, 0, 0, 0⟩, rhoSparse := lit (1 / 10), rhoEst := 0, qpIters := 0 }
  lagMul _ := zeroV F P.ndx
  lagInf := 0
  cost := 0
  costTry := 0
  gapNorm := 0
  gapNormTry := 0
  con := 0
  conTry := 0
  merit := 0
  meritTry := 0
  KKT := 0
  gapList := ⟨0, []⟩
  costList := ⟨0, []⟩
  conList := ⟨0, []⟩
  nRej := 0

/-- `constraint_norm` from the problem's datas, stagewise_qp.py:89-114 = csqp.py:88-107. -/
def conNorm (d : Data P) : F :=
  addViol (P.lb P.T) (P.ub P.T) d.ter.g
    (forUp P.T (fun t acc => addViol (P.lb t) (P.ub t) (d.run t).g acc) 0)

/-- `lag_mul_inf_norm`, stagewise_qp.py:125-134. -/
def lagNorm (lam : ℕ → Vec F P.ndx) (y : (t : ℕ) → Vec F (P.ng t)) : F :=
  forUp (P.T + 1) (fun t m => if P.ng t ≠ 0 then cppMax m (normInf (y t)) else m)
    (forUp (P.T + 1) (fun t m => cppMax m (normInf (lam t))) 0)

/-- are the merit weights taken from the multipliers? `self.mu1 < 0 or self.mu2 < 0`, stagewise_qp.py:124 = csqp.py:113. -/
def auto (p : PyCSQP P) : Bool := ltb p.mu1 0 || ltb p.mu2 0

/-- the merit formula, stagewise_qp.py:124-144 = csqp.py:113-125. -/
def meritOf (p : PyCSQP P) (cost gn con : F) : F :=
  if p.auto then cost + p.lagCoef * p.lagInf * (gn + con) else cost + p.mu1 * gn + p.mu2 * con

/-- `calc(recalc=True)`, stagewise_qp.py:83-144. -/
def evaluate (p : PyCSQP P) : PyCSQP P :=
  let d := (p.data.calcAll p.xs p.us).calcDiffAll p.xs p.us
  let gap := PySQP.gaps d p.xs p.gap
  let p := { p with
    data := d
    con := conNorm d
    gap := gap
    cost := d.totalCost
    gapNorm := rowsNorm gap
    lagInf := if p.auto then lagNorm p.lagMul p.q.y else p.lagInf }
  { p with merit := p.meritOf p.cost p.gapNorm p.con }

/-- what `computeDirection` reads. -/
def env (p : PyCSQP P) : PyEnv P := ⟨p.c, p.data, p.gap, p.lagMul⟩

/-- `KKT_check()`, csqp.py:212-240 (`using_qp = 0`): the multipliers, then the residual; the state equation of node 0 is
skipped. -/
def kktCheck (p : PyCSQP P) : PyCSQP P :=
  let lam : ℕ → Vec F P.ndx := fun t => if t ≤ P.T then mv (p.q.Vxx t) (p.q.dxt t) + p.q.Vx t else p.lagMul t
  let K := forUp P.T (fun t K =>
    let r := p.data.rd t
    let lu := normInf (r.Lu + mv r.Fu.transpose (lam (t + 1)) + mv r.Gu.transpose (p.q.y t))
    if t = 0 then cppMax K lu
    else cppMax (cppMax K (normInf (r.Lx + mv r.Fx.transpose (lam (t + 1)) - lam t + mv r.Gx.transpose (p.q.y t)))) lu) 0
  let K := cppMax K (normInf (p.data.td.Lx - lam P.T + mv p.data.td.Gx.transpose (p.q.y P.T)))
  let K := cppMax K (forUp (P.T + 1) (fun t m => cppMax m (normInf (p.gap t))) 0)
  { p with lagMul := lam, KKT := cppMax K p.con }

/-- the trial point, csqp.py:71-78 = stagewise_qp.py:412-419. -/
def trialPoint (a : F) (p : PyCSQP P) : PyCSQP P :=
  let p := forUp P.T (fun t p => { p with
    xsTry := Function.update p.xsTry t (P.integrate (p.xs t) (sv a (p.q.dx t)))
    usTry := Function.update p.usTry t (p.us t + sv a (p.q.du t)) }) p
  { p with xsTry := Function.update p.xsTry P.T (P.integrate (p.xs P.T) (sv a (p.q.dx P.T))) }

/-- one node of the second loop of `tryStep`, csqp.py:80-93. -/
def tryNode (t : ℕ) (p : PyCSQP P) : PyCSQP P :=
  let d := p.data.calcNode t (p.xsTry t) (p.usTry t)
  { p with
    data := d
    gapTry := Function.update p.gapTry t (P.diff (p.xsTry (t + 1)) (d.run t).xnext)
    costTry := p.costTry + (d.run t).cost
    conTry := addViol (P.lb t) (P.ub t) (d.run t).g p.conTry }

/-- `tryStep(alpha)`, csqp.py:63-125. -/
def tryStep (a : F) (p : PyCSQP P) : PyCSQP P :=
  let p := forUp P.T tryNode (trialPoint a { p with meritTry := 0, conTry := 0, costTry := 0 })
  let d := p.data.calcTer (p.xsTry P.T)
  let p := { p with
    data := d
    conTry := addViol (P.lb P.T) (P.ub P.T) d.ter.g p.conTry
    costTry := p.costTry + d.ter.cost
    gapNormTry := rowsNorm p.gapTry }
  { p with meritTry := p.meritOf p.costTry p.gapNormTry p.conTry }

/-- `is_worse_than_memory`, csqp.py:322-334: cost and gap only; `constraint_list` is written and never read. -/
def worse (iter : ℕ) (p : PyCSQP P) : Bool :=
  PySQP.filterLoop p.costList p.gapList p.filterSize iter p.costTry p.gapNormTry p.filterSize 0

/-- `acceptStep(alpha)`, stagewise_qp.py:411-421: recomputes the trial point and makes it the candidate. -/
def acceptStep (a : F) (p : PyCSQP P) : PyCSQP P :=
  let p := trialPoint a p
  { p with xs := p.xsTry, us := p.usTry }

/-- the line search, csqp.py:317-347, with `n` trials left. -/
def search (iter : ℕ) : ℕ → F → PyCSQP P → PySQP.Search × PyCSQP P
  | 0, _, p => (.exhausted, { p with nRej := p.nRej + 1 })
  | n + 1, a, p =>
    let p := tryStep a p
    if p.useFilter then
      if p.worse iter then search iter n (a * lit (1 / 2)) p else (.accepted, p.acceptStep a)
    else if n = 0 then (.gaveUp, p)
    else if ltb p.meritTry p.merit then (.accepted, p.acceptStep a)
    else search iter n (a * lit (1 / 2)) p

/-- the three `append`s, csqp.py:314-316. -/
def pushFilter (p : PyCSQP P) : PyCSQP P :=
  { p with gapList := p.gapList.push p.gapNorm, costList := p.costList.push p.cost, conList := p.conList.push p.con }

variable [SqrtOps F]

/-- `computeDirection()` on the attributes of the class. -/
def computeDirection (L : PyLLT F) (p : PyCSQP P) : Res (PyCSQP P) :=
  (p.q.computeDirection L p.env).map fun q => { p with q := q }

/-- the penalties are reset in the first iteration, csqp.py:290-291. -/
def resetFirst (iter : ℕ) (p : PyCSQP P) : PyCSQP P :=
  if iter = 0 ∧ p.c.resetRho = false then { p with q := p.q.resetRhoVec p.c } else p

/-- the first half of an iteration, csqp.py:285-312.  `inl`: `solve` ends. -/
def head (L : PyLLT F) (iter : ℕ) (p : PyCSQP P) : (PyOut × PyCSQP P) ⊕ PyCSQP P :=
  match (p.evaluate.resetFirst iter).computeDirection L with
  | .exn p => .inl (.raised .zeroDiv, p)
  | .ok p =>
    let p := p.kktCheck
    if ltb p.KKT p.tol then .inl (.ret true, p) else .inr p

/-- the main loop, csqp.py:284-362: `n` iterations left, `iter` the current one. -/
def iterate (L : PyLLT F) : ℕ → ℕ → PyCSQP P → (PyOut × PyCSQP P) ⊕ PyCSQP P
  | 0, _, p => .inr p
  | n + 1, iter, p =>
    match head L iter p with
    | .inl r => .inl r
    | .inr p =>
      match search iter 10 (lit 1) p.pushFilter with
      | (.gaveUp, p) => .inl (.ret false, p)
      | (_, p) => iterate L n (iter + 1) p

/-- the beginning of `solve`, csqp.py:246-263; an omitted guess is the initial state at every node and zero controls. -/
def start (initXs : Option (Traj P)) (initUs : Option (Ctrls P)) (p : PyCSQP P) : PyCSQP P :=
  { p with
    xs := Function.update (initXs.getD fun _ => P.x0) 0 P.x0
    us := initUs.getD fun t => zeroV F (P.nu t)
    gapList := infDeque p.filterSize
    costList := infDeque p.filterSize
    conList := infDeque p.filterSize }

/-- `solve(init_xs, init_us, maxiter, isFeasible, regInit)`, csqp.py:242-390 (the last two arguments are ignored). -/
def solve (L : PyLLT F) (initXs : Option (Traj P)) (initUs : Option (Ctrls P)) (maxiter : ℕ) (p : PyCSQP P) :
    PyOut × PyCSQP P :=
  match iterate L maxiter 0 (p.start initXs initUs) with
  | .inl r => r
  | .inr p =>
    if p.extra then
      match p.evaluate.computeDirection L with
      | .exn p => (.raised .zeroDiv, p)
      | .ok p =>
        let p := p.kktCheck
        (.ret (ltb p.KKT p.tol), p)
    else (.ret false, p)

end PyCSQP
end
end Mim
