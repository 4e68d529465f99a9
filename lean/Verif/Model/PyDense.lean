import Verif.Model.PyCSQP
import Verif.Model.ProxQP

/-!
# The dense back ends of the Python `CSQP` (/repo/python/qp_solvers/qpsolvers.py, py_osqp.py, stagewise_qp_kkt.py)

`CSQP(problem, method)` with a method other than `"StagewiseQP"`: `computeDirectionFullQP` writes the linearised problem as one dense
QP in `(dx_1, …, dx_T, du_0, …, du_{T-1})`, solves it and reads the step and the multipliers back.  Modelled: the assembly, the
two back ends written in this repository (`CustomOSQP`, `StagewiseQPKKT`), ProxSuite, OSQP and HPIPM (dense and stagewise) as arbitrary
functions, what is passed to HPIPM, the reading of the answer, `KKT_check` with `using_qp`, the loop of `CSQP.solve`.  Not modelled:
the printed residuals and the assertions about them (`BENCHMARK and DEBUG`), time stamps.

The control dimension of the code is that of the first node (qpsolvers.py:1007); numpy raises an exception (or broadcasts) when
another node has a different one.  The model writes the blocks of the nodes at the code's positions; it is meant for problems
with one control dimension.  numpy arrays are values: every array is new in every call.
-/
set_option linter.unusedSectionVars false
set_option linter.unusedSimpArgs false

namespace Mim

/-- a QP `min ½ x'Px + q'x` subject to `l ≤ A x ≤ u` with `n` variables and `m` rows; `none` is an infinite bound. -/
structure OQP (F : Type) (n m : ℕ) where
  P : Mat F n n
  q : Vec F n
  A : Mat F m n
  l : Fin m → Option F
  u : Fin m → Option F

/-- settings of `CustomOSQP`, py_osqp.py:18-28 with the values of qpsolvers.py:41-46, and of `StagewiseQPKKT`,
stagewise_qp_kkt.py:18-26.  `rhoInit` is `rho_osqp_init`; unused by `StagewiseQPKKT`, which starts from the `rho_boyd` it has. -/
structure OConf (F : Type) where
  sigma : F
  rhoInit : F
  rhoMin : F
  rhoMax : F
  alpha : F
  epsAbs : F
  epsRel : F
  adaptTol : F
  interval : ℕ
  maxQP : ℕ

/-- attributes of `CustomOSQP` during `optimize_osqp`: `x_k z_k y_k`, `xtilde_k_1 ztilde_k_1`, `rho_osqp rho_vec_osqp
rho_estimate_osqp`, `r_prim r_dual eps_rel_prim eps_rel_dual`, `converged`, `qp_iters`. -/
structure OState (F : Type) (n m : ℕ) where
  x : Vec F n
  z : Vec F m
  y : Vec F m
  xt : Vec F n
  zt : Vec F m
  rho : F
  rhoVec : Vec F m
  rhoEst : F
  rPrim : F
  rDual : F
  relP : F
  relD : F
  conv : Bool
  iters : ℕ

/-- `scipy.sparse.linalg.spsolve`: arbitrary; it never raises an exception (a singular matrix gives a warning and `nan`s). -/
abbrev SpSolve (F : Type) := (n : ℕ) → Mat F n n → Vec F n → Vec F n

section
variable {F : Type} [Add F] [Sub F] [Mul F] [Div F] [Neg F] [Zero F] [One F] [FloatOps F]

/-- one entry of `np.clip(v, l, u)`. -/
def npClip (l u : Option F) (v : F) : F :=
  let v := match l with
    | none => v
    | some l => cppMax v l
  match u with
  | none => v
  | some u => cppMin v u

/-- one row of `set_rho_osqp` / `set_rho_boyd`, py_osqp.py:111-117, stagewise_qp_kkt.py:124-130. -/
def rowSet (rhoMin r : F) (l u : Option F) : F :=
  match l, u with
  | none, none => rhoMin
  | some l, some u => if eqb l u then lit (10 ^ 3) * r else r
  | _, _ => r

/-- one row of `update_rho_osqp` / `update_rho_boyd`, py_osqp.py:97-106, stagewise_qp_kkt.py:110-119 (rows closer than `1e-4`
count as equalities here; the `assert False` is not reached with finite bounds). -/
def rowUpdate (rhoMin r : F) (l u : Option F) : F :=
  match l, u with
  | none, none => rhoMin
  | some l, some u => if ltb (absf (l - u)) (lit (1 / 10 ^ 4)) then lit (10 ^ 3) * r else r
  | _, _ => r

/-- `iter % rho_update_interval == 0 and iter > 1`. -/
def OConf.due (c : OConf F) (iter : ℕ) : Bool := iter % c.interval == 0 && decide (1 < iter)

namespace OState
variable {n m : ℕ}

/-- `solve_linear_system_osqp`, py_osqp.py:30-46. -/
def solveSys (sp : SpSolve F) (c : OConf F) (D : OQP F n m) (s : OState F n m) : OState F n m :=
  let M := addDiag D.P c.sigma + mm D.A.transpose (diagMul s.rhoVec D.A)
  let xt := sp n M (sv c.sigma s.x - D.q + mv D.A.transpose (cw s.rhoVec s.z - s.y))
  { s with xt := xt, zt := mv D.A xt }

/-- `update_lagrangian_params`, py_osqp.py:48-81. -/
def updateLag (c : OConf F) (D : OQP F n m) (s : OState F n m) : OState F n m :=
  let x := sv c.alpha s.xt + sv (1 - c.alpha) s.x
  let w := sv c.alpha s.zt + sv (1 - c.alpha) s.z
  let z : Vec F m := fun i => npClip (D.l i) (D.u i) (w i + s.y i / s.rhoVec i)
  let y := s.y + cw s.rhoVec (w - z)
  { s with
    x := x
    z := z
    y := y
    rPrim := normInf (mv D.A x - z)
    rDual := normInf (mv D.P x + D.q + mv D.A.transpose y)
    relP := cppMax (normInf (mv D.A x)) (normInf z)
    relD := cppMax (cppMax (normInf D.q) (normInf (mv D.A.transpose y))) (normInf (mv D.P x)) }

variable [SqrtOps F]

/-- `update_rho_osqp(iter)`, py_osqp.py:83-106. -/
def updateRho (c : OConf F) (D : OQP F n m) (iter : ℕ) (s : OState F n m) : OState F n m :=
  let est := cppMin (cppMax (SqrtOps.sqrt (s.rPrim * s.relD / (s.rDual * s.relP)) * s.rho) c.rhoMin) c.rhoMax
  let s := { s with rhoEst := est }
  if c.due iter && (ltb (s.rho * c.adaptTol) est || ltb est (s.rho / c.adaptTol)) then
    { s with rho := est, rhoVec := fun i => rowUpdate c.rhoMin est (D.l i) (D.u i) }
  else s

/-- the termination test, py_osqp.py:128-131, 147. -/
def test (c : OConf F) (iter : ℕ) (s : OState F n m) : Bool :=
  c.due iter && ltb s.rPrim (c.epsAbs + c.epsRel * s.relP) && ltb s.rDual (c.epsAbs + c.epsRel * s.relD)

/-- one iteration, py_osqp.py:124-126. -/
def step (sp : SpSolve F) (c : OConf F) (D : OQP F n m) (iter : ℕ) (s : OState F n m) : OState F n m :=
  ((s.solveSys sp c D).updateLag c D).updateRho c D iter

/-- the loop of `optimize_osqp` in front of iteration `iter` with `k` iterations left, py_osqp.py:123-163. -/
def loop (sp : SpSolve F) (c : OConf F) (D : OQP F n m) : ℕ → ℕ → OState F n m → OState F n m
  | 0, iter, s => { s with iters := iter - 1 }
  | k + 1, iter, s =>
    let s := s.step sp c D iter
    if s.test c iter then { s with conv := true, iters := iter } else loop sp c D k (iter + 1) s

/-- the state in which `optimize_osqp` enters its loop: `set_rho_osqp` (py_osqp.py:108-118), `converged = False`, and the zero
vectors of qpsolvers.py:870-872.  The other attributes keep their values (they are written before they are read). -/
def init (c : OConf F) (D : OQP F n m) (s : OState F n m) : OState F n m :=
  let r := cppMin (cppMax c.rhoInit c.rhoMin) c.rhoMax
  { s with
    x := zeroV F n
    z := zeroV F m
    y := zeroV F m
    rho := r
    rhoVec := fun i => rowSet c.rhoMin r (D.l i) (D.u i)
    rhoEst := 0
    conv := false }

/-- `optimize_osqp(maxiters)`, py_osqp.py:120-176.  It raises an exception when `maxiters` is 0 (`iter` is unbound, line 164) or
when the interval is 0 (`%`). -/
def optimize (sp : SpSolve F) (c : OConf F) (D : OQP F n m) (s : OState F n m) : Res (OState F n m) :=
  if c.maxQP = 0 ∨ c.interval = 0 then .exn (s.init c D) else .ok (loop sp c D c.maxQP 1 (s.init c D))

end OState

/-- attributes of `StagewiseQPKKT`: `x_k z_k y_k v_k_1`, `rho_boyd rho_vec_boyd rho_estimate_boyd`, `r_prim r_dual eps_rel_prim
eps_rel_dual`, `qp_iters`, the local `converged`, and the flag `initialize`.  `e` equality rows, `m` inequality rows. -/
structure BState (F : Type) (n e m : ℕ) where
  x : Vec F n
  z : Vec F m
  y : Vec F m
  v : Vec F e
  rho : F
  rhoVec : Vec F m
  rhoEst : F
  rPrim : F
  rDual : F
  relP : F
  relD : F
  conv : Bool
  iters : ℕ
  fresh : Bool

/-- the QP of `StagewiseQPKKT`: `A_eq x = b`, `l ≤ A_in x ≤ u`. -/
structure BQP (F : Type) (n e m : ℕ) extends OQP F n m where
  E : Mat F e n
  b : Vec F e

namespace BState
variable {n e m : ℕ}

/-- the KKT matrix `[[P + A_in' rho A_in + sigma I, A_eq'], [A_eq, 0]]`, stagewise_qp_kkt.py:29-42. -/
def kktMat (c : OConf F) (D : BQP F n e m) (rhoVec : Vec F m) : Mat F (n + e) (n + e) :=
  let M := addDiag (D.P + mm D.A.transpose (diagMul rhoVec D.A)) c.sigma
  Matrix.of fun i j => Fin.addCases (fun i => Fin.addCases (fun j => M i j) (fun j => D.E j i) j)
    (fun i => Fin.addCases (fun j => D.E i j) (fun _ => 0) j) i

/-- its right-hand side, stagewise_qp_kkt.py:44-49. -/
def kktRhs (c : OConf F) (D : BQP F n e m) (s : BState F n e m) : Vec F (n + e) :=
  Fin.addCases (mv D.A.transpose (cw s.rhoVec (s.z - fun i => s.y i / s.rhoVec i)) - D.q + sv c.sigma s.x) D.b

/-- `solve_linear_system_boyd` and `update_lagrangian_params_boyd`, stagewise_qp_kkt.py:28-94.  `alpha * A_in @ xtilde` multiplies
the matrix by `alpha` first. -/
def admm (sp : SpSolve F) (c : OConf F) (D : BQP F n e m) (s : BState F n e m) : BState F n e m :=
  let sol := sp (n + e) (kktMat c D s.rhoVec) (s.kktRhs c D)
  let xt : Vec F n := fun i => sol (Fin.castAdd e i)
  let w := mv (sm c.alpha D.A) xt + sv (1 - c.alpha) s.z
  let z : Vec F m := fun i => npClip (D.l i) (D.u i) (w i + s.y i / s.rhoVec i)
  let y := s.y + cw s.rhoVec (w - z)
  { s with
    x := xt
    v := fun i => sol (Fin.natAdd n i)
    z := z
    y := y
    rDual := normInf (mv D.A.transpose (cw s.rhoVec (z - s.z)))
    rPrim := cppMax (if m = 0 then 0 else normInf (mv D.A xt - z)) (normInf (mv D.E xt - D.b))
    relP := if m = 0 then lit (1 / 10 ^ 10) else cppMax (normInf (mv D.A xt)) (normInf z)
    relD := if m = 0 then lit (1 / 10 ^ 10) else normInf (mv D.A.transpose y) }

variable [SqrtOps F]

/-- `update_rho_boyd(iter)`, stagewise_qp_kkt.py:96-119. -/
def updateRho (c : OConf F) (D : BQP F n e m) (iter : ℕ) (s : BState F n e m) : BState F n e m :=
  let est := cppMin (cppMax (SqrtOps.sqrt (s.rPrim * s.relD / (s.rDual * s.relP)) * s.rho) c.rhoMin) c.rhoMax
  let s := { s with rhoEst := est }
  if c.due iter && (ltb (s.rho * c.adaptTol) est || ltb est (s.rho / c.adaptTol)) then
    { s with rho := est, rhoVec := fun i => rowUpdate c.rhoMin est (D.l i) (D.u i) }
  else s

/-- the termination test, stagewise_qp_kkt.py:141-145. -/
def test (c : OConf F) (iter : ℕ) (s : BState F n e m) : Bool :=
  c.due iter && leb s.rPrim (c.epsAbs + c.epsRel * s.relP) && leb s.rDual (c.epsAbs + c.epsRel * s.relD)

/-- one iteration, stagewise_qp_kkt.py:137-139. -/
def step (sp : SpSolve F) (c : OConf F) (D : BQP F n e m) (iter : ℕ) (s : BState F n e m) : BState F n e m :=
  (s.admm sp c D).updateRho c D iter

/-- the loop of `optimize_boyd`, stagewise_qp_kkt.py:136-176. -/
def loop (sp : SpSolve F) (c : OConf F) (D : BQP F n e m) : ℕ → ℕ → BState F n e m → BState F n e m
  | 0, iter, s => { s with iters := iter - 1 }
  | k + 1, iter, s =>
    let s := s.step sp c D iter
    if s.test c iter then { s with conv := true, iters := iter } else loop sp c D k (iter + 1) s

/-- the state in which `optimize_boyd` enters its loop: zero vectors in the first call only (qpsolvers.py:890-897), `set_rho_boyd`
(stagewise_qp_kkt.py:121-131) from the penalty left by the previous call, `converged = False`. -/
def init (c : OConf F) (D : BQP F n e m) (s : BState F n e m) : BState F n e m :=
  let s := if s.fresh then { s with x := zeroV F n, z := zeroV F m, y := zeroV F m, fresh := false } else s
  let r := cppMin (cppMax s.rho c.rhoMin) c.rhoMax
  { s with rho := r, rhoVec := fun i => rowSet c.rhoMin r (D.l i) (D.u i), rhoEst := 0, conv := false }

/-- `optimize_boyd(maxiters)`, stagewise_qp_kkt.py:133-190, with the exceptions of `OState.optimize`. -/
def optimize (sp : SpSolve F) (c : OConf F) (D : BQP F n e m) (s : BState F n e m) : Res (BState F n e m) :=
  if c.maxQP = 0 ∨ c.interval = 0 then .exn (s.init c D) else .ok (loop sp c D c.maxQP 1 (s.init c D))

end BState

/-! ## The dense QP -/
namespace PyDense
variable {P : Problem F}

/-- the new zero arrays, qpsolvers.py:107-117, 177-179. -/
def zeroQP (F : Type) [Zero F] : PQP F where
  P _ _ := 0
  q _ := 0
  A _ _ := 0
  b _ := 0
  C _ _ := 0
  l _ := some 0
  u _ := some 0

/-- cost and dynamics of one node, qpsolvers.py:121-161. -/
def fillStage (d : Data P) (gap : ℕ → Vec F P.ndx) (t : ℕ) (m : PQP F) : PQP F :=
  let r := d.rd t
  let iu := P.T * P.ndx + t * P.nu 0
  let ix := (t - 1) * P.ndx
  let m := if 1 ≤ t then
      { m with
        P := setBlock iu ix r.Lxu.transpose (setBlock ix iu r.Lxu (setBlock ix ix r.Lxx m.P))
        q := setSeg ix r.Lx m.q }
    else m
  let m := { m with
    P := setBlock iu iu r.Luu m.P
    q := setSeg iu r.Lu m.q
    A := setBlock (t * P.ndx) (t * P.ndx) (idMat P.ndx) (setBlock (t * P.ndx) iu (-r.Fu) m.A) }
  let m := if 1 ≤ t then { m with A := setBlock (t * P.ndx) ((t - 1) * P.ndx) (-r.Fx) m.A } else m
  { m with b := setSeg (t * P.ndx) (gap t) m.b }

/-- the terminal cost, qpsolvers.py:163-170. -/
def fillTerminal (d : Data P) (m : PQP F) : PQP F :=
  { m with
    P := setBlock ((P.T - 1) * P.ndx) (P.T * P.ndx - P.ndx) d.td.Lxx m.P
    q := setSeg ((P.T - 1) * P.ndx) d.td.Lx m.q }

/-- the constraints of one node, qpsolvers.py:181-200; `nin_count` is the number of rows of the earlier nodes. -/
def fillRows (d : Data P) (t : ℕ) (m : PQP F) : PQP F :=
  if P.ng t = 0 then m
  else
    let nin := offs P.ng t
    let m := { m with l := setSeg nin (loRow (P.lb t) (d.run t).g) m.l, u := setSeg nin (loRow (P.ub t) (d.run t).g) m.u }
    let m := if 0 < t then { m with C := setBlock nin ((t - 1) * P.ndx) (d.rd t).Gx m.C } else m
    { m with C := setBlock nin (P.T * P.ndx + t * P.nu 0) (d.rd t).Gu m.C }

/-- the terminal constraints, qpsolvers.py:202-212. -/
def fillRowsTer (d : Data P) (m : PQP F) : PQP F :=
  if P.ng P.T ≠ 0 then
    let nin := offs P.ng P.T
    { m with
      l := setSeg nin (loRow (P.lb P.T) d.ter.g) m.l
      u := setSeg nin (loRow (P.ub P.T) d.ter.g) m.u
      C := setBlock nin ((P.T - 1) * P.ndx) d.td.Gx m.C }
  else m

/-- the QP of `computeDirectionFullQP`, qpsolvers.py:104-212. -/
def assemble (d : Data P) (gap : ℕ → Vec F P.ndx) : PQP F :=
  fillRowsTer d (forUp P.T (fillRows d) (fillTerminal d (forUp P.T (fillStage d gap) (zeroQP F))))

/-- the QP as `CustomOSQP` gets it: equalities are rows with equal bounds, qpsolvers.py:860-868. -/
def toOQP (nv ne ni : ℕ) (m : PQP F) : OQP F nv (ne + ni) where
  P := Matrix.of fun i j => m.P i j
  q i := m.q i
  A := Matrix.of fun i j => Fin.addCases (fun i : Fin ne => m.A i j) (fun i : Fin ni => m.C i j) i
  l := Fin.addCases (fun i : Fin ne => some (m.b i)) (fun i : Fin ni => m.l i)
  u := Fin.addCases (fun i : Fin ne => some (m.b i)) (fun i : Fin ni => m.u i)

/-- the QP as `StagewiseQPKKT` gets it, qpsolvers.py:881-888. -/
def toBQP (nv ne ni : ℕ) (m : PQP F) : BQP F nv ne ni where
  P := Matrix.of fun i j => m.P i j
  q i := m.q i
  A := Matrix.of fun i j => m.C i j
  l i := m.l i
  u i := m.u i
  E := Matrix.of fun i j => m.A i j
  b i := m.b i

/-- a numpy vector as a stacked vector. -/
def unview {n : ℕ} (v : Vec F n) : FVec F := fun i => if h : i < n then v ⟨i, h⟩ else 0

/-- The stagewise QP passed to `hpipm_ocp_qp`, qpsolvers.py:528-601: dynamics `x_{t+1} = A x + B u + b`, cost
`½ x'Qx + ½ u'Ru + u'Sx + q'x + r'u`, rows `lg ≤ C x + D u ≤ ug`; `…On = false` switches a bound off (`lg_mask`, `ug_mask`). -/
structure OcpQP {F : Type} (P : Problem F) where
  A : ℕ → Mat F P.ndx P.ndx
  B : (t : ℕ) → Mat F P.ndx (P.nu t)
  b : ℕ → Vec F P.ndx
  Q : ℕ → Mat F P.ndx P.ndx
  R : (t : ℕ) → Mat F (P.nu t) (P.nu t)
  S : (t : ℕ) → Mat F (P.nu t) P.ndx
  q : ℕ → Vec F P.ndx
  r : (t : ℕ) → Vec F (P.nu t)
  C : (t : ℕ) → Mat F (P.ng t) P.ndx
  D : (t : ℕ) → Mat F (P.ng t) (P.nu t)
  lg : (t : ℕ) → Vec F (P.ng t)
  lgOn : (t : ℕ) → Fin (P.ng t) → Bool
  ug : (t : ℕ) → Vec F (P.ng t)
  ugOn : (t : ℕ) → Fin (P.ng t) → Bool

/-- a new `hpipm_ocp_qp(dim)`, qpsolvers.py:536: zero matrices, all bounds switched on (HPIPM's documentation). -/
def ocpZero (P : Problem F) : OcpQP P where
  A _ := 0
  B _ := 0
  b _ := zeroV F _
  Q _ := 0
  R _ := 0
  S _ := 0
  q _ := zeroV F _
  r _ := zeroV F _
  C _ := 0
  D _ := 0
  lg _ := zeroV F _
  lgOn _ _ := true
  ug _ := zeroV F _
  ugOn _ _ := true

/-- bounds without infinities and shifted by the constraint value, qpsolvers.py:560-577: an infinite bound becomes 0 first. -/
def finRow {n : ℕ} (b : Fin n → Option F) (g : Vec F n) : Vec F n := fun i => (b i).getD 0 - g i

/-- `~np.isinf(lg)`, qpsolvers.py:563-567, 571-576. -/
def finMask {n : ℕ} (b : Fin n → Option F) : Fin n → Bool := fun i => (b i).isSome

/-- one running node, qpsolvers.py:538-578; at node 0 the matrices of the state stay zero. -/
def ocpStage (d : Data P) (gap : ℕ → Vec F P.ndx) (t : ℕ) (m : OcpQP P) : OcpQP P :=
  let r := d.rd t
  let m := if 1 ≤ t then { m with A := Function.update m.A t r.Fx } else m
  let m := { m with B := Function.update m.B t r.Fu, b := Function.update m.b t (gap t) }
  let m := { m with R := Function.update m.R t r.Luu, r := Function.update m.r t r.Lu }
  let m := if 1 ≤ t then
      { m with S := Function.update m.S t r.Lxu.transpose, Q := Function.update m.Q t r.Lxx, q := Function.update m.q t r.Lx }
    else m
  let m := if 1 ≤ t then { m with C := Function.update m.C t r.Gx } else m
  { m with
    D := Function.update m.D t r.Gu
    lg := Function.update m.lg t (finRow (P.lb t) (d.run t).g)
    lgOn := Function.update m.lgOn t (finMask (P.lb t))
    ug := Function.update m.ug t (finRow (P.ub t) (d.run t).g)
    ugOn := Function.update m.ugOn t (finMask (P.ub t)) }

/-- the terminal node, qpsolvers.py:579-601. -/
def ocpTerminal (d : Data P) (m : OcpQP P) : OcpQP P :=
  let m := if 0 < P.ng P.T then
      { m with
        lg := Function.update m.lg P.T (finRow (P.lb P.T) d.ter.g)
        lgOn := Function.update m.lgOn P.T (finMask (P.lb P.T))
        ug := Function.update m.ug P.T (finRow (P.ub P.T) d.ter.g)
        ugOn := Function.update m.ugOn P.T (finMask (P.ub P.T))
        C := Function.update m.C P.T d.td.Gx }
    else m
  { m with Q := Function.update m.Q P.T d.td.Lxx, q := Function.update m.q P.T d.td.Lx }

/-- the stagewise QP, qpsolvers.py:536-601. -/
def ocp (d : Data P) (gap : ℕ → Vec F P.ndx) : OcpQP P := ocpTerminal d (forUp P.T (ocpStage d gap) (ocpZero P))

/-- What a back end can be given: the dense QP, built for every method, and the stagewise one, which the code builds for
`HPIPM_OCP` only (building it has no effect on anything else). -/
structure Inputs {F : Type} (P : Problem F) where
  dense : PQP F
  ocp : OcpQP P

/-- the QP of the current candidate in both forms. -/
def inputs (d : Data P) (gap : ℕ → Vec F P.ndx) : Inputs P := ⟨assemble d gap, ocp d gap⟩

/-- A back end: its memory, whether the reading of its answer writes `lag_mul[0]` (qpsolvers.py:914-921), and what it does with a
QP; `none` if it raises an exception. -/
structure Backend (F : Type) (P : Problem F) where
  Mem : Type
  zero0 : Bool
  run : Mem → Inputs P → Option (PAns F) × Mem

/-- ProxSuite (qpsolvers.py:231-262, a new object in every call) and OSQP (278-333; when OSQP returns `None`s the code uses zeros): arbitrary. -/
def external (P : Problem F) (zero0 : Bool) (qp : PSolve F) : Backend F P where
  Mem := ℕ
  zero0 := zero0
  run k m := (qp k m.dense, k + 1)

/-- The QP passed to `hpipm_dense_qp`, qpsolvers.py:379-409; `…On = false` switches a bound off. -/
structure HDense (F : Type) where
  H : FMat F
  g : FVec F
  A : FMat F
  b : FVec F
  C : FMat F
  lg : FVec F
  lgOn : FVec Bool
  ug : FVec F
  ugOn : FVec Bool

/-- `hpipm_dense_qp_sol`: `v pi lam_lg lam_ug`, and `iter`, the residuals of the solver (only printed). -/
structure HDSol (F : Type) where
  v : FVec F
  pi : FVec F
  lamLg : FVec F
  lamUg : FVec F
  iters : ℕ
  pri : F
  dua : F

/-- infinite bounds become 0 and are switched off, qpsolvers.py:380-409. -/
def toHDense (m : PQP F) : HDense F where
  H := m.P
  g := m.q
  A := m.A
  b := m.b
  C := m.C
  lg i := (m.l i).getD 0
  lgOn i := (m.l i).isSome
  ug i := (m.u i).getD 0
  ugOn i := (m.u i).isSome

/-- `HPIPM_DENSE`, qpsolvers.py:364-441: HPIPM is an arbitrary function (of the number of the call and the QP); of its multipliers of
the rows only those of the upper bounds are kept. -/
def hpipmDense (P : Problem F) (hp : ℕ → HDense F → Option (HDSol F)) : Backend F P where
  Mem := ℕ
  zero0 := true
  run k m :=
    match hp k (toHDense m.dense) with
    | none => (none, k + 1)
    | some a => (some ⟨a.v, fun i => -a.pi i, a.lamUg, a.iters, a.pri, a.dua⟩, k + 1)

/-- `hpipm_ocp_qp_sol`: `x u pi lam_lg lam_ug` of the nodes; `iter`, residuals. -/
structure HOSol {F : Type} (P : Problem F) where
  x : ℕ → Vec F P.ndx
  u : (t : ℕ) → Vec F (P.nu t)
  pi : ℕ → Vec F P.ndx
  lamLg : (t : ℕ) → Vec F (P.ng t)
  lamUg : (t : ℕ) → Vec F (P.ng t)
  iters : ℕ
  pri : F
  dua : F

/-- `res`, qpsolvers.py:620-631: the stacked step. -/
def ocpRes (a : HOSol P) : FVec F :=
  forUp P.T (fun t r => setSeg (P.T * P.ndx + t * P.nu 0) (a.u t) (setSeg (t * P.ndx) (a.x (t + 1)) r)) fun _ => 0

/-- the first part of `y_k` with `DEBUG`, qpsolvers.py:635-639. -/
def ocpPi (a : HOSol P) : FVec F := forUp P.T (fun t r => setSeg (t * P.ndx) (-a.pi t) r) fun _ => 0

/-- the second part of `y_k` with `DEBUG`, qpsolvers.py:644-673. -/
def ocpLam (a : HOSol P) : FVec F :=
  forUp (P.T + 1) (fun t r => if 0 < P.ng t then setSeg (offs P.ng t) (a.lamUg t) r else r) fun _ => 0

/-- `HPIPM_OCP`, qpsolvers.py:518-673: HPIPM is an arbitrary function.  The multipliers are read only if the attribute `DEBUG` is
true; it is false after construction (qpsolvers.py:48). -/
def hpipmOcp (P : Problem F) (debug : Bool) (hp : ℕ → OcpQP P → Option (HOSol P)) : Backend F P where
  Mem := ℕ
  zero0 := true
  run k m :=
    match hp k m.ocp with
    | none => (none, k + 1)
    | some a => (some ⟨ocpRes a, if debug then ocpPi a else fun _ => 0, if debug then ocpLam a else fun _ => 0, a.iters, a.pri, a.dua⟩, k + 1)

variable [SqrtOps F]

/-- `CustomOSQP`, qpsolvers.py:859-878. -/
def custom (P : Problem F) (sp : SpSolve F) (c : OConf F) : Backend F P where
  Mem := OState F P.nVars (P.nEq + P.nIn)
  zero0 := true
  run s m :=
    match s.optimize sp c (toOQP P.nVars P.nEq P.nIn m.dense) with
    | .exn s => (none, s)
    | .ok s => (some ⟨unview s.x, unview fun i : Fin P.nEq => s.y (Fin.castAdd P.nIn i),
        unview fun i : Fin P.nIn => s.y (Fin.natAdd P.nEq i), s.iters, s.rPrim, s.rDual⟩, s)

/-- `StagewiseQPKKT`, qpsolvers.py:880-912. -/
def boyd (P : Problem F) (sp : SpSolve F) (c : OConf F) : Backend F P where
  Mem := BState F P.nVars P.nEq P.nIn
  zero0 := false
  run s m :=
    match s.optimize sp c (toBQP P.nVars P.nEq P.nIn m.dense) with
    | .exn s => (none, s)
    | .ok s => (some ⟨unview s.x, unview s.v, unview s.y, s.iters, s.rPrim, s.rDual⟩, s)

end PyDense

/-- `CSQP(problem, method)` with a dense back end: the attributes shared with `CSQP(problem, "StagewiseQP")` (of `p.q` only the step,
`y` and `qp_iters` exist), the memory of the back end; ghost `nQP`, the number of QPs solved. -/
structure PyFull {F : Type} {P : Problem F} (B : PyDense.Backend F P) where
  p : PyCSQP P
  m : B.Mem
  nQP : ℕ

namespace PyFull
variable {P : Problem F} {B : PyDense.Backend F P}

/-- a freshly constructed `CSQP(shootingProblem, method, use_filter_line_search)`, csqp.py:29-56, qpsolvers.py:23-51, 971-1014. -/
def new (useFilter : Bool) (d : Data P) (m : B.Mem) : PyFull B := ⟨PyCSQP.new useFilter d, m, 0⟩

/-- reading the answer, qpsolvers.py:264-276, 899-938. -/
def readAnswer (a : PAns F) (s : PyFull B) : PyFull B :=
  { s with
    nQP := s.nQP + 1
    p := { s.p with
      lagMul := fun t =>
        match t with
        | 0 => if B.zero0 then zeroV F P.ndx else s.p.lagMul 0
        | t + 1 => if t < P.T then -seg (t * P.ndx) P.ndx a.y else s.p.lagMul (t + 1)
      q := { s.p.q with
        y := fun t => if t ≤ P.T ∧ P.ng t ≠ 0 then seg (offs P.ng t) (P.ng t) a.z else s.p.q.y t
        dx := fun t =>
          match t with
          | 0 => zeroV F P.ndx
          | t + 1 => if t < P.T then seg (t * P.ndx) P.ndx a.x else s.p.q.dx (t + 1)
        du := fun t => if t < P.T then seg (P.T * P.ndx + t * P.nu 0) (P.nu t) a.x else s.p.q.du t
        qpIters := a.iters } } }

/-- `computeDirectionFullQP()`, qpsolvers.py:104-941. -/
def computeDirection (s : PyFull B) : Res (PyFull B) :=
  match B.run s.m (PyDense.inputs s.p.data s.p.gap) with
  | (none, m) => .exn { s with m := m, nQP := s.nQP + 1 }
  | (some a, m) => .ok (readAnswer a { s with m := m })

/-- `KKT_check()` with `using_qp = 1`, csqp.py:219-240: the multipliers of the back end are used as they are. -/
def kktCheck (s : PyFull B) : PyFull B :=
  let lam := s.p.lagMul
  let y := s.p.q.y
  let K := forUp P.T (fun t K =>
    let r := s.p.data.rd t
    let lu := normInf (r.Lu + mv r.Fu.transpose (lam (t + 1)) + mv r.Gu.transpose (y t))
    if t = 0 then cppMax K lu
    else cppMax (cppMax K (normInf (r.Lx + mv r.Fx.transpose (lam (t + 1)) - lam t + mv r.Gx.transpose (y t)))) lu) 0
  let K := cppMax K (normInf (s.p.data.td.Lx - lam P.T + mv s.p.data.td.Gx.transpose (y P.T)))
  let K := cppMax K (forUp (P.T + 1) (fun t m => cppMax m (normInf (s.p.gap t))) 0)
  { s with p := { s.p with KKT := cppMax K s.p.con } }

/-- the first half of an iteration, csqp.py:285-312.  `inl`: `solve` ends, `none` with the exception of the back end. -/
def head (s : PyFull B) : (Option Bool × PyFull B) ⊕ PyFull B :=
  match computeDirection { s with p := s.p.evaluate } with
  | .exn s => .inl (none, s)
  | .ok s =>
    let s := s.kktCheck
    if ltb s.p.KKT s.p.tol then .inl (some true, s) else .inr s

/-- the main loop, csqp.py:284-362: `n` iterations left, `iter` the current one. -/
def iterate : ℕ → ℕ → PyFull B → (Option Bool × PyFull B) ⊕ PyFull B
  | 0, _, s => .inr s
  | n + 1, iter, s =>
    match head s with
    | .inl r => .inl r
    | .inr s =>
      match s.p.pushFilter.search iter 10 (lit 1) with
      | (.gaveUp, p) => .inl (some false, { s with p := p })
      | (_, p) => iterate n (iter + 1) { s with p := p }

/-- `solve(init_xs, init_us, maxiter)`, csqp.py:242-390; `none`: an exception. -/
def solve (initXs : Option (Traj P)) (initUs : Option (Ctrls P)) (maxiter : ℕ) (s : PyFull B) : Option Bool × PyFull B :=
  match iterate maxiter 0 { s with p := s.p.start initXs initUs } with
  | .inl r => r
  | .inr s =>
    if s.p.extra then
      match computeDirection { s with p := s.p.evaluate } with
      | .exn s => (none, s)
      | .ok s =>
        let s := s.kktCheck
        (some (ltb s.p.KKT s.p.tol), s)
    else (some false, s)

end PyFull
end
end Mim
