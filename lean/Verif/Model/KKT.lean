import Verif.Model.SQP
import Verif.Base.Flat

/-!
# SolverKKT (/repo/src/kkt.cpp)

All stages are stacked: columns `0 … NX-1` are the states `dx_0 … dx_T` (`NX = ndx_`), then `NU = nu_` controls, then `NX` multipliers.
All states share one dimension, so the running offset `ix` at stage `t` is `t * ndx`; `iu` is `offs P.nu t`.
`kkt_.lu().solve` is an arbitrary function `lu` (Eigen's partial pivoting LU never throws).

`computeDirection` can only throw if a user's action model throws; such models are outside the model (`Model/Crocoddyl`), so the
`catch` branch of the loop kkt.cpp:51-63 is not represented.
-/
set_option linter.unusedSectionVars false
set_option linter.unusedSimpArgs false

namespace Mim

/-- a linear solver: size, matrix, right-hand side. -/
abbrev LU (F : Type) := ℕ → FMat F → FVec F → FVec F

/-- Configuration of a `SolverKKT`: kkt.hpp:57,88-98 and the thresholds of `SolverAbstract`. -/
structure KConf (F : Type) where
  tol : F
  thStop : F
  thGrad : F
  thAccept : F
  alphas : List F
  ncb : ℕ

/-- State of a `SolverKKT`, kkt.hpp:62-98 and `SolverAbstract`.  `fs` is `SolverAbstract::fs_`, which no function of kkt.cpp writes.
`kktRes` is `KKT_`.  `log` and `nDir` are ghost: callback calls and computed directions. -/
structure KKT {F : Type} (P : Problem F) where
  c : KConf F
  iter : ℕ
  steplength : F
  xs : Traj P
  us : Ctrls P
  feas : Bool
  wasFeas : Bool
  data : Data P
  fs : ℕ → Vec F P.ndx
  kkt : FMat F
  ref : FVec F
  pd : FVec F
  dxs : ℕ → Vec F P.ndx
  dus : (t : ℕ) → Vec F (P.nu t)
  lam : ℕ → Vec F P.ndx
  xsTry : Traj P
  usTry : Ctrls P
  cost : F
  costTry : F
  d0 : F
  d1 : F
  dV : F
  dVexp : F
  stop : F
  kktRes : F
  log : List (ℕ × F)
  nDir : ℕ

section
variable {F : Type} [Add F] [Sub F] [Mul F] [Div F] [Neg F] [Zero F] [One F] [FloatOps F] {P : Problem F}

/-- `ndx_`: all states, kkt.cpp:319-345. -/
def Problem.nX (P : Problem F) : ℕ := (P.T + 1) * P.ndx
/-- `nu_`: all controls, kkt.cpp:319-345. -/
def Problem.nU (P : Problem F) : ℕ := offs P.nu P.T
/-- `ndx_ + nu_`. -/
def Problem.nP (P : Problem F) : ℕ := P.nX + P.nU
/-- the size `2 * ndx_ + nu_` of the system. -/
def Problem.nS (P : Problem F) : ℕ := P.nP + P.nX

namespace KKT

/-- A freshly constructed `SolverKKT`: kkt.cpp:19-40, 311-363, defaults of kkt.hpp:95-98 and of `SolverAbstract`. -/
def new (d : Data P) : KKT P where
  c := { tol := lit (1 / 10 ^ 6), thStop := lit (1 / 10 ^ 9), thGrad := lit (1 / 10 ^ 12), thAccept := lit (1 / 10)
         alphas := defaultAlphas, ncb := 0 }
  iter := 0
  steplength := 1
  xs _ := P.zeroX
  us t := zeroV F (P.nu t)
  feas := false
  wasFeas := false
  data := d
  fs _ := zeroV F P.ndx
  kkt _ _ := 0
  ref _ := 0
  pd _ := 0
  dxs _ := zeroV F P.ndx
  dus t := zeroV F (P.nu t)
  lam _ := zeroV F P.ndx
  xsTry _ := P.zeroX
  usTry t := zeroV F (P.nu t)
  cost := 0
  costTry := 0
  d0 := 0
  d1 := 0
  dV := 0
  dVexp := 0
  stop := 0
  kktRes := -negInf
  log := []
  nDir := 0

/-- the matrix part of one stage of `calcDiff`, kkt.cpp:261-267 (`cx0 = ndx`). -/
def fillStage {t : ℕ} (r : RunDiff F P.ndx (P.nu t) (P.ng t)) (M : FMat F) : FMat F :=
  let ix := t * P.ndx
  let iu := offs P.nu t
  let M := setBlock ix ix r.Lxx M
  let M := setBlock ix (P.nX + iu) r.Lxu M
  let M := setBlock (P.nX + iu) ix r.Lxu.transpose M
  let M := setBlock (P.nX + iu) (P.nX + iu) r.Luu M
  let M := setBlock (P.nP + P.ndx + ix) ix (-r.Fx) M
  setBlock (P.nP + P.ndx + ix) (P.nX + iu) (-r.Fu) M

/-- the vector part of one stage of `calcDiff`, kkt.cpp:255-259, 269-273. -/
def fillRef (d : Data P) (xs : Traj P) (t : ℕ) (v : FVec F) : FVec F :=
  let ix := t * P.ndx
  let iu := offs P.nu t
  let v := if t = 0 then setSeg P.nP (P.diff P.x0 (xs 0)) v else v
  let v := setSeg ix (d.rd t).Lx v
  let v := setSeg (P.nX + iu) (d.rd t).Lu v
  setSeg (P.nP + P.ndx + ix) (P.diff (d.run t).xnext (xs (t + 1))) v

/-- `kkt_.block(0, ndx_ + nu_, ndx_ + nu_, ndx_) = kkt_.block(ndx_ + nu_, 0, ndx_, ndx_ + nu_).transpose()`, kkt.cpp:284-285. -/
def mirror (P : Problem F) (M : FMat F) : FMat F :=
  setBlock 0 P.nP (Matrix.of fun (i : Fin P.nP) (j : Fin P.nX) => M (P.nP + j) i) M

/-- the matrix left by `calcDiff` when it finds `M` there, kkt.cpp:246, 261-267, 282, 284-285. -/
def assemble (d : Data P) (M : FMat F) : FMat F :=
  let M := setBlock P.nP 0 (idMat P.nX) M
  let M := forUp P.T (fun t M => fillStage (d.rd t) M) M
  let M := setBlock (P.T * P.ndx) (P.T * P.ndx) d.td.Lxx M
  mirror P M

/-- the vector left by `calcDiff`, kkt.cpp:255-259, 269-273, 283. -/
def assembleRef (d : Data P) (xs : Traj P) (v : FVec F) : FVec F :=
  setSeg (P.T * P.ndx) d.td.Lx (forUp P.T (fillRef d xs) v)

/-- `calcDiff`, kkt.cpp:235-287. -/
def calcDiff (s : KKT P) : KKT P :=
  let d := (s.data.calcAll s.xs s.us).calcDiffAll s.xs s.us
  { s with data := d, cost := d.totalCost, kkt := assemble d s.kkt, ref := assembleRef d s.xs s.ref }

/-- `computePrimalDual`, kkt.cpp:289-293; `primal_` and `dual_` are the first `ndx_ + nu_` and the last `ndx_` entries of `pd`. -/
def primalDual (lu : LU F) (s : KKT P) : KKT P := { s with pd := lu P.nS s.kkt (fun i => -(s.ref i)) }

/-- the segments read from the solution, kkt.cpp:108-130. -/
def split (s : KKT P) : KKT P :=
  { s with dxs := fun t => seg (t * P.ndx) P.ndx s.pd
           dus := fun t => seg (P.nX + offs P.nu t) (P.nu t) s.pd
           lam := fun t => seg (P.nP + t * P.ndx) P.ndx s.pd }

/-- `checkKKTConditions`, kkt.cpp:155-176.  `fs_flat_` holds all of `fs`. -/
def residual (d : Data P) (fs lam : ℕ → Vec F P.ndx) : F :=
  let K := forUp P.T (fun t K =>
    let r := d.rd t
    let K := cppMax K (normInf (r.Lx + mv r.Fx.transpose (lam (t + 1)) - lam t))
    cppMax K (normInf (r.Lu + mv r.Fu.transpose (lam (t + 1))))) (0 : F)
  let K := cppMax K (normInf (d.td.Lx - lam P.T))
  cppMax K (normInf fun i : Fin ((P.T + 1) * P.ndx) => fs i.divNat i.modNat)

/-- `computeDirection(true)`, kkt.cpp:103-133; `solve` never passes `false` unless an action model throws. -/
def direction (lu : LU F) (s : KKT P) : KKT P :=
  let s := (s.calcDiff.primalDual lu).split
  { s with kktRes := residual s.data s.fs s.lam, nDir := s.nDir + 1 }

/-- `expectedImprovement`, kkt.cpp:205-213. -/
def improve (s : KKT P) : KKT P :=
  let p : Vec F P.nP := seg 0 P.nP s.pd
  { s with
    d0 := -dot (seg 0 P.nP s.ref) p
    d1 := -dot (mv (Matrix.of fun i j : Fin P.nP => s.kkt i j) p) p }

/-- `tryStep`, kkt.cpp:135-153, with the assignment of `dV_`, kkt.cpp:76. -/
def trial (a : F) (s : KKT P) : KKT P :=
  let xsT : Traj P := fun t => P.integrate (s.xs t) (sv a (s.dxs t))
  let usT : Ctrls P := fun t => if P.nu t ≠ 0 then s.us t + sv a (s.dus t) else s.usTry t
  let d := s.data.calcAll xsT usT
  { s with xsTry := xsT, usTry := usT, data := d, costTry := d.totalCost, dV := s.cost - d.totalCost }

/-- the line search, kkt.cpp:72-87. -/
def search : List F → KKT P → KKT P
  | [], s => s
  | a :: as, s =>
    let s := trial a { s with steplength := a }
    let s := { s with dVexp := a * s.d0 + lit (1 / 2) * a * a * s.d1 }
    if ltb s.d0 s.c.thGrad || !s.feas || ltb (s.c.thAccept * s.dVexp) s.dV then
      { s with wasFeas := s.feas, xs := s.xsTry, us := s.usTry, feas := true, cost := s.costTry }
    else search as s

/-- `dF` of `stoppingCriteria`, kkt.cpp:184-199 (all its segments are overwritten). -/
def dF (d : Data P) (lam : ℕ → Vec F P.ndx) (v : FVec F) : FVec F :=
  let v := forUp P.T (fun t v =>
    let v := setSeg (t * P.ndx) (lam t - mv (d.rd t).Fx.transpose (lam (t + 1))) v
    setSeg (P.nX + offs P.nu t) (-mv (d.rd t).Fu.transpose (lam (t + 1))) v) v
  setSeg (P.T * P.ndx) (lam P.T) v

/-- `stoppingCriteria`, kkt.cpp:178-203. -/
def stopping (s : KKT P) : KKT P :=
  { s with stop :=
      sqNorm (fun i : Fin P.nP => s.ref i + dF s.data s.lam (fun _ => 0) i) + sqNorm (seg P.nP P.nX s.ref) }

/-- the callback loop, kkt.cpp:89-95. -/
def callbacks (s : KKT P) : KKT P := { s with log := s.log ++ (List.range s.c.ncb).map fun _ => (s.iter, s.kktRes) }

/-- one iteration of the main loop, kkt.cpp:50-99: `(some b, s)` means `return b`. -/
def body (lu : LU F) (s : KKT P) : Option Bool × KKT P :=
  let s := (s.direction lu).improve
  if leb s.kktRes s.c.tol then (some true, s)
  else
    let s := ((search s.c.alphas s).stopping).callbacks
    if s.wasFeas && ltb s.stop s.c.thStop then (some true, s) else (none, s)

/-- the main loop, kkt.cpp:50. -/
def iterate (lu : LU F) : ℕ → KKT P → Option Bool × KKT P
  | 0, s => (none, s)
  | n + 1, s =>
    match body lu s with
    | (some b, s) => (some b, s)
    | (none, s) => iterate lu n { s with iter := s.iter + 1 }

/-- `solve(init_xs, init_us, maxiter, is_feasible, _)`, kkt.cpp:44-101.  `was_feasible_` keeps its value from the last call. -/
def solve (lu : LU F) (initXs : Option (Traj P)) (initUs : Option (Ctrls P)) (maxiter : ℕ) (feas : Bool) (s : KKT P) : Bool × KKT P :=
  let s := { s with xs := initXs.getD fun _ => P.zeroX, us := initUs.getD fun t => zeroV F (P.nu t), feas := feas, iter := 0 }
  match iterate lu maxiter s with
  | (some b, s) => (b, s)
  | (none, s) => (false, s)

end KKT
end
end Mim
