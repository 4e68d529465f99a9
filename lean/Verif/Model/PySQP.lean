import Verif.Model.SQP

/-!
# The Python prototype `SQP` (/repo/python/sqp.py, exported by /repo/python/__init__.py)

The model describes the class for problems whose nodes all have the same positive number of controls and `ndx > 0`: otherwise
NumPy raises (`np.linalg.norm(self.du, 1, axis=1)` on a ragged list, `max` of an empty array).  Arrays are values: no two
attributes of the class share an array that is later written in place.  `max(a, b)` of Python returns `a` unless `b > a`, as
`std::max`.  `np.linalg.norm(rows, 1, axis=1)` is the vector of the 1-norms, the built-in `sum` adds them from the left.
`solve` also overwrites the first entry of the caller's list `init_xs` (sqp.py:263); the caller's list is not part of the model.
-/
set_option linter.unusedSectionVars false
set_option linter.unusedSimpArgs false

namespace Mim

/-- the Python exceptions the prototypes can raise out of `solve`. -/
inductive PyErr where
  /-- `scipy.linalg.LinAlgError` of `cho_factor`, or a failed factorisation in general -/
  | linAlg
  /-- `TypeError` -/
  | type
  /-- `ZeroDivisionError` -/
  | zeroDiv
  /-- `UnboundLocalError` -/
  | unbound
  deriving DecidableEq

/-- how `solve` ends: it returns a value or raises. -/
inductive PyOut where
  | ret (b : Bool)
  | raised (e : PyErr)
  deriving DecidableEq

/-- Attributes of the class `SQP`, sqp.py:29-47 and 371-400.  `gap[t]` is the gap between the end of node `t` and `xs[t+1]`
(the C++ solvers store it at `t+1`).  `nRej` is a ghost counter of line searches that accepted no step. -/
structure PySQP {F : Type} (P : Problem F) where
  mu : F
  tol : F
  useFilter : Bool
  filterSize : ℕ
  withCb : Bool
  extra : Bool
  xs : Traj P
  us : Ctrls P
  xsTry : Traj P
  usTry : Ctrls P
  data : Data P
  gap : ℕ → Vec F P.ndx
  gapTry : ℕ → Vec F P.ndx
  dx : ℕ → Vec F P.ndx
  du : (t : ℕ) → Vec F (P.nu t)
  lagMul : ℕ → Vec F P.ndx
  S : ℕ → Mat F P.ndx P.ndx
  s : ℕ → Vec F P.ndx
  L : (t : ℕ) → Mat F (P.nu t) P.ndx
  l : (t : ℕ) → Vec F (P.nu t)
  cost : F
  costTry : F
  gapNorm : F
  gapNormTry : F
  merit : F
  meritTry : F
  xGrad : F
  uGrad : F
  KKT : F
  gapList : CBuf F
  costList : CBuf F
  nRej : ℕ

section
variable {F : Type} [Add F] [Sub F] [Mul F] [Div F] [Neg F] [Zero F] [One F] [FloatOps F]

/-- `sum(np.linalg.norm(rows, 1, axis=1))` over the `T + 1` rows. -/
def rowsNorm {P : Problem F} (g : ℕ → Vec F P.ndx) : F := sumUp (P.T + 1) fun t => norm1 (g t)

/-- `collections.deque(n * [np.inf], maxlen=n)` (sqp.py:265-270): a full buffer of infinities. -/
def infDeque (n : ℕ) : CBuf F := ⟨n, List.replicate n (-negInf)⟩

namespace PySQP
variable {P : Problem F}

/-- a freshly constructed `SQP(shootingProblem, use_filter_line_search, with_callbacks)`, sqp.py:30-47, 371-400 (`xs`, `us` are
initialised by Crocoddyl's `SolverAbstract`).  `d` is the content of the problem's datas.  `KKT`, `gap_list`, `cost_list` do not
exist before the first `solve`; their values here are never read. -/
def new (useFilter withCb : Bool) (d : Data P) : PySQP P where
  mu := lit 1
  tol := lit (1 / 10 ^ 6)
  useFilter := useFilter
  filterSize := 1
  withCb := withCb
  extra := false
  xs _ := P.zeroX
  us t := zeroV F (P.nu t)
  xsTry := Function.update (fun _ => P.zeroX) 0 P.x0
  usTry t := zeroV F (P.nu t)
  data := d
  gap _ := zeroV F P.ndx
  gapTry _ := zeroV F P.ndx
  dx _ := zeroV F P.ndx
  du t := zeroV F (P.nu t)
  lagMul _ := zeroV F P.ndx
  S _ := Matrix.of fun _ _ => 0
  s _ := zeroV F P.ndx
  L _ := Matrix.of fun _ _ => 0
  l t := zeroV F (P.nu t)
  cost := 0
  costTry := 0
  gapNorm := 0
  gapNormTry := 0
  merit := 0
  meritTry := 0
  xGrad := 0
  uGrad := 0
  KKT := 0
  gapList := ⟨0, []⟩
  costList := ⟨0, []⟩
  nRej := 0

/-- the loop over the running nodes that fills `gap`, sqp.py:61-66. -/
def gaps (d : Data P) (xs : Traj P) (gap : ℕ → Vec F P.ndx) : ℕ → Vec F P.ndx :=
  forUp P.T (fun t g => Function.update g t (P.diff (xs (t + 1)) (d.run t).xnext)) gap

/-- `calc()`, sqp.py:54-71. -/
def evaluate (p : PySQP P) : PySQP P :=
  let d := (p.data.calcAll p.xs p.us).calcDiffAll p.xs p.us
  let gap := gaps d p.xs p.gap
  let gn := rowsNorm gap
  { p with data := d, gap := gap, gapNorm := gn, cost := d.totalCost, merit := d.totalCost + p.mu * gn }

/-- one stage of `backwardPass`, sqp.py:214-252. -/
def backwardStage (llt : LLT F) (t : ℕ) (p : PySQP P) : Res (PySQP P) :=
  let r := p.data.rd t
  let Sp := p.S (t + 1)
  let sp := p.s (t + 1)
  let g := p.gap t
  let h := r.Lu + mv r.Fu.transpose (sp + mv Sp g)
  let G := r.Lxu.transpose + mm (mm r.Fu.transpose Sp) r.Fx
  let H := r.Luu + mm (mm r.Fu.transpose Sp) r.Fu
  match llt (P.nu t) H with
  | none => .exn p
  | some sol =>
    let L := sm (lit (-1)) (solveCols sol G)
    let l := sv (lit (-1)) (sol h)
    let S := r.Lxx + mm (mm r.Fx.transpose Sp) r.Fx - mm (mm L.transpose H) L
    let S := symm S
    let s := r.Lx + mv r.Fx.transpose (mv Sp g + sp) + mv G.transpose l + mv L.transpose (h + mv H l)
    .ok { p with
      L := Function.update p.L t L
      l := Function.update p.l t l
      S := Function.update p.S t S
      s := Function.update p.s t s }

/-- `backwardPass()`, sqp.py:211-252.  `cho_factor` raises `LinAlgError` where the factorisation fails. -/
def backwardPass (llt : LLT F) (p : PySQP P) : Res (PySQP P) :=
  forDownR P.T (backwardStage llt)
    { p with S := Function.update p.S P.T p.data.td.Lxx, s := Function.update p.s P.T p.data.td.Lx }

/-- one node of `computeUpdates`, sqp.py:135-149. -/
def updateStage (t : ℕ) (p : PySQP P) : PySQP P :=
  let r := p.data.rd t
  let du := mv (p.L t) (p.dx t) + p.l t
  { p with
    lagMul := Function.update p.lagMul t (mv (p.S t) (p.dx t) + p.s t)
    du := Function.update p.du t du
    dx := Function.update p.dx (t + 1)
      (mv (r.Fx + mm r.Fu (p.L t)) (p.dx t) + mv r.Fu (p.l t) + p.gap t) }

/-- `computeUpdates()`, sqp.py:132-155. -/
def computeUpdates (p : PySQP P) : PySQP P :=
  let p := forUp P.T updateStage p
  { p with
    lagMul := Function.update p.lagMul P.T (mv (p.S P.T) (p.dx P.T) + p.s P.T)
    xGrad := rowsNorm p.dx / lit ((P.T : ℚ) + 1)
    uGrad := sumUp P.T (fun t => norm1 (p.du t)) / lit (P.T : ℚ) }

/-- `computeDirection()`, sqp.py:73-78. -/
def computeDirection (llt : LLT F) (p : PySQP P) : Res (PySQP P) :=
  (backwardPass llt p.evaluate).thenDo computeUpdates

/-- `KKT_check()`, sqp.py:114-130.  `max(abs(np.array(self.gap).flatten()))` ranges over all `T + 1` gaps. -/
def kktCheck (p : PySQP P) : PySQP P :=
  let K := forUp P.T (fun t K =>
    let r := p.data.rd t
    let K := cppMax K (normInf (r.Lx + mv r.Fx.transpose (p.lagMul (t + 1)) - p.lagMul t))
    cppMax K (normInf (r.Lu + mv r.Fu.transpose (p.lagMul (t + 1))))) 0
  let K := cppMax K (normInf (p.data.td.Lx - p.lagMul P.T))
  { p with KKT := cppMax K (forUp (P.T + 1) (fun t m => cppMax m (normInf (p.gap t))) 0) }

/-- the first loop of `tryStep` with the terminal state, sqp.py:185-192. -/
def trialPoint (a : F) (p : PySQP P) : PySQP P :=
  let p := forUp P.T (fun t p => { p with
    xsTry := Function.update p.xsTry t (P.integrate (p.xs t) (sv a (p.dx t)))
    usTry := Function.update p.usTry t (p.us t + sv a (p.du t)) }) p
  { p with xsTry := Function.update p.xsTry P.T (P.integrate (p.xs P.T) (sv a (p.dx P.T))) }

/-- one node of the second loop of `tryStep`, sqp.py:194-199. -/
def tryNode (t : ℕ) (p : PySQP P) : PySQP P :=
  let d := p.data.calcNode t (p.xsTry t) (p.usTry t)
  { p with
    data := d
    gapTry := Function.update p.gapTry t (P.diff (p.xsTry (t + 1)) (d.run t).xnext)
    costTry := p.costTry + (d.run t).cost }

/-- `tryStep(alpha)`, sqp.py:178-206. -/
def tryStep (a : F) (p : PySQP P) : PySQP P :=
  let p := forUp P.T tryNode (trialPoint a { p with meritTry := 0, costTry := 0 })
  let d := p.data.calcTer (p.xsTry P.T)
  let c := p.costTry + d.ter.cost
  let gn := rowsNorm p.gapTry
  { p with data := d, costTry := c, gapNormTry := gn, meritTry := c + p.mu * gn }

/-- the filter test, sqp.py:307-322: a memory entry strictly better in both cost and gap. -/
def filterLoop (costList gapList : CBuf F) (filterSize iter : ℕ) (costTry gapTry : F) : ℕ → ℕ → Bool
  | 0, _ => false
  | n + 1, count =>
    if count < filterSize ∧ count ≤ iter then
      if ltb (costList.get (filterSize - 1 - count)) costTry && ltb (gapList.get (filterSize - 1 - count)) gapTry
      then true
      else filterLoop costList gapList filterSize iter costTry gapTry n (count + 1)
    else false

/-- `is_worse_than_memory` after the loop. -/
def worse (iter : ℕ) (p : PySQP P) : Bool :=
  filterLoop p.costList p.gapList p.filterSize iter p.costTry p.gapNormTry p.filterSize 0

/-- `acceptStep()`, sqp.py:208-209. -/
def acceptStep (p : PySQP P) : PySQP P := { p with xs := p.xsTry, us := p.usTry }

/-- how the `for k in range(max_search)` loop ends. -/
inductive Search where
  /-- `break` after `acceptStep` -/
  | accepted
  /-- all trials done, none accepted (filter) -/
  | exhausted
  /-- "No improvement", `return False` (merit) -/
  | gaveUp
  deriving DecidableEq

/-- the line search, sqp.py:303-333, with `n` trials left; returns also the final value of `alpha`. -/
def search (iter : ℕ) : ℕ → F → PySQP P → Search × F × PySQP P
  | 0, a, p => (.exhausted, a, { p with nRej := p.nRej + 1 })
  | n + 1, a, p =>
    let p := tryStep a p
    if p.useFilter then
      if p.worse iter then search iter n (a * lit (1 / 2)) p else (.accepted, a, p.acceptStep)
    else if n = 0 then (.gaveUp, a, p)
    else if ltb p.meritTry p.merit then (.accepted, a, p.acceptStep)
    else search iter n (a * lit (1 / 2)) p

/-- `gap_list.append`, `cost_list.append`, sqp.py:301-302. -/
def pushFilter (p : PySQP P) : PySQP P :=
  { p with gapList := p.gapList.push p.gapNorm, costList := p.costList.push p.cost }

/-- the first half of an iteration, sqp.py:280-299: direction, residual, convergence test.  `alpha = none` is Python's `None`;
formatting `None` with `{:.4f}` (sqp.py:287-298) raises `TypeError`.  `inl`: `solve` ends. -/
def head (llt : LLT F) (alpha : Option F) (p : PySQP P) : (PyOut × PySQP P) ⊕ PySQP P :=
  match p.computeDirection llt with
  | .exn p => .inl (.raised .linAlg, p)
  | .ok p =>
    let p := p.kktCheck
    if ltb p.KKT p.tol then
      .inl (if p.withCb && alpha.isNone then .raised .type else .ret true, p)
    else .inr p

/-- the main loop, sqp.py:279-346: `n` iterations left, `iter` the current one, `alpha` the variable of that name. -/
def iterate (llt : LLT F) : ℕ → ℕ → Option F → PySQP P → (PyOut × PySQP P) ⊕ (Option F × PySQP P)
  | 0, _, alpha, p => .inr (alpha, p)
  | n + 1, iter, alpha, p =>
    match head llt alpha p with
    | .inl r => .inl r
    | .inr p =>
      match search iter 10 (lit 1) p.pushFilter with
      | (.gaveUp, _, p) => .inl (.ret false, p)
      | (_, a, p) => iterate llt n (iter + 1) (some a) p

/-- the beginning of `solve`, sqp.py:258-272; an omitted guess is the initial state at every node and zero controls. -/
def start (initXs : Option (Traj P)) (initUs : Option (Ctrls P)) (p : PySQP P) : PySQP P :=
  { p with
    xs := Function.update (initXs.getD fun _ => P.x0) 0 P.x0
    us := initUs.getD fun t => zeroV F (P.nu t)
    gapList := infDeque p.filterSize
    costList := infDeque p.filterSize }

/-- `solve(init_xs, init_us, maxiter, isFeasible, regInit)`, sqp.py:254-369 (the last two arguments are ignored).  With callbacks
the extra iteration prints `iter`, which is unbound when `maxiter = 0` (sqp.py:348-368). -/
def solve (llt : LLT F) (initXs : Option (Traj P)) (initUs : Option (Ctrls P)) (maxiter : ℕ) (p : PySQP P) :
    PyOut × PySQP P :=
  match iterate llt maxiter 0 none (p.start initXs initUs) with
  | .inl r => r
  | .inr (_, p) =>
    if p.extra then
      match p.computeDirection llt with
      | .exn p => (.raised .linAlg, p)
      | .ok p =>
        let p := p.kktCheck
        if ltb p.KKT p.tol then (if p.withCb && maxiter = 0 then .raised .unbound else .ret true, p)
        else (.ret false, p)
    else (.ret false, p)

end PySQP
end
end Mim
