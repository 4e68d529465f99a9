import Verif.Model.Shapes

/-!
# The sizes the working arrays should have

`N` is the number of elements of `dx_`: `T` for `SolverDDP` and `SolverFDDP`, `T + 1` for `SolverSQP`.
-/
set_option autoImplicit false

namespace Mim.Shape
open Arr

/-- an element of a `std::vector` of length `n`. -/
def nth (n t : ℕ) (r c : ℕ) : Option Sh := if t < n then some ⟨r, c⟩ else none

/-- the arrays every solver has, at the sizes of the problem `d`. -/
def sizeBase (d : Dims) (N : ℕ) : Store
  | xs, t => nth (d.T + 1) t d.nx 1
  | us, t => nth d.T t (d.nu t) 1
  | fs, t => nth (d.T + 1) t d.ndx 1
  | Vxx, t => nth (d.T + 1) t d.ndx d.ndx
  | Vx, t => nth (d.T + 1) t d.ndx 1
  | Qxx, t => nth d.T t d.ndx d.ndx
  | Qxu, t => nth d.T t d.ndx (d.nu t)
  | Quu, t => nth d.T t (d.nu t) (d.nu t)
  | Qx, t => nth d.T t d.ndx 1
  | Qu, t => nth d.T t (d.nu t) 1
  | K, t => nth d.T t (d.nu t) d.ndx
  | k, t => nth d.T t (d.nu t) 1
  | xsTry, t => nth (d.T + 1) t d.nx 1
  | usTry, t => nth d.T t (d.nu t) 1
  | dx, t => nth N t d.ndx 1
  | FuTVxx, t => nth d.T t (d.nu t) d.ndx
  | llt, t => nth d.T t (d.nu t) (d.nu t)
  | Quuk, t => nth d.T t (d.nu t) 1
  | VxxTmp, t => nth 1 t d.ndx d.ndx
  | FxTVxx, t => nth 1 t d.ndx d.ndx
  | fTVxx, t => nth 1 t d.ndx 1
  | lagMul, t => nth (d.T + 1) t d.ndx 1
  | fsFlat, t => nth 1 t (d.ndx * (d.T + 1)) 1
  | _, _ => none

def sizeDDP (d : Dims) : Store := sizeBase d d.T

def sizeFDDP (d : Dims) : Store
  | fsTry, t => nth (d.T + 1) t d.ndx 1
  | xnext, t => nth 1 t d.nx 1
  | a, t => sizeBase d d.T a t

def sizeSQP (d : Dims) : Store
  | fsTry, t => nth (d.T + 1) t d.ndx 1
  | du, t => nth d.T t (d.nu t) 1
  | tmpX, t => nth 1 t d.ndx 1
  | tmpU, t => nth d.T t (d.nu t) 1
  | a, t => sizeBase d (d.T + 1) a t

/-- `SolverCSQP`: the common arrays and the ADMM penalties. -/
def sizeCSQP (d : Dims) : Store
  | rho, t => nth (d.T + 1) t (d.ng t) 1
  | invRho, t => nth (d.T + 1) t (d.ng t) 1
  | a, t => sizeBase d d.T a t

end Mim.Shape
