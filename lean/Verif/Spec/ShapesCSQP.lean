import Verif.Model.ShapesCSQP
import Verif.Spec.Shapes

/-!
# The sizes the working arrays of `SolverCSQP` should have
-/
set_option autoImplicit false

namespace Mim.Shape
open Arr

def sizeCSQPAll (d : Dims) : Store
  | fsTry, t => nth (d.T + 1) t d.ndx 1
  | du, t => nth d.T t (d.nu t) 1
  | dxtilde, t => nth (d.T + 1) t d.ndx 1
  | dutilde, t => nth d.T t (d.nu t) 1
  | tmpX, t => nth 1 t d.ndx 1
  | tmpVx, t => nth 1 t d.ndx 1
  | tmpU, t => nth d.T t (d.nu t) 1
  | VxxFs, t => nth d.T t d.ndx 1
  | zz, t => nth (d.T + 1) t (d.ng t) 1
  | zRelaxed, t => nth (d.T + 1) t (d.ng t) 1
  | zPrev, t => nth (d.T + 1) t (d.ng t) 1
  | yy, t => nth (d.T + 1) t (d.ng t) 1
  | rho, t => nth (d.T + 1) t (d.ng t) 1
  | invRho, t => nth (d.T + 1) t (d.ng t) 1
  | tmpCdxCdu, t => nth (d.T + 1) t (d.ng t) 1
  | tmpDual, t => nth (d.T + 1) t (d.ng t) 1
  | tmpRhoGx, t => nth (d.T + 1) t (d.ng t) d.ndx
  | tmpRhoGu, t => nth d.T t (d.ng t) (d.nu t)
  | a, t => sizeBase d (d.T + 1) a t

end Mim.Shape
