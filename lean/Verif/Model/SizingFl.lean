import Verif.Model.LimgradFl

/-!
# Size limits, time step and gradation in floating-point arithmetic

The stages of `get_sizing_function_from_segy` after the size criteria, sizing/mesh_size_function.py:213-225, on an arbitrary ordered
set `F` of numbers with arbitrary operations (the rounded operations of the array's number format), in the order in which the code
applies them. `Model/Sizing.lean` is the case of exact operations. Not modelled: NaN and infinities, mixed formats.
-/

namespace SM.SizingFl

/-- Arrays. -/
abbrev Arr (F : Type) := ℕ → ℕ → ℕ → F

/-- The arithmetic of the arrays, sizing/mesh_size_function.py:451-466. -/
structure Arith (F : Type) where
  lim : LimgradFl.Arith F
  one : F
  div : F → F → F

/-- The exceptions, sizing/mesh_size_function.py:456-461, 476-477. -/
inductive Err | crNeg | dtNeg | orderSmall | gradeNeg
  deriving DecidableEq, Repr

variable {F : Type} [LinearOrder F] (O : Arith F)

/-- sizing/mesh_size_function.py:213-217 on one value. -/
def clamp (hmin hmax x : F) : F :=
  let y := if x < hmin then hmin else x
  if y > hmax then hmax else y

/-- `_enforce_courant_sizing`, sizing/mesh_size_function.py:451-466; `dim` is `vp.ndim`. -/
def courant (dim : F) (vp cell : Arr F) (crMax dt so : F) : Except Err (Arr F) :=
  if crMax = O.lim.zero ∨ dt = O.lim.zero ∨ so = O.lim.zero then .ok cell
  else if crMax < O.lim.zero then .error .crNeg
  else if dt < O.lim.zero then .error .dtNeg
  else if so < O.one then .error .orderSmall
  else
    let cr := O.div crMax (O.lim.mul dim so)
    .ok fun i j k =>
      if O.div (O.lim.mul (vp i j k) dt) (O.lim.mul dim (cell i j k)) > cr then
        O.div (O.lim.mul (vp i j k) dt) (O.lim.mul dim cr)
      else cell i j k

/-- Limits, time step and gradation of the requested sizes `req`, sizing/mesh_size_function.py:213-225. -/
def sizes (imax d0 d1 d2 : ℕ) (seps dim : F) (vp req : Arr F) (hmin hmax crMax dt so grade elen : F) : Except Err (Arr F × Bool) :=
  match courant O dim vp (fun i j k => clamp hmin hmax (req i j k)) crMax dt so with
  | .error e => .error e
  | .ok cell =>
    match LimgradFl.enforceGradation O.lim imax d0 d1 d2 seps cell grade elen with
    | .error _ => .error .gradeNeg
    | .ok r => .ok r

end SM.SizingFl
