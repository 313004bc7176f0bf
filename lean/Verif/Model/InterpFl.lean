import Verif.Model.Interp

/-!
# Evaluation of the sizing function in floating-point arithmetic

scipy's `RegularGridInterpolator` (linear, extrapolating) as used by `_build_sizing_function` (SeismicMesh/sizing/mesh_size_function.py:391-408) and `localize_sizing_function`
(SeismicMesh/migration/migration.py:16-53), with every operation followed by a rounding `rnd`, in the order of scipy's `_evaluate_linear`: the weight of a corner is the product, axis by axis, of
`1 - t` or `t`, and the values times the weights are added over the corners in lexicographic order. The grid vectors are the computed ones, whatever they are. Overflow and underflow are not modelled.
-/

namespace SM.InterpFl

open Interp

variable {K : Type} [Field K] [LinearOrder K]

/-- The distance to the lower node in units of the cell, `_find_indices` of scipy; sizing/mesh_size_function.py:397-405, migration/migration.py:39-41. -/
def tOf (rnd : K → K) (a : Axis K) (x : K) : K :=
  let i := cellIdx a x
  rnd (rnd (x - a.node i) / rnd (a.node (i + 1) - a.node i))

/-- Values times weights of the corners of the cell, in lexicographic order; `w` is the weight so far. scipy; sizing/mesh_size_function.py:397-405, migration/migration.py:39-41. -/
def terms (rnd : K → K) : List (Axis K) → K → (List ℕ → K) → List K → List K
  | a :: as, w, A, x :: xs =>
    terms rnd as (rnd (w * rnd (1 - tOf rnd a x))) (fun js => A (cellIdx a x :: js)) xs ++
      terms rnd as (rnd (w * tOf rnd a x)) (fun js => A ((cellIdx a x + 1) :: js)) xs
  | _, w, A, _ => [rnd (A [] * w)]

/-- The interpolated value, `_evaluate_linear` of scipy; sizing/mesh_size_function.py:397-405, migration/migration.py:39-41. -/
def interp (rnd : K → K) (as : List (Axis K)) (A : List ℕ → K) (xs : List K) : K := (terms rnd as 1 A xs).foldl (fun s y => rnd (s + y)) 0

/-- `localize_sizing_function` for rank `r`, migration.py:16-53: interpolation of the samples of the global function on the local grid vectors `as`, as computed. -/
def localize (rnd : K → K) (as : List (Axis K)) (fh : List K → K) (xs : List K) : K := interp rnd as (fun js => fh (nodeOf as js)) xs

end SM.InterpFl
