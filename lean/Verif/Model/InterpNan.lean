import Verif.Model.InterpFl

/-!
# Evaluation of a sizing function that contains NaN

scipy's `RegularGridInterpolator` as used by `_build_sizing_function` (SeismicMesh/sizing/mesh_size_function.py:391-408) and `localize_sizing_function` (SeismicMesh/migration/migration.py:16-53) when
entries of the array are NaN: `none` is NaN, `some x` the number `x`; operations as in `Model/InterpFl.lean`, an operation with NaN gives NaN. The query points and the grid vectors are numbers.
-/

namespace SM.InterpNan

open Interp

variable {K : Type} [Field K] [LinearOrder K]

/-- Values times weights of the corners of the cell, in lexicographic order. scipy; sizing/mesh_size_function.py:397-405, migration/migration.py:39-41. -/
def terms (rnd : K → K) : List (Axis K) → K → (List ℕ → Option K) → List K → List (Option K)
  | a :: as, w, A, x :: xs =>
    terms rnd as (rnd (w * rnd (1 - InterpFl.tOf rnd a x))) (fun js => A (cellIdx a x :: js)) xs ++
      terms rnd as (rnd (w * InterpFl.tOf rnd a x)) (fun js => A ((cellIdx a x + 1) :: js)) xs
  | _, w, A, _ => [(A []).map fun v => rnd (v * w)]

/-- `+` of `double`. scipy; sizing/mesh_size_function.py:397-405, migration/migration.py:39-41. -/
def add (rnd : K → K) : Option K → Option K → Option K
  | some x, some y => some (rnd (x + y))
  | _, _ => none

/-- The interpolated value. scipy; sizing/mesh_size_function.py:397-405, migration/migration.py:39-41. -/
def interp (rnd : K → K) (as : List (Axis K)) (A : List ℕ → Option K) (xs : List K) : Option K :=
  (terms rnd as 1 A xs).foldl (add rnd) (some 0)

/-- `localize_sizing_function` for one rank: interpolation of the samples of the global function on the local grid vectors. migration.py:16-53. -/
def localize (rnd : K → K) (as : List (Axis K)) (fh : List K → Option K) (xs : List K) : Option K := interp rnd as (fun js => fh (nodeOf as js)) xs

end SM.InterpNan
