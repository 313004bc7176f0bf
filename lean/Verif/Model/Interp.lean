import Verif.Model.Sizing

/-!
# Model of the interpolants

`RegularGridInterpolator` (scipy, method "linear", `bounds_error=False`, `fill_value=None`) as used
by `_build_sizing_function` (SeismicMesh/sizing/mesh_size_function.py:391-408) and by
`localize_sizing_function` (SeismicMesh/migration/migration.py:16-53).

scipy forms the weighted sum over the 2^d corners of the cell; in exact arithmetic this is the
nested one-dimensional interpolation below. Not modelled: the rounding of the grid vectors to
float32 (mesh_size_function.py:515-516).
-/

namespace SM.Interp

/-- A grid vector: `n` nodes `node 0 < node 1 < ...`. sizing/mesh_size_function.py:514-523; migration/migration.py:37. -/
structure Axis (K : Type*) where
  n : ℕ
  node : ℕ → K

section
variable {K : Type*} [Field K] [LinearOrder K]

/-- `np.linspace(a, b, n)`, mesh_size_function.py:514-523. -/
def linspace (a b : K) (n : ℕ) : Axis K := ⟨n, fun i => a + i * ((b - a) / ((n : K) - 1))⟩

/-- The largest `j ≤ i` with `node j ≤ x`, else 0. scipy `RegularGridInterpolator`; sizing/mesh_size_function.py:397-405, migration/migration.py:39-41. -/
def search (node : ℕ → K) (x : K) : ℕ → ℕ
  | 0 => 0
  | i + 1 => if node (i + 1) ≤ x then i + 1 else search node x i

/-- scipy's `find_interval_ascending`: the cell `[node i, node (i+1)]` used for `x`; outside the
grid the first or last cell (extrapolation). scipy; sizing/mesh_size_function.py:397-405, migration/migration.py:39-41. -/
def cellIdx (a : Axis K) (x : K) : ℕ := search a.node x (a.n - 2)

/-- Multilinear interpolation of the array `A` at the point `xs`. scipy `RegularGridInterpolator`, linear, extrapolating (`fill_value=None`); sizing/mesh_size_function.py:397-405, migration/migration.py:39-41. -/
def interp : List (Axis K) → (List ℕ → K) → List K → K
  | a :: as, A, x :: xs =>
    let i := cellIdx a x
    let t := (x - a.node i) / (a.node (i + 1) - a.node i)
    (1 - t) * interp as (fun js => A (i :: js)) xs + t * interp as (fun js => A ((i + 1) :: js)) xs
  | _, A, _ => A []

/-- A 3-D array addressed by an index list. sizing/mesh_size_function.py:397-405. -/
def ofArr (A : Sizing.Arr K) : List ℕ → K
  | [i, j] => A i j 0
  | [i, j, k] => A i j k
  | _ => 0

/-- Grid vectors of the sizing function, `_get_vectors` mesh_size_function.py:514-523. -/
def axes (d0 d1 d2 : ℕ) : Sizing.Bbox K → List (Axis K)
  | .two z0 z1 x0 x1 => [linspace z0 z1 d0, linspace x0 x1 d1]
  | .three z0 z1 x0 x1 y0 y1 => [linspace z0 z1 d0, linspace x0 x1 d1, linspace y0 y1 d2]

/-- `SizeFunction.eval` on one point: `_build_sizing_function`, mesh_size_function.py:391-408. -/
def sizeEval (out : Sizing.Out K) (x : List K) : K :=
  interp (axes out.d0 out.d1 out.d2 out.bbox) (ofArr out.cell) x

variable [FloorSemiring K]

/-- `np.arange(start, stop, h)` (and the same nodes from `np.mgrid[start:stop:h]`),
migration.py:32-38. -/
def arange (start stop h : K) : Axis K := ⟨⌈(stop - start) / h⌉₊, fun i => start + i * h⟩

/-- The slab of rank `r`, migration.py:28-31: along `axis` the r-th of `size` equal parts. -/
def slab (size r axis : ℕ) (bbox : List (K × K)) : List (K × K) :=
  bbox.mapIdx fun i b =>
    if i = axis then ((linspace b.1 b.2 (size + 1)).node r, (linspace b.1 b.2 (size + 1)).node (r + 1))
    else b

/-- Local grid vectors, migration.py:38. -/
def localAxes (h0 : K) (box : List (K × K)) : List (Axis K) :=
  box.map fun b => arange (b.1 - 3 * h0) (b.2 + 3 * h0) h0

/-- The coordinates of a grid node. sizing/mesh_size_function.py:396, 402. -/
def nodeOf (as : List (Axis K)) (js : List ℕ) : List K := List.zipWith (fun a j => a.node j) as js

/-- `localize_sizing_function` for rank `r`, migration.py:16-53, seen on rank `r`: the local
interpolant of the samples of the global function `fh`. (The transfer of the object to rank `r`
is a single matched message, see `Model/Mpi`.) -/
def localize (fh : List K → K) (h0 : K) (bbox : List (K × K)) (axis size r : ℕ) : List K → K :=
  let as := localAxes h0 (slab size r axis bbox)
  interp as (fun js => fh (nodeOf as js))

end
end SM.Interp
