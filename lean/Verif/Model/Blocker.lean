import Verif.Model.FixMesh
import Verif.Model.Distribute

/-!
# `blocker` and `_user_defined_points`

SeismicMesh/decomp/blocker.py:4-103, SeismicMesh/generation/mesh_generator.py:787-805. Exact arithmetic; `eps` is `np.finfo(float).eps`.
-/

namespace SM.Blocker

open FixMesh

variable {K : Type} [Field K] [LinearOrder K] {d : ℕ}

/-- `np.linspace(lo, hi, n, endpoint=False)`. numpy; decomp/blocker.py:32-34, 43-45, 52-54, 62-64. -/
def lows (lo hi : K) (n : ℕ) : List K := (List.range n).map fun i : ℕ => lo + (i : K) * ((hi - lo) / (n : K))

/-- How an axis is cut: number of lower ends, and divisor of the width, for each of the three coordinates,
blocker.py:22-71. `none`: `xx` (or `z_lims`) is unbound. -/
def cuts (d axis n : ℕ) : Option ((ℕ × ℕ) × (ℕ × ℕ) × (ℕ × ℕ)) :=
  if axis = 0 then some ((1, 1), (n, n), (1, 1))
  else if axis = 1 then some ((n, n), (1, 1), (1, 1))
  else if axis = 2 ∧ d = 3 then some ((1, 1), (n, 1), (n, n))
  else none

/-- Lower corners of the blocks in the order of `zip(xx.ravel(), yy.ravel(), zz.ravel())` (`meshgrid` with its default
"xy" indexing: `y` varies slowest, then `x`, then `z`), blocker.py:77, 92. -/
def corners (d : ℕ) (xs ys zs : List K) : List (List K) :=
  ys.flatMap fun y => xs.flatMap fun x => if d = 3 then zs.map fun z => [x, y, z] else [[x, y]]

/-- Is the point in the (closed) block with lower corner `low` and widths `w`? blocker.py:78-83, 93-100. -/
def inBlock (low w : List K) (q : Fin d → K) : Bool :=
  decide (∀ i : Fin d, low.getD i 0 ≤ q i ∧ q i ≤ low.getD i 0 + w.getD i 0)

/-- Extent of a nonempty block: minima, then maxima, blocker.py:86-91, 103-107. -/
def extent (b0 : Fin d → K) (bs : List (Fin d → K)) : List K := List.ofFn (colMin b0 bs) ++ List.ofFn (colMax b0 bs)

/-- Extent of a block; the empty case does not occur because empty blocks are dropped, blocker.py:84, 101. -/
def extentOf : List (Fin d → K) → List K
  | [] => []
  | b0 :: bs => extent b0 bs

/-- Limits of coordinate `i`, blocker.py:17-20; 0 for a coordinate that does not exist. -/
def lim (eps : K) (p0 : Fin d → K) (ps : List (Fin d → K)) (i : ℕ) : K × K :=
  if h : i < d then (colMin p0 ps ⟨i, h⟩ - eps, colMax p0 ps ⟨i, h⟩ + eps) else (0, 0)

/-- The blocks for given cuts, blocker.py:73-101. -/
def blocksOf (eps : K) (p0 : Fin d → K) (ps : List (Fin d → K)) (c : (ℕ × ℕ) × (ℕ × ℕ) × (ℕ × ℕ)) : List (List (Fin d → K)) :=
  let lx := lim eps p0 ps 0
  let ly := lim eps p0 ps 1
  let lz := lim eps p0 ps 2
  let w := [(lx.2 - lx.1) / (c.1.2 : K), (ly.2 - ly.1) / (c.2.1.2 : K), (lz.2 - lz.1) / (c.2.2.2 : K)]
  ((corners d (lows lx.1 lx.2 c.1.1) (lows ly.1 ly.2 c.2.1.1) (lows lz.1 lz.2 c.2.2.1)).map fun low =>
    (p0 :: ps).filter (inBlock low w)).filter fun b => decide (b ≠ [])

/-- `blocker(points, rank, num_blocks, axis)`, blocker.py:4-103. -/
def blocker (eps : K) (points : List (Fin d → K)) (n axis : ℕ) : Except String (List (List (Fin d → K)) × List (List K)) :=
  if d < 2 ∨ d > 3 then .error "ValueError: Dimensions of points are not supported"
  else if n = 0 then .error "ZeroDivisionError"
  else if ¬ points.length / n > 1 then .error "AssertionError: too few points for chosen num_blocks"
  else match points with
    | [] => .error "ValueError: zero-size array"
    | p0 :: ps =>
      match cuts d axis n with
      | none => .error "UnboundLocalError"
      | some c =>
        let blocks := blocksOf eps p0 ps c
        .ok (blocks, blocks.map extentOf)

/-- `_user_defined_points`, mesh_generator.py:787-805, without the mesh size function (`localize_sizing_function`, line 799, is
modelled separately). Returned are the rank's points and the extents (`none` is Python's `None`). -/
def userPoints (eps : K) (points : List (Fin d → K)) (axis size rank : ℕ) :
    Mpi.Proc (Distribute.Parcel (Fin d → K) (List (List K))) (List (Fin d → K) × Option (List (List K))) :=
  if 1 < size then
    if rank = 0 then
      (Mpi.lift (blocker eps points size axis)).bind fun b => Distribute.localizePoints size rank b.1 (some b.2)
    else Distribute.localizePoints size rank [] none
  else pure (points, none)

end SM.Blocker
