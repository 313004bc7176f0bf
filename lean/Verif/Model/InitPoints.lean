import Verif.Model.MeshLoop
import Mathlib.Algebra.Order.Floor.Ring
import Mathlib.Algebra.Order.Archimedean.Basic
import Mathlib.Data.Fin.VecNotation

/-!
# Initial points

SeismicMesh/generation/utils.py:7-45 (`odd`, `create_staggered_grid`, `make_init_points`) and
SeismicMesh/generation/mesh_generator.py:808-852 (`_generate_initial_points`), 867-877 (`_form_extents`).

Exact real arithmetic. The random numbers are a parameter `rand` (`np.random.rand` after seeding; the seed is the same
on every rank, so the stream is shared). Dimensions other than 2 and 3 raise in the model (in the code they fail later).
-/

namespace SM.Init

open Np

noncomputable section

/-- `int(ceil((stop - start) / step))`, the number of entries of `np.arange` / `np.mgrid`. numpy; generation/utils.py:16, 41; mesh_size and migration/migration.py:31-37 use the same. -/
def gridCount (start stop step : ℝ) : ℤ := ⌈(stop - start) / step⌉

/-- The entries `start + i * step`. numpy; generation/utils.py:16, 41. -/
def gridVals (start step : ℝ) (n : ℕ) : List ℝ := (List.range n).map fun i : ℕ => start + (i : ℝ) * step

/-- `np.mgrid[slice(a, b, h)]` with a single slice, i.e. `np.arange(a, b, h)`, utils.py:37. -/
def arange (a b h : ℝ) : Except String (List ℝ) :=
  if h = 0 then .error "ZeroDivisionError" else .ok (gridVals a h (gridCount a b h).toNat)

/-- One axis of `np.mgrid[tuple(slice(min, max + h0, h0))]`, utils.py:17-19. -/
def mgridAxis (h : ℝ) (b : ℝ × ℝ) : Except String (List ℝ) :=
  if h = 0 then .error "OverflowError: cannot convert float infinity to integer"
  else if gridCount b.1 (b.2 + h) h < 0 then .error "ValueError: negative dimensions are not allowed"
  else .ok (gridVals b.1 h (gridCount b.1 (b.2 + h) h).toNat)

/-- The shift of row `i`, generation/utils.py:7-13, 20-24: `odds_rows` and `odds_cols` are both the odd indices of axis 0. -/
def shift (h : ℝ) (i : ℕ) : ℝ := if i % 2 = 1 then h / 2 else 0

/-- `points.reshape(2, -1).T` of the shifted arrays, utils.py:20-25: the last axis varies fastest. -/
def staggered2 (h : ℝ) (xs ys : List ℝ) : List (Fin 2 → ℝ) :=
  xs.zipIdx.flatMap fun xi => ys.map fun y => ![xi.1, y + shift h xi.2]

/-- The same in 3-D, utils.py:20-25: rows with odd index on axis 0 shift both in `y` and in `z`. -/
def staggered3 (h : ℝ) (xs ys zs : List ℝ) : List (Fin 3 → ℝ) :=
  xs.zipIdx.flatMap fun xi => ys.flatMap fun y => zs.map fun z => ![xi.1, y + shift h xi.2, z + shift h xi.2]

/-- `create_staggered_grid`, utils.py:16-26. -/
def createStaggeredGrid (h : ℝ) : (d : ℕ) → List (ℝ × ℝ) → Except String (List (Fin d → ℝ))
  | 2, [bx, by'] => do
    let xs ← mgridAxis h bx
    let ys ← mgridAxis h by'
    return staggered2 h xs ys
  | 3, [bx, by', bz] => do
    let xs ← mgridAxis h bx
    let ys ← mgridAxis h by'
    let zs ← mgridAxis h bz
    return staggered3 h xs ys zs
  | _, _ => .error "not modelled: dimension"

/-- `np.linspace(lo, hi, size + 1)[k]`, utils.py:33. -/
def lims (b : ℝ × ℝ) (size k : ℕ) : ℝ := b.1 + k * ((b.2 - b.1) / size)

/-- The local limits on the split axis, utils.py:33-39. -/
def localLims (h : ℝ) (b : ℝ × ℝ) (size rank : ℕ) : Except String (ℝ × ℝ) :=
  if rank = 0 then .ok (lims b size 0, lims b size 1)
  else do
    let tmp ← arange (lims b size (rank - 1)) (lims b size rank + h) h
    match tmp.getLast? with
    | none => throw "IndexError: index -1 is out of bounds"
    | some l => return (l + h, lims b size (rank + 1))

/-- The loop over the axes, utils.py:31-39; `i` is the index of the head. -/
def localBox (h : ℝ) (size rank axis : ℕ) : ℕ → List (ℝ × ℝ) → Except String (List (ℝ × ℝ))
  | _, [] => .ok []
  | i, b :: bs => do
    let b' ← (if i = axis then localLims h b size rank else pure b : Except String (ℝ × ℝ))
    let bs' ← localBox h size rank axis (i + 1) bs
    return b' :: bs'

/-- `make_init_points`, utils.py:29-45. -/
def makeInitPoints (h : ℝ) (d size rank axis : ℕ) (bbox : List (ℝ × ℝ)) : Except String (List (Fin d → ℝ)) := do
  let b ← localBox h size rank axis 0 bbox
  createStaggeredGrid h d b

variable {d : ℕ}

/-- The candidate points of a rank before rejection, mesh_generator.py:810-820. -/
def rawPoints (h : ℝ) (d size rank axis : ℕ) (bbox : List (ℝ × ℝ)) (lsf : Bool) : Except String (List (Fin d → ℝ)) :=
  if size > 1 && lsf then makeInitPoints h d size rank axis bbox
  else if !lsf then makeInitPoints h d size rank axis bbox
  else createStaggeredGrid h d bbox

open Classical in
/-- `p = p[fd(p) < geps]`, mesh_generator.py:823. -/
def inside (fd : (Fin d → ℝ) → ℝ) (geps : ℝ) (p : List (Fin d → ℝ)) : List (Fin d → ℝ) :=
  p.filter fun x => decide (fd x < geps)

/-- `r0.min()`: raises for an empty array. mesh_generator.py:830-843. -/
def minOf : List ℝ → Except String ℝ
  | [] => .error "ValueError: zero-size array to reduction operation minimum which has no identity"
  | a :: l => .ok (l.foldl min a)

open Classical in
/-- The local `r0m`, mesh_generator.py:825-839 (`_alpha_2D = _alpha_3D = 1.1`). -/
def localR0m (r0mIsH0 : Bool) (h0 : ℝ) (r0 : List ℝ) : Except String ℝ := do
  let m ← minOf r0
  return if r0mIsH0 then (if 1.1 * h0 < m then 1.1 * h0 else h0) else m

open Classical in
/-- `p[np.random.rand(p.shape[0]) < r0m**dim / r0**dim]`, mesh_generator.py:848. -/
def reject (rand : ℕ → ℝ) (r0m : ℝ) (fh : (Fin d → ℝ) → ℝ) (p : List (Fin d → ℝ)) : List (Fin d → ℝ) :=
  (p.zipIdx.filter fun xi => decide (rand xi.2 < r0m ^ d / fh xi.1 ^ d)).map Prod.fst

/-- What `_generate_initial_points` reads. `fh r` is the (localised) size function of rank `r`. mesh_generator.py:808-852. -/
structure Input (d : ℕ) where
  h0 : ℝ
  geps : ℝ
  bbox : List (ℝ × ℝ)
  fd : (Fin d → ℝ) → ℝ
  fh : ℕ → (Fin d → ℝ) → ℝ
  pfix : List (Fin d → ℝ)
  axis : ℕ
  lsf : Bool
  r0mIsH0 : Bool
  rand : ℕ → ℝ

/-- The points of rank `r` that are inside, mesh_generator.py:810-823. -/
def candidates (I : Input d) (size r : ℕ) : Except String (List (Fin d → ℝ)) := do
  let p ← rawPoints I.h0 d size r I.axis I.bbox I.lsf
  return inside I.fd I.geps p

/-- The local `r0m` of rank `r` given its candidates, mesh_generator.py:824-839. -/
def rankR0m (I : Input d) (ps : List (Fin d → ℝ)) (r : ℕ) : Except String ℝ :=
  localR0m I.r0mIsH0 I.h0 (ps.map (I.fh r))

/-- The points of rank `r` given its candidates and the reduced `r0m`, mesh_generator.py:844-850. -/
def rankPoints (I : Input d) (r0m : ℝ) (ps : List (Fin d → ℝ)) (r : ℕ) : List (Fin d → ℝ) :=
  I.pfix ++ reject I.rand r0m (I.fh r) ps

/-- `_generate_initial_points` on one process, mesh_generator.py:808-852 with `comm.size == 1`. -/
def serialPoints (I : Input d) : Except String (List (Fin d → ℝ)) := do
  let ps ← candidates I 1 0
  let m ← rankR0m I ps 0
  return rankPoints I m ps 0

/-- `_generate_initial_points` on all ranks, mesh_generator.py:808-852 with `comm.size > 1`: the `allreduce` is a barrier
and gives every rank the minimum of the contributions. One list of points per rank. If a rank raises, the others wait for
ever in `allreduce`; that is an error here. -/
def parallelPoints (I : Input d) (size : ℕ) : Except String (List (List (Fin d → ℝ))) := do
  let ps ← (List.range size).mapM (candidates I size)
  let ms ← (ps.zipIdx).mapM fun pr => rankR0m I pr.1 pr.2
  let m ← minOf ms
  return ps.zipIdx.map fun pr => rankPoints I m pr.1 pr.2

/-- `np.amin(p, axis=0)` / `np.amax(p, axis=0)` of one coordinate. mesh_generator.py:872. -/
def columnMin (p : List (Fin d → ℝ)) (k : Fin d) : Except String ℝ := minOf (p.map fun x => x k)

/-- `np.amax(p, axis=0)` of one coordinate, as the negated minimum of the negated column. mesh_generator.py:872. -/
def columnMax (p : List (Fin d → ℝ)) (k : Fin d) : Except String ℝ :=
  match p.map fun x => x k with
  | [] => .error "ValueError: zero-size array to reduction operation maximum which has no identity"
  | a :: l => .ok (l.foldl max a)

/-- The extent of one rank, mesh_generator.py:870-874: lower and upper corner; the split axis is enlarged by `5 * h0`. For
an axis number that is not below the dimension, `extent[_axis + dim]` raises `IndexError`. -/
def extentOf (h0 : ℝ) (axis : ℕ) (p : List (Fin d → ℝ)) : Except String ((Fin d → ℝ) × (Fin d → ℝ)) :=
  if p.isEmpty then .error "ValueError: zero-size array to reduction operation"
  else if d ≤ axis then .error "IndexError: list index out of range"
  else .ok (fun k => (match columnMin p k with | .ok m => m | .error _ => 0) - if (k : ℕ) = axis then 5 * h0 else 0,
    fun k => (match columnMax p k with | .ok m => m | .error _ => 0) + if (k : ℕ) = axis then 5 * h0 else 0)

/-- `_form_extents` on all ranks (size > 1), mesh_generator.py:867-877: a broadcast from each rank in turn, so
every rank gets the same list of all extents. -/
def formExtents (h0 : ℝ) (axis : ℕ) (ps : List (List (Fin d → ℝ))) :
    Except String (List ((Fin d → ℝ) × (Fin d → ℝ))) := ps.mapM (extentOf h0 axis)

end

end SM.Init
