import Mathlib.Order.Lattice
import Mathlib.Data.List.Sort
import Mathlib.Data.List.Dedup
import Mathlib.Data.List.Count

/-!
# numpy primitives used by the mesh utilities

`np.unique` (sorted distinct values; with first index, inverse and counts), row sorting and fancy
indexing. `SeismicMesh/geometry/utils.py` calls `np.unique` on byte views of rows
(`unique_rows` 133-172, `unique_row_view` 300-307): the order of the result is the byte order of
the rows, so the order is taken from an arbitrary key `f` into a linear order, and two rows are the
same exactly when their keys are.
-/

namespace SM.Np

variable {α κ : Type*} [LinearOrder κ]

/-- Insert into a list strictly sorted by `f`, dropping the new element if its key is present. (Helper of `uniqBy`; numpy, geometry/utils.py:164, 240.) -/
def insertBy (f : α → κ) (x : α) : List α → List α
  | [] => [x]
  | y :: ys => if f x < f y then x :: y :: ys else if f y < f x then y :: insertBy f x ys else y :: ys

/-- `np.unique(l)`: distinct elements (by key), sorted by key. numpy; geometry/utils.py:164, 240, 300-307. -/
def uniqBy (f : α → κ) (l : List α) : List α := l.foldr (insertBy f) []

/-- `np.unique(ks, return_index=True)[1]`: index of the first occurrence of each distinct value. numpy; geometry/utils.py:164. -/
def uniqIndex (ks : List κ) : List ℕ := (uniqBy id ks).map fun k => ks.idxOf k

/-- `np.unique(ks, return_inverse=True)`: position of each value in the list of distinct values. numpy; geometry/utils.py:164, 240. -/
def uniqInverse (ks : List κ) : List ℕ := ks.map fun k => (uniqBy id ks).idxOf k

/-- `np.unique(l, return_counts=True)` as pairs (value, count). numpy; geometry/utils.py:310-327. -/
def uniqCounts (f : α → κ) [DecidableEq α] (l : List α) : List (α × ℕ) :=
  (uniqBy f l).map fun x => (x, l.count x)

/-- `a[i]` with a non-negative index; out of range raises `IndexError`. numpy; e.g. geometry/utils.py:189-198. -/
def item (a : List α) (i : ℕ) : Except String α :=
  match a[i]? with | some x => .ok x | none => .error "IndexError"

/-- Fancy indexing `a[ix]` with non-negative indices; out of range raises `IndexError`. numpy; e.g. geometry/utils.py:231-232, 242. -/
def take (a : List α) (ix : List ℕ) : Except String (List α) :=
  ix.mapM (item a)

/-- `np.sort(row)`. numpy; geometry/utils.py:235. -/
def sortRow (r : List ℕ) : List ℕ := r.insertionSort (· ≤ ·)

end SM.Np
