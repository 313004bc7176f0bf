import Verif.Model.Np
import Mathlib.Data.List.Lex

/-!
# The byte views behind `unique_rows` and `unique_row_view`

SeismicMesh/geometry/utils.py:133-172 and 300-307. A row of `n` items of `w` bytes is viewed as one item of `n * w`
bytes, and `np.unique` sorts and compares these. An item is given by its bit pattern, a number below `256 ^ w`
(little-endian); this covers signed and unsigned integers and floats (two floats are the same here if their bits are).
-/

namespace SM.Bytes

open Np

/-- The `w` bytes of a bit pattern in memory, little-endian. geometry/utils.py:163, 302. -/
def leBytes : ℕ → ℕ → List ℕ
  | 0, _ => []
  | w + 1, v => v % 256 :: leBytes w (v / 256)

/-- `data.view(np.dtype((np.void, itemsize * ncolumns)))` of one row, geometry/utils.py:302-304. Compared byte by byte. -/
def voidKey (w : ℕ) (r : List ℕ) : List ℕ := r.flatMap (leBytes w)

/-- The value of an item of type `np.character` (bytes, `S`) with the given memory: trailing zero bytes do not belong to it. numpy;
geometry/utils.py:162-164. -/
def stripNul (l : List ℕ) : List ℕ := (l.reverse.dropWhile (· == 0)).reverse

/-- `A.view(np.dtype((np.character, itemsize * ncolumns)))` of one row, geometry/utils.py:160-164. -/
def stringKey (w : ℕ) (r : List ℕ) : List ℕ := stripNul (voidKey w r)

/-- `unique_rows(A, True, True)`, geometry/utils.py:133-172: `B, I, J`. -/
def uniqueRows (w : ℕ) (A : List (List ℕ)) : List (List ℕ) × List ℕ × List ℕ :=
  (uniqBy (stringKey w) A, uniqIndex (A.map (stringKey w)), uniqInverse (A.map (stringKey w)))

/-- `unique_row_view(data)`, geometry/utils.py:300-307: distinct rows and how often each occurs. `np.unique` counts equal
keys. -/
def uniqueRowView (w : ℕ) (A : List (List ℕ)) : List (List ℕ) × List ℕ :=
  (uniqBy (voidKey w) A, (uniqBy (voidKey w) A).map fun r => (A.map (voidKey w)).count (voidKey w r))

end SM.Bytes
