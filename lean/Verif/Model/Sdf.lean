import Mathlib.Analysis.SpecialFunctions.Trigonometric.Basic
import Mathlib.Data.Fin.VecNotation
import Mathlib.Algebra.BigOperators.Fin

/-!
# Model of the signed distance functions

Models `SeismicMesh/geometry/signed_distance_functions.py` and the box kernels of
`SeismicMesh/geometry/cpp/fast_geometry.cpp`. Doubles are idealised as reals. NumPy
evaluates on an `(N, dim)` array row by row; the model evaluates one row
`p : Fin dim → ℝ` (`eval` of an array is `List.map` of it), except for C21, which is about
the flat C++ buffers.
-/

namespace SM.Sdf

noncomputable section

/-- Row of a coordinate array. geometry/signed_distance_functions.py:442-592. -/
abbrev Pt (d : ℕ) := Fin d → ℝ

/-- `drectangle`, signed_distance_functions.py:606-612. -/
def drectangle (x1 x2 y1 y2 : ℝ) (p : Pt 2) : ℝ :=
  -(min (min (min (-y1 + p 1) (y2 - p 1)) (-x1 + p 0)) (x2 - p 0))

/-- `dblock`, signed_distance_functions.py:615-623. -/
def dblock (x1 x2 y1 y2 z1 z2 : ℝ) (p : Pt 3) : ℝ :=
  -(min (min (min (min (min (-z1 + p 2) (z2 - p 2)) (-y1 + p 1)) (y2 - p 1)) (-x1 + p 0))
    (x2 - p 0))

/-- Flat C-contiguous buffer of an `(N,d)` array (`points.data()`). geometry/cpp/fast_geometry.cpp:136-163, 187-213. -/
def flat {d : ℕ} (ps : List (Pt d)) : List ℝ := ps.flatMap List.ofFn

/-- `c_drectangle`, fast_geometry.cpp:165-185: loop over `iv < size/2` on the flat buffer.
(`getD` never falls back: the subscripts are in range.) -/
def cDrectangle (points : List ℝ) (x1 x2 y1 y2 : ℝ) : List ℝ :=
  (List.range (points.length / 2)).map fun iv =>
    let sum1 := -y1 + points.getD (2 * iv + 1) 0
    let sum2 := y2 - points.getD (2 * iv + 1) 0
    let sum3 := -x1 + points.getD (2 * iv) 0
    let sum4 := x2 - points.getD (2 * iv) 0
    let tmp1 := min sum1 sum2
    let tmp2 := min tmp1 sum3;
    -(min tmp2 sum4)

/-- `c_dblock`, fast_geometry.cpp:104-134. -/
def cDblock (points : List ℝ) (x1 x2 y1 y2 z1 z2 : ℝ) : List ℝ :=
  (List.range (points.length / 3)).map fun iv =>
    let sum1 := -z1 + points.getD (3 * iv + 2) 0
    let sum2 := z2 - points.getD (3 * iv + 2) 0
    let sum3 := -y1 + points.getD (3 * iv + 1) 0
    let sum4 := y2 - points.getD (3 * iv + 1) 0
    let sum5 := -x1 + points.getD (3 * iv) 0
    let sum6 := x2 - points.getD (3 * iv) 0
    let tmp1 := min sum1 sum2
    let tmp2 := min tmp1 sum3
    let tmp3 := min tmp2 sum4
    let tmp4 := min tmp3 sum5;
    -(min tmp4 sum6)

/-- `_ddisk`, signed_distance_functions.py:596-598. -/
def ddisk (xc yc r : ℝ) (p : Pt 2) : ℝ := √((p 0 - xc) ^ 2 + (p 1 - yc) ^ 2) - r

/-- `dball`, signed_distance_functions.py:601-603. -/
def dball (xc yc zc r : ℝ) (p : Pt 3) : ℝ :=
  √((p 0 - xc) ^ 2 + (p 1 - yc) ^ 2 + (p 2 - zc) ^ 2) - r

/-- `_length` of a two-column row, signed_distance_functions.py:70-71. -/
def length2 (a b : ℝ) : ℝ := √(|a| ^ 2 + |b| ^ 2)

/-- `Torus.eval` without manipulations, signed_distance_functions.py:536-540. -/
def dtorus (r1 r2 : ℝ) (p : Pt 3) : ℝ :=
  length2 (length2 (p 0) (p 2) - r1) (p 1) - r2

/-- `Prism.eval` without manipulations, signed_distance_functions.py:557-563. -/
def dprism (b h : ℝ) (p : Pt 3) : ℝ :=
  max (|p 2| - h) (max (|p 0| * 0.866025 + p 1 * 0.5) (-p 1) - b * 0.5)

/-- `Cylinder.eval` without manipulations, signed_distance_functions.py:583-590; `h` is the
constructor argument (halved at line 572). -/
def dcylinder (h r : ℝ) (p : Pt 3) : ℝ :=
  let h2 := h / 2.0
  let d0 := |length2 (p 0) (p 2)| - r
  let d1 := |p 1| - h2
  min (max d0 d1) 0 + length2 (max d0 0) (max d1 0)

/-! ### Set operations on the list of distances of the operands -/

/-- `_loop_call`, signed_distance_functions.py:300-304, for a non-empty list. -/
def loopCall (f : ℝ → ℝ → ℝ) (d0 : ℝ) (ds : List ℝ) : ℝ := ds.foldl f d0

/-- `Union._smooth_union`, signed_distance_functions.py:332-334. -/
def smoothUnion (k d1 d2 : ℝ) : ℝ :=
  let h := max (k - |d1 - d2|) 0
  min d1 d2 - h * h * 0.25 / k

/-- `Intersection._smooth_intersection`, signed_distance_functions.py:372-374. -/
def smoothIntersection (k d1 d2 : ℝ) : ℝ :=
  let h := max (k - |d1 - d2|) 0
  max d1 d2 + h * h * 0.25 / k

/-- `Difference._smooth_difference`, signed_distance_functions.py:412-414. -/
def smoothDifference (k d1 d2 : ℝ) : ℝ :=
  let h := max (k - |-d1 - d2|) 0
  max (-d1) d2 + h * h * 0.25 / k

/-- `Union.eval` on the operands' distances `d0 :: ds`, signed_distance_functions.py:336-341. -/
def unionEval (k d0 : ℝ) (ds : List ℝ) : ℝ :=
  if k = 0 then ds.foldl min d0 else loopCall (smoothUnion k) d0 ds

/-- `Intersection.eval`, signed_distance_functions.py:376-381. -/
def interEval (k d0 : ℝ) (ds : List ℝ) : ℝ :=
  if k = 0 then ds.foldl max d0 else loopCall (smoothIntersection k) d0 ds

/-- `Difference.eval`, signed_distance_functions.py:416-423. With smoothness the list is
*reversed* before the loop (line 423). -/
def diffEval (k d0 : ℝ) (ds : List ℝ) : ℝ :=
  if k = 0 then (ds.map Neg.neg).foldl max d0
  else
    match (d0 :: ds).reverse with
    | [] => 0 -- unreachable: the list is not empty
    | e :: es => loopCall (smoothDifference k) e es

/-- `np.mod(x, m)` for floats (sign of the divisor): `x - m*floor(x/m)`. numpy; geometry/signed_distance_functions.py:293. -/
def npMod (x m : ℝ) : ℝ := x - m * ⌊x / m⌋

/-- `Repeat.eval`, signed_distance_functions.py:292-294. -/
def repeatEval (x1 x2 y1 y2 z1 z2 : ℝ) (domain : Pt 3 → ℝ) (period : Pt 3) (x : Pt 3) : ℝ :=
  let q : Pt 3 := fun i => npMod (x i + 0.5 * period i) (period i) - 0.5 * period i
  max (domain q) (dblock x1 x2 y1 y2 z1 z2 x)

end

end SM.Sdf
