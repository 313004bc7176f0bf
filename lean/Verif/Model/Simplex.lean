import Verif.Model.FixMesh
import Mathlib.Data.Sign.Basic
import Mathlib.Analysis.SpecialFunctions.Trigonometric.Inverse
import Mathlib.Analysis.SpecialFunctions.Pow.NNReal

/-!
# Geometry of single simplices

SeismicMesh/geometry/utils.py: `calc_re_ratios` (17-54), `simp_vol` (175-201), `simp_qual` (252-274),
`vertex_in_entity2` (657-679), `vertex_in_entity3` (682-726), `get_centroids` (729-742);
geometry/cpp/fast_geometry.cpp: `c_calc_dihedral_angles` (351-418), `c_calc_3x3determinant` (455-462),
`c_calc_4x4determinant` (482-495), `c_calc_volume_grad` (515-544), `c_calc_circumsphere_grad`
(580-666); generation/cpp/delaunay.cpp: `circumballs2`, `circumballs3` (29-75, 141-185).

Exact arithmetic: rounding of doubles is not modelled.
-/

namespace SM.Simplex

open Np

section alg
variable {K : Type} [Field K]

/-- `simp_vol`, dim 1, utils.py:188-190. -/
def vol1 (a b : Fin 1 → K) : K := b 0 - a 0

/-- `c_calc_3x3determinant`, fast_geometry.cpp:455-462, on the flat buffer `m`. -/
def det3 (m : ℕ → K) : K :=
  m 0 * (m 4 * m 8 - m 7 * m 5) - m 1 * (m 3 * m 8 - m 6 * m 5) + m 2 * (m 3 * m 7 - m 6 * m 4)

/-- `c_calc_4x4determinant`, fast_geometry.cpp:482-495. -/
def det4 (m : ℕ → K) : K :=
  m 12 * m 9 * m 6 * m 3 - m 8 * m 13 * m 6 * m 3 -
  m 12 * m 5 * m 10 * m 3 + m 4 * m 13 * m 10 * m 3 +
  m 8 * m 5 * m 14 * m 3 - m 4 * m 9 * m 14 * m 3 -
  m 12 * m 9 * m 2 * m 7 + m 8 * m 13 * m 2 * m 7 +
  m 12 * m 1 * m 10 * m 7 - m 0 * m 13 * m 10 * m 7 -
  m 8 * m 1 * m 14 * m 7 + m 0 * m 9 * m 14 * m 7 +
  m 12 * m 5 * m 2 * m 11 - m 4 * m 13 * m 2 * m 11 -
  m 12 * m 1 * m 6 * m 11 + m 0 * m 13 * m 6 * m 11 +
  m 4 * m 1 * m 14 * m 11 - m 0 * m 5 * m 14 * m 11 -
  m 8 * m 5 * m 2 * m 15 + m 4 * m 9 * m 2 * m 15 +
  m 8 * m 1 * m 6 * m 15 - m 0 * m 9 * m 6 * m 15 -
  m 4 * m 1 * m 10 * m 15 + m 0 * m 5 * m 10 * m 15

/-- C-order flattening of an `n × n` array (the `memcpy` of a `c_style` array,
fast_geometry.cpp:470-473, 503-506). -/
def rowMajor {n : ℕ} [NeZero n] (M : Fin n → Fin n → K) (k : ℕ) : K :=
  M (Fin.ofNat n (k / n)) (Fin.ofNat n (k % n))

/-- `calc_3x3determinant`, fast_geometry.cpp:467-479. -/
def calcDet3 (M : Fin 3 → Fin 3 → K) : K := det3 (rowMajor M)

/-- `calc_4x4determinant`, fast_geometry.cpp:500-512. -/
def calcDet4 (M : Fin 4 → Fin 4 → K) : K := det4 (rowMajor M)

/-- `np.array([[x1, y1, z1, 1.0], ...])`, utils.py:698-700. -/
def homog (a b c d : Fin 3 → K) : Fin 4 → Fin 4 → K :=
  ![![a 0, a 1, a 2, 1], ![b 0, b 1, b 2, 1], ![c 0, c 1, c 2, 1], ![d 0, d 1, d 2, 1]]

/-- `get_centroids`, utils.py:742, of one entity. -/
def centroid {d : ℕ} (vs : List (Fin d → K)) (dim : ℕ) : Fin d → K :=
  fun i => (vs.map fun v => v i).sum / ((dim : K) + 1)

variable [LinearOrder K]

/-- Denominator of `vertex_in_entity2`, utils.py:671. -/
def den2 (p1 p2 p3 : Fin 2 → K) : K :=
  (p2 1 - p3 1) * (p1 0 - p3 0) + (p3 0 - p2 0) * (p1 1 - p3 1)

/-- `vertex_in_entity2`, utils.py:668-679. With a vanishing denominator (degenerate triangle) `a` is an infinity
or NaN in the code, so one of the comparisons with it fails and the result is False. -/
def vertexInEntity2 (p p1 p2 p3 : Fin 2 → K) : Bool :=
  if den2 p1 p2 p3 = 0 then false else
  let a := ((p2 1 - p3 1) * (p 0 - p3 0) + (p3 0 - p2 0) * (p 1 - p3 1)) / den2 p1 p2 p3
  let b := ((p3 1 - p1 1) * (p 0 - p3 0) + (p1 0 - p3 0) * (p 1 - p3 1)) / den2 p1 p2 p3
  let c := 1 - a - b
  decide (0 ≤ a) && decide (a ≤ 1) && decide (0 ≤ b) && decide (b ≤ 1) && decide (0 ≤ c) && decide (c ≤ 1)

/-- `np.sign(dete(A))`, utils.py:701 etc. -/
def sgn (a b c d : Fin 3 → K) : SignType := SignType.sign (calcDet4 (homog a b c d))

/-- `vertex_in_entity3`, utils.py:694-726. -/
def vertexInEntity3 (p p1 p2 p3 p4 : Fin 3 → K) : Bool :=
  let s0 := sgn p1 p2 p3 p4
  let s1 := sgn p p2 p3 p4
  if s1 ≠ s0 then false else
  let s2 := sgn p1 p p3 p4
  if s2 ≠ s1 then false else
  let s3 := sgn p1 p2 p p4
  if s3 ≠ s2 then false else
  let s4 := sgn p1 p2 p3 p
  if s4 ≠ s3 then false else
  [s0, s1, s2, s3, s4].all (fun s => s == -1) || [s0, s1, s2, s3, s4].all (fun s => s == 1)

/-- `c_calc_volume_grad`, fast_geometry.cpp:515-544, one point. -/
def volumeGrad (p1 p2 p3 : Fin 3 → K) : Fin 3 → K :=
  ![(1 / 6) * (p2 1 * p3 2 + p1 1 * (p2 2 - p3 2) - p3 1 * p2 2 - p1 2 * (p2 1 - p3 1)),
    (1 / 6) * (-p2 0 * p3 2 - p1 0 * (p2 2 - p3 2) + p3 0 * p2 2 + p1 2 * (p2 0 - p3 0)),
    (1 / 6) * (p2 0 * p3 1 + p1 0 * (p2 1 - p3 1) - p3 0 * p2 1 - p1 1 * (p2 0 - p3 0))]

/-- `c_calc_circumsphere_grad`, fast_geometry.cpp:602-660, one point. -/
def circumGrad (p0 p1 p2 p3 : Fin 3 → K) : Fin 3 → K :=
  let x1 := p0 0 - p3 0; let y1 := p0 1 - p3 1; let z1 := p0 2 - p3 2
  let x2 := p1 0 - p3 0; let y2 := p1 1 - p3 1; let z2 := p1 2 - p3 2
  let x3 := p2 0 - p3 0; let y3 := p2 1 - p3 1; let z3 := p2 2 - p3 2
  let sq1 := x1 * x1 + y1 * y1 + z1 * z1
  let sq2 := x2 * x2 + y2 * y2 + z2 * z2
  let sq3 := x3 * x3 + y3 * y3 + z3 * z3
  let da_dx := y2 * z3 - y3 * z2
  let da_dy := z2 * x3 - x2 * z3
  let da_dz := x2 * y3 - x3 * y2
  let dDx_dx := -2 * x1 * da_dx
  let dDx_dy := -2 * y1 * da_dx + sq2 * z3 - sq3 * z2
  let dDx_dz := -2 * z1 * da_dx - sq2 * y3 + sq3 * y2
  let dDy_dx := -2 * x1 * da_dy - sq2 * z3 + sq3 * z2
  let dDy_dy := -2 * y1 * da_dy
  let dDy_dz := -2 * z1 * da_dy + sq2 * x3 - sq3 * x2
  let dDz_dx := -2 * x1 * da_dz + sq2 * y3 - sq3 * y2
  let dDz_dy := -2 * y1 * da_dz - sq2 * x3 + sq3 * x2
  let dDz_dz := -2 * z1 * da_dz
  let a := x1 * da_dx + y1 * da_dy + z1 * da_dz
  let Dx := -sq1 * da_dx + y1 * (sq2 * z3 - sq3 * z2) - z1 * (sq2 * y3 - sq3 * y2)
  let Dy := -sq1 * da_dy - x1 * (sq2 * z3 - sq3 * z2) + z1 * (sq2 * x3 - sq3 * x2)
  let Dz := -sq1 * da_dz + x1 * (sq2 * y3 - sq3 * y2) - y1 * (sq2 * x3 - sq3 * x2)
  let sumD := Dx * Dx + Dy * Dy + Dz * Dz
  ![(Dx * dDx_dx + Dy * dDy_dx + Dz * dDz_dx) / (2 * a * a) - (da_dx * sumD) / (2 * a * a * a),
    (Dx * dDx_dy + Dy * dDy_dy + Dz * dDz_dy) / (2 * a * a) - (da_dy * sumD) / (2 * a * a * a),
    (Dx * dDx_dz + Dy * dDy_dz + Dz * dDz_dz) / (2 * a * a) - (da_dz * sumD) / (2 * a * a * a)]

end alg

noncomputable section real
variable {d : ℕ}

/-- `length(p1) = np.sqrt((p1 ** 2).sum(1))`, utils.py:266-267. -/
def length (u : Fin d → ℝ) : ℝ := √(∑ i, u i ^ 2)

/-- `simp_qual` of one entity, utils.py:269-274; `p0 p1 p2` are its first three vertices. -/
def triQual (p0 p1 p2 : Fin d → ℝ) : ℝ :=
  let a := length fun i => p1 i - p0 i
  let b := length fun i => p2 i - p0 i
  let c := length fun i => p2 i - p1 i
  let r := (1 / 2) * √((b + c - a) * (c + a - b) * (a + b - c) / (a + b + c))
  let R := a * b * c / √((a + b + c) * (b + c - a) * (c + a - b) * (a + b - c))
  2 * r / R

/-- `simp_qual(p, t)`, utils.py:252-274. The assertion (264) makes rows `d + 1` long; columns 0, 1, 2
are used for every dimension. -/
def simpQual (p : List (Fin d → ℝ)) (t : List (List ℕ)) : Except String (List ℝ) :=
  t.mapM fun row => do
    if row.length ≠ d + 1 then throw "AssertionError"
    let p1 ← item p (← item row 1)
    let p0 ← item p (← item row 0)
    let p2 ← item p (← item row 2)
    return triQual p0 p1 p2

/-- `simp_vol(p, t)` of one entity, utils.py:187-201; the number of coordinates selects the formula
and only the first `d + 1` columns are read. -/
def simpVolRow {K : Type} [Field K] : (d : ℕ) → List (Fin d → K) → Except String K
  | 1, a :: b :: _ => .ok (vol1 a b)
  | 2, a :: b :: c :: _ => .ok (FixMesh.vol2 a b c)
  | 3, a :: b :: c :: e :: _ => .ok (FixMesh.vol3 a b c e)
  | 1, _ | 2, _ | 3, _ => .error "IndexError"
  | _, _ => .error "NotImplementedError"

/-! ### Dihedral angles -/

/-- `l2_norm`, fast_geometry.cpp:79-85. -/
def l2 (u : Fin 3 → ℝ) : ℝ := √(u 0 * u 0 + u 1 * u 1 + u 2 * u 2)

/-- `dot_product`, fast_geometry.cpp:96-102. -/
def dot (u v : Fin 3 → ℝ) : ℝ := u 0 * v 0 + u 1 * v 1 + u 2 * v 2

/-- The local edge table, fast_geometry.cpp:354-355. -/
def edges : List (ℕ × ℕ) := [(2, 3), (1, 3), (1, 2), (0, 3), (0, 2), (0, 1)]

/-- `cphi` for the edge `p0 p1` and the two other vertices, fast_geometry.cpp:375-411. -/
def cosDihedral (p0 p1 p2 p3 : Fin 3 → ℝ) : ℝ :=
  let v1 := fun j => p1 j - p0 j
  let v2 := fun j => p2 j - p0 j
  let v3 := fun j => p3 j - p0 j
  let u1 := fun j => v1 j / l2 v1
  let u2 := fun j => v2 j / l2 v2
  let u3 := fun j => v3 j / l2 v3
  (dot u2 u3 - dot u1 u2 * dot u1 u3) / (l2 (FixMesh.cross u1 u2) * l2 (FixMesh.cross u1 u3))

/-- The loop body for one cell, fast_geometry.cpp:367-415. -/
def cellAngles (q : Fin 4 → Fin 3 → ℝ) : List ℝ :=
  (List.range 6).map fun i =>
    let e := edges.getD i (0, 0)
    let o := edges.getD (5 - i) (0, 0)
    Real.arccos (cosDihedral (q (Fin.ofNat 4 e.1)) (q (Fin.ofNat 4 e.2)) (q (Fin.ofNat 4 o.1))
      (q (Fin.ofNat 4 o.2)))

/-- The four corners of a cell; the C++ does not check the indices. geometry/cpp/fast_geometry.cpp:367-373. -/
def corners (p : List (Fin 3 → ℝ)) (row : List ℕ) : Except String (Fin 4 → Fin 3 → ℝ) := do
  let a ← item p (← item row 0)
  let b ← item p (← item row 1)
  let c ← item p (← item row 2)
  let e ← item p (← item row 3)
  return ![a, b, c, e]

/-- `calc_dihedral_angles`, fast_geometry.cpp:351-418: six angles per cell, one after another. -/
def dihedralAngles (p : List (Fin 3 → ℝ)) (t : List (List ℕ)) : Except String (List ℝ) := do
  let parts ← t.mapM fun row => do return cellAngles (← corners p row)
  return parts.flatten

/-! ### Radius-edge ratios -/

/-- numpy broadcasting of a division of two vectors. numpy; geometry/utils.py:17-55. -/
def npDiv (r m : List ℝ) : Except String (List ℝ) :=
  if r.length = m.length then .ok (List.zipWith (· / ·) r m)
  else match r, m with
    | [x], _ => .ok (m.map (x / ·))
    | _, [y] => .ok (r.map (· / y))
    | _, _ => .error "ValueError: operands could not be broadcast together"

/-- `c_circumballs2` / `c_circumballs3`, delaunay.cpp:29-75: one squared radius per full group of
`w` points among the first `sz` coordinates of the C-ordered array. `sqRad` is CGAL's
`squared_radius`. -/
def circumballs (w : ℕ) (sqRad : List (Fin d → ℝ) → ℝ) (sz : ℕ) (pts : List (Fin d → ℝ)) : List ℝ :=
  (List.range (sz / (w * d))).map fun i => sqRad ((pts.drop (i * w)).take w)

/-- Shortest of the listed edges of one row, utils.py:48-53: column `k` of the reshaped `L`. -/
def minEdge (p : List (Fin d → ℝ)) (bars : List (ℕ × ℕ)) (row : List ℕ) : Except String ℝ := do
  let ls ← bars.mapM fun e => do
    let a ← item p (← item row e.1)
    let b ← item p (← item row e.2)
    return length fun i => a i - b i
  match ls with
  | [] => throw "ValueError: zero-size array to reduction operation"
  | l :: ls => return ls.foldl min l

/-- `calc_re_ratios`, utils.py:17-54. `circumballs2` copies `vertices.shape()[0]` doubles
(delaunay.cpp:144-146), i.e. as many as there are points; `circumballs3` copies `vertices.size()`
(167-169). -/
def reRatios (sqRad : List (Fin d → ℝ) → ℝ) (p : List (Fin d → ℝ)) (t : List (List ℕ)) (dim : ℕ) :
    Except String (List ℝ) := do
  let bars ← (match dim with
    | 2 => .ok [(0, 1), (1, 2), (2, 0)]
    | 3 => .ok [(0, 1), (1, 2), (2, 0), (0, 3), (1, 3), (2, 3)]
    | _ => .error "ValueError: Dimension invalid" : Except String (List (ℕ × ℕ)))
  let pts ← Np.take p t.flatten
  let sz := if dim = 2 then pts.length else pts.length * d
  let r := circumballs (dim + 1) sqRad sz pts
  let minL ← t.mapM (minEdge p bars)
  npDiv (r.map Real.sqrt) minL

end real
end SM.Simplex
