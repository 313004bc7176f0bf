import Verif.Model.Sliver
import Verif.Model.Topology

/-!
# The compiled helpers on their flat buffers

SeismicMesh/geometry/cpp/fast_geometry.cpp and SeismicMesh/generation/cpp/delaunay.cpp, with the
pybind11 wrappers. A `std::vector` or a NumPy buffer is a list; every subscript and every `memcpy` is
checked here: leaving a buffer, undefined behaviour in C++, is the error `oob`.

Not modelled: 32-bit overflow of `int`, the `forcecast` conversion of the argument arrays, 1-D against
2-D result shapes. CGAL's triangulation and circumcentres are parameters.
-/

namespace SM.Native

/-- Access outside a buffer: undefined behaviour. geometry/cpp/fast_geometry.cpp:216-660. -/
def oob : String := "access outside a buffer"

variable {α : Type}

/-- `b[i]` as a value; `i` may come from an `int` array. geometry/cpp/fast_geometry.cpp:226-240, 364-373. -/
def rd (b : List α) (i : ℤ) : Except String α :=
  if 0 ≤ i then
    match b[i.toNat]? with
    | some x => .ok x
    | none => .error oob
  else .error oob

/-- `b[i] = v`. geometry/cpp/fast_geometry.cpp:231, 414, 536-541. -/
def wr (b : List α) (i : ℕ) (v : α) : Except String (List α) :=
  if i < b.length then .ok (b.set i v) else .error oob

/-- `std::vector<T> v(n); std::memcpy(v.data(), src, n * sizeof(T))`.
geometry/cpp/fast_geometry.cpp:141-146, 257-262, 432-437; generation/cpp/delaunay.cpp:196-202. -/
def memcpy (n : ℕ) (src : List α) : Except String (List α) :=
  if n ≤ src.length then .ok (src.take n) else .error oob

/-! ### remove_external_entities2 / 3 -/

/-- `for j < d: tmp[kount] = points[d*nm+j]; kount += 1`, fast_geometry.cpp:230-241, 296-311. -/
def copyVertex (d : ℕ) (points : List α) (s : List α × ℕ) (nm : ℤ) : Except String (List α × ℕ) :=
  (List.range d).foldlM (fun s (j : ℕ) => do
    let x ← rd points ((d : ℤ) * nm + j)
    let tmp ← wr s.1 s.2 x
    return (tmp, s.2 + 1)) s

/-- The loop body of `c_remove_external_entities2/3`, fast_geometry.cpp:225-242, 290-312. -/
def gatherCell (w d : ℕ) (points : List α) (cells : List ℤ) (s : List α × ℕ) (ie : ℕ) :
    Except String (List α × ℕ) := do
  let nms ← (List.range w).mapM fun (c : ℕ) => rd cells ((ie * w + c : ℕ) : ℤ)
  nms.foldlM (copyVertex d points) s

/-- `tmp` of `c_remove_external_entities2` (`w = 3`, `d = 2`) and `3` (`w = 4`, `d = 3`),
fast_geometry.cpp:217-243, 282-313. -/
def gather [Zero α] (w d : ℕ) (points : List α) (cells : List ℤ) : Except String (List α) := do
  let s ← (List.range (cells.length / w)).foldlM (gatherCell w d points cells)
    (List.replicate (cells.length / w * w * d) 0, 0)
  return s.1

/-- The wrappers' copies of the two arguments, fast_geometry.cpp:252-262, 322-332, 425-437. -/
def copyMesh (w d : ℕ) (points : List α) (cells : List ℤ) : Except String (List α × List ℤ) := do
  let p ← memcpy (points.length / d * d) points
  let c ← memcpy (cells.length / w * w) cells
  return (p, c)

/-- `remove_external_entities2`, fast_geometry.cpp:216-278. -/
noncomputable def removeExternal2 (points : List ℝ) (cells : List ℤ) (x1 x2 y1 y2 : ℝ) :
    Except String (List ℝ) := do
  let a ← copyMesh 3 2 points cells
  let tmp ← gather 3 2 a.1 a.2
  return Sdf.cDrectangle tmp x1 x2 y1 y2

/-- `remove_external_entities3`, fast_geometry.cpp:281-348. -/
noncomputable def removeExternal3 (points : List ℝ) (cells : List ℤ) (x1 x2 y1 y2 z1 z2 : ℝ) :
    Except String (List ℝ) := do
  let a ← copyMesh 4 3 points cells
  let tmp ← gather 4 3 a.1 a.2
  return Sdf.cDblock tmp x1 x2 y1 y2 z1 z2

/-! ### calc_dihedral_angles -/

/-- `p0[j] = points[i0*3+j]` for `j < 3`, fast_geometry.cpp:369-374. -/
def vec3 (points : List α) (i : ℤ) : Except String (Fin 3 → α) := do
  let x ← rd points (i * 3)
  let y ← rd points (i * 3 + 1)
  let z ← rd points (i * 3 + 2)
  return ![x, y, z]

/-- The body of the inner loop, fast_geometry.cpp:362-414; `ang` is the arithmetic of 375-414. -/
def angleStep {β : Type} (ang : (p0 p1 p2 p3 : Fin 3 → α) → β) (points : List α) (cells : List ℤ)
    (c : ℕ) (dh : List β) (i : ℕ) : Except String (List β) := do
  let e := Simplex.edges.getD i (0, 0)
  let o := Simplex.edges.getD (5 - i) (0, 0)
  let i0 ← rd cells ((4 * c + e.1 : ℕ) : ℤ)
  let i1 ← rd cells ((4 * c + e.2 : ℕ) : ℤ)
  let i2 ← rd cells ((4 * c + o.1 : ℕ) : ℤ)
  let i3 ← rd cells ((4 * c + o.2 : ℕ) : ℤ)
  let p0 ← vec3 points i0
  let v1 ← vec3 points i1
  let v2 ← vec3 points i2
  let v3 ← vec3 points i3
  wr dh (c * 6 + i) (ang p0 v1 v2 v3)

/-- `calc_dihedral_angles`, fast_geometry.cpp:351-453. -/
def dihedral {β : Type} (zero : β) (ang : (p0 p1 p2 p3 : Fin 3 → α) → β) (points : List α)
    (cells : List ℤ) : Except String (List β) := do
  let a ← copyMesh 4 3 points cells
  let n := a.2.length / 4
  (List.range n).foldlM (fun dh c => (List.range 6).foldlM (angleStep ang a.1 a.2 c) dh)
    (List.replicate (n * 6) zero)

/-! ### the gradients -/

/-- `gradient[3*i+j] = ..` for `j < 3`, fast_geometry.cpp:536-541, 658-660. -/
def store3 (g : List α) (i : ℕ) (v : Fin 3 → α) : Except String (List α) := do
  let g ← wr g (3 * i) (v 0)
  let g ← wr g (3 * i + 1) (v 1)
  wr g (3 * i + 2) (v 2)

/-- `p[3*i]`, `p[3*i+1]`, `p[3*i+2]`, fast_geometry.cpp:526-534, 604-614. -/
def load3 (p : List α) (i : ℕ) : Except String (Fin 3 → α) := do
  let x ← rd p ((3 * i : ℕ) : ℤ)
  let y ← rd p ((3 * i + 1 : ℕ) : ℤ)
  let z ← rd p ((3 * i + 2 : ℕ) : ℤ)
  return ![x, y, z]

/-- `calc_volume_grad`, fast_geometry.cpp:515-577. -/
def volumeGrad {K : Type} [Field K] (p1 p2 p3 : List K) : Except String (List K) := do
  let n := p1.length / 3
  let q1 ← memcpy (3 * n) p1
  let q2 ← memcpy (3 * n) p2
  let q3 ← memcpy (3 * n) p3
  (List.range n).foldlM (fun g i => do
    let a ← load3 q1 i
    let b ← load3 q2 i
    let c ← load3 q3 i
    store3 g i (Simplex.volumeGrad a b c)) (List.replicate (3 * n) 0)

/-- `calc_circumsphere_grad`, fast_geometry.cpp:580-700. -/
def circumGrad {K : Type} [Field K] (p0 p1 p2 p3 : List K) : Except String (List K) := do
  let n := p0.length / 3
  let q0 ← memcpy (3 * n) p0
  let q1 ← memcpy (3 * n) p1
  let q2 ← memcpy (3 * n) p2
  let q3 ← memcpy (3 * n) p3
  (List.range n).foldlM (fun g i => do
    let a ← load3 q0 i
    let b ← load3 q1 i
    let c ← load3 q2 i
    let e ← load3 q3 i
    store3 g i (Simplex.circumGrad a b c e)) (List.replicate (n * 3) 0)

/-! ### unique_edges -/

/-- `cedges[i]` and `cedges[i + 1]` for `i = 2 m`, fast_geometry.cpp:58-66. -/
def readPair (c : List ℕ) (m : ℕ) : Except String (ℕ × ℕ) := do
  let a ← rd c ((2 * m : ℕ) : ℤ)
  let b ← rd c ((2 * m + 1 : ℕ) : ℤ)
  return (a, b)

/-- `unique_edges`, fast_geometry.cpp:48-77: `for (i = 0; i < size; i += 2)` reads `cedges[i]` and
`cedges[i + 1]`; sort and unique as in `Topology.uniqueEdges`, which normalises the pairs itself. -/
def uniqueEdges (edges : List ℕ) : Except String (List (ℕ × ℕ)) := do
  let c ← memcpy edges.length edges
  let tl ← (List.range ((c.length + 1) / 2)).mapM (readPair c)
  return Topology.uniqueEdges tl

/-! ### delaunay2 / 3 -/

/-- The face table: `faces.resize(n * w)` and one row per finite face, delaunay.cpp:87-102, 122-138. -/
def faceTable (w : ℕ) (faces : List (Fin w → ℕ)) : Except String (List ℕ) :=
  faces.zipIdx.foldlM (fun out f =>
    (List.finRange w).foldlM (fun out (j : Fin w) => wr out (f.2 * w + j) (f.1 j)) out)
    (List.replicate (faces.length * w) 0)

/-- The 2-D NumPy array over a flat buffer, delaunay.cpp:203-219, 257-272. -/
def rows (w : ℕ) (flat : List ℕ) : List (List ℕ) :=
  (List.range (flat.length / w)).map fun i => (flat.drop (i * w)).take w

/-- `points[i] = (Point(x[i], y[i]), i)`, delaunay.cpp:82-84. -/
def pointAt {K : Type} (x y : List K) (i : ℕ) : Except String (K × K) := do
  let a ← rd x (i : ℤ)
  let b ← rd y (i : ℤ)
  return (a, b)

/-- `points[i] = (Point3(x[i], y[i], z[i]), i)`, delaunay.cpp:110-112. -/
def point3At {K : Type} (x y z : List K) (i : ℕ) : Except String (K × K × K) := do
  let a ← rd x (i : ℤ)
  let b ← rd y (i : ℤ)
  let c ← rd z (i : ℤ)
  return (a, b, c)

/-- `delaunay2(x, y)`, delaunay.cpp:77-102, 187-219. `tri` is CGAL: the vertex numbers of the finite
faces of the triangulation of the numbered points. `ndebug`: compiled with `NDEBUG`; otherwise
`assert(y.size() != num_points)` (line 79) is executed. -/
def delaunay2 {K : Type} (ndebug : Bool) (tri : List (K × K) → List (Fin 3 → ℕ)) (x y : List K) :
    Except String (List (List ℕ)) := do
  let cx ← memcpy x.length x
  let cy ← memcpy x.length y
  if !ndebug && cy.length == cx.length then throw "assertion failed"
  let pts ← (List.range cx.length).mapM (pointAt cx cy)
  let f ← faceTable 3 (tri pts)
  return rows 3 f

/-- `delaunay3(x, y, z)`, delaunay.cpp:104-138, 221-272. -/
def delaunay3 {K : Type} (ndebug : Bool) (tri : List (K × K × K) → List (Fin 4 → ℕ))
    (x y z : List K) : Except String (List (List ℕ)) := do
  let cx ← memcpy x.length x
  let cy ← memcpy x.length y
  let cz ← memcpy x.length z
  if !ndebug && (cy.length == cx.length || cz.length == cx.length) then throw "assertion failed"
  let pts ← (List.range cx.length).mapM (point3At cx cy cz)
  let f ← faceTable 4 (tri pts)
  return rows 4 f

end SM.Native
