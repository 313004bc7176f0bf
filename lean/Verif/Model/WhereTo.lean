import Verif.Model.Exchange
import Mathlib.Algebra.BigOperators.Fin
import Mathlib.Algebra.Field.Rat

/-!
# `enqueue` and `where_to2` / `where_to3`

SeismicMesh/migration/migration.py:116-146, SeismicMesh/migration/cpp/cpputils.cpp:33-66, 85-403. The two C++ versions differ
only in the number of coordinates `d`; rows of the export buffer have `d + 1` entries. Doubles are elements of an ordered field.
CGAL (`collinear`/`coplanar`, `circumcenter`, `squared_radius`, `do_intersect`) is not part of the repository: it is a parameter
`Geo`, of which `geo2` below is the exact 2-D instance.
-/

namespace SM.WhereTo

open Np

variable {K : Type} [Field K] [LinearOrder K] {d : ℕ}

/-- A block: lower and upper corner. migration/migration.py:121-138. -/
structure Box (d : ℕ) (K : Type) where
  lo : Fin d → K
  hi : Fin d → K

/-- CGAL's predicates on the vertices of one element. migration/cpp/cpputils.cpp:141, 148-159. -/
structure Geo (d : ℕ) (K : Type) where
  /-- `CGAL::collinear` (2-D); `volume == 0` or `CGAL::coplanar` (3-D) -/
  flat : List (Fin d → K) → Bool
  /-- does the circumcircle (circumsphere) of the element intersect the box, `CGAL::do_intersect` -/
  meets : List (Fin d → K) → Box d K → Bool

/-! ## Which vertex goes where -/

/-- One `vtoe[t[..]].push_back(e)` per vertex of element `e`, cpputils.cpp:42-46, 59-63. -/
def pushFace (acc : List (List ℕ)) (fe : List ℕ × ℕ) : List (List ℕ) := fe.1.foldl (fun acc v => acc.modify v (· ++ [fe.2])) acc

/-- `build_vtoe2`, `build_vtoe3`, cpputils.cpp:33-66: for every vertex the elements that contain it. (Vertex numbers beyond
the number of points, undefined behaviour in C++, are ignored here; the theorems assume there are none.) -/
def buildVtoe (n : ℕ) (faces : List (List ℕ)) : List (List ℕ) := faces.zipIdx.foldl pushFace (List.replicate n [])

/-- The vertices of an element, cpputils.cpp:118-125, 283-292 (`points[nm1*2]` etc.). -/
def corners [Inhabited (Fin d → K)] (points : List (Fin d → K)) (face : List ℕ) : List (Fin d → K) := face.map fun v => points.getD v default

/-- Smallest and largest coordinate: `std::min_element`, `std::max_element`, cpputils.cpp:127-131, 294-300. -/
def lowest (c : List (Fin d → K)) (k : Fin d) : K := match c with
  | [] => 0
  | x :: xs => xs.foldl (fun m y => min m (y k)) (x k)
/-- Largest coordinate of an element, migration/cpp/cpputils.cpp:130-131, 298-300. -/
def highest (c : List (Fin d → K)) (k : Fin d) : K := match c with
  | [] => 0
  | x :: xs => xs.foldl (fun m y => max m (y k)) (x k)

/-- `CGAL::do_overlap(ball_bbox, rect_bbox)`: closed boxes have a common point, cpputils.cpp:135, 304. -/
def overlaps (c : List (Fin d → K)) (b : Box d K) : Bool := decide (∀ k, lowest c k ≤ b.hi k ∧ b.lo k ≤ highest c k)

/-- Body of the loop over the elements of a vertex, cpputils.cpp:135-165, 304-344: `some false` is "export below",
`some true` "export above", `none` "go on with the next element". -/
def judge (G : Geo d K) (below above : Box d K) (c : List (Fin d → K)) : Option Bool :=
  if overlaps c below ∨ overlaps c above then
    if G.flat c then none
    else if G.meets c below then some false
    else if G.meets c above then some true
    else none
  else none

variable [Inhabited (Fin d → K)]

/-- `exports[iv]`, cpputils.cpp:111-167, 276-346 (`none` is -1). -/
def dest (G : Geo d K) (below above : Box d K) (points : List (Fin d → K)) (faces : List (List ℕ)) (iv : ℕ) : Option Bool :=
  ((buildVtoe points.length faces).getD iv []).findSome? fun e => judge G below above (corners points (faces.getD e []))

/-! ## Packing -/

/-- The export buffer and what lies behind it in memory: contents, and the indices written so far. migration/cpp/cpputils.cpp:169-170, 348-349. -/
structure Mem (K : Type) where
  val : ℕ → K
  writes : List ℕ

/-- `pointsToMigrate[i] = x`. migration/cpp/cpputils.cpp:180-197. -/
def Mem.set (m : Mem K) (i : ℕ) (x : K) : Mem K := ⟨fun j => if j = i then x else m.val j, i :: m.writes⟩

/-- Consecutive assignments from index `i` on. migration/cpp/cpputils.cpp:180-182, 186-190. -/
def Mem.setRow (m : Mem K) (i : ℕ) : List K → Mem K
  | [] => m
  | x :: xs => (m.set i x).setRow (i + 1) xs

/-- The row written for vertex `iv`: its coordinates and its number, cpputils.cpp:180-182, 359-362. -/
def rowOf (points : List (Fin d → K)) (iv : ℕ) : List K := List.ofFn (points.getD iv default) ++ [(iv : K)]

/-- State of the packing loop: memory, `below_count`, `above_count`. migration/cpp/cpputils.cpp:169-193. -/
structure PackState (K : Type) where
  mem : Mem K
  below : ℕ
  above : ℕ

/-- Body of the packing loop, cpputils.cpp:175-193, 354-375; `kb` is `kount_below`. The counters are doubles in C++, exact for all
sizes that fit in memory. -/
def packOne (points : List (Fin d → K)) (dst : ℕ → Option Bool) (kb : ℕ) (s : PackState K) (iv : ℕ) : PackState K :=
  match dst iv with
  | none => s
  | some false => ⟨s.mem.setRow (s.below * (d + 1) + (d + 1)) (rowOf points iv), s.below + 1, s.above⟩
  | some true => ⟨s.mem.setRow (kb * (d + 1) + s.above * (d + 1) + (d + 1)) (rowOf points iv), s.below, s.above + 1⟩

/-- Allocated size of the buffer, cpputils.cpp:170, 349. -/
def bufSize (d n : ℕ) : ℕ := 1 + n * (d + 1)

/-- Number of vertices marked `b`: `kount_below`, `kount_above`, cpputils.cpp:156, 162, 335, 341. -/
def kount (dst : ℕ → Option Bool) (n : ℕ) (b : Bool) : ℕ := ((List.range n).filter fun iv => dst iv = some b).length

/-- The buffer after the packing loop and the header, cpputils.cpp:169-197, 348-380. `junk` is the memory behind the buffer. -/
def fill (junk : ℕ → K) (points : List (Fin d → K)) (dst : ℕ → Option Bool) : Mem K :=
  let n := points.length
  let m0 : Mem K := ⟨fun i => if i < bufSize d n then -1 else junk i, []⟩
  let s := (List.range n).foldl (packOne points dst (kount dst n false)) ⟨m0, 0, 0⟩
  ((s.mem.set 0 (kount dst n false : K)).set 1 (kount dst n true : K)).setRow 2 (List.replicate (d - 1) 0)

/-- The indices read when the NumPy array of shape `(1 + num_points, d + 1)` is copied from the buffer, cpputils.cpp:230-243, 414-427. -/
def reads (d n : ℕ) : List ℕ := List.range ((1 + n) * (d + 1))

/-- The returned array, cpputils.cpp:230-243, 414-427. -/
def toRows (d n : ℕ) (m : Mem K) : List (List K) := (List.range (1 + n)).map fun i => (List.range (d + 1)).map fun j => m.val (i * (d + 1) + j)

/-- `where_to2`, `where_to3`. migration/cpp/cpputils.cpp:85-245, 247-429. -/
def whereTo (G : Geo d K) (junk : ℕ → K) (points : List (Fin d → K)) (faces : List (List ℕ)) (below above : Box d K) : List (List K) :=
  toRows d points.length (fill junk points (dest G below above points faces))

/-! ## `enqueue` -/

/-- `extents[i][0:dim]`, `extents[i][dim : dim * 2]`. migration/migration.py:121-129. -/
def boxOf (e : List K) : Box d K := ⟨fun k => e.getD k 0, fun k => e.getD (d + k) 0⟩

/-- The dummy box, migration.py:134-140. -/
def dummy : Box d K := ⟨fun _ => -999999999, fun _ => -999999998⟩

/-- The boxes passed on as "below" and "above", migration.py:122-140. -/
def neighbours (extents : List (List K)) (rank size : ℕ) : Except String (Box d K × Box d K) :=
  if rank = 0 then do return (dummy, boxOf (← item extents 1))
  else if rank = size - 1 then do return (boxOf (← item extents (rank - 1)), dummy)
  else do return (boxOf (← item extents (rank - 1)), boxOf (← item extents (rank + 1)))

/-- `enqueue(extents, points, faces, rank, size, dim)`, migration.py:117-146. (With one rank, where `extents[1]` does not exist, it is
not called.) -/
def enqueue (G : Geo d K) (junk : ℕ → K) (extents : List (List K)) (points : List (Fin d → K)) (faces : List (List ℕ)) (rank size : ℕ) :
    Except String (List (List K)) := do
  let b ← neighbours extents rank size
  return whereTo G junk points faces b.1 b.2

/-! ## The exact 2-D predicates -/

/-- Twice the signed area. CGAL::collinear; migration/cpp/cpputils.cpp:141. -/
def area2 (a b c : Fin 2 → K) : K := (b 0 - a 0) * (c 1 - a 1) - (b 1 - a 1) * (c 0 - a 0)

/-- Circumcentre of a triangle that is not flat. CGAL; migration/cpp/cpputils.cpp:148. -/
def circumcenter (a b c : Fin 2 → K) : Fin 2 → K :=
  let bx := b 0 - a 0
  let bY := b 1 - a 1
  let cx := c 0 - a 0
  let cY := c 1 - a 1
  let D := 2 * (bx * cY - bY * cx)
  fun k => if k = 0 then a 0 + (cY * (bx ^ 2 + bY ^ 2) - bY * (cx ^ 2 + cY ^ 2)) / D
    else a 1 + (bx * (cx ^ 2 + cY ^ 2) - cx * (bx ^ 2 + bY ^ 2)) / D

/-- Squared distance. CGAL; migration/cpp/cpputils.cpp:149. -/
def dist2 (x y : Fin d → K) : K := ∑ k, (x k - y k) ^ 2

/-- Smallest and largest squared distance of a box from a point. CGAL::do_intersect; migration/cpp/cpputils.cpp:153, 159. -/
def nearest2 (b : Box d K) (c : Fin d → K) : K := ∑ k, (max (max (b.lo k - c k) (c k - b.hi k)) 0) ^ 2
/-- Largest squared distance of a box from a point. CGAL::do_intersect; migration/cpp/cpputils.cpp:153, 159. -/
def farthest2 (b : Box d K) (c : Fin d → K) : K := ∑ k, (max (b.hi k - c k) (c k - b.lo k)) ^ 2

/-- The exact 2-D instance. `do_intersect` may mean the disc (`curve = false`) or the circle itself (`curve = true`, a box strictly inside the circle is
then not met); the theorems cover both. migration/cpp/cpputils.cpp:141-164. -/
def geo2 (curve : Bool) : Geo 2 K where
  flat
    | [a, b, c] => decide (area2 a b c = 0)
    | _ => true
  meets
    | [a, b, c], B =>
      let o := circumcenter a b c
      let r2 := dist2 a o
      decide (nearest2 B o ≤ r2) && (!curve || decide (r2 ≤ farthest2 B o))
    | _, _ => false

end SM.WhereTo
