import Mathlib.Data.List.Basic
import Mathlib.Logic.Function.Basic
import Verif.Model.Np

/-!
# The incremental Delaunay triangulation

SeismicMesh/generation/cpp/delaunay_class.cpp:104-300 and delaunay_class3.cpp:112-345 (the same with three coordinates), `_get_topology`
(mesh_generator.py:904-908). CGAL itself is a parameter: a triangulation is seen through its iterators, i.e. the vertex
handles in iteration order, the point and the `info` of each handle, and the finite cells with their vertex handles.
-/

namespace SM.DtWrapper

variable {V : Type}

/-- What the wrapper sees of a CGAL triangulation. generation/cpp/delaunay_class.cpp:1-75 (the CGAL types), delaunay_class3.cpp:1-80. -/
structure Tds (V : Type) where
  /-- finite vertices in iteration order -/
  verts : List ℕ
  point : ℕ → V
  info : ℕ → ℕ
  /-- finite cells (faces in 2-D) in iteration order -/
  cells : List (List ℕ)

/-- `DelaunayTriangulation()`. delaunay_class.cpp:106, delaunay_class3.cpp:114. -/
def empty (v : V) : Tds V := ⟨[], fun _ => v, fun _ => 0, []⟩

/-- The CGAL operations used. delaunay_class.cpp:120, 131-132, 152-154. -/
structure Cgal (V : Type) where
  /-- `dt.insert(first, last)` of (point, info) pairs -/
  insertRange : Tds V → List (V × ℕ) → Tds V
  /-- `dt.remove(handle)` -/
  removeOne : Tds V → ℕ → Tds V
  /-- `dt.move(handle, point)` -/
  moveOne : Tds V → ℕ → V → Tds V

variable (C : Cgal V)

/-- `insert`, delaunay_class.cpp:108-121, delaunay_class3.cpp:116-129: the new points are numbered from the current number of vertices on. -/
def insert (dt : Tds V) (ps : List V) : Tds V := C.insertRange dt (ps.zipIdx dt.verts.length)

/-- One removal, delaunay_class.cpp:131-132, delaunay_class3.cpp:164-165; a handle that does not exist (any more) is undefined behaviour. -/
def remove1 (dt : Tds V) (h : ℕ) : Except String (Tds V) :=
  if h ∈ dt.verts then .ok (C.removeOne dt h) else .error "undefined behaviour: dangling handle"

/-- `remove`, delaunay_class.cpp:123-135, delaunay_class3.cpp:156-168: the handles are collected first. -/
def remove (dt : Tds V) (idx : List ℕ) : Except String (Tds V) := do
  let hs ← idx.mapM (Np.item dt.verts)
  hs.foldlM (remove1 C) dt

/-- One move, delaunay_class.cpp:154. -/
def move1 (dt : Tds V) (hp : ℕ × V) : Except String (Tds V) :=
  if hp.1 ∈ dt.verts then .ok (C.moveOne dt hp.1 hp.2) else .error "undefined behaviour: dangling handle"

/-- `move`, delaunay_class.cpp:137-157, delaunay_class3.cpp:131-154. -/
def move (dt : Tds V) (idx : List ℕ) (pos : List V) : Except String (Tds V) := do
  let hs ← idx.mapM (Np.item dt.verts)
  if pos.length < hs.length then throw "undefined behaviour: new_positions too short"
  (hs.zip pos).foldlM (move1 C) dt

/-- The loop of `get_finite_vertices`: set `info` to the running number, delaunay_class.cpp:268-276. -/
def renumber (info : ℕ → ℕ) (hs : List (ℕ × ℕ)) : ℕ → ℕ := hs.foldl (fun f hi => Function.update f hi.1 hi.2) info

/-- `get_finite_vertices`, delaunay_class.cpp:262-291, delaunay_class3.cpp:312-345: the array, and the triangulation with the numbers updated. -/
def getFiniteVertices (dt : Tds V) : List V × Tds V :=
  (dt.verts.map dt.point, { dt with info := renumber dt.info dt.verts.zipIdx })

/-- `get_finite_cells`, delaunay_class.cpp:231-260, delaunay_class3.cpp:277-310. -/
def getFiniteCells (dt : Tds V) : List (List ℕ) := dt.cells.map fun c => c.map dt.info

/-- `_get_topology(dt)`, mesh_generator.py:904-908. -/
def getTopology (dt : Tds V) : (List V × List (List ℕ)) × Tds V :=
  let r := getFiniteVertices dt
  ((r.1, getFiniteCells r.2), r.2)

/-- The operations of the Python class. delaunay_class.cpp:108-157. -/
inductive Op (V : Type)
  | insert (ps : List V)
  | remove (idx : List ℕ)
  | move (idx : List ℕ) (pos : List V)
  | getVertices
  | getCells

/-- One call. delaunay_class.cpp:108-157. -/
def apply (dt : Tds V) : Op V → Except String (Tds V)
  | .insert ps => .ok (insert C dt ps)
  | .remove idx => remove C dt idx
  | .move idx pos => move C dt idx pos
  | .getVertices => .ok (getFiniteVertices dt).2
  | .getCells => .ok dt

/-- A sequence of calls. delaunay_class.cpp:108-157 (calls from Python). -/
def applyAll (dt : Tds V) (ops : List (Op V)) : Except String (Tds V) := ops.foldlM (apply C) dt

end SM.DtWrapper
