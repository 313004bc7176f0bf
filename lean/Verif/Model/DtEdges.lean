import Verif.Model.DtWrapper

/-!
# `get_edges` of the Delaunay classes

SeismicMesh/generation/cpp/delaunay_class.cpp and delaunay_class3.cpp. As in `Model/DtWrapper.lean` CGAL is a parameter; here also the
addresses of the finite cells, their neighbours (2-D) and the circulators around their edges (3-D) are seen. The iteration order of
`std::unordered_set` is a parameter `order`.
-/

namespace SM.DtEdges

open SM.DtWrapper

variable {V : Type}

/-- What `get_edges` sees of a CGAL triangulation. delaunay_class.cpp:24-45 and delaunay_class3.cpp:22-32 (the CGAL types). -/
structure Complex (V : Type) extends Tds V where
  /-- addresses of the finite cells in iteration order -/
  handle : List ℕ
  /-- `cell->vertex(i)` -/
  vertex : ℕ → ℕ → ℕ
  /-- `face->neighbor(i)` (2-D): address of a finite or infinite face -/
  nei : ℕ → ℕ → ℕ
  /-- the cells met by `incident_cells(Edge(cell, i, j), cell)` in one turn (3-D) -/
  around : ℕ → ℕ → ℕ → List ℕ

/-- The loop that collects the requested cells, delaunay_class.cpp:170-176, delaunay_class3.cpp:177-183. Reading past the end of the
argument is undefined behaviour. -/
def select : List ℕ → List ℤ → Except String (List ℕ)
  | [], _ => .ok []
  | _ :: _, [] => .error "undefined behaviour: argument too short"
  | h :: hs, m :: ms => do
    let r ← select hs ms
    if m = 1 then .ok (h :: r) else .ok r

/-- `get_edges` in 2-D, delaunay_class.cpp:164-210: rows of the returned array. `cw(i) = i + 2`, `ccw(i) = i + 1` modulo 3. -/
def getEdges2 (T : Complex V) (order : List ℕ → List ℕ) (mask : List ℤ) : Except String (List (ℕ × ℕ)) := do
  let s ← select T.handle mask
  .ok ((order s).flatMap fun f => (List.range 3).filterMap fun i =>
    if f > T.nei f i ∧ T.nei f i ∈ s then none
    else some (T.info (T.vertex f ((i + 2) % 3)), T.info (T.vertex f ((i + 1) % 3))))

/-- The edges of a tetrahedron, delaunay_class3.cpp:187-205. -/
def indices : List (ℕ × ℕ) := [(0, 1), (1, 2), (2, 0), (0, 3), (1, 3), (2, 3)]

/-- The turn around an edge, delaunay_class3.cpp:216-229. -/
def smallest (s : List ℕ) (cell : ℕ) : List ℕ → Bool
  | [] => true
  | nei :: rest => if cell > nei ∧ nei ∈ s then false else smallest s cell rest

/-- `get_edges` in 3-D, delaunay_class3.cpp:172-256: rows of the returned array. -/
def getEdges3 (T : Complex V) (order : List ℕ → List ℕ) (mask : List ℤ) : Except String (List (ℕ × ℕ)) := do
  let s ← select T.handle mask
  .ok ((order s).flatMap fun c => indices.filterMap fun ij =>
    if smallest s c (T.around c ij.1 ij.2) then some (T.info (T.vertex c ij.1), T.info (T.vertex c ij.2)) else none)

/-- The triangulation after a call of `get_finite_vertices`, delaunay_class.cpp:262-291, delaunay_class3.cpp:312-340. -/
def refresh (T : Complex V) : Complex V := { T with info := (getFiniteVertices T.toTds).2.info }

end SM.DtEdges
