import Verif.Model.FixMesh
import Verif.Model.Sdf
import Mathlib.Data.Prod.Lex

/-!
# Connectivity utilities

SeismicMesh/geometry/utils.py: `remove_external_entities` (57-94), `vertex_to_entities` (97-130),
`get_edges`, `get_boundary_edges`, `get_boundary_vertices`, `get_boundary_entities`, `get_facets`,
`get_boundary_facets`, `delete_boundary_entities`, `is_manifold`;
geometry/cpp/fast_geometry.cpp: `unique_edges`; generation/mesh_generator.py: `_get_edges`.

A connectivity table is a list of rows of vertex numbers (natural numbers: wrapping negative
indices are not modelled). `rk` is the byte string of an integer row, the sorting key of
`unique_row_view`.
-/

namespace SM.Topology

open Np

variable {ρ : Type} [LinearOrder ρ]

/-- Local edge table of `get_edges`, utils.py:291-296; for any other `dim` the name `edges` is
never bound. -/
def edgeIx : ℕ → Except String (List (List ℕ))
  | 2 => .ok [[0, 1], [0, 2], [1, 2]]
  | 3 => .ok [[0, 1], [1, 2], [2, 0], [0, 3], [1, 3], [2, 3]]
  | _ => .error "UnboundLocalError"

/-- `entities[:, ix].reshape(-1, k)`: the sub-rows of every row, utils.py:292-296, 417-418. -/
def subRows (ix : List (List ℕ)) (ents : List (List ℕ)) : Except String (List (List ℕ)) := do
  let parts ← ents.mapM fun r => ix.mapM (Np.take r)
  return parts.flatten

/-- `get_edges(entities, dim)`, utils.py:277-297. -/
def getEdges (ents : List (List ℕ)) (dim : ℕ) : Except String (List (List ℕ)) := do
  let ix ← edgeIx dim
  subRows ix ents

/-- `np.sort(rows, axis=1)`, `unique_row_view`, `[e for e, c in zip(unq, cnt) if c == n]`:
utils.py:322-325, 431-436. -/
def rowsOccurring (rk : List ℕ → ρ) (n : ℕ) (rows : List (List ℕ)) : List (List ℕ) :=
  ((uniqCounts rk (rows.map sortRow)).filter fun ec => ec.2 == n).map Prod.fst

/-- `get_boundary_edges(entities, dim)`, utils.py:310-326. -/
def getBoundaryEdges (rk : List ℕ → ρ) (ents : List (List ℕ)) (dim : ℕ) :
    Except String (List (List ℕ)) := do
  let edges ← getEdges ents dim
  return rowsOccurring rk (dim - 1) edges

/-- `ix` of `get_facets`, utils.py:416-417. -/
def facetIx : List (List ℕ) := [[0, 1, 3], [1, 2, 3], [2, 0, 3], [1, 2, 0]]

/-- `get_facets`, utils.py:408-418. -/
def getFacets (ents : List (List ℕ)) : Except String (List (List ℕ)) := subRows facetIx ents

/-- `get_boundary_facets`, utils.py:421-437. The width check (427-428) is the `IndexError` of
`getFacets` here: rows shorter than four raise. -/
def getBoundaryFacets (rk : List ℕ → ρ) (ents : List (List ℕ)) : Except String (List (List ℕ)) := do
  let facets ← getFacets ents
  return rowsOccurring rk 1 facets

/-- `get_boundary_vertices`, utils.py:364-382. -/
def getBoundaryVertices (rk : List ℕ → ρ) (ents : List (List ℕ)) (dim : ℕ) :
    Except String (List ℕ) :=
  match dim with
  | 2 => do let b ← getBoundaryEdges rk ents 2; return uniqBy id b.flatten
  | 3 => do let b ← getBoundaryFacets rk ents; return uniqBy id b.flatten
  | _ => .error "ValueError: Dimension not supported."

/-! ### vertex_to_entities -/

/-- `np.hstack((ve, ext))` before sorting: all pairs (vertex, entity), utils.py:116-120. -/
def incidences (ents : List (List ℕ)) : List (ℕ × ℕ) :=
  ents.zipIdx.flatMap fun ri => ri.1.map fun v => (v, ri.2)

/-- Positions (counted from `pos`) at which the value differs from the one before:
`np.argwhere(np.insert(np.diff(col), 0, 0))`, utils.py:123-124. -/
def changes (prev pos : ℕ) : List ℕ → List ℕ
  | [] => []
  | x :: xs => if x = prev then changes prev (pos + 1) xs else pos :: changes x (pos + 1) xs

/-- The positions at which the sorted vertex numbers change, geometry/utils.py:120-126. -/
def changePoints : List ℕ → List ℕ
  | [] => []
  | x :: xs => changes x 1 xs

/-- `vertex_to_entities`, utils.py:97-130. `srt` is the reordering by `ve[:, 0].argsort()`, whose
choice among equal keys is unspecified (quicksort). Returns `(vtoe, vtoe_pointer)`. -/
def vertexToEntities (srt : List (ℕ × ℕ) → List (ℕ × ℕ)) (ents : List (List ℕ)) (dim : ℕ) :
    List ℕ × List ℕ :=
  let ve := srt (incidences ents)
  (ve.map Prod.snd, 0 :: changePoints (ve.map Prod.fst) ++ [ents.length * (dim + 1)])

/-- What `argsort` guarantees. numpy; geometry/utils.py:97-131. -/
structure IsArgsort (srt : List (ℕ × ℕ) → List (ℕ × ℕ)) : Prop where
  perm : ∀ l, (srt l).Perm l
  sorted : ∀ l, (srt l).Pairwise fun a b => a.1 ≤ b.1

/-- `vtoe[ptr[v] : ptr[v + 1]]`, utils.py:402. -/
def entitiesOf (vp : List ℕ × List ℕ) (v : ℕ) : Except String (List ℕ) := do
  let a ← item vp.2 v
  let b ← item vp.2 (v + 1)
  return (vp.1.take b).drop a

/-- `get_boundary_entities`, utils.py:385-405. -/
def getBoundaryEntities (rk : List ℕ → ρ) (srt : List (ℕ × ℕ) → List (ℕ × ℕ))
    (ents : List (List ℕ)) (dim : ℕ) : Except String (List ℕ) := do
  let bv ← getBoundaryVertices rk ents dim
  let vp := vertexToEntities srt ents dim
  let bele ← bv.mapM (entitiesOf vp)
  return uniqBy id bele.flatten

/-- `np.delete(a, idx, axis=0)`. numpy; geometry/utils.py:57-95, 440-470. -/
def npDelete {α : Type} (a : List α) (idx : List ℕ) : List α :=
  (a.zipIdx.filter fun xi => !idx.contains xi.2).map Prod.fst

section delete
variable {P κ K : Type} [LinearOrder κ] [LT K] [DecidableLT K] [Zero K]

/-- `delete_boundary_entities`, utils.py:440-469. `qual` is `simp_qual` of one entity, `key`, `rk`,
`vol` are as in `fixMesh`; its `ptol` is part of `key`. -/
def deleteBoundaryEntities (key : P → κ) (rk : List ℕ → ρ) (vol : List P → K) (qual : List P → K)
    (srt : List (ℕ × ℕ) → List (ℕ × ℕ)) (p : List P) (ents : List (List ℕ)) (dim : ℕ)
    (minQual : K) : Except String (List P × List (List ℕ)) := do
  let q ← ents.mapM fun r => do return qual (← Np.take p r)
  let bele ← getBoundaryEntities rk srt ents dim
  let qualBou ← Np.take q bele
  let delete := ((bele.zip qualBou).filter fun eq => decide (eq.2 < minQual)).map Prod.fst
  let ents := npDelete ents delete
  let (p', t', _) ← FixMesh.fixMesh key rk vol p ents true true
  return (p', t')

end delete

/-! ### remove_external_entities -/

section external
variable {P K : Type} [Zero K] [LT K] [DecidableLT K]

/-- `remove_external_entities`, utils.py:57-94, with the signed distance `sd` of the block.
The C++ gathers the vertices of every cell into a flat buffer and evaluates `c_drectangle` /
`c_dblock` on it (fast_geometry.cpp:216-244, 281-314; equal to the point-wise function by C21);
out-of-range vertex numbers are undefined behaviour there and errors here. -/
def removeExternal (sd : P → K) (p : List P) (ents : List (List ℕ)) (dim : ℕ) :
    Except String (List P × List (List ℕ) × List ℕ) := do
  let d ← ents.mapM fun r => do return (← Np.take p r).map sd
  let isOut := d.map fun ds => ds.map fun x => decide (0 < x)
  let keep := (ents.zip isOut).filter fun ro => ro.2.count true != dim + 1
  return (p, keep.map Prod.fst, List.range p.length)

end external

/-- The 2-D call: `remove_external_entities2(vertices, entities, extent[0], extent[2], extent[1],
extent[3])`, utils.py:75-77. -/
noncomputable def removeExternal2 (p : List (Sdf.Pt 2)) (ents : List (List ℕ)) (extent : Fin 4 → ℝ) :=
  removeExternal (Sdf.drectangle (extent 0) (extent 2) (extent 1) (extent 3)) p ents 2

/-- The 3-D call, utils.py:79-88. -/
noncomputable def removeExternal3 (p : List (Sdf.Pt 3)) (ents : List (List ℕ)) (extent : Fin 6 → ℝ) :=
  removeExternal (Sdf.dblock (extent 0) (extent 3) (extent 1) (extent 4) (extent 2) (extent 5)) p ents 3

/-! ### is_manifold -/

/-- `is_manifold`, utils.py:634-654: `bedges.size` is twice the number of edges,
`vertices[np.unique(bedges), :].size` is `width` times the number of boundary vertices, where
`width` is the number of coordinates. An empty boundary gives a float index array: `IndexError`;
so does a vertex number beyond `nv`. -/
def isManifold (rk : List ℕ → ρ) (nv width : ℕ) (ents : List (List ℕ)) (dim : ℕ) :
    Except String Bool := do
  let b ← getBoundaryEdges rk ents dim
  if b.isEmpty then throw "IndexError"
  let u := uniqBy id b.flatten
  let _ ← Np.take (List.range nv) u
  return decide (b.flatten.length = u.length * width)

/-! ### unique_edges -/

/-- `unique_edges`, fast_geometry.cpp:48-77 with `vectorSortIntArr`, 30-46: (min, max) pairs,
sorted lexicographically (`std::array` comparison), adjacent duplicates removed. The flat list of
an edge array is taken as a list of pairs. `std::sort` is modelled by an insertion sort: the
comparison is a total order on the values, so the sorted list is the same. -/
def uniqueEdges (edges : List (ℕ × ℕ)) : List (ℕ × ℕ) :=
  let tl := edges.map fun e => (min e.1 e.2, max e.1 e.2)
  ((tl.map toLex).insertionSort (· ≤ ·)).destutter (· ≠ ·) |>.map ofLex

/-- One column pair `t[:, [i, j]]`. geometry/utils.py:277-298. -/
def colPair (t : List (List ℕ)) (i j : ℕ) : Except String (List (ℕ × ℕ)) :=
  t.mapM fun r => do return (← item r i, ← item r j)

/-- `_get_edges(t)`, mesh_generator.py:680-688: `dim = t.shape[1] - 1`. -/
def getBars (t : List (List ℕ)) (width : ℕ) : Except String (List (ℕ × ℕ)) := do
  let e01 ← colPair t 0 1
  let e12 ← colPair t 1 2
  let e20 ← colPair t 2 0
  if width - 1 = 3 then do
    let e03 ← colPair t 0 3
    let e13 ← colPair t 1 3
    let e23 ← colPair t 2 3
    return uniqueEdges (e01 ++ e12 ++ e20 ++ e03 ++ e13 ++ e23)
  else return uniqueEdges (e01 ++ e12 ++ e20)

end SM.Topology
