import Verif.Model.Topology
import Verif.Model.Simplex

/-!
# Overlap linting: `get_centroids`, `do_any_overlap`, `linter`
SeismicMesh/geometry/utils.py:729-872
-/

namespace SM.Linter

open Np Topology

section overlap
variable {P : Type}

/-- `neis`, utils.py:773-776: the entities around the vertices of one entity, repeated once per
shared vertex. -/
def oneRing (vp : List ℕ × List ℕ) (row : List ℕ) : Except String (List ℕ) := do
  let parts ← row.mapM (entitiesOf vp)
  return parts.flatten

/-- The body of the inner loop, utils.py:778-816, for the neighbour `ele` of entity `ie`. -/
def hit (inside : P → List P → Bool) (p : List P) (ents : List (List ℕ)) (ie : ℕ) (c : P) (ele : ℕ) :
    Except String (List (ℕ × ℕ)) :=
  if ie = ele then .ok [] else do
    let row ← item ents ele
    let vs ← Np.take p row
    return if inside c vs then [(ie, ele)] else []

/-- The body of the outer loop, utils.py:769-816. -/
def hits (inside : P → List P → Bool) (vp : List ℕ × List ℕ) (p : List P) (ents : List (List ℕ))
    (x : (List ℕ × P) × ℕ) : Except String (List (ℕ × ℕ)) := do
  let neis ← oneRing vp x.1.1
  let h ← neis.mapM (hit inside p ents x.2 x.1.2)
  return h.flatten

/-- `do_any_overlap`, utils.py:745-817. `cent` is the centroid of one entity (`get_centroids`, 729-742),
`inside` is `vertex_in_entity2/3`. Only printing is left out. -/
def doAnyOverlap (inside : P → List P → Bool) (cent : List P → P) (srt : List (ℕ × ℕ) → List (ℕ × ℕ))
    (p : List P) (ents : List (List ℕ)) (dim : ℕ) : Except String (List (ℕ × ℕ)) := do
  let vp := vertexToEntities srt ents dim
  let cents ← ents.mapM fun r => do return cent (← Np.take p r)
  let parts ← (ents.zip cents).zipIdx.mapM (hits inside vp p ents)
  return parts.flatten

end overlap

/-- `vertex_in_entity2((cent[0], cent[1]), (x1, y1, x2, y2, x3, y3))`, utils.py:782-786. -/
def inside2 {K : Type} [Field K] [LinearOrder K] (c : Fin 2 → K) : List (Fin 2 → K) → Bool
  | [a, b, e] => Simplex.vertexInEntity2 c a b e
  | _ => false

/-- `vertex_in_entity3(...)`, utils.py:798-806. -/
def inside3 {K : Type} [Field K] [LinearOrder K] (c : Fin 3 → K) : List (Fin 3 → K) → Bool
  | [a, b, e, f] => Simplex.vertexInEntity3 c a b e f
  | _ => false

section lint
variable {P κ K ρ : Type} [LinearOrder κ] [LinearOrder ρ] [LT K] [DecidableLT K] [Zero K]

/-- `sel = np.argmin(qual[ix]); intersect[sel]`, utils.py:846-848: the first of equal minima. -/
def selectWorse (qual : List K) (ij : ℕ × ℕ) : Except String ℕ := do
  let a ← item qual ij.1
  let b ← item qual ij.2
  return if b < a then ij.2 else ij.1

/-- Quality of every entity, `simp_qual(vertices, entities)`, with the measure `qual` of one entity. geometry/utils.py:252-274, 440-470, 820-872. -/
def quals (qual : List P → K) (p : List P) (ents : List (List ℕ)) : Except String (List K) :=
  ents.mapM fun r => do return qual (← Np.take p r)

/-- `linter`, utils.py:820-872. `key`, `key'` are the point keys of the two `fix_mesh` calls,
`width` the number of coordinates. -/
def linter (inside : P → List P → Bool) (cent : List P → P) (qual vol : List P → K) (key key' : P → κ)
    (rk : List ℕ → ρ) (srt : List (ℕ × ℕ) → List (ℕ × ℕ)) (width : ℕ) (p : List P) (ents : List (List ℕ))
    (dim : ℕ) (minQual : K) : Except String (List P × List (List ℕ)) := do
  let q ← quals qual p ents
  let inter ← doAnyOverlap inside cent srt p ents dim
  let del ← inter.mapM (selectWorse q)
  let ents := npDelete ents (uniqBy id del)
  let (p, t, _) ← FixMesh.fixMesh key rk vol p ents true true
  let (p, t) ← (if dim = 2 then do
      let (p, t) ← deleteBoundaryEntities key' rk vol qual srt p t 2 minQual
      let _ ← isManifold rk p.length width t 2
      pure (p, t)
    else pure (p, t) : Except String (List P × List (List ℕ)))
  let q' ← quals qual p t
  if q'.isEmpty then throw "ValueError: zero-size array to reduction operation"
  return (p, t)

end lint
end SM.Linter
