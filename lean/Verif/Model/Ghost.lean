import Verif.Model.DtWrapper
import Verif.Model.WhereTo
import Verif.Model.Topology
import Verif.Model.MeshLoop

/-!
# Ghost vertices

`_add_ghost_vertices` (mesh_generator.py:715-731) and the deletion of the ghost vertices at the end of an iteration (mesh_generator.py:508-510).
-/

namespace SM.Ghost

open Np DtWrapper

section
variable {K : Type} {d : ℕ}

/-- The flat coordinate list read by `insert` in groups of `d`, delaunay_class.cpp:110-118, delaunay_class3.cpp:118-127; `n` is the number of groups,
`p.size() / d`. -/
def groups [Zero K] (d : ℕ) : ℕ → List K → List (Fin d → K)
  | 0, _ => []
  | n + 1, l => (fun k => l.getD k 0) :: groups d n (l.drop d)

/-- `recv.ravel().tolist()` as the points inserted, mesh_generator.py:723. -/
def asPoints [Zero K] (d : ℕ) (recv : List (List K)) : List (Fin d → K) := groups d (recv.flatten.length / d) recv.flatten

variable [Field K] [LinearOrder K]

/-- The end of `_add_ghost_vertices`, after the exchange, mesh_generator.py:722-731. `sd e` is the signed distance of the block `e`
(`remove_external_entities`). The third result is `inv`, the last `recv_ix`. -/
def absorb (C : Cgal (Fin d → K)) (sd : List K → (Fin d → K) → K) (extents : List (List K)) (rank : ℕ) (dt : Tds (Fin d → K)) (recv : List (List K)) :
    Except String (List (Fin d → K) × List (List ℕ) × List ℕ × ℕ) := do
  let dt := insert C dt (asPoints d recv)
  let (pt, _) := getTopology dt
  let e ← item extents rank
  let (p, t, inv) ← Topology.removeExternal (sd e) pt.1 pt.2 d
  return (p, t, inv, recv.length)

/-- `_add_ghost_vertices(p, t, dt, extents, comm)`, mesh_generator.py:715-731; `p`, `t` are the current vertices and cells of `dt`. -/
def addGhost [FloorSemiring K] [Inhabited (Fin d → K)] (C : Cgal (Fin d → K)) (G : WhereTo.Geo d K) (junk : ℕ → K) (sd : List K → (Fin d → K) → K)
    (extents : List (List K)) (rank size : ℕ) (dt : Tds (Fin d → K)) (p : List (Fin d → K)) (t : List (List ℕ)) :
    Mpi.Proc (List (List K)) (List (Fin d → K) × List (List ℕ) × List ℕ × ℕ) := do
  let exports ← Mpi.lift (WhereTo.enqueue G junk extents p t rank size)
  let recv ← Exchange.exchange rank size d exports
  Mpi.lift (absorb C sd extents rank dt recv)

end

/-- `p = np.delete(p, inv[-recv_ix::], axis=0)`, mesh_generator.py:508-510. -/
def dropGhosts {V : Type} (p : List V) (inv : List ℕ) (recvIx : ℕ) : List V := Topology.npDelete p (MeshLoop.lastSlice inv recvIx)

end SM.Ghost
