import Verif.Model.ProjectFl
import Mathlib.Data.List.MinMax

/-!
# The passes of the mesh generator in floating-point arithmetic, as far as fixed points are concerned

The `while True` loop of `generate_mesh` (SeismicMesh/generation/mesh_generator.py:460-527) on one process with every operation of the search for the fixed points, of the update and of the
projection followed by a rounding `rnd`. The triangulation, the forces and the level-set functions are parameters, as computed. The assertion on the largest movement (517-521) and the last
pass are left out; overflow and underflow are not modelled. `np.einsum` is taken to add from left to right.
-/

namespace SM.FixedFl

variable {K : Type} [Field K] [LinearOrder K] {d : ℕ}

/-- `np.einsum("ij,ij->i", deltas, deltas)` for one node, mesh_generator.py:911-914. -/
def dist2 (rnd : K → K) (fix v : Fin d → K) : K := ProjectFl.sumSq rnd fun k => rnd (v k - fix k)

/-- `_closest_node`, mesh_generator.py:911-915: the first smallest. -/
def closestNode (rnd : K → K) (p : List (Fin d → K)) (fix : Fin d → K) : Except String ℕ :=
  match (List.finRange p.length).argmin fun i => dist2 rnd fix (p.get i) with
  | some i => .ok i.1
  | none => .error "ValueError: attempt to get argmin of an empty sequence"

/-- `Ftot[ifix] = 0`, mesh_generator.py:499. -/
def zeroAt (ifix : List ℕ) (F : List (Fin d → K)) : List (Fin d → K) := F.zipIdx.map fun fi => if fi.2 ∈ ifix then 0 else fi.1

/-- `p += delta_t * Ftot`, mesh_generator.py:502. -/
def advance (rnd : K → K) (deltaT : K) (p F : List (Fin d → K)) : List (Fin d → K) := List.zipWith (fun x f => fun k => rnd (x k + rnd (deltaT * f k))) p F

/-- `_project_points_back_newton` for one point and the level set of number `idx`, mesh_generator.py:762-784. -/
def projectPoint (rnd : K → K) (deps h0 : K) (idx : ℕ) (fl : (Fin d → K) → K) (x : Fin d → K) : Fin d → K :=
  if fl x > 0 ∧ (idx = 0 ∨ fl x < rnd (h0 / (3 / 2))) then ProjectFl.newton rnd fl deps x else x

/-- The loop over the levels, mesh_generator.py:505-506, for one point (the points do not influence each other). -/
def projectAll (rnd : K → K) (deps h0 : K) : ℕ → List ((Fin d → K) → K) → (Fin d → K) → Fin d → K
  | _, [], x => x
  | idx, l :: ls, x => projectAll rnd deps h0 (idx + 1) ls (projectPoint rnd deps h0 idx l x)

/-- What a call of `generate_mesh` on one process has computed before the loop (mesh_generator.py:395-458), the Delaunay triangulation (464-469) and `_remove_triangles_outside` with
`_compute_forces` (482, 497), which may be any functions. -/
structure Run (K : Type) (d : ℕ) where
  /-- Rounding of one operation. -/
  rnd : K → K
  /-- `DT().insert(p)`, `_get_topology(dt)`. -/
  dt : List (Fin d → K) → List (Fin d → K) × List (List ℕ)
  /-- `Ftot`. -/
  forces : List (Fin d → K) → List (List ℕ) → List (Fin d → K)
  /-- `pfix`. -/
  pfix : List (Fin d → K)
  /-- `levels`. -/
  levels : List ((Fin d → K) → K)
  deps : K
  h0 : K
  deltaT : K

/-- One pass that is not the last, mesh_generator.py:464-506. -/
def pass (R : Run K d) (p : List (Fin d → K)) : Except String (List (Fin d → K)) := do
  let (q, t) := R.dt p
  let ifix ← R.pfix.mapM (closestNode R.rnd q)
  return (advance R.rnd R.deltaT q (zeroAt ifix (R.forces q t))).map (projectAll R.rnd R.deps R.h0 0 R.levels)

/-- `n` passes, mesh_generator.py:460-527. -/
def passes (R : Run K d) : ℕ → List (Fin d → K) → Except String (List (Fin d → K))
  | 0, p => .ok p
  | n + 1, p => do passes R n (← pass R p)

end SM.FixedFl
