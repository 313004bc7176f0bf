import Verif.Model.DtWrapper
import Verif.Model.Generate

/-!
# `generate_mesh` on one process with its Delaunay triangulation

SeismicMesh/generation/mesh_generator.py:463-466, 904-908: the loop of `Model/MeshLoop.lean`, the vertices and cells of each pass being those of a new
triangulation object into which the current points are inserted. CGAL is the parameter of `Model/DtWrapper.lean`.
-/

namespace SM.GenerateDt

open SM.DtWrapper

noncomputable section

variable {d : ℕ} {κ ρ : Type} [LinearOrder κ] [LinearOrder ρ]

/-- The triangulation object of a pass: `dt = DT(); dt.insert(p.ravel().tolist())`, mesh_generator.py:463-465. -/
def object (C : Cgal (Fin d → ℝ)) (p : List (Fin d → ℝ)) : Tds (Fin d → ℝ) := insert C (empty 0) p

/-- `p, t = _get_topology(dt)` for that object, mesh_generator.py:466, 904-908. -/
def triangulate (C : Cgal (Fin d → ℝ)) (p : List (Fin d → ℝ)) : List (Fin d → ℝ) × List (List ℕ) := (getTopology (object C p)).1

/-- `generate_mesh` on one process with this triangulation, observed after at most `n` passes of its loop; the field `dt` of `R` is not used.
mesh_generator.py:291-529. -/
def generateMesh (C : Cgal (Fin d → ℝ)) (boxEval : List ℝ → (Fin d → ℝ) → ℝ) (domain : Gen.DomainArg (Fin d → ℝ)) (edge : Gen.SizeArg (Fin d → ℝ))
    (kw : Gen.Kwargs) (R : Generate.Rest d κ ρ) (n : ℕ) : MeshLoop.Outcome d :=
  Generate.generateMesh boxEval domain edge kw { R with dt := triangulate C } n

end

end SM.GenerateDt
