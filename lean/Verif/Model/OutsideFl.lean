import Verif.Model.InsideFl
import Verif.Model.SdfFl

/-!
# Which cells and points are kept, in floating-point arithmetic

`_remove_triangles_outside` (SeismicMesh/generation/mesh_generator.py:734-738) and the selection of the initial points (mesh_generator.py:823) with rounded
centroids and a level-set function computed in floating-point arithmetic. The comparisons and the change of sign of `geps` are exact.
-/

namespace SM.OutsideFl

variable {K : Type} [Field K] [LinearOrder K] {d : ℕ}

/-- The test for one cell: `fd(pmid) < -geps` with `pmid = p[t].sum(1) / (dim + 1)`, mesh_generator.py:736-738. `fl` is the computed level-set function. -/
def keeps (rnd : K → K) (fl : (Fin d → K) → K) (geps : K) (p : List (Fin d → K)) (r : List ℕ) : Except String Bool := do
  let vs ← Np.take p r
  return decide (fl (InsideFl.centroid rnd vs d) < -geps)

/-- `_remove_triangles_outside`, mesh_generator.py:734-738. -/
def removeOutside (rnd : K → K) (fl : (Fin d → K) → K) (geps : K) (p : List (Fin d → K)) (t : List (List ℕ)) : Except String (List (List ℕ)) := do
  let ks ← t.mapM (keeps rnd fl geps p)
  return ((t.zip ks).filter fun rk => rk.2).map Prod.fst

/-- The last call of `_remove_triangles_outside` in `generate_mesh`: `geps` is `h0 * 0.001`, rounded. `c` is the double of the literal `0.001`. mesh_generator.py:493. -/
def lastRemoval (rnd : K → K) (fl : (Fin d → K) → K) (h0 c : K) (p : List (Fin d → K)) (t : List (List ℕ)) : Except String (List (List ℕ)) :=
  removeOutside rnd fl (rnd (h0 * c)) p t

/-- `p = p[fd(p) < geps]`, mesh_generator.py:823. -/
def keepPoints (fl : (Fin d → K) → K) (geps : K) (p : List (Fin d → K)) : List (Fin d → K) := p.filter fun x => decide (fl x < geps)

end SM.OutsideFl
