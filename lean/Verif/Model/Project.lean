import Verif.Model.Topology
import Mathlib.Data.Real.Basic
import Mathlib.Algebra.BigOperators.Fin

/-!
# Newton projections

SeismicMesh/generation/mesh_generator.py: `_remove_triangles_outside` (734-738),
`_improve_level_set_newton` (741-759), `_project_points_back_newton` (762-784).

The level-set function is evaluated point by point (`fd(p[ix])` row by row). Exact arithmetic.
-/

namespace SM.Project

open Np Topology

noncomputable section
variable {d : ℕ}

/-- `p + _deps_vec(i)`, mesh_generator.py:749-754, 775-780. -/
def bump (deps : ℝ) (x : Fin d → ℝ) (i : Fin d) : Fin d → ℝ := fun k => x k + if k = i then deps else 0

/-- `dgrads[i] = (fd(p + _deps_vec(i)) - d) / deps`, mesh_generator.py:754, 780. -/
def dgrad (fd : (Fin d → ℝ) → ℝ) (deps : ℝ) (x : Fin d → ℝ) (i : Fin d) : ℝ := (fd (bump deps x i) - fd x) / deps

/-- `dgrad2 = sum(dgrad**2); dgrad2 = np.where(dgrad2 < deps, deps, dgrad2)`, mesh_generator.py:755-756, 781-782. -/
def dgrad2 (fd : (Fin d → ℝ) → ℝ) (deps : ℝ) (x : Fin d → ℝ) : ℝ :=
  let g := ∑ i, dgrad fd deps x i ^ 2
  if g < deps then deps else g

/-- One Newton step of one point, `p -= alpha * (d * dgrads / dgrad2)`, mesh_generator.py:757, 783. -/
def newton (fd : (Fin d → ℝ) → ℝ) (deps alpha : ℝ) (x : Fin d → ℝ) : Fin d → ℝ :=
  fun i => x i - alpha * (fd x * dgrad fd deps x i / dgrad2 fd deps x)

/-- The selection `ix`, mesh_generator.py:769-772: `idx = 0` is the domain, other values are subdomains. -/
def selected (hmin : ℝ) (idx : ℕ) (dist : ℝ) : Prop :=
  if idx = 0 then dist > 0 else dist > 0 ∧ dist < hmin / 1.5

open Classical in
/-- `_project_points_back_newton`, mesh_generator.py:762-784. -/
def projectBack (fd : (Fin d → ℝ) → ℝ) (deps hmin : ℝ) (idx : ℕ) (p : List (Fin d → ℝ)) : List (Fin d → ℝ) :=
  p.map fun x => if selected hmin idx (fd x) then newton fd deps 1 x else x

/-- One pass of the loop in `_improve_level_set_newton`, mesh_generator.py:746-757: indexing `p[bid]` raises for
indices out of range. -/
def improveStep (fd : (Fin d → ℝ) → ℝ) (deps alpha : ℝ) (bid : List ℕ) (p : List (Fin d → ℝ)) :
    Except String (List (Fin d → ℝ)) := do
  let _ ← Np.take p bid
  return p.zipIdx.map fun xi => if xi.2 ∈ bid then newton fd deps alpha xi.1 else xi.1

/-- The loop with `alpha /= iteration + 1`, mesh_generator.py:745-759; `n` passes remain. -/
def improveLoop (fd : (Fin d → ℝ) → ℝ) (deps : ℝ) (bid : List ℕ) :
    ℕ → ℕ → ℝ → List (Fin d → ℝ) → Except String (List (Fin d → ℝ))
  | 0, _, _, p => .ok p
  | n + 1, iteration, alpha, p => do
    let p ← improveStep fd deps alpha bid p
    improveLoop fd deps bid n (iteration + 1) (alpha / ((iteration : ℝ) + 1)) p

/-- `_improve_level_set_newton`, mesh_generator.py:741-759 (`tol` is not used). -/
def improve {ρ : Type} [LinearOrder ρ] (rk : List ℕ → ρ) (fd : (Fin d → ℝ) → ℝ) (deps : ℝ) (p : List (Fin d → ℝ))
    (t : List (List ℕ)) : Except String (List (Fin d → ℝ)) := do
  let bid ← getBoundaryVertices rk t d
  improveLoop fd deps bid 5 0 1 p

/-- `p[t].sum(1) / (dim + 1)`, mesh_generator.py:737, of one cell. -/
def centroid (vs : List (Fin d → ℝ)) : Fin d → ℝ := fun k => (vs.map fun v => v k).sum / ((d : ℝ) + 1)

open Classical in
/-- The test for one cell: `fd(pmid) < -geps`, mesh_generator.py:738. -/
def keeps (fd : (Fin d → ℝ) → ℝ) (geps : ℝ) (p : List (Fin d → ℝ)) (r : List ℕ) : Except String Bool := do
  let vs ← Np.take p r
  return decide (fd (centroid vs) < -geps)

/-- `_remove_triangles_outside`, mesh_generator.py:734-738. -/
def removeOutside (fd : (Fin d → ℝ) → ℝ) (geps : ℝ) (p : List (Fin d → ℝ)) (t : List (List ℕ)) :
    Except String (List (List ℕ)) := do
  let ks ← t.mapM (keeps fd geps p)
  return ((t.zip ks).filter fun rk => rk.2).map Prod.fst

end

end SM.Project
