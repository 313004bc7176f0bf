import Verif.Model.SdfFl
import Mathlib.Data.List.FinRange

/-!
# The projection of outside points in floating-point arithmetic

`_project_points_back_newton` (SeismicMesh/generation/mesh_generator.py:762-784) for one point, with every operation followed by a rounding `rnd`. `fl` is the level-set
function as computed. Adding the zero entries of `_deps_vec(i)` changes nothing, and neither does the start value 0 of Python's `sum`. Overflow and underflow are not modelled.
-/

namespace SM.ProjectFl

variable {K : Type} [Field K] [LinearOrder K] {d : ℕ}

/-- `p[ix] + _deps_vec(i)`, mesh_generator.py:775-780. -/
def bump (rnd : K → K) (deps : K) (x : Fin d → K) (i : Fin d) : Fin d → K := fun k => if k = i then rnd (x k + deps) else x k

/-- `(fd(p[ix] + _deps_vec(i)) - d[ix]) / deps`, mesh_generator.py:780. -/
def dgrad (rnd : K → K) (fl : (Fin d → K) → K) (deps : K) (x : Fin d → K) (i : Fin d) : K := rnd (rnd (fl (bump rnd deps x i) - fl x) / deps)

/-- `sum(dgrad**2 for dgrad in dgrads)`, mesh_generator.py:781. -/
def sumSq (rnd : K → K) (g : Fin d → K) : K := (List.finRange d).foldl (fun s i => rnd (s + rnd (g i * g i))) 0

/-- `dgrad2 = np.where(dgrad2 < deps, deps, dgrad2)`, mesh_generator.py:781-782. -/
def dgrad2 (rnd : K → K) (fl : (Fin d → K) → K) (deps : K) (x : Fin d → K) : K :=
  let g := sumSq rnd (dgrad rnd fl deps x)
  if g < deps then deps else g

/-- `p[ix] -= (d[ix] * np.vstack(dgrads) / dgrad2).T`, mesh_generator.py:783. -/
def newton (rnd : K → K) (fl : (Fin d → K) → K) (deps : K) (x : Fin d → K) : Fin d → K :=
  fun i => rnd (x i - rnd (rnd (fl x * dgrad rnd fl deps x i) / dgrad2 rnd fl deps x))

/-- `_project_points_back_newton` for the domain (`idx == 0`), mesh_generator.py:762-784: only the points with `d > 0.0` are moved. -/
def projectBack (rnd : K → K) (fl : (Fin d → K) → K) (deps : K) (p : List (Fin d → K)) : List (Fin d → K) :=
  p.map fun x => if fl x > 0 then newton rnd fl deps x else x

end SM.ProjectFl
