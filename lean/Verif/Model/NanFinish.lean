import Verif.Model.NanFl

/-!
# The last step of a run with numbers that may be infinite or NaN

`_improve_level_set_newton` and the last `_remove_triangles_outside` (SeismicMesh/generation/mesh_generator.py:486-493, 734-759) with floating-point numbers of any format. The level-set function is a
parameter, as computed, evaluated point by point; the boundary vertices are a parameter.
-/

namespace SM.NanFinish

open Np NanFl

variable {α : Type} {d : ℕ} (O : Ops α)

/-- `p - alpha * (d * np.vstack(dgrads) / dgrad2).T` for one point, mesh_generator.py:747-757. -/
def corrected (fl : (Fin d → α) → α) (deps alpha : α) (x : Fin d → α) : Fin d → α :=
  let g (i : Fin d) : α := O.div (O.sub (fl fun k => O.add (x k) (if k = i then deps else O.zero)) (fl x)) deps
  let s := sumSq O g
  fun k => O.sub (x k) (O.mul alpha (O.div (O.mul (fl x) (g k)) (if O.lt s deps then deps else s)))

/-- One iteration: only the rows in `bid` change. mesh_generator.py:746-757. -/
def sweep (fl : (Fin d → α) → α) (deps alpha : α) (bid : List ℕ) (p : List (Fin d → α)) : List (Fin d → α) :=
  p.zipIdx.map fun xi => if xi.2 ∈ bid then corrected O fl deps alpha xi.1 else xi.1

/-- The loop: five iterations, `alpha /= iteration + 1` after each; `num n` is the number `n`. mesh_generator.py:745-758. -/
def improve (fl : (Fin d → α) → α) (deps : α) (num : ℕ → α) (bid : List ℕ) (p : List (Fin d → α)) : List (Fin d → α) :=
  ((List.range 5).foldl (fun s it => (sweep O fl deps s.2 bid s.1, O.div s.2 (num (it + 1)))) (p, num 1)).1

/-- `p[t].sum(1) / (dim + 1)` for one cell, mesh_generator.py:737. -/
def centroid (num : ℕ → α) (vs : List (Fin d → α)) : Fin d → α := fun k => O.div ((vs.map fun v => v k).foldl O.add O.zero) (num (d + 1))

/-- `t[fd(pmid) < -geps]`, mesh_generator.py:734-738. -/
def keepInside (fl : (Fin d → α) → α) (num : ℕ → α) (geps : α) (p : List (Fin d → α)) (t : List (List ℕ)) : Except String (List (List ℕ)) := do
  let rows ← t.mapM fun r => do
    let vs ← take p r
    return (r, O.lt (fl (centroid O num vs)) (O.neg geps))
  return (rows.filter fun x => x.2).map Prod.fst

/-- The last step, on the process of rank 0: what `generate_mesh` returns. mesh_generator.py:486-493, 529. -/
def finish (fl : (Fin d → α) → α) (deps geps : α) (num : ℕ → α) (bid : List ℕ) (p : List (Fin d → α)) (t : List (List ℕ)) :
    Except String (List (Fin d → α) × List (List ℕ)) := do
  let p := improve O fl deps num bid p
  let t ← keepInside O fl num geps p t
  return (p, t)

end SM.NanFinish
