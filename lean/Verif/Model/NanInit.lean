import Verif.Model.NanFl

/-!
# The first points of a run with sizes that may be infinite or NaN

`_generate_initial_points` and the check that follows (SeismicMesh/generation/mesh_generator.py:808-852, 442-446) on one process, with floating-point numbers of any format. The candidates (the
staggered grid), the random numbers, the level-set function and the sizing function are parameters, as computed; the two functions are evaluated point by point. User points and the
collective minimum of a parallel run are left out.
-/

namespace SM.NanInit

open NanFl

variable {α : Type} {d : ℕ} (O : Ops α)

/-- `np.minimum` of two numbers: NaN if one of them is. numpy; mesh_generator.py:828-837. -/
def minNan (a b : α) : α := if O.isNan a then a else if O.isNan b then b else if O.lt b a then b else a

/-- `r0.min()`, mesh_generator.py:828-837. -/
def smallest : List α → Except String α
  | [] => .error "ValueError: zero-size array to reduction operation minimum which has no identity"
  | x :: l => .ok (l.foldl (minNan O) x)

/-- `_alpha_2D`, `_alpha_3D`, times `h0`: 828, 830. `h1` is that product. mesh_generator.py:822-837. -/
def referenceSize (isH0 : Bool) (h0 h1 : α) (r0 : List α) : Except String α := do
  let m ← smallest O r0
  if isH0 then (if O.lt h1 m then return h1 else return h0) else return m

/-- `_generate_initial_points`, mesh_generator.py:808-852: `cand` are the grid points with their random numbers. NumPy draws the random numbers for the candidates inside only; here each
candidate inside comes with the number drawn for it. -/
def initial (geps h0 h1 : α) (isH0 : Bool) (fd fh : (Fin d → α) → α) (pfix : List (Fin d → α)) (cand : List ((Fin d → α) × α)) : Except String (List (Fin d → α)) := do
  let c := cand.filter fun x => O.lt (fd x.1) geps
  let r0m ← referenceSize O isH0 h0 h1 (c.map fun x => fh x.1)
  return pfix ++ (c.filter fun x => O.lt x.2 (O.div (O.pw d r0m) (O.pw d (fh x.1)))).map Prod.fst

/-- The start of a run: `assert N > 0`, mesh_generator.py:432-446. -/
def start (geps h0 h1 : α) (isH0 : Bool) (fd fh : (Fin d → α) → α) (pfix : List (Fin d → α)) (cand : List ((Fin d → α) × α)) : Except String (List (Fin d → α)) := do
  let p ← initial O geps h0 h1 isH0 fd fh pfix cand
  if p.length > 0 then return p else .error "AssertionError: No vertices to mesh with!"

end SM.NanInit
