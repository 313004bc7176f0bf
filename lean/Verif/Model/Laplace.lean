import Verif.Model.Topology
import Mathlib.Data.Matrix.Basic
import Mathlib.Data.Real.Sqrt
import Mathlib.Algebra.BigOperators.Fin

/-!
# Laplacian smoothing, SeismicMesh/geometry/utils.py:472-631

Vertices are `n` points with `d` coordinates (the code uses `d = 2`; its dimension check
`vertices.ndim != 2` (509, 577) tests the rank of the array, which is always 2).
Arithmetic is exact.
-/

namespace SM.Laplace

open Np Topology

section sparse

/-- `coo_matrix((S, (I, J)), shape=(n, n))`: entries with the same position are added up. scipy; geometry/utils.py:472-491, generation/utils.py:68. -/
def cooEntry {R : Type} [AddCommMonoid R] (l : List (ℕ × ℕ × R)) (i j : ℕ) : R :=
  ((l.filter fun e => decide (e.1 = i ∧ e.2.1 = j)).map fun e => e.2.2).sum

/-- Indices must be below the shape: scipy raises otherwise. scipy; geometry/utils.py:472-491, generation/utils.py:68. -/
def cooCheck {R : Type} (n : ℕ) (l : List (ℕ × ℕ × R)) : Except String Unit :=
  if l.all fun e => decide (e.1 < n ∧ e.2.1 < n) then .ok () else .error "ValueError: index exceeds"

end sparse

section fixedpoint
variable {K : Type} [Field K] {n d : ℕ}

/-- Triples of one triangle, utils.py:514-521: local edges (1,2), (2,0), (0,1); each adds +1 to
both diagonal positions and -1 to both off-diagonal ones. -/
def stiff : List ℕ → Except String (List (ℕ × ℕ × ℤ))
  | [a, b, c] => .ok ([(b, c), (c, a), (a, b)].flatMap fun e =>
      [(e.1, e.1, 1), (e.2, e.2, 1), (e.1, e.2, -1), (e.2, e.1, -1)])
  | _ => .error "IndexError"

/-- The matrix after the Dirichlet treatment: rows of boundary vertices are zeroed
(`matrix.data[...] = 0.0`, utils.py:531-532), then the diagonal is rewritten with 1 for boundary
vertices (534-536). -/
def dirichlet (K : Type) [Field K] (n : ℕ) (coo : List (ℕ × ℕ × ℤ)) (bnd : List ℕ) : Matrix (Fin n) (Fin n) K :=
  let zeroed : Matrix (Fin n) (Fin n) K := Matrix.of fun i j =>
    if i.1 ∈ bnd then 0 else ((cooEntry coo i j : ℤ) : K)
  Matrix.of fun i j => if i = j then (if i.1 ∈ bnd then 1 else zeroed i i) else zeroed i j

/-- `rhs = np.zeros((n, 2)); rhs[bnd] = vertices[bnd]`, utils.py:538-539. -/
def rhsOf (bnd : List ℕ) (v : Fin n → Fin d → K) : Matrix (Fin n) (Fin d) K :=
  Matrix.of fun i k => if i.1 ∈ bnd then v i k else 0

/-- `laplacian2_fixed_point`, utils.py:494-547, up to the linear solve: matrix and right-hand side.
The multigrid solver (545-546) is external: it is taken to return a solution of the system. -/
def assemble {ρ : Type} [LinearOrder ρ] (rk : List ℕ → ρ) (v : Fin n → Fin d → K) (ents : List (List ℕ)) :
    Except String (Matrix (Fin n) (Fin n) K × Matrix (Fin n) (Fin d) K) := do
  let parts ← ents.mapM stiff
  cooCheck n parts.flatten
  let bnd ← getBoundaryVertices rk ents 2
  return (dirichlet K n parts.flatten bnd, rhsOf bnd v)

end fixedpoint

noncomputable section iterate
variable {n d : ℕ}

/-- `S = _sparse(entities[:, [0,0,1,1,2,2]], entities[:, [1,2,0,2,0,1]], 1, shape=(n, n))`,
utils.py:585-590. -/
def adjacency : List ℕ → Except String (List (ℕ × ℕ × ℕ))
  | [a, b, c] => .ok [(a, b, 1), (a, c, 1), (b, a, 1), (b, c, 1), (c, a, 1), (c, b, 1)]
  | _ => .error "IndexError"

/-- `_closest_node`, utils.py:575-579: `np.argmin` of the squared distances (first minimum). -/
def closest (node : Fin d → ℝ) (v : Fin n → Fin d → ℝ) : Except String ℕ :=
  match (List.finRange n).argmin fun i => ∑ k, (v i k - node k) ^ 2 with
  | some i => .ok i.1
  | none => .error "ValueError: argmin of an empty sequence"

/-- Bar lengths, cut off below at `eps`: utils.py:606-609, 615-618. -/
def barLengths (eps : ℝ) (edge : List (List ℕ)) (v : Fin n → Fin d → ℝ) : Except String (List ℝ) :=
  edge.mapM fun e => do
    let a ← item (List.ofFn v) (e.getD 0 n)
    let b ← item (List.ofFn v) (e.getD 1 n)
    return max (Real.sqrt (∑ k, (a k - b k) ^ 2)) eps

/-- One sweep, utils.py:612-614: `pnew = S v / W`, then `pnew[bnd] = vertices[bnd]`. -/
def sweep (S : ℕ → ℕ → ℕ) (W : ℕ → ℕ) (bnd : List ℕ) (v : Fin n → Fin d → ℝ) : Fin n → Fin d → ℝ :=
  fun i k => if i.1 ∈ bnd then v i k else (∑ j : Fin n, (S i j : ℝ) * v j k) / (W i : ℝ)

/-- `move = np.amax(np.divide(Lnew - L, Lnew))`, utils.py:619; an empty array raises. -/
def amaxMove : List ℝ → List ℝ → Except String ℝ
  | l :: L, l' :: L' => .ok ((L.zip L').foldl (fun m x => max m ((x.2 - x.1) / x.2)) ((l' - l) / l'))
  | _, _ => .error "ValueError: zero-size array to reduction operation"

/-- The loop, utils.py:611-629. -/
def iterate (eps tol : ℝ) (edge : List (List ℕ)) (sw : (Fin n → Fin d → ℝ) → Fin n → Fin d → ℝ) :
    ℕ → List ℝ → (Fin n → Fin d → ℝ) → Except String (Fin n → Fin d → ℝ)
  | 0, _, v => .ok v
  | m + 1, L, v => do
    let v := sw v
    let Lnew ← barLengths eps edge v
    let move ← amaxMove L Lnew
    if move < tol then return v else iterate eps tol edge sw m Lnew v

/-- `laplacian2`, utils.py:550-631. -/
def laplacian2 {ρ : Type} [LinearOrder ρ] (rk : List ℕ → ρ) (eps : ℝ) (v : Fin n → Fin d → ℝ)
    (ents : List (List ℕ)) (maxIter : ℕ) (tol : ℝ) (pfix : Option (List (Fin d → ℝ))) :
    Except String ((Fin n → Fin d → ℝ) × List (List ℕ)) := do
  let parts ← ents.mapM adjacency
  cooCheck n parts.flatten
  let S := cooEntry parts.flatten
  let bnd ← getBoundaryVertices rk ents 2
  let edge ← getEdges ents 2
  let bnd ← (match pfix with
    | none => pure bnd
    | some fs => do
      let ifix ← fs.mapM fun f => closest f v
      pure (bnd ++ ifix) : Except String (List ℕ))
  let W : ℕ → ℕ := fun i => ∑ j : Fin n, S i j
  if (List.finRange n).any fun i => W i = 0 then return (v, ents)
  let L ← barLengths eps edge v
  let v ← iterate eps tol edge (sweep S W bnd) maxIter L v
  return (v, ents)

end iterate

end SM.Laplace
