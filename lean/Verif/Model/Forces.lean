import Verif.Model.Laplace
import Mathlib.Analysis.SpecialFunctions.Pow.Real

/-!
# Bar forces, SeismicMesh/generation/mesh_generator.py:691-712, and `dense`, generation/utils.py:48-68

NumPy's elementwise array operations over the bars are `List.map` over the list of bars. `fh` is evaluated
point by point. Exact arithmetic.
-/

namespace SM.Forces

open Np Topology

noncomputable section
variable {d : ℕ}

/-- A bar: its two vertex numbers and their positions. mesh_generator.py:680-695. -/
abbrev Bar (d : ℕ) := (ℕ × ℕ) × ((Fin d → ℝ) × (Fin d → ℝ))

/-- `p[edges[:, 0]]`, `p[edges[:, 1]]`, mesh_generator.py:696. -/
def barOf (p : List (Fin d → ℝ)) (e : ℕ × ℕ) : Except String (Bar d) := do
  let a ← item p e.1
  let b ← item p e.2
  return (e, a, b)

/-- `barvec`, mesh_generator.py:696. -/
def barVec (x : Bar d) : Fin d → ℝ := fun k => x.2.1 k - x.2.2 k

/-- `L = np.sqrt((barvec**2).sum(1)); L[L == 0] = eps`, mesh_generator.py:697-698. -/
def barLen (eps : ℝ) (x : Bar d) : ℝ :=
  let L := Real.sqrt (∑ k, barVec x k ^ 2)
  if L = 0 then eps else L

/-- `hedges = fh(p[edges].sum(1) / 2)`, mesh_generator.py:699. -/
def hEdge (fh : (Fin d → ℝ) → ℝ) (x : Bar d) : ℝ := fh fun k => (x.2.1 k + x.2.2 k) / 2

/-- `((L**dim).sum() / (hedges**dim).sum()) ** (1.0 / dim)`, mesh_generator.py:700. -/
def scale (eps : ℝ) (fh : (Fin d → ℝ) → ℝ) (bars : List (Bar d)) : ℝ :=
  ((bars.map fun x => barLen eps x ^ d).sum / (bars.map fun x => hEdge fh x ^ d).sum) ^ ((1 : ℝ) / d)

/-- `L0`, mesh_generator.py:700. -/
def target (fh : (Fin d → ℝ) → ℝ) (L0mult s : ℝ) (x : Bar d) : ℝ := hEdge fh x * L0mult * s

/-- `F = L0 - L; F[F < 0] = 0`, mesh_generator.py:701-702. -/
def barForce (eps : ℝ) (fh : (Fin d → ℝ) → ℝ) (L0mult s : ℝ) (x : Bar d) : ℝ :=
  let F := target fh L0mult s x - barLen eps x
  if F < 0 then 0 else F

/-- `Fvec = F / L * barvec`, mesh_generator.py:703-705. -/
def forceVec (eps : ℝ) (fh : (Fin d → ℝ) → ℝ) (L0mult s : ℝ) (x : Bar d) : Fin d → ℝ :=
  fun k => barForce eps fh L0mult s x / barLen eps x * barVec x k

/-- The triples of one bar: `edges[:, [0] * dim + [1] * dim]`, `range(dim) * 2`, `hstack((Fvec, -Fvec))`,
mesh_generator.py:706-711. -/
def triples (eps : ℝ) (fh : (Fin d → ℝ) → ℝ) (L0mult s : ℝ) (x : Bar d) : List (ℕ × ℕ × ℝ) :=
  ((List.finRange d).map fun k => (x.1.1, k.1, forceVec eps fh L0mult s x k)) ++
  ((List.finRange d).map fun k => (x.1.2, k.1, -forceVec eps fh L0mult s x k))

/-- `dense(I, J, S, shape=(N, dim))`, generation/utils.py:48-68: `coo_matrix(...).toarray()` adds up entries
with the same position. -/
def dense (N : ℕ) (l : List (ℕ × ℕ × ℝ)) : List (Fin d → ℝ) :=
  (List.range N).map fun i k => Laplace.cooEntry l i k.1

/-- `_compute_forces`, mesh_generator.py:691-712; `t` has `d + 1` columns. -/
def computeForces (eps : ℝ) (p : List (Fin d → ℝ)) (t : List (List ℕ)) (fh : (Fin d → ℝ) → ℝ) (L0mult : ℝ) :
    Except String (List (Fin d → ℝ)) := do
  let edges ← getBars t (d + 1)
  let bars ← edges.mapM (barOf p)
  let s := scale eps fh bars
  return dense p.length (bars.flatMap (triples eps fh L0mult s))

/-- `L0mult = 1 + 0.4 / 2 ** (dim - 1)`, mesh_generator.py:418. -/
def L0multOf (dim : ℕ) : ℝ := 1 + 0.4 / 2 ^ (dim - 1)

end

end SM.Forces
