import Verif.Model.Forces

/-!
# Bar forces in floating-point arithmetic, SeismicMesh/generation/mesh_generator.py:691-712, generation/utils.py:48-68

The exact-arithmetic model is `Verif/Model/Forces.lean`; here each operation is followed by a rounding `rnd`. Overflow and underflow
are left out. Negation and multiplication by the ones of `L[:, None].dot(np.ones((1, dim)))` are exact.
-/

namespace SM.ForcesFl

open Np Topology Forces

noncomputable section
variable {d : ℕ}

/-- The operations NumPy and the C library supply: `rnd` after each elementary operation, `x ** dim`, `x ** (1.0 / dim)` and `.sum()` of a long
array. Used in mesh_generator.py:696-712. -/
structure Arith where
  rnd : ℝ → ℝ
  pw : ℕ → ℝ → ℝ
  root : ℕ → ℝ → ℝ
  total : List ℝ → ℝ

variable (A : Arith)

/-- `barvec`, mesh_generator.py:696. -/
def barVec (x : Bar d) : Fin d → ℝ := fun k => A.rnd (x.2.1 k - x.2.2 k)

/-- `(barvec**2).sum(1)`: added one after the other, mesh_generator.py:697. -/
def sumSq (v : Fin d → ℝ) : ℝ := (List.finRange d).foldl (fun s k => A.rnd (s + A.rnd (v k * v k))) 0

/-- `L = np.sqrt((barvec**2).sum(1)); L[L == 0] = eps`, mesh_generator.py:697-698. -/
def barLen (eps : ℝ) (x : Bar d) : ℝ :=
  let L := A.rnd (Real.sqrt (sumSq A (barVec A x)))
  if L = 0 then eps else L

/-- `p[edges].sum(1) / 2`, mesh_generator.py:699. -/
def midPt (a b : Fin d → ℝ) : Fin d → ℝ := fun k => A.rnd (A.rnd (a k + b k) / 2)

/-- `hedges`, mesh_generator.py:699; `fh` is the sizing function as computed. -/
def hEdge (fh : (Fin d → ℝ) → ℝ) (x : Bar d) : ℝ := fh (midPt A x.2.1 x.2.2)

/-- `((L**dim).sum() / (hedges**dim).sum()) ** (1.0 / dim)`, mesh_generator.py:700. -/
def scale (eps : ℝ) (fh : (Fin d → ℝ) → ℝ) (bars : List (Bar d)) : ℝ :=
  A.root d (A.rnd (A.total (bars.map fun x => A.pw d (barLen A eps x)) / A.total (bars.map fun x => A.pw d (hEdge A fh x))))

/-- `L0`, mesh_generator.py:700. -/
def target (fh : (Fin d → ℝ) → ℝ) (L0mult s : ℝ) (x : Bar d) : ℝ := A.rnd (A.rnd (hEdge A fh x * L0mult) * s)

/-- `F = L0 - L; F[F < 0] = 0`, mesh_generator.py:701-702. -/
def barForce (eps : ℝ) (fh : (Fin d → ℝ) → ℝ) (L0mult s : ℝ) (x : Bar d) : ℝ :=
  let F := A.rnd (target A fh L0mult s x - barLen A eps x)
  if F < 0 then 0 else F

/-- `Fvec = F / L * barvec`, mesh_generator.py:703-705. -/
def forceVec (eps : ℝ) (fh : (Fin d → ℝ) → ℝ) (L0mult s : ℝ) (x : Bar d) : Fin d → ℝ :=
  fun k => A.rnd (A.rnd (barForce A eps fh L0mult s x / barLen A eps x) * barVec A x k)

/-- The triples of one bar, mesh_generator.py:706-711. -/
def triples (eps : ℝ) (fh : (Fin d → ℝ) → ℝ) (L0mult s : ℝ) (x : Bar d) : List (ℕ × ℕ × ℝ) :=
  ((List.finRange d).map fun k => (x.1.1, k.1, forceVec A eps fh L0mult s x k)) ++
  ((List.finRange d).map fun k => (x.1.2, k.1, -forceVec A eps fh L0mult s x k))

/-- `coo_matrix(...).toarray()`: entries with the same position are added to 0 in the order of the triples. scipy; generation/utils.py:68. -/
def cooEntry (l : List (ℕ × ℕ × ℝ)) (i j : ℕ) : ℝ :=
  ((l.filter fun e => decide (e.1 = i ∧ e.2.1 = j)).map fun e => e.2.2).foldl (fun s v => A.rnd (s + v)) 0

/-- `dense(I, J, S, shape=(N, dim))`, generation/utils.py:48-68. -/
def dense (N : ℕ) (l : List (ℕ × ℕ × ℝ)) : List (Fin d → ℝ) :=
  (List.range N).map fun i k => cooEntry A l i k.1

/-- `_compute_forces`, mesh_generator.py:691-712; `t` has `d + 1` columns. -/
def computeForces (eps : ℝ) (p : List (Fin d → ℝ)) (t : List (List ℕ)) (fh : (Fin d → ℝ) → ℝ) (L0mult : ℝ) :
    Except String (List (Fin d → ℝ)) := do
  let edges ← getBars t (d + 1)
  let bars ← edges.mapM (barOf p)
  let s := scale A eps fh bars
  return dense A p.length (bars.flatMap (triples A eps fh L0mult s))

end

end SM.ForcesFl
