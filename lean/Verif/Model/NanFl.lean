import Verif.Model.Topology

/-!
# Passes of the mesh generator with numbers that may be infinite or NaN

One pass of the `while True` loop of `generate_mesh` (SeismicMesh/generation/mesh_generator.py:496-527), from the forces to the assertion on the largest movement, with floating-point numbers of
any format: the operations are parameters, so that rounding, overflow, infinities and NaN are those of the format. The sizing function and the level-set functions are parameters, as computed, and
evaluated point by point. `python -O`, which removes assertions, is left out.
-/

namespace SM.NanFl

open Np Topology

/-- Floating-point operations on numbers of type `α`: what NumPy supplies to mesh_generator.py:691-712, 762-784. -/
structure Ops (α : Type) where
  zero : α
  two : α
  add : α → α → α
  sub : α → α → α
  mul : α → α → α
  div : α → α → α
  neg : α → α
  sqrt : α → α
  /-- `x ** dim` -/
  pw : ℕ → α → α
  /-- `x ** (1.0 / dim)` -/
  root : ℕ → α → α
  /-- `x.sum()` of a long array -/
  total : List α → α
  /-- `a < b` -/
  lt : α → α → Bool
  /-- `x == 0` -/
  isZero : α → Bool
  /-- `x != x` -/
  isNan : α → Bool

variable {α : Type} {d : ℕ} (O : Ops α)

/-- `(v ** 2).sum(1)` of one row, mesh_generator.py:514, 697. -/
def sumSq (v : Fin d → α) : α := (List.finRange d).foldl (fun s k => O.add s (O.mul (v k) (v k))) O.zero

/-- A bar: its two vertex numbers and their positions. mesh_generator.py:680-695. -/
abbrev Bar (α : Type) (d : ℕ) := (ℕ × ℕ) × ((Fin d → α) × (Fin d → α))

/-- `p[edges[:, 0]]`, `p[edges[:, 1]]`, mesh_generator.py:696. -/
def barOf (p : List (Fin d → α)) (e : ℕ × ℕ) : Except String (Bar α d) := do
  let a ← item p e.1
  let b ← item p e.2
  return (e, a, b)

/-- `barvec`, mesh_generator.py:696. -/
def barVec (x : Bar α d) : Fin d → α := fun k => O.sub (x.2.1 k) (x.2.2 k)

/-- `L = np.sqrt((barvec**2).sum(1)); L[L == 0] = eps`, mesh_generator.py:697-698. -/
def barLen (eps : α) (x : Bar α d) : α :=
  let L := O.sqrt (sumSq O (barVec O x))
  if O.isZero L then eps else L

/-- `p[edges].sum(1) / 2`, mesh_generator.py:699. -/
def midPt (a b : Fin d → α) : Fin d → α := fun k => O.div (O.add (a k) (b k)) O.two

/-- `hedges`, mesh_generator.py:699. -/
def hEdge (fh : (Fin d → α) → α) (x : Bar α d) : α := fh (midPt O x.2.1 x.2.2)

/-- `((L**dim).sum() / (hedges**dim).sum()) ** (1.0 / dim)`, mesh_generator.py:700. -/
def scale (eps : α) (fh : (Fin d → α) → α) (bars : List (Bar α d)) : α :=
  O.root d (O.div (O.total (bars.map fun x => O.pw d (barLen O eps x))) (O.total (bars.map fun x => O.pw d (hEdge O fh x))))

/-- `L0`, mesh_generator.py:700. -/
def target (fh : (Fin d → α) → α) (L0mult s : α) (x : Bar α d) : α := O.mul (O.mul (hEdge O fh x) L0mult) s

/-- `F = L0 - L; F[F < 0] = 0`, mesh_generator.py:701-702. -/
def barForce (eps : α) (fh : (Fin d → α) → α) (L0mult s : α) (x : Bar α d) : α :=
  let F := O.sub (target O fh L0mult s x) (barLen O eps x)
  if O.lt F O.zero then O.zero else F

/-- `Fvec = F / L * barvec`, mesh_generator.py:703-705. -/
def forceVec (eps : α) (fh : (Fin d → α) → α) (L0mult s : α) (x : Bar α d) : Fin d → α :=
  fun k => O.mul (O.div (barForce O eps fh L0mult s x) (barLen O eps x)) (barVec O x k)

/-- The triples of one bar, mesh_generator.py:706-711. -/
def triples (eps : α) (fh : (Fin d → α) → α) (L0mult s : α) (x : Bar α d) : List (ℕ × ℕ × α) :=
  ((List.finRange d).map fun k => (x.1.1, k.1, forceVec O eps fh L0mult s x k)) ++
  ((List.finRange d).map fun k => (x.1.2, k.1, O.neg (forceVec O eps fh L0mult s x k)))

/-- `coo_matrix(...).toarray()`: entries with the same position are added to 0. scipy; generation/utils.py:68. -/
def cooEntry (l : List (ℕ × ℕ × α)) (i j : ℕ) : α :=
  ((l.filter fun e => decide (e.1 = i ∧ e.2.1 = j)).map fun e => e.2.2).foldl O.add O.zero

/-- `dense(I, J, S, shape=(N, dim))`, generation/utils.py:48-68. -/
def dense (N : ℕ) (l : List (ℕ × ℕ × α)) : List (Fin d → α) := (List.range N).map fun i k => cooEntry O l i k.1

/-- `_compute_forces`, mesh_generator.py:691-712; `t` has `d + 1` columns. -/
def computeForces (eps : α) (p : List (Fin d → α)) (t : List (List ℕ)) (fh : (Fin d → α) → α) (L0mult : α) : Except String (List (Fin d → α)) := do
  let edges ← getBars t (d + 1)
  let bars ← edges.mapM (barOf p)
  let s := scale O eps fh bars
  return dense O p.length (bars.flatMap (triples O eps fh L0mult s))

/-- `Ftot[ifix] = 0`, mesh_generator.py:499. -/
def zeroAt (ifix : List ℕ) (F : List (Fin d → α)) : List (Fin d → α) := F.zipIdx.map fun fi => if fi.2 ∈ ifix then (fun _ => O.zero) else fi.1

/-- `p += delta_t * Ftot`, mesh_generator.py:502. -/
def advance (deltaT : α) (p F : List (Fin d → α)) : List (Fin d → α) := List.zipWith (fun x f => fun k => O.add (x k) (O.mul deltaT (f k))) p F

/-- One Newton step, mesh_generator.py:775-783. -/
def newton (fl : (Fin d → α) → α) (deps : α) (x : Fin d → α) : Fin d → α :=
  let g (i : Fin d) : α := O.div (O.sub (fl fun k => O.add (x k) (if k = i then deps else O.zero)) (fl x)) deps
  let s := sumSq O g
  fun k => O.sub (x k) (O.div (O.mul (fl x) (g k)) (if O.lt s deps then deps else s))

/-- `_project_points_back_newton` for one point and the level set of number `idx`, mesh_generator.py:762-784; `near` is `hmin / 1.5`. -/
def projectPoint (deps near : α) (idx : ℕ) (fl : (Fin d → α) → α) (x : Fin d → α) : Fin d → α :=
  if O.lt O.zero (fl x) && (idx == 0 || O.lt (fl x) near) then newton O fl deps x else x

/-- The loop over the levels, mesh_generator.py:505-506, for one point. -/
def projectAll (deps near : α) : ℕ → List ((Fin d → α) → α) → (Fin d → α) → Fin d → α
  | _, [], x => x
  | idx, l :: ls, x => projectAll deps near (idx + 1) ls (projectPoint O deps near idx l x)

/-- `np.maximum` of two numbers: NaN if one of them is. numpy; mesh_generator.py:514. -/
def maxNan (a b : α) : α := if O.isNan a then a else if O.isNan b then b else if O.lt a b then b else a

/-- `np.sqrt((Ftot**2).sum(1)).max()`, mesh_generator.py:514. -/
def largest (F : List (Fin d → α)) : Except String α :=
  match F.map fun f => O.sqrt (sumSq O f) with
  | [] => .error "ValueError: zero-size array to reduction operation maximum which has no identity"
  | x :: l => .ok (l.foldl (maxNan O) x)

/-- What a call of `generate_mesh` on one process has computed before the loop, mesh_generator.py:395-458. -/
structure Run (α : Type) (d : ℕ) where
  /-- Rank of this process. -/
  rank : ℕ
  /-- `np.finfo(float).eps`. -/
  eps : α
  fh : (Fin d → α) → α
  L0mult : α
  deltaT : α
  /-- `levels`. -/
  levels : List ((Fin d → α) → α)
  deps : α
  /-- `hmin / 1.5`. -/
  near : α
  /-- `1000 * h0`. -/
  bound : α
  /-- `np.delete(p, inv[-recv_ix::], axis=0)` if there are several processes, mesh_generator.py:508-510. -/
  dropGhosts : List (Fin d → α) → List (Fin d → α)

/-- One pass, from the forces on: `p` and `t` are the triangulation with the cells outside removed, `ifix` the vertices next to fixed points. mesh_generator.py:496-523. -/
def pass (R : Run α d) (p : List (Fin d → α)) (t : List (List ℕ)) (ifix : List ℕ) : Except String (List (Fin d → α)) := do
  let F0 ← computeForces O R.eps p t R.fh R.L0mult
  let F := zeroAt O ifix F0
  let q := (advance O R.deltaT p F).map (projectAll O R.deps R.near 0 R.levels)
  let q := R.dropGhosts q
  if R.rank = 0 then do
    let m ← largest O F
    if O.lt (O.mul R.deltaT m) R.bound then return q
    else .error "AssertionError: max movement indicates there's a convergence problem"
  else return q

end SM.NanFl
