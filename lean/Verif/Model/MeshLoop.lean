import Verif.Model.Options
import Verif.Model.Forces
import Verif.Model.Project
import Verif.Model.Laplace

/-!
# The meshing loop of `generate_mesh`

SeismicMesh/generation/mesh_generator.py:442-529 (the loop), 655-677 (`_termination`), 885-893
(`_unpack_pfix`), 911-915 (`_closest_node`), on one rank. What the rank receives from CGAL, the
linear solver and other ranks is a parameter: `dt` (vertices and cells of the Delaunay triangulation of the
inserted points), `solve`, `ghost` (the effect of `_add_ghost_vertices` in iteration `k`), `aggregate`. Printing and
timing are left out.
-/

namespace SM.MeshLoop

open Np Topology FixMesh

/-- `inv[-k::]`: the last `k` entries; all of them for `k = 0`. mesh_generator.py:510. -/
def lastSlice {α : Type} (l : List α) (k : ℕ) : List α := if k = 0 then l else l.drop (l.length - k)

noncomputable section

/-- External functions and keys used in the final clean-up. Used in mesh_generator.py:655-677, 490-493. -/
structure Tools (d : ℕ) (κ ρ : Type) where
  /-- byte string of a snapped point -/
  enc : (Fin d → ℝ) → κ
  /-- byte string of a row -/
  rk : List ℕ → ρ
  /-- `simp_vol` of one entity -/
  vol : List (Fin d → ℝ) → ℝ
  /-- `simp_qual` of one entity -/
  qual : List (Fin d → ℝ) → ℝ
  srt : List (ℕ × ℕ) → List (ℕ × ℕ)
  ptol : ℝ
  /-- the multigrid solver, utils.py:545-546 -/
  solve : (n : ℕ) → Matrix (Fin n) (Fin n) ℝ → Matrix (Fin n) (Fin d) ℝ → Matrix (Fin n) (Fin d) ℝ
  /-- `geometry.linter` -/
  lint : List (Fin d → ℝ) → List (List ℕ) → Except String (List (Fin d → ℝ) × List (List ℕ))
  /-- `migration.aggregate` as seen by this rank -/
  aggregate : List (Fin d → ℝ) → List (List ℕ) → Except String (List (Fin d → ℝ) × List (List ℕ))

variable {d : ℕ} {κ ρ : Type} [LinearOrder κ] [LinearOrder ρ]

/-- The point key of `fix_mesh` on the vertex array `p`, utils.py:231-232. -/
def keyOf (enc : (Fin d → ℝ) → κ) (ptol : ℝ) : List (Fin d → ℝ) → (Fin d → ℝ) → κ
  | [] => enc
  | p0 :: ps => fun q => enc (snapPt (snapLen ptol p0 ps) q)

/-- `geometry.fix_mesh(p, t, dim=dim, delete_unused=True)`, mesh_generator.py:663, 675, 242. -/
def fixed (T : Tools d κ ρ) (p : List (Fin d → ℝ)) (t : List (List ℕ)) :
    Except String (List (Fin d → ℝ) × List (List ℕ)) := do
  let (p, t, _) ← fixMeshK T.enc T.rk T.vol T.ptol p t true true
  return (p, t)

/-- `geometry.laplacian2_fixed_point(p, t)`, utils.py:494-547. -/
def laplacianFixed (T : Tools d κ ρ) (p : List (Fin d → ℝ)) (t : List (List ℕ)) :
    Except String (List (Fin d → ℝ) × List (List ℕ)) := do
  let (A, b) ← Laplace.assemble T.rk (fun i : Fin p.length => p.get i) t
  return (List.ofFn fun i => T.solve p.length A b i, t)

/-- Options read by `_termination`. mesh_generator.py:655-677. -/
structure TermOpts where
  subdomainsNone : Bool
  meshImprovement : Bool
  performChecks : Bool

/-- The two-dimensional clean-up, mesh_generator.py:662-669. -/
def cleanup2 (T : Tools d κ ρ) (o : TermOpts) (p : List (Fin d → ℝ)) (t : List (List ℕ)) :
    Except String (List (Fin d → ℝ) × List (List ℕ)) := do
  let (p, t) ← fixed T p t
  let (p, t) ← deleteBoundaryEntities (keyOf T.enc T.ptol p) T.rk T.vol T.qual T.srt p t 2 0.15
  if o.subdomainsNone && o.meshImprovement then laplacianFixed T p t else return (p, t)

/-- `_termination`, mesh_generator.py:655-677. -/
def termination (T : Tools d κ ρ) (rank size : ℕ) (sliver : Bool) (o : TermOpts) (p : List (Fin d → ℝ))
    (t : List (List ℕ)) : Except String (List (Fin d → ℝ) × List (List ℕ)) := do
  let (p, t) ← (if size > 1 && !sliver then T.aggregate p t else pure (p, t) :
    Except String (List (Fin d → ℝ) × List (List ℕ)))
  let (p, t) ← (if rank = 0 ∧ d = 2 then cleanup2 T o p t else pure (p, t) :
    Except String (List (Fin d → ℝ) × List (List ℕ)))
  if rank = 0 ∧ o.performChecks = true then T.lint p t
  else if rank = 0 then fixed T p t
  else return (p, t)

/-- What the loop reads. `dt p` are the finite vertices and cells of the triangulation of `p`. mesh_generator.py:417-458. -/
structure Env (d : ℕ) (κ ρ : Type) where
  tools : Tools d κ ρ
  dt : List (Fin d → ℝ) → List (Fin d → ℝ) × List (List ℕ)
  ghost : ℕ → List (Fin d → ℝ) → List (List ℕ) → Except String (List (Fin d → ℝ) × List (List ℕ) × List ℕ × ℕ)
  fd : (Fin d → ℝ) → ℝ
  /-- the subdomains' signed distances -/
  subs : List ((Fin d → ℝ) → ℝ)
  fh : (Fin d → ℝ) → ℝ
  h0 : ℝ
  deltaT : ℝ
  geps : ℝ
  deps : ℝ
  /-- `np.finfo(float).eps` -/
  eps : ℝ
  pfix : List (Fin d → ℝ)
  rank : ℕ
  size : ℕ
  maxIter : ℝ
  opts : TermOpts

/-- State at the top of the loop; `tri` counts the triangulations done so far. mesh_generator.py:442-460. -/
structure State (d : ℕ) where
  count : ℕ
  p : List (Fin d → ℝ)
  tri : ℕ

/-- Outcome of a pass of the loop, mesh_generator.py:460-529. -/
inductive Outcome (d : ℕ)
  | running (s : State d)
  | done (p : List (Fin d → ℝ)) (t : List (List ℕ)) (tri : ℕ)
  | raised (e : String)

/-- `_closest_node(fix, p)`, mesh_generator.py:911-915, 472-475. -/
def closestNode (p : List (Fin d → ℝ)) (fix : Fin d → ℝ) : Except String ℕ :=
  Laplace.closest fix fun i : Fin p.length => p.get i

/-- `Ftot[ifix] = 0`, mesh_generator.py:499. -/
def zeroAt (ifix : List ℕ) (F : List (Fin d → ℝ)) : List (Fin d → ℝ) :=
  F.zipIdx.map fun fi => if fi.2 ∈ ifix then 0 else fi.1

/-- `p += delta_t * Ftot`, mesh_generator.py:502. -/
def advance (deltaT : ℝ) (p F : List (Fin d → ℝ)) : List (Fin d → ℝ) :=
  List.zipWith (fun x f => fun k => x k + deltaT * f k) p F

/-- `for idx, level in enumerate(levels): p = _project_points_back_newton(...)`, mesh_generator.py:505-506. -/
def projectAll (deps h0 : ℝ) : ℕ → List ((Fin d → ℝ) → ℝ) → List (Fin d → ℝ) → List (Fin d → ℝ)
  | _, [], p => p
  | idx, l :: ls, p => projectAll deps h0 (idx + 1) ls (Project.projectBack l deps h0 idx p)

/-- Triangulation, fixed points, ghost points, removal of outside cells, mesh_generator.py:464-482:
`p`, `t`, `ifix`, `inv`, `recv_ix`. -/
def topology (E : Env d κ ρ) (s : State d) :
    Except String (List (Fin d → ℝ) × List (List ℕ) × List ℕ × List ℕ × ℕ) := do
  let ifix ← E.pfix.mapM (closestNode (E.dt s.p).1)
  let (p, t, inv, recvIx) ← (if E.size > 1 then E.ghost s.count (E.dt s.p).1 (E.dt s.p).2
    else pure ((E.dt s.p).1, (E.dt s.p).2, [], 0) :
    Except String (List (Fin d → ℝ) × List (List ℕ) × List ℕ × ℕ))
  let t ← Project.removeOutside E.fd E.geps p t
  return (p, t, ifix, inv, recvIx)

/-- The last iteration, mesh_generator.py:490-494. -/
def finish (E : Env d κ ρ) (p : List (Fin d → ℝ)) (t : List (List ℕ)) :
    Except String (List (Fin d → ℝ) × List (List ℕ)) := do
  let (p, t) ← termination E.tools E.rank E.size false E.opts p t
  if E.rank = 0 then do
    let p ← Project.improve E.tools.rk E.fd E.deps p t
    let t ← Project.removeOutside E.fd (E.h0 * 0.001) p t
    return (p, t)
  else return (p, t)

open Classical in
/-- Force computation, movement and projection, mesh_generator.py:497-521; the new point array. -/
def move (E : Env d κ ρ) (p : List (Fin d → ℝ)) (t : List (List ℕ)) (ifix inv : List ℕ) (recvIx : ℕ) :
    Except String (List (Fin d → ℝ)) := do
  let F ← Forces.computeForces E.eps p t E.fh (Forces.L0multOf d)
  let F := zeroAt ifix F
  let p := advance E.deltaT p F
  let p := projectAll E.deps E.h0 0 (E.fd :: E.subs) p
  let p := if E.size > 1 then npDelete p (lastSlice inv recvIx) else p
  if E.rank = 0 then do
    if F.isEmpty then throw "ValueError: zero-size array to reduction operation"
    if ∀ f ∈ F, E.deltaT * Real.sqrt (∑ k, f k ^ 2) < 1000 * E.h0 then return p
    else throw "AssertionError: max movement indicates there's a convergence problem"
  else return p

open Classical in
/-- One pass of the `while True` loop, mesh_generator.py:460-527. -/
def step (E : Env d κ ρ) (s : State d) : Outcome d :=
  match topology E s with
  | .error e => .raised e
  | .ok (p, t, ifix, inv, recvIx) =>
    if (s.count : ℝ) = E.maxIter - 1 then
      match finish E p t with
      | .error e => .raised e
      | .ok (p, t) => .done p t (s.tri + 1)
    else
      match move E p t ifix inv recvIx with
      | .error e => .raised e
      | .ok p => .running ⟨s.count + 1, p, s.tri + 1⟩

/-- `n` passes of the loop, or fewer if it ends. mesh_generator.py:460-527. -/
def run (E : Env d κ ρ) : ℕ → State d → Outcome d
  | 0, s => .running s
  | n + 1, s => match step E s with
    | .running s' => run E n s'
    | o => o

/-- `_unpack_pfix`, mesh_generator.py:885-893. -/
def unpackPfix (pfix : Option (List (Fin d → ℝ))) (size : ℕ) : List (Fin d → ℝ) :=
  match pfix with
  | some l => if size = 1 then l else []
  | none => []

open Classical in
/-- The fixed points of the loop, mesh_generator.py:425-430: user's points, then the corners near the level set. -/
def fixedPoints (pfix corners : Option (List (Fin d → ℝ))) (fd : (Fin d → ℝ) → ℝ) (deps : ℝ) (size : ℕ) :
    List (Fin d → ℝ) :=
  match corners with
  | some cs => if size = 1 then unpackPfix pfix size ++ cs.filter fun c => decide (fd c > -1000 * deps) else unpackPfix pfix size
  | none => unpackPfix pfix size

/-- `_initialize_points` as far as fixed points are concerned, mesh_generator.py:845-850, 855-864:
generated points follow the fixed points; user points replace everything (serial run). -/
def startPoints (points : Option (List (Fin d → ℝ))) (pfix generated : List (Fin d → ℝ)) : List (Fin d → ℝ) :=
  match points with
  | none => pfix ++ generated
  | some ps => ps

end

end SM.MeshLoop
