import Verif.Model.DtWrapper
import Verif.Model.SliverCall

/-!
# `sliver_removal` with its incremental triangulation

SeismicMesh/generation/mesh_generator.py:196-288, 880-882: the loop of `Model/Sliver.lean`, but the vertices and cells come from one
triangulation object that is filled once and whose vertices are then moved. CGAL is the parameter of `Model/DtWrapper.lean`.
-/

namespace SM.SliverDt

open SM.DtWrapper
open SM.Sliver (State Env Rest)

noncomputable section

/-- A point. -/
abbrev Pt := Fin 3 → ℝ

/-- `_dist(p1, p2)`, mesh_generator.py:880-882, for arrays with the same number of rows (others raise; one row would be broadcast,
which cannot happen here, see `C111_run`). -/
def dist (p1 p2 : List Pt) : Except String (List ℝ) :=
  if p1.length = p2.length then .ok (List.zipWith (fun a b => Real.sqrt (∑ k, (a k - b k) ^ 2)) p1 p2)
  else .error "ValueError: operands could not be broadcast together"

open Classical in
/-- `np.where(d > 0)[0]`, mesh_generator.py:211. -/
def positive (d : List ℝ) : List ℕ := (List.range d.length).filter fun i => decide (d.getD i 0 > 0)

variable (C : Cgal Pt)

/-- The triangulation follows the points, mesh_generator.py:209-212. -/
def sync (count : ℕ) (dt : Tds Pt) (p pold : List Pt) : Except String (Tds Pt) := do
  if count > 0 then
    let d ← dist p pold
    let pos ← Np.take p (positive d)
    move C dt (positive d) pos
  else return dt

/-- The variables at the top of the loop, mesh_generator.py:196-203; `pold` is unused while `count` is 0 (`None` there). -/
structure Live where
  s : State
  dt : Tds Pt
  pold : List Pt

/-- `dt = DT(); dt.insert(p.ravel().tolist())`, mesh_generator.py:196-203. -/
def begin (v : Pt) (p : List Pt) : Live := ⟨Sliver.start p, insert C (empty v) p, []⟩

/-- Outcome of a pass of the loop, mesh_generator.py:204-288. -/
inductive Outcome
  | running (L : Live)
  | done (p : List Pt) (t : List (List ℕ)) (success : Bool)
  | raised (e : String)

variable {κ ρ : Type} [LinearOrder κ] [LinearOrder ρ]

/-- One pass of the loop, mesh_generator.py:204-288: `Sliver.step` on the vertices and cells of the triangulation object. The field `dt` of
`E` is not used. -/
def step (E : Env κ ρ) (L : Live) : Outcome :=
  match sync C L.s.count L.dt L.s.p L.pold with
  | .error e => .raised e
  | .ok D =>
    match Sliver.step { E with dt := fun _ _ => (getTopology D).1 } L.s with
    | .running s' => .running ⟨s', (getTopology D).2, (getTopology D).1.1⟩
    | .done p t b => .done p t b
    | .raised e => .raised e

/-- `n` passes of the loop, or fewer if it ends. mesh_generator.py:204-288. -/
def run (E : Env κ ρ) : ℕ → Live → Outcome
  | 0, L => .running L
  | n + 1, L => match step C E L with
    | .running L' => run E n L'
    | o => o

/-- What a call does. mesh_generator.py:59-288. -/
inductive Result
  | flags (a b : Bool)
  | loop (o : Outcome)

/-- `sliver_removal(points, domain, edge_length, comm, **kw)` on rank `rank`, observed after at most `n` passes of its loop.
mesh_generator.py:59-288. -/
def sliverRemoval (v : Pt) (rank : ℕ) (boxEval : List ℝ → Pt → ℝ) (points : List Pt) (domain : Gen.DomainArg Pt) (edge : Gen.SizeArg Pt)
    (kw : Gen.Kwargs) (R : Rest κ ρ) (n : ℕ) : Result :=
  if rank > 0 then .flags true true
  else match Gen.sliverSetup boxEval 3 domain edge kw with
    | .error e => .loop (.raised e)
    | .ok (S, m) => .loop (run C (Sliver.envOf R S m) n (begin C v points))

end

end SM.SliverDt
