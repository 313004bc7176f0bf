import Verif.Model.MeshLoop
import Verif.Model.Simplex

/-!
# `sliver_removal`

SeismicMesh/generation/mesh_generator.py:59-289 and `_calc_dihedral_angles` (532-540). The argument handling is
`SM.Gen.sliverSetup`. Parameters: `dt k p` (the vertices and cells that CGAL returns in pass `k` after the
points have been moved to `p`; arbitrary), `perturb` (the normalised gradient of the circumradius of one cell, 250-255, see
C46; arbitrary because the code replaces infinities by 1 and divides by a norm that can vanish). Exact arithmetic, but the
NaN that `acos` receives when a norm vanishes is kept (`none`).
-/

namespace SM.Sliver

open Np MeshLoop Simplex

noncomputable section

open Classical in
/-- One angle as computed by fast_geometry.cpp:375-415; `none` is NaN (division of 0 by 0). Comparisons with NaN are false. -/
def angleOrNan (p0 p1 p2 p3 : Fin 3 → ℝ) : Option ℝ :=
  let v1 := fun j => p1 j - p0 j
  let v2 := fun j => p2 j - p0 j
  let v3 := fun j => p3 j - p0 j
  if l2 v1 = 0 ∨ l2 v2 = 0 ∨ l2 v3 = 0 ∨ l2 (FixMesh.cross (fun j => v1 j / l2 v1) (fun j => v2 j / l2 v2)) = 0 ∨
      l2 (FixMesh.cross (fun j => v1 j / l2 v1) (fun j => v3 j / l2 v3)) = 0 then none
  else some (Real.arccos (cosDihedral p0 p1 p2 p3))

/-- The six angles of one cell, fast_geometry.cpp:367-415, in the order of the edge table. -/
def cellAnglesN (q : Fin 4 → Fin 3 → ℝ) : List (Option ℝ) :=
  (List.range 6).map fun i =>
    let e := edges.getD i (0, 0)
    let o := edges.getD (5 - i) (0, 0)
    angleOrNan (q (Fin.ofNat 4 e.1)) (q (Fin.ofNat 4 e.2)) (q (Fin.ofNat 4 o.1)) (q (Fin.ofNat 4 o.2))

/-- The angles of one row. geometry/cpp/fast_geometry.cpp:367-415; mesh_generator.py:534. -/
def rowAngles (p : List (Fin 3 → ℝ)) (row : List ℕ) : Except String (List (Option ℝ)) := do
  let q ← corners p row
  return cellAnglesN q

/-- `geometry.calc_dihedral_angles(p, t)`, fast_geometry.cpp:351-418: six per cell, one after another. -/
def allAngles (p : List (Fin 3 → ℝ)) (t : List (List ℕ)) : Except String (List (Option ℝ)) := do
  let parts ← t.mapM (rowAngles p)
  return parts.flatten

open Classical in
/-- `(dh < min_bound) | (dh > max_bound)`, mesh_generator.py:536. -/
def outside (lo hi : ℝ) : Option ℝ → Bool
  | none => false
  | some a => decide (a < lo ∨ a > hi)

/-- `_calc_dihedral_angles`, mesh_generator.py:532-540: the numbers of the cells with an angle out of bounds. -/
def badCells (lo hi : ℝ) (p : List (Fin 3 → ℝ)) (t : List (List ℕ)) : Except String (List ℕ) := do
  let dh ← allAngles p t
  let out := (dh.zipIdx.filter fun ai => outside lo hi ai.1).map Prod.snd
  return uniqBy id (out.map fun i => i / 6)

variable {κ ρ : Type} [LinearOrder κ] [LinearOrder ρ]

/-- What the loop reads, mesh_generator.py:158-205. -/
structure Env (κ ρ : Type) where
  tools : Tools 3 κ ρ
  dt : ℕ → List (Fin 3 → ℝ) → List (Fin 3 → ℝ) × List (List ℕ)
  perturb : (Fin 4 → Fin 3 → ℝ) → Fin 3 → ℝ
  fd : (Fin 3 → ℝ) → ℝ
  h0 : ℝ
  geps : ℝ
  deps : ℝ
  /-- bounds in radians, mesh_generator.py:176-177 -/
  minDh : ℝ
  maxDh : ℝ
  gamma : ℝ
  preserve : Bool
  maxIter : ℝ
  opts : TermOpts

/-- State at the top of the loop of `sliver_removal`, mesh_generator.py:196-204. -/
structure State where
  count : ℕ
  p : List (Fin 3 → ℝ)
  step : ℝ
  /-- `num_old_bad`; `none` is `np.inf` -/
  oldBad : Option ℕ

/-- State at the top of the loop, mesh_generator.py:196-203. -/
def start (p : List (Fin 3 → ℝ)) : State := ⟨0, p, 0.1, none⟩

/-- Outcome of a call observed after some passes. mesh_generator.py:204-288. -/
inductive Outcome
  | running (s : State)
  /-- `success`: no slivers detected, 232-238; otherwise the iterations were used up, 222-227 -/
  | done (p : List (Fin 3 → ℝ)) (t : List (List ℕ)) (success : Bool)
  | raised (e : String)

open Classical in
/-- Adaptation of `step`, mesh_generator.py:260-271. -/
def adapt (gamma : ℝ) (step : ℝ) (bad : ℕ) : Option ℕ → ℝ
  | none => step / gamma
  | some old => if bad < old then step / gamma else if bad > old then step * gamma else step / 0.8

/-- `p[move] += v`: with repeated indices the last value wins. `mv` pairs each index with its new value. numpy; mesh_generator.py:274. -/
def assign : List (ℕ × (Fin 3 → ℝ)) → List (Fin 3 → ℝ) → List (Fin 3 → ℝ)
  | [], p => p
  | (i, x) :: l, p => assign l (p.set i x)

/-- The moved vertex of bad cell `k` and its new position, mesh_generator.py:234, 245-274. -/
def moveOf (E : Env κ ρ) (step : ℝ) (p : List (Fin 3 → ℝ)) (t : List (List ℕ)) (k : ℕ) : Except String (ℕ × (Fin 3 → ℝ)) := do
  let row ← item t k
  let v ← item row 0
  let q ← corners p row
  return (v, fun j => q 0 j + step * E.h0 * E.perturb q j)

/-- Triangulation and bad cells, mesh_generator.py:210-222. -/
def topology (E : Env κ ρ) (s : State) : Except String (List (Fin 3 → ℝ) × List (List ℕ) × List ℕ) := do
  let t ← Project.removeOutside E.fd E.geps (E.dt s.count s.p).1 (E.dt s.count s.p).2
  let bad ← badCells E.minDh E.maxDh (E.dt s.count s.p).1 t
  return ((E.dt s.count s.p).1, t, bad)

/-- The perturbation, mesh_generator.py:245-278; the new points. -/
def perturbAll (E : Env κ ρ) (step : ℝ) (p : List (Fin 3 → ℝ)) (t : List (List ℕ)) (bad : List ℕ) :
    Except String (List (Fin 3 → ℝ)) := do
  let mv ← bad.mapM (moveOf E step p t)
  let p := assign mv p
  if E.preserve then Project.improve E.tools.rk E.fd E.deps p t else return p

open Classical in
/-- One pass of the loop, mesh_generator.py:204-287. -/
def step (E : Env κ ρ) (s : State) : Outcome :=
  match topology E s with
  | .error e => .raised e
  | .ok (p, t, bad) =>
    if (s.count : ℝ) = E.maxIter - 1 then
      match termination E.tools 0 1 true E.opts p t with
      | .error e => .raised e
      | .ok (p, t) => .done p t false
    else if bad = [] then
      match fixed E.tools p t with
      | .error e => .raised e
      | .ok (p, t) => .done p t true
    else
      match perturbAll E (adapt E.gamma s.step bad.length s.oldBad) p t bad with
      | .error e => .raised e
      | .ok p' => .running ⟨s.count + 1, p', adapt E.gamma s.step bad.length s.oldBad, some bad.length⟩

/-- `n` passes of the loop, or fewer if it ends. mesh_generator.py:204-288. -/
def run (E : Env κ ρ) : ℕ → State → Outcome
  | 0, s => .running s
  | n + 1, s => match step E s with
    | .running s' => run E n s'
    | o => o

/-- `math.pi / 180` conversion of the bounds, mesh_generator.py:176-177. -/
def radians (deg : ℝ) : ℝ := deg * Real.pi / 180

end

end SM.Sliver
