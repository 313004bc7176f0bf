import Verif.Model.InitPoints

/-!
# `generate_mesh` on one process, from the arguments to the returned mesh

SeismicMesh/generation/mesh_generator.py:291-529, putting the parts together. Options whose values are arrays,
functions or flags are in `Rest`; the others are keyword arguments of the option model (`SM.Gen`). `eps` is
`np.finfo(float).eps`, `deps0` is `np.sqrt(eps)`.
-/

namespace SM.Generate

open MeshLoop

noncomputable section

/-- `np.array(bbox).reshape(-1, 2)`, mesh_generator.py:406. -/
def pairs : List ℝ → List (ℝ × ℝ)
  | a :: b :: l => (a, b) :: pairs l
  | _ => []

/-- The options that are not plain numbers, with their values after defaults (mesh_generator.py:344-359), and the external
parameters. -/
structure Rest (d : ℕ) (κ ρ : Type) where
  pfix : Option (List (Fin d → ℝ))
  points : Option (List (Fin d → ℝ))
  /-- signed distances of `subdomains` -/
  subs : List ((Fin d → ℝ) → ℝ)
  axis : ℕ
  deltaT : ℝ
  gepsMult : ℝ
  r0mIsH0 : Bool
  opts : TermOpts
  rand : ℕ → ℝ
  tools : Tools d κ ρ
  dt : List (Fin d → ℝ) → List (Fin d → ℝ) × List (List ℕ)
  eps : ℝ
  deps0 : ℝ

variable {d : ℕ} {κ ρ : Type} [LinearOrder κ] [LinearOrder ρ]

/-- The fixed points, mesh_generator.py:425-430. -/
def fixOf (R : Rest d κ ρ) (S : Gen.Setup (Fin d → ℝ)) : List (Fin d → ℝ) :=
  fixedPoints R.pfix S.corners S.fd (R.deps0 * S.h0) 1

/-- `_initialize_points` on one process, mesh_generator.py:855-864. -/
def initial (R : Rest d κ ρ) (S : Gen.Setup (Fin d → ℝ)) : Except String (List (Fin d → ℝ)) :=
  match R.points with
  | none => Init.serialPoints
      ⟨S.h0, R.gepsMult * S.h0, pairs S.bbox, S.fd, fun _ => S.fh, fixOf R S, R.axis, S.lsf, R.r0mIsH0, R.rand⟩
  | some ps => .ok ps

/-- What the loop reads, mesh_generator.py:417-442. -/
def envOf (R : Rest d κ ρ) (S : Gen.Setup (Fin d → ℝ)) (maxIter : ℝ) : Env d κ ρ where
  tools := R.tools
  dt := R.dt
  ghost _ _ _ := .error "not used on one process"
  fd := S.fd
  subs := R.subs
  fh := S.fh
  h0 := S.h0
  deltaT := R.deltaT
  geps := R.gepsMult * S.h0
  deps := R.deps0 * S.h0
  eps := R.eps
  pfix := fixOf R S
  rank := 0
  size := 1
  maxIter := maxIter
  opts := R.opts

/-- Everything before the loop, mesh_generator.py:343-448. -/
def prepare (boxEval : List ℝ → (Fin d → ℝ) → ℝ) (domain : Gen.DomainArg (Fin d → ℝ)) (edge : Gen.SizeArg (Fin d → ℝ))
    (kw : Gen.Kwargs) (R : Rest d κ ρ) : Except String (Env d κ ρ × List (Fin d → ℝ)) := do
  let S ← Gen.genSetup boxEval domain edge kw
  if S.bbox.length / 2 ≠ d then throw "points have another dimension than the box"
  let p ← initial R S
  let m ← Gen.maxIterOf kw
  if p.isEmpty then throw "AssertionError: No vertices to mesh with!"
  return (envOf R S m, p)

/-- `generate_mesh` on one process, observed after at most `n` passes of its loop. mesh_generator.py:291-529. -/
def generateMesh (boxEval : List ℝ → (Fin d → ℝ) → ℝ) (domain : Gen.DomainArg (Fin d → ℝ)) (edge : Gen.SizeArg (Fin d → ℝ))
    (kw : Gen.Kwargs) (R : Rest d κ ρ) (n : ℕ) : Outcome d :=
  match prepare boxEval domain edge kw R with
  | .error e => .raised e
  | .ok (E, p) => run E n ⟨0, p, 0⟩

end

end SM.Generate
