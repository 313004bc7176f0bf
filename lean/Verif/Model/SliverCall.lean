import Verif.Model.Sliver

/-!
# `sliver_removal`, from the arguments to what it returns

SeismicMesh/generation/mesh_generator.py:59-288, putting `SM.Gen.sliverSetup` and the loop `SM.Sliver.run` together.
-/

namespace SM.Sliver

open MeshLoop

noncomputable section

variable {κ ρ : Type} [LinearOrder κ] [LinearOrder ρ]

/-- The options that are read inside the loop, with their values after defaults (mesh_generator.py:110-123), and the external
parameters. `deps0` is `np.sqrt(np.finfo(np.double).eps)` (175). -/
structure Rest (κ ρ : Type) where
  gepsMult : ℝ
  /-- `min_dh_angle_bound` in degrees -/
  minDeg : ℝ
  /-- `max_dh_angle_bound` in degrees -/
  maxDeg : ℝ
  gamma : ℝ
  preserve : Bool
  opts : TermOpts
  tools : Tools 3 κ ρ
  dt : ℕ → List (Fin 3 → ℝ) → List (Fin 3 → ℝ) × List (List ℕ)
  perturb : (Fin 4 → Fin 3 → ℝ) → Fin 3 → ℝ
  deps0 : ℝ

/-- What the loop reads, mesh_generator.py:166-201. -/
def envOf (R : Rest κ ρ) (S : Gen.Setup (Fin 3 → ℝ)) (maxIter : ℝ) : Env κ ρ where
  tools := R.tools
  dt := R.dt
  perturb := R.perturb
  fd := S.fd
  h0 := S.h0
  geps := R.gepsMult * S.h0
  deps := R.deps0 * S.h0
  minDh := radians R.minDeg
  maxDh := radians R.maxDeg
  gamma := R.gamma
  preserve := R.preserve
  maxIter := maxIter
  opts := R.opts

/-- What a call gives: the pair `(True, True)` of ranks above 0 (mesh_generator.py:104-108), or the outcome of the loop. -/
inductive Result
  | flags (a b : Bool)
  | loop (o : Outcome)

/-- `sliver_removal(points, domain, edge_length, comm, **kw)` on rank `rank`, observed after at most `n` passes of its loop;
three-dimensional points. mesh_generator.py:59-288. -/
def sliverRemoval (rank : ℕ) (boxEval : List ℝ → (Fin 3 → ℝ) → ℝ) (points : List (Fin 3 → ℝ)) (domain : Gen.DomainArg (Fin 3 → ℝ))
    (edge : Gen.SizeArg (Fin 3 → ℝ)) (kw : Gen.Kwargs) (R : Rest κ ρ) (n : ℕ) : Result :=
  if rank > 0 then .flags true true
  else match Gen.sliverSetup boxEval 3 domain edge kw with
    | .error e => .loop (.raised e)
    | .ok (S, m) => .loop (run (envOf R S m) n (start points))

end

end SM.Sliver
