import Verif.Model.Generate

/-!
# The random numbers of `generate_mesh`

`np.random.seed(opts["seed"])` and `np.random.rand(p.shape[0])`, SeismicMesh/generation/mesh_generator.py:844-850, act on NumPy's global generator. Here its state is
explicit: every call takes the state it finds and returns the state it leaves. One process. In `Verif/Model/Generate.lean` the numbers are a parameter.
-/

namespace SM.Seed

open MeshLoop Generate

noncomputable section

/-- NumPy's global generator with states `σ`: `np.random.seed`, which raises for values it does not accept, and the next number of `np.random.rand`. Used in
mesh_generator.py:844-848. -/
structure Rng (σ : Type) where
  seed : ℝ → Except String σ
  next : σ → ℝ × σ

variable {σ : Type}

/-- `np.random.rand(n)`, mesh_generator.py:848. -/
def rand (G : Rng σ) : ℕ → σ → List ℝ × σ
  | 0, g => ([], g)
  | n + 1, g => let (xs, g') := rand G n (G.next g).2; ((G.next g).1 :: xs, g')

variable {d : ℕ} {κ ρ : Type} [LinearOrder κ] [LinearOrder ρ]

open Classical in
/-- `p[np.random.rand(p.shape[0]) < r0m**dim / r0**dim]`, mesh_generator.py:848. -/
def reject (G : Rng σ) (r0m : ℝ) (fh : (Fin d → ℝ) → ℝ) (p : List (Fin d → ℝ)) (g : σ) : List (Fin d → ℝ) × σ :=
  let (xs, g') := rand G p.length g
  (((p.zip xs).filter fun xr => decide (xr.2 < r0m ^ d / fh xr.1 ^ d)).map Prod.fst, g')

/-- `_generate_initial_points` on one process, mesh_generator.py:808-852; `I.rand` is not used. -/
def serialPoints (G : Rng σ) (seed : ℝ) (I : Init.Input d) (g : σ) : Except String (List (Fin d → ℝ)) × σ :=
  match Init.candidates I 1 0 with
  | .error e => (.error e, g)
  | .ok ps =>
    match Init.rankR0m I ps 0 with
    | .error e => (.error e, g)
    | .ok m =>
      match G.seed seed with
      | .error e => (.error e, g)
      | .ok g0 => let (q, g1) := reject G m (I.fh 0) ps g0; (.ok (I.pfix ++ q), g1)

/-- `_initialize_points` on one process, mesh_generator.py:855-864. -/
def initial (G : Rng σ) (seed : ℝ) (R : Rest d κ ρ) (S : Gen.Setup (Fin d → ℝ)) (g : σ) : Except String (List (Fin d → ℝ)) × σ :=
  match R.points with
  | none => serialPoints G seed
      ⟨S.h0, R.gepsMult * S.h0, pairs S.bbox, S.fd, fun _ => S.fh, fixOf R S, R.axis, S.lsf, R.r0mIsH0, R.rand⟩ g
  | some ps => (.ok ps, g)

/-- Everything before the loop, mesh_generator.py:343-448, as `Generate.prepare`. -/
def prepare (G : Rng σ) (seed : ℝ) (boxEval : List ℝ → (Fin d → ℝ) → ℝ) (domain : Gen.DomainArg (Fin d → ℝ)) (edge : Gen.SizeArg (Fin d → ℝ))
    (kw : Gen.Kwargs) (R : Rest d κ ρ) (g : σ) : Except String (Env d κ ρ × List (Fin d → ℝ)) × σ :=
  match Gen.genSetup boxEval domain edge kw with
  | .error e => (.error e, g)
  | .ok S =>
    if S.bbox.length / 2 ≠ d then (.error "points have another dimension than the box", g)
    else match initial G seed R S g with
      | (.error e, g') => (.error e, g')
      | (.ok p, g') =>
        match Gen.maxIterOf kw with
        | .error e => (.error e, g')
        | .ok m => if p.isEmpty then (.error "AssertionError: No vertices to mesh with!", g') else (.ok (envOf R S m, p), g')

/-- `generate_mesh` on one process, observed after at most `n` passes of its loop, and the state of the generator afterwards; the loop draws no numbers.
mesh_generator.py:291-529. -/
def generateMesh (G : Rng σ) (seed : ℝ) (boxEval : List ℝ → (Fin d → ℝ) → ℝ) (domain : Gen.DomainArg (Fin d → ℝ)) (edge : Gen.SizeArg (Fin d → ℝ))
    (kw : Gen.Kwargs) (R : Rest d κ ρ) (n : ℕ) (g : σ) : Outcome d × σ :=
  match prepare G seed boxEval domain edge kw R g with
  | (.error e, g') => (.raised e, g')
  | (.ok (E, p), g') => (run E n ⟨0, p, 0⟩, g')

/-- The arguments of a call. mesh_generator.py:291. -/
structure Call (d : ℕ) (κ ρ : Type) where
  seed : ℝ
  boxEval : List ℝ → (Fin d → ℝ) → ℝ
  domain : Gen.DomainArg (Fin d → ℝ)
  edge : Gen.SizeArg (Fin d → ℝ)
  kw : Gen.Kwargs
  rest : Rest d κ ρ
  passes : ℕ

/-- What a program does, one thing after the other: call `generate_mesh`, or do something else with the global generator. mesh_generator.py:291, 844. -/
inductive Action (σ : Type) (d : ℕ) (κ ρ : Type)
  | mesh (c : Call d κ ρ)
  | other (f : σ → σ)

/-- One call in state `g`. mesh_generator.py:291-529. -/
def Call.run (G : Rng σ) (c : Call d κ ρ) (g : σ) : Outcome d × σ := generateMesh G c.seed c.boxEval c.domain c.edge c.kw c.rest c.passes g

/-- The state of the generator after a program. mesh_generator.py:844-850. -/
def after (G : Rng σ) : List (Action σ d κ ρ) → σ → σ
  | [], g => g
  | .mesh c :: l, g => after G l (c.run G g).2
  | .other f :: l, g => after G l (f g)

end

end SM.Seed
