import Verif.Model.Seed
import Verif.Props.Initial

/-!
# C136: a call of generate_mesh does not depend on what was done before
-/

namespace SM.Seed

open MeshLoop Generate

noncomputable section

variable {σ : Type} {d : ℕ} {κ ρ : Type} [LinearOrder κ] [LinearOrder ρ]

/-! ### Specification -/

/-- The numbers a generator in state `g` will produce. -/
def stream (G : Rng σ) (g : σ) : ℕ → ℝ
  | 0 => (G.next g).1
  | n + 1 => stream G (G.next g).2 n

/-! ### Proof -/

theorem rand_length (G : Rng σ) : ∀ (n : ℕ) (g : σ), (rand G n g).1.length = n
  | 0, _ => rfl
  | n + 1, g => by simp [rand, rand_length G n]

theorem rand_get (G : Rng σ) : ∀ (n : ℕ) (g : σ) (i : ℕ), i < n → (rand G n g).1[i]? = some (stream G g i)
  | n + 1, g, 0, _ => by simp [rand, stream]
  | n + 1, g, i + 1, h => by
    have := rand_get G n (G.next g).2 i (by omega)
    simp [rand, stream, this]

theorem reject_eq (G : Rng σ) (r0m : ℝ) (fh : (Fin d → ℝ) → ℝ) (p : List (Fin d → ℝ)) (g : σ) :
    (reject G r0m fh p g).1 = Init.reject (stream G g) r0m fh p := by
  have hz : p.zip (rand G p.length g).1 = p.zipIdx.map fun xi => (xi.1, stream G g xi.2) := by
    apply List.ext_getElem
    · simp [rand_length]
    · intro i h1 h2
      have hi : i < p.length := by simpa [rand_length] using h1
      have := rand_get G p.length g i hi
      rw [List.getElem?_eq_some_iff] at this
      obtain ⟨_, h⟩ := this
      simp [h]
  unfold reject Init.reject
  dsimp only
  rw [hz, List.filter_map, List.map_map]
  rfl

/-- The points of a call are those of the model with the numbers of the seeded generator, whatever the state before. -/
theorem serialPoints_eq (G : Rng σ) {seed : ℝ} {g0 : σ} (hg : G.seed seed = .ok g0) (I : Init.Input d) (g : σ) :
    (serialPoints G seed I g).1 = Init.serialPoints { I with rand := stream G g0 } := by
  unfold serialPoints Init.serialPoints
  have hc : Init.candidates { I with rand := stream G g0 } 1 0 = Init.candidates I 1 0 := rfl
  have hm : ∀ ps, Init.rankR0m { I with rand := stream G g0 } ps 0 = Init.rankR0m I ps 0 := fun _ => rfl
  rw [hc]
  cases h1 : Init.candidates I 1 0 with
  | error e => rfl
  | ok ps =>
    simp only [bind, Except.bind, hm]
    cases h2 : Init.rankR0m I ps 0 with
    | error e => rfl
    | ok m =>
      simp only [hg, pure, Except.pure, Init.rankPoints]
      congr 2
      exact reject_eq G m (I.fh 0) ps g0

theorem initial_eq (G : Rng σ) {seed : ℝ} {g0 : σ} (hg : G.seed seed = .ok g0) (R : Rest d κ ρ) (S : Gen.Setup (Fin d → ℝ)) (g : σ) :
    (initial G seed R S g).1 = Generate.initial { R with rand := stream G g0 } S := by
  unfold initial Generate.initial
  cases hp : R.points with
  | none =>
    simp only [hp]
    exact serialPoints_eq G hg _ g
  | some ps => simp only [hp]

/-- **C136 (numbers).** If NumPy accepts the seed, a call returns or raises what the model of the run with the numbers that follow this seed returns or
raises, whatever the state of the generator. -/
theorem C136_numbers (G : Rng σ) (c : Call d κ ρ) {g0 : σ} (hg : G.seed c.seed = .ok g0) (g : σ) :
    (c.run G g).1 = Generate.generateMesh c.boxEval c.domain c.edge c.kw { c.rest with rand := stream G g0 } c.passes := by
  unfold Call.run generateMesh Generate.generateMesh prepare Generate.prepare
  cases h1 : Gen.genSetup c.boxEval c.domain c.edge c.kw with
  | error e => rfl
  | ok S =>
    simp only [bind, Except.bind, pure, Except.pure]
    by_cases h2 : S.bbox.length / 2 ≠ d
    · simp only [if_pos h2, throw, throwThe, MonadExceptOf.throw]
    · simp only [if_neg h2]
      have hi := initial_eq G hg c.rest S g
      rcases hin : initial G c.seed c.rest S g with ⟨r, g'⟩
      rw [hin] at hi
      dsimp only at hi
      rw [← hi]
      cases r with
      | error e => rfl
      | ok p =>
        dsimp only
        cases h3 : Gen.maxIterOf c.kw with
        | error e => rfl
        | ok m =>
          dsimp only
          cases h4 : p.isEmpty <;> simp [h4, throw, throwThe, MonadExceptOf.throw, envOf, fixOf]

theorem serialPoints_indep (G : Rng σ) (seed : ℝ) (I : Init.Input d) (g g' : σ) :
    (serialPoints G seed I g).1 = (serialPoints G seed I g').1 ∧
    ((∀ g, (serialPoints G seed I g).2 = g) ∨ ∃ n g0, G.seed seed = .ok g0 ∧ ∀ g, (serialPoints G seed I g).2 = (rand G n g0).2) := by
  unfold serialPoints
  cases h1 : Init.candidates I 1 0 with
  | error e => simp
  | ok ps =>
    dsimp only
    cases h2 : Init.rankR0m I ps 0 with
    | error e => simp
    | ok m =>
      dsimp only
      cases h3 : G.seed seed with
      | error e => simp
      | ok g0 => exact ⟨rfl, .inr ⟨ps.length, g0, rfl, fun _ => rfl⟩⟩

theorem initial_indep (G : Rng σ) (seed : ℝ) (R : Rest d κ ρ) (S : Gen.Setup (Fin d → ℝ)) (g g' : σ) :
    (initial G seed R S g).1 = (initial G seed R S g').1 ∧
    ((∀ g, (initial G seed R S g).2 = g) ∨ ∃ n g0, G.seed seed = .ok g0 ∧ ∀ g, (initial G seed R S g).2 = (rand G n g0).2) := by
  unfold initial
  cases hp : R.points with
  | none => exact serialPoints_indep G seed _ g g'
  | some ps => simp

/-- A call, with the points and the state taken apart. -/
theorem run_eq (G : Rng σ) (c : Call d κ ρ) (g : σ) : c.run G g =
    match Gen.genSetup c.boxEval c.domain c.edge c.kw with
    | .error e => (.raised e, g)
    | .ok S =>
      if S.bbox.length / 2 ≠ d then (.raised "points have another dimension than the box", g)
      else ((match (initial G c.seed c.rest S g).1 with
        | .error e => (.raised e : Outcome d)
        | .ok p => match Gen.maxIterOf c.kw with
          | .error e => .raised e
          | .ok m => if p.isEmpty then .raised "AssertionError: No vertices to mesh with!" else MeshLoop.run (envOf c.rest S m) c.passes ⟨0, p, 0⟩),
        (initial G c.seed c.rest S g).2) := by
  unfold Call.run generateMesh prepare
  cases h1 : Gen.genSetup c.boxEval c.domain c.edge c.kw with
  | error e => rfl
  | ok S =>
    dsimp only
    by_cases h2 : S.bbox.length / 2 ≠ d
    · simp only [if_pos h2]
    · simp only [if_neg h2]
      rcases initial G c.seed c.rest S g with ⟨r, g1⟩
      cases r with
      | error e => rfl
      | ok p =>
        dsimp only
        cases Gen.maxIterOf c.kw with
        | error e => rfl
        | ok m => dsimp only; cases p.isEmpty <;> rfl

theorem run_indep (G : Rng σ) (c : Call d κ ρ) (g g' : σ) : (c.run G g).1 = (c.run G g').1 ∧
    ((∀ g, (c.run G g).2 = g) ∨ ∃ n g0, G.seed c.seed = .ok g0 ∧ ∀ g, (c.run G g).2 = (rand G n g0).2) := by
  simp only [run_eq]
  cases h1 : Gen.genSetup c.boxEval c.domain c.edge c.kw with
  | error e => simp
  | ok S =>
    dsimp only
    by_cases h2 : S.bbox.length / 2 ≠ d
    · simp [if_pos h2]
    · simp only [if_neg h2]
      have hi := initial_indep G c.seed c.rest S g g'
      exact ⟨by rw [hi.1], hi.2⟩

/-- **C136 (history).** What a call returns or raises is the same after every program, whatever numbers that drew, whatever it meshed, and whatever the initial
state was. -/
theorem C136_history (G : Rng σ) (c : Call d κ ρ) (before before' : List (Action σ d κ ρ)) (g g' : σ) :
    (c.run G (after G before g)).1 = (c.run G (after G before' g')).1 := (run_indep G c _ _).1

/-- **C136 (user points).** With `points` given no random number is used: the seed does not matter and the generator is left alone. -/
theorem C136_points (G : Rng σ) (c : Call d κ ρ) {ps : List (Fin d → ℝ)} (hp : c.rest.points = some ps) (seed : ℝ) (g : σ) :
    (c.run G g).1 = ({ c with seed := seed }.run G g).1 ∧ (c.run G g).2 = g := by
  have hi : ∀ (s : ℝ) (S : Gen.Setup (Fin d → ℝ)), initial G s c.rest S g = (.ok ps, g) := fun s S => by simp [initial, hp]
  unfold Call.run generateMesh prepare
  simp only [hi]
  refine ⟨trivial, ?_⟩
  cases Gen.genSetup c.boxEval c.domain c.edge c.kw with
  | error e => rfl
  | ok S =>
    dsimp only
    by_cases h2 : S.bbox.length / 2 ≠ d
    · simp only [if_pos h2]
    · simp only [if_neg h2]
      cases Gen.maxIterOf c.kw with
      | error e => rfl
      | ok m => dsimp only; cases ps.isEmpty <;> rfl

/-- **C136 (side effect).** A call either leaves the caller's generator alone or resets it: to the state after `n` draws from the seeded generator, for some `n` that does not
depend on the state found. So the numbers drawn after two such calls are the same, even if the caller had seeded the generator differently. -/
theorem C136_resets (G : Rng σ) (c : Call d κ ρ) :
    (∀ g, (c.run G g).2 = g) ∨ ∃ n g0, G.seed c.seed = .ok g0 ∧ ∀ g, (c.run G g).2 = (rand G n g0).2 := by
  by_cases h : Nonempty σ
  · obtain ⟨g⟩ := h
    exact (run_indep G c g g).2
  · exact .inl fun g => absurd ⟨g⟩ h

/-- **C136 (always reset).** A call without `points` that gets as far as its loop resets the caller's generator. -/
theorem C136_always (G : Rng σ) (c : Call d κ ρ) (hp : c.rest.points = none) {g1 : σ} (hr : ∀ e, (c.run G g1).1 ≠ .raised e) :
    ∃ n g0, G.seed c.seed = .ok g0 ∧ ∀ g, (c.run G g).2 = (rand G n g0).2 := by
  simp only [run_eq] at hr ⊢
  cases h1 : Gen.genSetup c.boxEval c.domain c.edge c.kw with
  | error e => rw [h1] at hr; exact absurd rfl (hr e)
  | ok S =>
    rw [h1] at hr
    dsimp only at hr ⊢
    by_cases h2 : S.bbox.length / 2 ≠ d
    · simp only [if_pos h2] at hr
      exact absurd rfl (hr _)
    · simp only [if_neg h2] at hr ⊢
      simp only [initial, hp, serialPoints] at hr ⊢
      revert hr
      cases h3 : Init.candidates _ 1 0 with
      | error e => intro hr; exact absurd rfl (hr e)
      | ok ps =>
        dsimp only
        cases h4 : Init.rankR0m _ ps 0 with
        | error e => intro hr; exact absurd rfl (hr e)
        | ok m =>
          dsimp only
          cases h5 : G.seed c.seed with
          | error e => intro hr; exact absurd rfl (hr e)
          | ok g0 => exact fun _ => ⟨ps.length, g0, rfl, fun _ => rfl⟩

/-! ### A concrete call -/

/-- A generator that always returns `1/2`, counts the numbers drawn, and accepts every seed. -/
def half : Rng ℕ := ⟨fun _ => .ok 0, fun s => (1 / 2, s + 1)⟩

theorem stream_half : ∀ (n g : ℕ), stream half g n = 1 / 2
  | 0, _ => rfl
  | n + 1, g => stream_half n _

/-- `generate_mesh` of the unit square with edge length 1 and seed 0. -/
def square (T : Tools 2 κ ρ) : Call 2 κ ρ :=
  ⟨0, Gen.box2, .geometry (Sdf.drectangle 0 1 0 1) [.flt 0, .flt 1, .flt 0, .flt 1] none, .scalar 1, [],
    ⟨none, none, [], 0, 0.1, 0.1, false, ⟨true, true, true⟩, fun _ => 0, T, fun p => (p, [[0, 1, 2]]), 1 / 2 ^ 52, 1 / 2 ^ 26⟩, 0⟩

/-- The call starts from one triangle, whatever was drawn before. -/
theorem square_run (T : Tools 2 κ ρ) (g : ℕ) : ((square T).run half g).1 = .running ⟨0, [![0, 0], ![0, 1], ![1, 1 / 2]], 0⟩ := by
  rw [C136_numbers half (square T) (g0 := 0) rfl g, ← Initial.square_start T]
  have : stream half 0 = fun _ => 1 / 2 := funext fun n => stream_half n 0
  simp only [square, this]

/-- The hypotheses of `C136_numbers` and `C136_always` are met, and the call takes the caller's generator out of the state it was in. -/
theorem C136_clobbers (T : Tools 2 κ ρ) : (∃ g0, half.seed (square T).seed = .ok g0) ∧ (∀ g e, ((square T).run half g).1 ≠ .raised e) ∧
    ∃ g, ((square T).run half g).2 ≠ g := by
  have hr : ∀ g e, ((square T).run half g).1 ≠ .raised e := fun g e => by rw [square_run]; simp
  refine ⟨⟨0, rfl⟩, hr, ?_⟩
  obtain ⟨n, g0, -, h⟩ := C136_always half (square T) rfl (hr 0)
  by_contra hc
  push Not at hc
  have h0 := (h 0).symm.trans (hc 0)
  have h1 := (h 1).symm.trans (hc 1)
  exact absurd (h0.symm.trans h1) (by norm_num)

end

end SM.Seed
