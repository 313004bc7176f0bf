import Verif.Model.Generate
import Verif.Props.MeshLoop
import Verif.Props.InitPoints
import Verif.Props.Options

/-!
# C53, C55, C58 for `generate_mesh` as a whole (one process)
-/

namespace SM.Generate

open MeshLoop Np

noncomputable section
variable {d : ℕ} {κ ρ : Type} [LinearOrder κ] [LinearOrder ρ]
  {boxEval : List ℝ → (Fin d → ℝ) → ℝ} {domain : Gen.DomainArg (Fin d → ℝ)} {edge : Gen.SizeArg (Fin d → ℝ)}
  {kw : Gen.Kwargs} {R : Rest d κ ρ}

theorem prepare_ok {E : Env d κ ρ} {p : List (Fin d → ℝ)} (h : prepare boxEval domain edge kw R = .ok (E, p)) :
    ∃ S m, Gen.genSetup boxEval domain edge kw = .ok S ∧ initial R S = .ok p ∧ Gen.maxIterOf kw = .ok m ∧
      p ≠ [] ∧ E = envOf R S m := by
  simp only [prepare, bind, Except.bind, pure, Except.pure, throw, throwThe, MonadExceptOf.throw] at h
  split at h
  · simp at h
  rename_i S hS
  split at h
  · simp at h
  split at h
  · simp at h
  rename_i p' hp'
  split at h
  · simp at h
  rename_i m hm
  split at h
  · simp at h
  rename_i hne
  simp only [Except.ok.injEq, Prod.mk.injEq] at h
  obtain ⟨rfl, rfl⟩ := h
  exact ⟨S, m, hS, hp', hm, by simpa using hne, rfl⟩

theorem generate_done {n : ℕ} {p : List (Fin d → ℝ)} {t : List (List ℕ)} {k : ℕ}
    (h : generateMesh boxEval domain edge kw R n = .done p t k) :
    ∃ S m p0, Gen.genSetup boxEval domain edge kw = .ok S ∧ initial R S = .ok p0 ∧ Gen.maxIterOf kw = .ok m ∧
      run (envOf R S m) n (start p0) = .done p t k := by
  unfold generateMesh at h
  split at h
  · simp at h
  rename_i E p0 hE
  obtain ⟨S, m, hS, hp, hm, -, rfl⟩ := prepare_ok hE
  exact ⟨S, m, p0, hS, hp, hm, h⟩

/-- **C53 (`generate_mesh`).** Whatever the arguments, if a mesh is returned then `max_iter` is a positive integer and
exactly that many triangulations were made; and a call with a positive integer `max_iter = m` is over after `m` passes. -/
theorem C53_generate_mesh_partial :
    (∀ n p t k, generateMesh boxEval domain edge kw R n = .done p t k → 1 ≤ k ∧ Gen.maxIterOf kw = .ok (k : ℝ)) ∧
    (∀ m : ℕ, 1 ≤ m → Gen.maxIterOf kw = .ok (m : ℝ) → ∀ n, m ≤ n → ∀ s, generateMesh boxEval domain edge kw R n ≠ .running s) := by
  constructor
  · intro n p t k h
    obtain ⟨S, m, p0, hS, hp, hm, hrun⟩ := generate_done h
    obtain ⟨j, s', -, hr, hd⟩ := run_done hrun
    obtain ⟨h1, h2, -⟩ := step_done hd
    obtain ⟨h3, h4⟩ := run_running hr
    have hk : k = s'.count + 1 := by simp [start] at h3 h4; omega
    have hm' : m = k := by
      have : (envOf R S m).maxIter = m := rfl
      rw [this] at h1
      rw [hk]; push_cast; linarith
    exact ⟨by omega, by rw [hm, hm']⟩
  · intro m hm1 hm n hn s h
    unfold generateMesh at h
    split at h
    · simp at h
    rename_i E p0 hE
    obtain ⟨S, m', hS, hp, hm', -, rfl⟩ := prepare_ok hE
    rw [hm] at hm'
    cases hm'
    exact (C53_exact_partial hm1 (E := envOf R S m) rfl p0).1 n s hn h

/-- **C58 (`generate_mesh`).** Every cell of a returned mesh refers to returned vertices, and its centroid is strictly inside
the domain that was passed, if the domain is a geometry object or function and the sizing is a number, a
function, or a `SizeFunction` on the same box. -/
theorem C58_generate_mesh {n : ℕ} {p : List (Fin d → ℝ)} {t : List (List ℕ)} {k : ℕ}
    (h : generateMesh boxEval domain edge kw R n = .done p t k) {fd : (Fin d → ℝ) → ℝ} {b : List Gen.Num}
    {c : Option (List (Fin d → ℝ))} (hdom : domain = .geometry fd b c)
    (hbox : ∀ fh b1 h, edge = .sizeFunction fh b1 h → b1.map Gen.Num.val = b.map Gen.Num.val) :
    ∃ h0 : ℝ, 0 ≤ h0 ∧ (∀ h, edge = .scalar h → h0 = h) ∧
      ∀ r ∈ t, ∃ vs, Np.take p r = .ok vs ∧ fd (fun k => (vs.map fun v => v k).sum / ((d : ℝ) + 1)) < -(0.001 * h0) := by
  obtain ⟨S, m, p0, hS, hp, hm, hrun⟩ := generate_done h
  have hfd : S.fd = fd := (Gen.C74_same_box_partial hS).1 fd b c hdom hbox
  refine ⟨S.h0, (Gen.C51_generate_mesh hS).2, ?_, ?_⟩
  · rintro h0 rfl
    obtain ⟨-, -, r, z, hr, hz, -, -, -, -, -, -, hsome, -⟩ := Gen.genSetup_ok hS
    rcases Gen.unpackSizing_ok hz with ⟨_, _, _, he, _⟩ | ⟨_, he, _⟩ | ⟨_, he, rfl⟩ <;> cases he
    exact hsome _ rfl
  · intro r hr
    have := C58_inside (E := envOf R S m) rfl hrun r hr
    simpa only [envOf, hfd] using this

/-- **C55 (`generate_mesh`, partial).** On one process and without user points, every fixed point passed (and every
corner of the domain near its boundary) is a point of every triangulation, if fixed points are inside or on the domain and
all subdomains, and the triangulation keeps the points inserted. -/
theorem C55_generate_mesh_partial {E : Env d κ ρ} {p0 : List (Fin d → ℝ)} (hprep : prepare boxEval domain edge kw R = .ok (E, p0))
    (hpts : R.points = none) (hdt : KeepsPoints E) (hfix : FixedOk E) {n : ℕ} {s : State d}
    (h : generateMesh boxEval domain edge kw R n = .running s) :
    ∀ l, R.pfix = some l → ∀ f ∈ l, f ∈ s.p ∧ f ∈ (R.dt s.p).1 := by
  obtain ⟨S, m, hS, hp, hm, -, rfl⟩ := prepare_ok hprep
  simp only [generateMesh, hprep] at h
  simp only [initial, hpts] at hp
  obtain ⟨raw, r0m, m0, -, ⟨cand, kept, -, -, -, hpk⟩, -⟩ := Init.C59_serial hp
  simp only at hpk
  intro l hl f hf
  have hmem : f ∈ (envOf R S m).pfix := by
    simp only [envOf, fixOf, fixedPoints, unpackPfix, hl]
    cases S.corners <;> simp [hf]
  have h' : run (envOf R S m) n (start (startPoints none (envOf R S m).pfix kept)) = .running s := by
    rw [hpk] at h; exact h
  exact C55_loop_partial rfl hdt hfix kept h' f hmem

/-- The corners that `generate_mesh` considers: those of the geometry object; none for a callable, and none in three dimensions unless the
sizes are a number. -/
theorem genSetup_corners {S : Gen.Setup (Fin d → ℝ)} (h : Gen.genSetup boxEval domain edge kw = .ok S) :
    (∀ fd b c, domain = .geometry fd b c → ((∃ x, edge = .scalar x) ∨ S.bbox.length / 2 ≠ 3) → S.corners = c) ∧
    ((∀ x, edge ≠ .scalar x) → S.bbox.length / 2 = 3 → S.corners = none) := by
  unfold Gen.genSetup at h
  simp only [bind, Except.bind, pure, Except.pure, throw, throwThe, MonadExceptOf.throw] at h
  split at h
  · simp at h
  split at h
  · simp at h
  split at h
  · simp at h
  split at h
  · simp at h
  split at h
  · simp at h
  rename_i r hr
  split at h
  · simp at h
  split at h
  · simp at h
  split at h
  · simp at h
  split at h
  · simp at h
  split at h
  · simp at h
  split at h
  · simp at h
  cases h
  constructor
  · intro fd b c hd he
    subst hd
    have hc : r.2.2 = c := by
      simp only [Gen.unpackDomain, bind, Except.bind, pure, Except.pure] at hr
      split at hr
      · simp at hr
      · rw [← Except.ok.inj hr]
    cases edge with
    | scalar x => exact hc
    | _ =>
      rcases he with ⟨x, he⟩ | he
      · cases he
      · simp only at he ⊢
        rw [if_neg he, hc]
  · intro he hb
    cases edge with
    | scalar x => exact absurd rfl (he x)
    | _ =>
      simp only at hb ⊢
      rw [if_pos hb]

theorem prepare_dim {E : Env d κ ρ} {p : List (Fin d → ℝ)} (h : prepare boxEval domain edge kw R = .ok (E, p)) :
    ∃ S m, Gen.genSetup boxEval domain edge kw = .ok S ∧ S.bbox.length / 2 = d ∧ E = envOf R S m := by
  simp only [prepare, bind, Except.bind, pure, Except.pure, throw, throwThe, MonadExceptOf.throw] at h
  split at h
  · simp at h
  rename_i S hS
  split at h
  · simp at h
  rename_i hb
  split at h
  · simp at h
  split at h
  · simp at h
  rename_i m hm
  split at h
  · simp at h
  simp only [Except.ok.injEq, Prod.mk.injEq] at h
  exact ⟨S, m, hS, by simpa using hb, h.1.symm⟩

/-- **C55 (which points are fixed).** On one process the loop fixes the user's points and, of the corners of a geometry object, those with `fd > -1000 deps`,
in this order; in three dimensions the corners only if the edge length is a number. -/
theorem C55_fixed_points {E : Env d κ ρ} {p0 : List (Fin d → ℝ)} (hprep : prepare boxEval domain edge kw R = .ok (E, p0)) :
    (∀ fd b cs, domain = .geometry fd b (some cs) → ((∃ x, edge = .scalar x) ∨ d ≠ 3) →
      ∃ kept, E.pfix = R.pfix.getD [] ++ kept ∧ kept.Sublist cs ∧ ∀ c ∈ cs, c ∈ kept ↔ -1000 * E.deps < E.fd c) ∧
    ((∀ x, edge ≠ .scalar x) → d = 3 → E.pfix = R.pfix.getD []) := by
  classical
  obtain ⟨S, m, hS, hd, rfl⟩ := prepare_dim hprep
  obtain ⟨h1, h2⟩ := genSetup_corners hS
  have hu : unpackPfix R.pfix 1 = R.pfix.getD [] := by
    unfold unpackPfix
    cases R.pfix <;> rfl
  constructor
  · intro fd b cs hdom he
    have hc := h1 fd b (some cs) hdom (he.imp id fun h => by rwa [hd])
    refine ⟨cs.filter fun c => decide (S.fd c > -1000 * (R.deps0 * S.h0)), ?_, List.filter_sublist, fun c hc' => ?_⟩
    · simp only [envOf, fixOf, fixedPoints, hc, hu, if_true]
    · rw [List.mem_filter, and_iff_right hc', decide_eq_true_iff]
      rfl
  · intro he h3
    have hc := h2 he (by rw [hd, h3])
    simp only [envOf, fixOf, fixedPoints, hc, hu]

/-- **C55 (corners, partial).** Like `C55_generate_mesh_partial` for the corners of the domain. -/
theorem C55_corners_partial {E : Env d κ ρ} {p0 : List (Fin d → ℝ)} (hprep : prepare boxEval domain edge kw R = .ok (E, p0))
    (hpts : R.points = none) (hdt : KeepsPoints E) (hfix : FixedOk E) {n : ℕ} {s : State d}
    (h : generateMesh boxEval domain edge kw R n = .running s) {fd : (Fin d → ℝ) → ℝ} {b : List Gen.Num} {cs : List (Fin d → ℝ)}
    (hdom : domain = .geometry fd b (some cs)) (he : (∃ x, edge = .scalar x) ∨ d ≠ 3) :
    ∀ c ∈ cs, -1000 * E.deps < E.fd c → c ∈ s.p ∧ c ∈ (R.dt s.p).1 := by
  intro c hc hlev
  obtain ⟨kept, hk, -, hkm⟩ := (C55_fixed_points hprep).1 fd b cs hdom he
  have hmem : c ∈ E.pfix := by rw [hk, List.mem_append]; exact Or.inr ((hkm c hc).2 hlev)
  obtain ⟨S, m, hS, hp, hm, -, rfl⟩ := prepare_ok hprep
  simp only [generateMesh, hprep] at h
  simp only [initial, hpts] at hp
  obtain ⟨raw, r0m, m0, -, ⟨cand, kept, -, -, -, hpk⟩, -⟩ := Init.C59_serial hp
  simp only at hpk
  have h' : run (envOf R S m) n (start (startPoints none (envOf R S m).pfix kept)) = .running s := by
    rw [hpk] at h; exact h
  exact C55_loop_partial rfl hdt hfix kept h' c hmem

/-- **C55 (`generate_mesh`, false with user points).** A call with user points starts from exactly those points, in their
order, whatever fixed points are passed: a fixed point that is not one of the user's points is not triangulated. -/
theorem C55_generate_user_points {ps : List (Fin d → ℝ)} (hpts : R.points = some ps) {s : State d}
    (h : generateMesh boxEval domain edge kw R 0 = .running s) : s.p = ps ∧ s.count = 0 ∧
      ∀ l, R.pfix = some l → ∀ f ∈ l, f ∉ ps → f ∉ s.p := by
  unfold generateMesh at h
  split at h
  · simp at h
  rename_i E p0 hE
  obtain ⟨S, m, -, hp, -, -, rfl⟩ := prepare_ok hE
  simp only [initial, hpts, Except.ok.injEq] at hp
  subst hp
  simp only [run, Outcome.running.injEq] at h
  subst h
  exact ⟨rfl, rfl, fun _ _ _ _ hf => hf⟩

/-- A complete call of `generate_mesh` that returns a mesh: the hypotheses of the theorems above are met. -/
example (a b c e : Fin 3 → ℝ) :
    generateMesh (κ := List ℝ) (ρ := List ℕ) (fun _ _ => 0)
      (.geometry (fun _ => -1) [.flt 0, .flt 1, .flt 0, .flt 1, .flt 0, .flt 1] none) (.scalar 1) [("max_iter", .num (.int 1))]
      ⟨none, some [a, b, c, e], [], 1, 0.3, 0.1, false, ⟨true, true, true⟩, fun _ => 0, insideTools, fun p => (p, [[0, 1, 2, 3]]),
        1 / 1000, 1 / 1000⟩ 1 = .done [a, b, c, e] [[0, 1, 2, 3]] 1 := by
  have hS : Gen.genSetup (P := Fin 3 → ℝ) (fun _ _ => 0) (.geometry (fun _ => -1) [.flt 0, .flt 1, .flt 0, .flt 1, .flt 0, .flt 1] none) (.scalar 1)
      [("max_iter", .num (.int 1))] = .ok ⟨fun _ => -1, fun _ => 1, [0, 1, 0, 1, 0, 1], 1, none, true, (true, false)⟩ := by
    simp [Gen.genSetup, Gen.parseKwargs, Gen.knownNames, Gen.getOpt, Gen.defaults, Gen.asNum, Gen.Num.val, Gen.selectVerbosity, Gen.unpackDomain,
      Gen.unpackSizing, Gen.checkBbox, Gen.checkFloats, Gen.mergeBbox, Gen.Rebuild, bind, Except.bind, pure, Except.pure, List.lookup]
  have hm : Gen.maxIterOf [("max_iter", .num (.int 1))] = .ok 1 := by
    simp [Gen.maxIterOf, Gen.getOpt, Gen.asNum, Gen.Num.val, bind, Except.bind, pure, Except.pure]
  have hp : prepare (κ := List ℝ) (ρ := List ℕ) (fun _ _ => 0)
      (.geometry (fun _ => -1) [.flt 0, .flt 1, .flt 0, .flt 1, .flt 0, .flt 1] none) (.scalar 1) [("max_iter", .num (.int 1))]
      ⟨none, some [a, b, c, e], [], 1, 0.3, 0.1, false, ⟨true, true, true⟩, fun _ => 0, insideTools, fun p => (p, [[0, 1, 2, 3]]),
        1 / 1000, 1 / 1000⟩ = .ok (envOf ⟨none, some [a, b, c, e], [], 1, 0.3, 0.1, false, ⟨true, true, true⟩, fun _ => 0, insideTools,
          fun p => (p, [[0, 1, 2, 3]]), 1 / 1000, 1 / 1000⟩ ⟨fun _ => -1, fun _ => 1, [0, 1, 0, 1, 0, 1], 1, none, true, (true, false)⟩ 1, [a, b, c, e]) := by
    simp only [prepare, hS, initial, hm, bind, Except.bind, pure, Except.pure]
    simp
  simp only [generateMesh, hp]
  exact inside_run rfl rfl rfl (by norm_num [envOf]) (by norm_num [envOf]) (by simp [envOf, fixOf, fixedPoints, unpackPfix]) rfl rfl rfl rfl a b c e

end

end SM.Generate
