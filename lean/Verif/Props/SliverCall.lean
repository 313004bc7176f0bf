import Verif.Model.SliverCall
import Verif.Props.Sliver
import Verif.Props.Returned
import Mathlib.Algebra.Field.GeomSum

/-!
# C93, C94: what `sliver_removal` returns and how far it moves points
-/

namespace SM.Sliver

open Np MeshLoop FixMesh Simplex

noncomputable section

variable {κ ρ : Type} [LinearOrder κ] [LinearOrder ρ]

theorem step_done {E : Env κ ρ} {s : State} {p : List (Fin 3 → ℝ)} {t : List (List ℕ)} {b : Bool} (h : step E s = .done p t b) :
    ∃ t1, Project.removeOutside E.fd E.geps (E.dt s.count s.p).1 (E.dt s.count s.p).2 = .ok t1 ∧
      (b = true ∧ fixed E.tools (E.dt s.count s.p).1 t1 = .ok (p, t) ∨
       b = false ∧ termination E.tools 0 1 true E.opts (E.dt s.count s.p).1 t1 = .ok (p, t)) := by
  unfold step topology at h
  simp only [bind, Except.bind, pure, Except.pure] at h
  cases h1 : Project.removeOutside E.fd E.geps (E.dt s.count s.p).1 (E.dt s.count s.p).2 with
  | error e => simp [h1] at h
  | ok t1 =>
    simp only [h1] at h
    refine ⟨t1, rfl, ?_⟩
    cases h2 : badCells E.minDh E.maxDh (E.dt s.count s.p).1 t1 with
    | error e => simp [h2] at h
    | ok bad =>
      simp only [h2] at h
      split at h
      · cases h3 : termination E.tools 0 1 true E.opts (E.dt s.count s.p).1 t1 with
        | error e => simp [h3] at h
        | ok r =>
          obtain ⟨p', t'⟩ := r
          simp only [h3, Outcome.done.injEq] at h
          obtain ⟨rfl, rfl, rfl⟩ := h
          exact Or.inr ⟨rfl, rfl⟩
      · split at h
        · cases h3 : fixed E.tools (E.dt s.count s.p).1 t1 with
          | error e => simp [h3] at h
          | ok r =>
            obtain ⟨p', t'⟩ := r
            simp only [h3, Outcome.done.injEq] at h
            obtain ⟨rfl, rfl, rfl⟩ := h
            exact Or.inl ⟨rfl, rfl⟩
        · split at h <;> simp at h

theorem run_tidy {E : Env κ ρ} (hT : ToolsOk E.tools) (h4 : ∀ k s, ∀ r ∈ (E.dt k s).2, r.length = 4) {n : ℕ} {s0 : State}
    {p : List (Fin 3 → ℝ)} {t : List (List ℕ)} {b : Bool} (h : run E n s0 = .done p t b) :
    Tidy E.tools.vol p t ∧ ∀ r ∈ t, r.length = 4 := by
  obtain ⟨m, s, -, -, hd⟩ := run_done h
  obtain ⟨t1, h1, hc⟩ := step_done hd
  have h41 : ∀ r ∈ t1, r.length = 4 := fun r hr => h4 _ _ r ((removeOutside_spec h1 r).1 hr).1
  rcases hc with ⟨-, hf⟩ | ⟨-, hf⟩
  · obtain ⟨a, b⟩ := fixed_tidy hT hf
    exact ⟨a, b 4 h41⟩
  · obtain ⟨a, b⟩ := termination_tidy hT hf
    refine ⟨a, b 4 ?_⟩
    intro p1 t1' hp
    rw [if_neg (by simp)] at hp
    rw [hp.2]; exact h41

/-- A call that gives a mesh is on rank 0, passed the validation, and its loop ended. -/
theorem call_done {rank : ℕ} {boxEval : List ℝ → (Fin 3 → ℝ) → ℝ} {points : List (Fin 3 → ℝ)} {domain : Gen.DomainArg (Fin 3 → ℝ)}
    {edge : Gen.SizeArg (Fin 3 → ℝ)} {kw : Gen.Kwargs} {R : Rest κ ρ} {n : ℕ} {p : List (Fin 3 → ℝ)} {t : List (List ℕ)} {b : Bool}
    (h : sliverRemoval rank boxEval points domain edge kw R n = .loop (.done p t b)) :
    rank = 0 ∧ ∃ S m, Gen.sliverSetup boxEval 3 domain edge kw = .ok (S, m) ∧ run (envOf R S m) n (start points) = .done p t b := by
  unfold sliverRemoval at h
  split at h
  · simp at h
  rename_i hr
  refine ⟨by omega, ?_⟩
  split at h
  · simp at h
  rename_i S m hS
  exact ⟨S, m, hS, by simpa using h⟩

/-- **C93.** Whatever the arguments, options, triangulations and perturbations: every cell of a mesh that `sliver_removal` returns has
four vertex numbers, all of them indices of returned vertices; no two cells have the same vertices; every returned vertex is used; and
every cell has a non-negative signed volume. Both for the mesh reported to be free of slivers and for the one returned when the
iterations are used up. -/
theorem C93_well_formed {rank : ℕ} {boxEval : List ℝ → (Fin 3 → ℝ) → ℝ} {points : List (Fin 3 → ℝ)} {domain : Gen.DomainArg (Fin 3 → ℝ)}
    {edge : Gen.SizeArg (Fin 3 → ℝ)} {kw : Gen.Kwargs} {R : Rest κ ρ} (hT : ToolsOk R.tools) (hvol : R.tools.vol = rowVol3)
    (h4 : ∀ k s, ∀ r ∈ (R.dt k s).2, r.length = 4) {n : ℕ} {p : List (Fin 3 → ℝ)} {t : List (List ℕ)} {b : Bool}
    (h : sliverRemoval rank boxEval points domain edge kw R n = .loop (.done p t b)) :
    (∀ r ∈ t, r.length = 4 ∧ ∀ i ∈ r, i < p.length) ∧ t.Pairwise (fun r s => ¬ r.Perm s) ∧ (∀ i < p.length, ∃ r ∈ t, i ∈ r) ∧
    ∀ r ∈ t, ∃ q, IsCell p r q ∧ 0 ≤ vol3 (q 0) (q 1) (q 2) (q 3) := by
  obtain ⟨-, S, m, -, hrun⟩ := call_done h
  obtain ⟨ht, hl⟩ := run_tidy (E := envOf R S m) hT h4 hrun
  refine ⟨fun r hr => ⟨hl r hr, ht.inRange r hr⟩, ht.distinct, ht.used, fun r hr => ?_⟩
  obtain ⟨q, hq⟩ := cell_exists (p := p) (t := t) (fun r hr i hi => ht.inRange r hr i hi) hl hr
  obtain ⟨vs, hvs, h0⟩ := ht.oriented r hr
  refine ⟨q, hq, ?_⟩
  have h0' : 0 ≤ rowVol3 vs := by rw [← hvol]; exact h0
  have hlen := hl r hr
  match r, hlen with
  | [a, c, d, e], _ =>
    have hf := mapM_forall₂.1 hvs
    match vs, hf with
    | [x, y, z, w], hf =>
      simp only [List.forall₂_cons, item_ok, List.Forall₂.nil, and_true] at hf
      unfold IsCell at hq
      simp only [List.map_cons, List.map_nil, hf.1, hf.2.1, hf.2.2.1, hf.2.2.2] at hq
      simp at hq
      obtain ⟨rfl, rfl, rfl, rfl⟩ := hq
      simpa [rowVol3] using h0'

/-- What `sliverSetup` hands to the loop. -/
theorem setup_ok {boxEval : List ℝ → (Fin 3 → ℝ) → ℝ} {domain : Gen.DomainArg (Fin 3 → ℝ)} {edge : Gen.SizeArg (Fin 3 → ℝ)} {kw : Gen.Kwargs}
    {S : Gen.Setup (Fin 3 → ℝ)} {m : ℝ} (h : Gen.sliverSetup boxEval 3 domain edge kw = .ok (S, m)) :
    ∃ r z, Gen.unpackDomain domain kw = .ok r ∧ Gen.unpackSizing edge = .ok z ∧
      (¬ Gen.Rebuild r.2.1 z.bbox → S.fd = r.1) ∧ ∀ h0, z.hmin = some h0 → S.h0 = h0 := by
  unfold Gen.sliverSetup at h
  simp only [bind, Except.bind, pure, Except.pure, throw, throwThe, MonadExceptOf.throw] at h
  split at h
  · simp at h
  split at h
  · simp at h
  split at h
  · simp at h
  split at h
  · simp at h
  split at h
  · simp at h
  split at h
  · simp at h
  rename_i r hr
  obtain ⟨fd, b0, cs⟩ := r
  simp only at h
  split at h
  · simp at h
  rename_i z hz
  split at h
  · simp at h
  split at h
  · simp at h
  rename_i h0 hh0
  split at h
  · simp at h
  split at h
  · simp at h
  simp only [Except.ok.injEq, Prod.mk.injEq] at h
  obtain ⟨rfl, rfl⟩ := h
  refine ⟨_, z, hr, hz, fun hn => by simp [hn], fun h1 hz1 => ?_⟩
  simp only [hz1] at hh0
  cases hh0
  rfl

theorem setup_more {boxEval : List ℝ → (Fin 3 → ℝ) → ℝ} {domain : Gen.DomainArg (Fin 3 → ℝ)} {edge : Gen.SizeArg (Fin 3 → ℝ)} {kw : Gen.Kwargs}
    {S : Gen.Setup (Fin 3 → ℝ)} {m : ℝ} (h : Gen.sliverSetup boxEval 3 domain edge kw = .ok (S, m)) :
    Gen.maxIterOf kw = .ok m ∧ ∀ h, edge = .scalar h → S.h0 = h := by
  constructor
  · unfold Gen.sliverSetup at h
    simp only [bind, Except.bind, pure, Except.pure, throw, throwThe, MonadExceptOf.throw] at h
    repeat (split at h; · simp at h)
    rename_i m' hm'
    simp only [Except.ok.injEq, Prod.mk.injEq] at h
    rw [hm', h.2]
  · rintro h0 rfl
    obtain ⟨r, z, -, hz, -, hh⟩ := setup_ok h
    rcases Gen.unpackSizing_ok hz with ⟨_, _, _, he, _⟩ | ⟨_, he, _⟩ | ⟨_, he, rfl⟩ <;> cases he
    exact hh _ rfl

theorem setup_same_box {boxEval : List ℝ → (Fin 3 → ℝ) → ℝ} {domain : Gen.DomainArg (Fin 3 → ℝ)} {edge : Gen.SizeArg (Fin 3 → ℝ)} {kw : Gen.Kwargs}
    {S : Gen.Setup (Fin 3 → ℝ)} {m : ℝ} (h : Gen.sliverSetup boxEval 3 domain edge kw = .ok (S, m)) {fd : (Fin 3 → ℝ) → ℝ} {b : List Gen.Num}
    {c : Option (List (Fin 3 → ℝ))} (hdom : domain = .geometry fd b c)
    (hbox : ∀ fh b1 h, edge = .sizeFunction fh b1 h → b1.map Gen.Num.val = b.map Gen.Num.val) :
    S.fd = fd ∧ ∀ h, edge = .scalar h → S.h0 = h := by
  obtain ⟨r, z, hr, hz, hno, hh⟩ := setup_ok h
  obtain ⟨-, -, hr'⟩ := Gen.unpackDomain_ok hr
  subst hdom
  rcases hr' with ⟨_, _, _, he', rfl⟩ | ⟨_, _, he', -⟩ <;> cases he'
  constructor
  · apply hno
    rcases Gen.unpackSizing_ok hz with ⟨_, _, _, rfl, -, rfl⟩ | ⟨_, rfl, rfl⟩ | ⟨_, rfl, rfl⟩
    · simpa [Gen.Rebuild] using (hbox _ _ _ rfl).symm
    · simp [Gen.Rebuild]
    · simp [Gen.Rebuild]
  · rintro h0 rfl
    rcases Gen.unpackSizing_ok hz with ⟨_, _, _, he, _⟩ | ⟨_, he, _⟩ | ⟨_, he, rfl⟩ <;> cases he
    exact hh _ rfl

theorem termination_fixed {T : Tools 3 κ ρ} {o : TermOpts} (ho : o.performChecks = false) (p : List (Fin 3 → ℝ)) (t : List (List ℕ)) :
    termination T 0 1 true o p t = fixed T p t := by
  simp [termination, ho, bind, Except.bind, pure, Except.pure]

/-- Every returned vertex is a vertex of the last triangulation. -/
theorem fixed_verts {T : Tools 3 κ ρ} (hT : ToolsOk T) {p p' : List (Fin 3 → ℝ)} {t t' : List (List ℕ)} (h : fixed T p t = .ok (p', t')) :
    ∀ x ∈ p', x ∈ p := by
  unfold fixed at h
  simp only [bind, Except.bind, pure, Except.pure] at h
  split at h
  · simp at h
  rename_i x hx
  obtain ⟨p1, t1, jx⟩ := x
  simp only [Except.ok.injEq, Prod.mk.injEq] at h
  obtain ⟨rfl, rfl⟩ := h
  cases p with
  | nil => simp [fixMeshK] at hx
  | cons p0 ps =>
    have hx' : fixMesh (keyOf T.enc T.ptol (p0 :: ps)) T.rk T.vol (p0 :: ps) t true true = .ok (p1, t1, jx) := hx
    exact (fixMesh_tidy hT.rk hT.vol hx').2.2

/-- The centroid of a tetrahedron. -/
def mid (q : Fin 4 → Fin 3 → ℝ) : Fin 3 → ℝ := fun k => (q 0 k + q 1 k + q 2 k + q 3 k) / 4

theorem mid_perm {q q' : Fin 4 → Fin 3 → ℝ} {σ : Equiv.Perm (Fin 4)} (h : ∀ i, q' i = q (σ i)) : mid q' = mid q := by
  funext k
  have : ∑ i, q' i k = ∑ i, q i k := by
    rw [← Equiv.sum_comp σ fun i => q i k]
    exact Finset.sum_congr rfl fun i _ => by rw [h]
  simp only [Fin.sum_univ_four] at this
  simp only [mid, this]

theorem mid_cell {p : List (Fin 3 → ℝ)} {r : List ℕ} {q : Fin 4 → Fin 3 → ℝ} (hq : IsCell p r q) {vs : List (Fin 3 → ℝ)} (h : Np.take p r = .ok vs) :
    (fun k => (vs.map fun v => v k).sum / (((3 : ℕ) : ℝ) + 1)) = mid q := by
  have hlen : r.length = 4 := by simpa [IsCell] using congrArg List.length hq
  match r, hlen with
  | [a, c, d, e], _ =>
    have hf := mapM_forall₂.1 h
    match vs, hf with
    | [x, y, z, w], hf =>
      simp only [List.forall₂_cons, item_ok, List.Forall₂.nil, and_true] at hf
      unfold IsCell at hq
      simp only [List.map_cons, List.map_nil, hf.1, hf.2.1, hf.2.2.1, hf.2.2.2] at hq
      simp at hq
      obtain ⟨rfl, rfl, rfl, rfl⟩ := hq
      funext k
      simp only [mid, List.map_cons, List.map_nil, List.sum_cons, List.sum_nil]
      norm_num
      ring

theorem run_inside {E : Env κ ρ} (hrk : Function.Injective E.tools.rk) (hdt : DtOk E) {n : ℕ} {s0 : State} {p : List (Fin 3 → ℝ)} {t : List (List ℕ)}
    {b : Bool} (hb : b = true ∨ E.opts.performChecks = false) (h : run E n s0 = .done p t b) :
    ∀ r ∈ t, ∃ q, IsCell p r q ∧ E.fd (mid q) < -E.geps := by
  obtain ⟨m, s, -, -, hd⟩ := run_done h
  obtain ⟨t1, h1, hc⟩ := step_done hd
  obtain ⟨hne, hin, h4, hk⟩ := hdt s.count s.p
  have hf : fixed E.tools (E.dt s.count s.p).1 t1 = .ok (p, t) := by
    rcases hc with ⟨-, hf⟩ | ⟨hbf, hf⟩
    · exact hf
    · rcases hb with hb | hb
      · rw [hb] at hbf; cases hbf
      · rwa [termination_fixed hb] at hf
  have hin1 : InRange (E.dt s.count s.p).1 t1 := fun r hr => hin r ((removeOutside_spec h1 r).1 hr).1
  have h41 : ∀ r ∈ t1, r.length = 4 := fun r hr => h4 r ((removeOutside_spec h1 r).1 hr).1
  obtain ⟨p', t', hf', hfwd, -⟩ := fixed_ok hrk hne hin1 hk
  rw [hf] at hf'
  simp only [Except.ok.injEq, Prod.mk.injEq] at hf'
  obtain ⟨rfl, rfl⟩ := hf'
  intro r hr
  obtain ⟨r0, hr0, hperm⟩ := hfwd r hr
  obtain ⟨q, hq⟩ := cell_exists hin1 h41 hr0
  obtain ⟨q', σ, hq', hσ⟩ := cell_perm hq hperm
  obtain ⟨-, vs, hvs, hlt⟩ := (removeOutside_spec h1 r0).1 hr0
  refine ⟨q', hq', ?_⟩
  rw [mid_perm hσ, ← mid_cell hq hvs]
  exact hlt

/-- What is assumed of the triangulations for `C93_inside`: their cells refer to their vertices and have four of them, and no two
vertices are so close that `fix_mesh` merges them. -/
def NoMerge (R : Rest κ ρ) : Prop := ∀ k s, (R.dt k s).1 ≠ [] ∧ InRange (R.dt k s).1 (R.dt k s).2 ∧ (∀ r ∈ (R.dt k s).2, r.length = 4) ∧
  ∀ x ∈ (R.dt k s).1, ∀ y ∈ (R.dt k s).1,
    keyOf R.tools.enc R.tools.ptol (R.dt k s).1 x = keyOf R.tools.enc R.tools.ptol (R.dt k s).1 y → x = y

/-- **C93 (inside).** If `perform_checks` is off (the default) or success is reported, every returned cell has its centroid inside the
domain that was passed, by a margin of `geps_mult * h0`. -/
theorem C93_inside {rank : ℕ} {boxEval : List ℝ → (Fin 3 → ℝ) → ℝ} {points : List (Fin 3 → ℝ)} {domain : Gen.DomainArg (Fin 3 → ℝ)}
    {edge : Gen.SizeArg (Fin 3 → ℝ)} {kw : Gen.Kwargs} {R : Rest κ ρ} (hT : ToolsOk R.tools) (hdt : NoMerge R)
    {n : ℕ} {p : List (Fin 3 → ℝ)} {t : List (List ℕ)} {b : Bool} (hb : b = true ∨ R.opts.performChecks = false)
    (h : sliverRemoval rank boxEval points domain edge kw R n = .loop (.done p t b)) {fd : (Fin 3 → ℝ) → ℝ} {box : List Gen.Num}
    {c : Option (List (Fin 3 → ℝ))} (hdom : domain = .geometry fd box c)
    (hbox : ∀ fh b1 h, edge = .sizeFunction fh b1 h → b1.map Gen.Num.val = box.map Gen.Num.val) :
    ∃ h0 : ℝ, 0 ≤ h0 ∧ (∀ h, edge = .scalar h → h0 = h) ∧
      ∀ r ∈ t, ∃ q, IsCell p r q ∧ fd (mid q) < -(R.gepsMult * h0) := by
  obtain ⟨-, S, m, hS, hrun⟩ := call_done h
  obtain ⟨hfd, hh0⟩ := setup_same_box hS hdom hbox
  refine ⟨S.h0, (Gen.C51_sliver_removal hS).2.1, hh0, ?_⟩
  have := run_inside (E := envOf R S m) hT.rk hdt hb hrun
  simpa only [envOf, hfd] using this

/-- **C61 (the call, in degrees).** If `sliver_removal` returns a mesh with the report that no slivers are left, every dihedral angle, in degrees, of
every returned cell without three vertices on a line is between `min_dh_angle_bound` and `max_dh_angle_bound`. -/
theorem C61_degrees {rank : ℕ} {boxEval : List ℝ → (Fin 3 → ℝ) → ℝ} {points : List (Fin 3 → ℝ)} {domain : Gen.DomainArg (Fin 3 → ℝ)}
    {edge : Gen.SizeArg (Fin 3 → ℝ)} {kw : Gen.Kwargs} {R : Rest κ ρ} (hT : ToolsOk R.tools)
    (hdt : NoMerge R)
    {n : ℕ} {p : List (Fin 3 → ℝ)} {t : List (List ℕ)}
    (h : sliverRemoval rank boxEval points domain edge kw R n = .loop (.done p t true)) :
    ∀ row ∈ t, ∃ q, IsCell p row q ∧ (Solid q → ∀ σ : Equiv.Perm (Fin 4),
      R.minDeg ≤ dihedral (q (σ 0)) (q (σ 1)) (q (σ 2)) (q (σ 3)) * (180 / Real.pi) ∧
      dihedral (q (σ 0)) (q (σ 1)) (q (σ 2)) (q (σ 3)) * (180 / Real.pi) ≤ R.maxDeg) := by
  obtain ⟨-, S, m, -, hrun⟩ := call_done h
  intro row hrow
  obtain ⟨q, hq, hw⟩ := C61_success (E := envOf R S m) hT.rk hdt hrun row hrow
  refine ⟨q, hq, fun hs σ => ?_⟩
  obtain ⟨h1, h2⟩ := hw hs σ
  simp only [envOf, radians] at h1 h2
  have hpi := Real.pi_pos
  rw [← mul_div_assoc, le_div_iff₀ hpi, div_le_iff₀ hpi]
  constructor <;> linarith

/-! ## C94: how far points move -/

theorem run_snoc {E : Env κ ρ} {n : ℕ} {s s1 : State} {o : Outcome} (h : run E n s = .running s1) (h1 : step E s1 = o) : run E (n + 1) s = o := by
  induction n generalizing s with
  | zero =>
    simp only [run, Outcome.running.injEq] at h
    subst h
    rw [run, h1]
    cases o <;> simp [run]
  | succ n ih =>
    rw [run] at h
    cases hs : step E s with
    | running s2 =>
      simp only [hs] at h
      rw [run, hs]
      exact ih h
    | done q u j => simp [hs] at h
    | raised e => simp [hs] at h

/-- Euclidean distance. -/
def dist3 (x y : Fin 3 → ℝ) : ℝ := Real.sqrt ((x 0 - y 0) ^ 2 + (x 1 - y 1) ^ 2 + (x 2 - y 2) ^ 2)

theorem dist3_eq (x y : Fin 3 → ℝ) : dist3 x y = dist (WithLp.toLp 2 x : EuclideanSpace ℝ (Fin 3)) (WithLp.toLp 2 y) := by
  rw [EuclideanSpace.dist_eq, Fin.sum_univ_three, dist3]
  simp [Real.dist_eq, sq_abs]

theorem dist3_triangle (x y z : Fin 3 → ℝ) : dist3 x z ≤ dist3 x y + dist3 y z := by
  simp only [dist3_eq]; exact dist_triangle _ _ _

theorem dist3_self (x : Fin 3 → ℝ) : dist3 x x = 0 := by simp [dist3]

theorem dist3_move (x v : Fin 3 → ℝ) {c : ℝ} (hc : 0 ≤ c) (hv : v 0 ^ 2 + v 1 ^ 2 + v 2 ^ 2 ≤ 1) : dist3 x (fun j => x j + c * v j) ≤ c := by
  unfold dist3
  rw [show (x 0 - (x 0 + c * v 0)) ^ 2 + (x 1 - (x 1 + c * v 1)) ^ 2 + (x 2 - (x 2 + c * v 2)) ^ 2 =
    c ^ 2 * (v 0 ^ 2 + v 1 ^ 2 + v 2 ^ 2) by ring]
  calc Real.sqrt (c ^ 2 * (v 0 ^ 2 + v 1 ^ 2 + v 2 ^ 2)) ≤ Real.sqrt (c ^ 2) := by
        apply Real.sqrt_le_sqrt; nlinarith [sq_nonneg c]
    _ = c := Real.sqrt_sq hc

/-- What is assumed for `C94`: every vertex of the triangulation is one of the points (C111), the perturbation is normalised (it is divided
by its norm, mesh_generator.py:254-255), points are not projected back (`preserve=False`, the default). -/
structure Plain (E : Env κ ρ) : Prop where
  keeps : ∀ k s, ∀ x ∈ (E.dt k s).1, x ∈ s
  unit : ∀ q, E.perturb q 0 ^ 2 + E.perturb q 1 ^ 2 + E.perturb q 2 ^ 2 ≤ 1
  preserve : E.preserve = false
  h0 : 0 ≤ E.h0
  gamma : 0 < E.gamma

theorem step_next {E : Env κ ρ} {s s' : State} (h : step E s = .running s') :
    ∃ t bad, perturbAll E (adapt E.gamma s.step bad.length s.oldBad) (E.dt s.count s.p).1 t bad = .ok s'.p ∧
      s'.step = adapt E.gamma s.step bad.length s.oldBad ∧ s'.oldBad = some bad.length ∧ s'.count = s.count + 1 := by
  unfold step at h
  cases ht : topology E s with
  | error e => simp [ht] at h
  | ok r =>
    obtain ⟨p, t, bad⟩ := r
    have hp : p = (E.dt s.count s.p).1 := by
      unfold topology at ht
      simp only [bind, Except.bind, pure, Except.pure] at ht
      split at ht
      · simp at ht
      split at ht
      · simp at ht
      simp only [Except.ok.injEq, Prod.mk.injEq] at ht
      exact ht.1.symm
    simp only [ht] at h
    split at h
    · split at h <;> simp at h
    · split at h
      · split at h <;> simp at h
      · split at h
        · simp at h
        · rename_i p' hp'
          simp only [Outcome.running.injEq] at h
          subst h
          exact ⟨t, bad, by rw [← hp]; exact hp', rfl, rfl, rfl⟩

/-- One treatment moves no point further than `step * h0`. -/
theorem perturb_near {E : Env κ ρ} (hE : Plain E) {st : ℝ} (hst : 0 ≤ st) {p p' : List (Fin 3 → ℝ)} {t : List (List ℕ)} {bad : List ℕ}
    (h : perturbAll E st p t bad = .ok p') : List.Forall₂ (fun x y => dist3 x y ≤ st * E.h0) p p' := by
  obtain ⟨hl, hsame, hmove⟩ := C61_moves hE.preserve h
  rw [List.forall₂_iff_get]
  refine ⟨hl.symm, fun i hi hi' => ?_⟩
  simp only [List.get_eq_getElem]
  have hnn := mul_nonneg hst hE.h0
  by_cases hc : ∃ k ∈ bad, ∃ row, t[k]? = some row ∧ row[0]? = some i
  · obtain ⟨k, -, row, q, -, -, -, he⟩ := hmove i p[i] (List.getElem?_eq_getElem hi) hc
    rw [List.getElem?_eq_getElem hi'] at he
    rw [Option.some.inj he]
    exact dist3_move _ _ hnn (hE.unit q)
  · have := hsame i fun k hk row hr h0 => hc ⟨k, hk, row, hr, h0⟩
    rw [List.getElem?_eq_getElem hi, List.getElem?_eq_getElem hi'] at this
    rw [Option.some.inj this, dist3_self]
    exact hnn

theorem adapt_some_bounds {g G st : ℝ} (hg : 0 < g) (h1 : 1 / g ≤ G) (h2 : g ≤ G) (h3 : 5 / 4 ≤ G) (hst : 0 ≤ st) (b o : ℕ) :
    0 ≤ adapt g st b (some o) ∧ adapt g st b (some o) ≤ st * G := by
  simp only [adapt]
  split_ifs
  · exact ⟨by positivity, by rw [div_eq_mul_one_div]; exact mul_le_mul_of_nonneg_left h1 hst⟩
  · exact ⟨by positivity, mul_le_mul_of_nonneg_left h2 hst⟩
  · refine ⟨by positivity, ?_⟩
    rw [show st / 0.8 = st * (5 / 4) by ring]
    exact mul_le_mul_of_nonneg_left h3 hst

/-- The state after `k` passes. -/
structure Reached (E : Env κ ρ) (G : ℝ) (p0 : List (Fin 3 → ℝ)) (k : ℕ) (s : State) : Prop where
  near : ∀ y ∈ s.p, ∃ x ∈ p0, dist3 x y ≤ 0.1 / E.gamma * E.h0 * ∑ i ∈ Finset.range k, G ^ i
  step0 : 0 ≤ s.step
  first : k = 0 → s.oldBad = none ∧ s.step = 0.1
  later : k ≠ 0 → (∃ o, s.oldBad = some o) ∧ s.step ≤ 0.1 / E.gamma * G ^ (k - 1)

theorem step_reached {E : Env κ ρ} (hE : Plain E) {G : ℝ} (h1 : 1 / E.gamma ≤ G) (h2 : E.gamma ≤ G) (h3 : 5 / 4 ≤ G) {p0 : List (Fin 3 → ℝ)}
    {k : ℕ} {s s' : State} (hr : Reached E G p0 k s) (h : step E s = .running s') : Reached E G p0 (k + 1) s' := by
  obtain ⟨t, bad, hp, hst, ho, -⟩ := step_next h
  have hg := hE.gamma
  have hG : 0 ≤ G := by linarith
  have hb : 0 ≤ s'.step ∧ s'.step ≤ 0.1 / E.gamma * G ^ k := by
    rcases Nat.eq_zero_or_pos k with rfl | hk
    · obtain ⟨hn, hs⟩ := hr.first rfl
      rw [hst, hn, hs]
      simp only [adapt, pow_zero, mul_one, le_refl, and_true]
      positivity
    · obtain ⟨⟨o, ho'⟩, hs⟩ := hr.later (by omega)
      rw [hst, ho']
      obtain ⟨ha, hb⟩ := adapt_some_bounds hg h1 h2 h3 hr.step0 bad.length o
      refine ⟨ha, le_trans hb ?_⟩
      obtain ⟨j, rfl⟩ : ∃ j, k = j + 1 := ⟨k - 1, by omega⟩
      rw [pow_succ, ← mul_assoc]
      exact mul_le_mul_of_nonneg_right (by simpa using hs) hG
  refine ⟨?_, hb.1, by omega, fun _ => ⟨⟨_, ho⟩, by simpa using hb.2⟩⟩
  rw [← hst] at hp
  intro y hy
  obtain ⟨z, hz, hzy⟩ := forall₂_right (perturb_near hE hb.1 hp) y hy
  obtain ⟨x, hx, hxz⟩ := hr.near z (hE.keeps _ _ z hz)
  refine ⟨x, hx, ((dist3_triangle _ _ _).trans (add_le_add hxz hzy)).trans ?_⟩
  rw [Finset.sum_range_succ, mul_add]
  have := mul_le_mul_of_nonneg_right hb.2 hE.h0
  nlinarith

theorem run_reached {E : Env κ ρ} (hE : Plain E) {G : ℝ} (h1 : 1 / E.gamma ≤ G) (h2 : E.gamma ≤ G) (h3 : 5 / 4 ≤ G) {p0 : List (Fin 3 → ℝ)}
    {n k : ℕ} {s s' : State} (hr : Reached E G p0 k s) (h : run E n s = .running s') : Reached E G p0 (k + n) s' := by
  induction n generalizing k s with
  | zero => simp only [run, Outcome.running.injEq] at h; subst h; simpa using hr
  | succ n ih =>
    rw [run] at h
    cases hs : step E s with
    | running s1 =>
      simp only [hs] at h
      have := ih (step_reached hE h1 h2 h3 hr hs) h
      rwa [show k + 1 + n = k + (n + 1) by omega] at this
    | done q u j => simp [hs] at h
    | raised e => simp [hs] at h

theorem reached_start {E : Env κ ρ} {G : ℝ} (p0 : List (Fin 3 → ℝ)) : Reached E G p0 0 (start p0) := by
  refine ⟨?_, by norm_num [start], fun _ => ⟨rfl, rfl⟩, fun h => absurd rfl h⟩
  simp only [Finset.range_zero, Finset.sum_empty, mul_zero, start]
  exact fun y hy => ⟨y, hy, by rw [dist3_self]⟩

/-- **C94 (during the run).** For every `gamma > 0`, after `n` passes every point is within
`0.1 / gamma * h0 * (1 + G + ... + G^(n-1))` of one of the given points, where `G` is the largest of `gamma`, `1/gamma` and `1.25`. -/
theorem C94_passes {E : Env κ ρ} (hE : Plain E) {n : ℕ} {p0 : List (Fin 3 → ℝ)} {s : State} (h : run E n (start p0) = .running s) :
    ∀ y ∈ s.p, ∃ x ∈ p0, dist3 x y ≤ 0.1 / E.gamma * E.h0 * ∑ i ∈ Finset.range n, (max (max E.gamma (1 / E.gamma)) (5 / 4)) ^ i := by
  have := run_reached hE (G := max (max E.gamma (1 / E.gamma)) (5 / 4)) (le_trans (le_max_right _ _) (le_max_left _ _))
    (le_trans (le_max_left _ _) (le_max_left _ _)) (le_max_right _ _) (reached_start p0) h
  simpa using this.near

theorem geom_default (n : ℕ) (h0 : ℝ) : 0.1 / 1 * h0 * ∑ i ∈ Finset.range n, (5 / 4 : ℝ) ^ i = 0.4 * h0 * ((5 / 4) ^ n - 1) := by
  rw [geom_sum_eq (by norm_num)]
  ring

theorem termination_verts {T : Tools 3 κ ρ} (hT : ToolsOk T) {o : TermOpts} {p p' : List (Fin 3 → ℝ)} {t t' : List (List ℕ)}
    (h : termination T 0 1 true o p t = .ok (p', t')) : ∀ x ∈ p', x ∈ p := by
  by_cases hc : o.performChecks = false
  · rw [termination_fixed hc] at h
    exact fixed_verts hT h
  · have hc' : o.performChecks = true := by simpa using hc
    have h' : T.lint p t = .ok (p', t') := by
      simpa [termination, hc', bind, Except.bind, pure, Except.pure] using h
    obtain ⟨inside, cent, qual, key, key', srt, width, mq, hl⟩ := hT.lint _ _ _ _ h'
    exact (linter_tidy hT.rk hT.vol hl).2.2

/-- **C94.** With the default `gamma = 1` and `max_iter = M`, every vertex that `sliver_removal` returns is one of the given points moved
by at most `0.4 * h0 * (1.25^(M - 1) - 1)`; with `M = 1` nothing moves. -/
theorem C94_returned {rank : ℕ} {boxEval : List ℝ → (Fin 3 → ℝ) → ℝ} {points : List (Fin 3 → ℝ)} {domain : Gen.DomainArg (Fin 3 → ℝ)}
    {edge : Gen.SizeArg (Fin 3 → ℝ)} {kw : Gen.Kwargs} {R : Rest κ ρ} (hT : ToolsOk R.tools) (hkeep : ∀ k s, ∀ x ∈ (R.dt k s).1, x ∈ s)
    (hunit : ∀ q, R.perturb q 0 ^ 2 + R.perturb q 1 ^ 2 + R.perturb q 2 ^ 2 ≤ 1) (hpres : R.preserve = false) (hgam : R.gamma = 1)
    {M : ℕ} (hM : 1 ≤ M) (hmax : Gen.maxIterOf kw = .ok (M : ℝ)) {n : ℕ} {p : List (Fin 3 → ℝ)} {t : List (List ℕ)} {b : Bool}
    (h : sliverRemoval rank boxEval points domain edge kw R n = .loop (.done p t b)) :
    ∃ h0 : ℝ, 0 ≤ h0 ∧ (∀ h, edge = .scalar h → h0 = h) ∧
      ∀ y ∈ p, ∃ x ∈ points, dist3 x y ≤ 0.4 * h0 * ((5 / 4) ^ (M - 1) - 1) := by
  obtain ⟨-, S, m, hS, hrun⟩ := call_done h
  have hh0 := (Gen.C51_sliver_removal hS).2.1
  obtain ⟨hm, hsc⟩ := setup_more hS
  rw [hmax] at hm
  cases hm
  refine ⟨S.h0, hh0, hsc, fun y hy => ?_⟩
  obtain ⟨k, s, -, hk, hd⟩ := run_done hrun
  have hP : Plain (envOf R S M) := ⟨hkeep, hunit, hpres, hh0, by simp [envOf, hgam]⟩
  have hnear := C94_passes hP hk
  have hle : k ≤ M - 1 := by
    by_contra hc
    have := (run_running hk).2 (M - 1) (by omega)
    apply this
    simp [start, envOf, Nat.cast_sub hM]
  obtain ⟨t1, -, hc⟩ := step_done hd
  have hy1 : y ∈ s.p := by
    apply hkeep s.count
    rcases hc with ⟨-, hf⟩ | ⟨-, hf⟩
    · exact fixed_verts hT hf y hy
    · exact termination_verts hT hf y hy
  obtain ⟨x, hx, hxy⟩ := hnear y hy1
  refine ⟨x, hx, le_trans hxy ?_⟩
  have hg : (envOf R S M).gamma = 1 := hgam
  have hmax' : max (max (1 : ℝ) (1 / 1)) (5 / 4) = 5 / 4 := by norm_num
  rw [hg, hmax', geom_default]
  have : (5 / 4 : ℝ) ^ k ≤ (5 / 4) ^ (M - 1) := pow_le_pow_right₀ (by norm_num) hle
  have hh : (envOf R S M).h0 = S.h0 := rfl
  rw [hh]
  nlinarith

/-- **C94 (boundary).** In particular, for a domain that is a distance function (1-Lipschitz, as the primitives are: C19), no returned vertex
is further outside the domain than the farthest given point plus this bound: without `preserve` the boundary is not kept exactly. -/
theorem C94_outside {rank : ℕ} {boxEval : List ℝ → (Fin 3 → ℝ) → ℝ} {points : List (Fin 3 → ℝ)} {domain : Gen.DomainArg (Fin 3 → ℝ)}
    {edge : Gen.SizeArg (Fin 3 → ℝ)} {kw : Gen.Kwargs} {R : Rest κ ρ} (hT : ToolsOk R.tools) (hkeep : ∀ k s, ∀ x ∈ (R.dt k s).1, x ∈ s)
    (hunit : ∀ q, R.perturb q 0 ^ 2 + R.perturb q 1 ^ 2 + R.perturb q 2 ^ 2 ≤ 1) (hpres : R.preserve = false) (hgam : R.gamma = 1)
    {M : ℕ} (hM : 1 ≤ M) (hmax : Gen.maxIterOf kw = .ok (M : ℝ)) {n : ℕ} {p : List (Fin 3 → ℝ)} {t : List (List ℕ)} {b : Bool}
    (h : sliverRemoval rank boxEval points domain edge kw R n = .loop (.done p t b)) {fd : (Fin 3 → ℝ) → ℝ}
    (hlip : ∀ x y, |fd x - fd y| ≤ dist3 x y) {d : ℝ} (hin : ∀ x ∈ points, fd x ≤ d) :
    ∃ h0 : ℝ, 0 ≤ h0 ∧ (∀ h, edge = .scalar h → h0 = h) ∧ ∀ y ∈ p, fd y ≤ d + 0.4 * h0 * ((5 / 4) ^ (M - 1) - 1) := by
  obtain ⟨h0, h1, h2, h3⟩ := C94_returned hT hkeep hunit hpres hgam hM hmax h
  refine ⟨h0, h1, h2, fun y hy => ?_⟩
  obtain ⟨x, hx, hxy⟩ := h3 y hy
  have := (abs_le.1 (hlip x y)).1
  have := hin x hx
  linarith

/-! ### The bound is attained -/

/-- A tetrahedron with one vertex at `(-x, 0, 0)`. -/
def spike (x : ℝ) : Fin 4 → Fin 3 → ℝ := ![![-x, 0, 0], ![1, 0, 0], ![0, 1, 0], ![0, 0, 1]]

/-- The vertices of `spike x`. -/
def spikePts (x : ℝ) : List (Fin 3 → ℝ) := [spike x 0, spike x 1, spike x 2, spike x 3]

/-- One cell, `h0 = 1`, `gamma = 1`, a minimum angle of 200 degrees (accepted, but no cell satisfies it), always moved along `-x`. -/
def spikeEnv (maxIter : ℝ) : Env (List ℝ) (List ℕ) where
  tools := realTools
  dt _ p := (p, [[0, 1, 2, 3]])
  perturb _ := ![-1, 0, 0]
  fd _ := -1
  h0 := 1
  geps := 0.1
  deps := 1 / 1000
  minDh := radians 200
  maxDh := radians 180
  gamma := 1
  preserve := false
  maxIter := maxIter
  opts := ⟨true, true, false⟩

theorem spikeEnv_plain (m : ℝ) : Plain (spikeEnv m) := by
  refine ⟨fun _ _ _ h => h, fun q => ?_, rfl, ?_, ?_⟩ <;> simp [spikeEnv]

theorem spike_solid {x : ℝ} (hx : 0 ≤ x) : Solid (spike x) := by
  apply solid_of_ind
  by_contra h
  have := (C44_degenerate3 (spike x 0) (spike x 1) (spike x 2) (spike x 3)).2 (by
    have e : ![spike x 0, spike x 1, spike x 2, spike x 3] = spike x := by ext i; fin_cases i <;> rfl
    rwa [e])
  simp only [vol3, cross, spike, Matrix.cons_val_zero, Matrix.cons_val_one, Matrix.cons_val] at this
  norm_num at this
  linarith

theorem spike_bad {x : ℝ} (hx : 0 ≤ x) : badCells (radians 200) (radians 180) (spikePts x) [[0, 1, 2, 3]] = .ok [0] := by
  obtain ⟨bad, hb, hs, hlt, hdet⟩ := C61_detect (radians 200) (radians 180) (p := spikePts x) (t := [[0, 1, 2, 3]])
    (by simp [InRange, spikePts]) (by simp)
  have h0 : 0 ∈ bad := by
    refine (hdet 0 [0, 1, 2, 3] (spike x) rfl rfl (spike_solid hx)).2 fun hw => ?_
    have h1 := (hw 1).1
    have h2 : dihedral (spike x 0) (spike x 1) (spike x 2) (spike x 3) ≤ Real.pi := InnerProductGeometry.angle_le_pi _ _
    simp only [Equiv.Perm.one_apply] at h1
    have hpi := Real.pi_pos
    unfold radians at h1
    linarith
  rw [hb]
  match bad, h0, hs, hlt with
  | [a], h0, _, _ => simp at h0; rw [h0]
  | a :: c :: l, _, hs, hlt =>
    have ha := hlt a (by simp)
    have hc := hlt c (by simp)
    have hac := (List.pairwise_cons.1 hs).1 c (by simp)
    simp at ha hc
    omega

theorem spike_topology {m : ℝ} {s : State} {x : ℝ} (hx : 0 ≤ x) (hs : s.p = spikePts x) :
    topology (spikeEnv m) s = .ok (spikePts x, [[0, 1, 2, 3]], [0]) := by
  have hrem : Project.removeOutside (spikeEnv m).fd (spikeEnv m).geps (spikePts x) [[0, 1, 2, 3]] = .ok [[0, 1, 2, 3]] := by
    have : (-1 : ℝ) < -0.1 := by norm_num
    simp [spikeEnv, spikePts, Project.removeOutside, Project.keeps, Np.take, item, bind, Except.bind, pure, Except.pure, this, List.mapM_cons]
  have hb : badCells (spikeEnv m).minDh (spikeEnv m).maxDh (spikePts x) [[0, 1, 2, 3]] = .ok [0] := spike_bad hx
  have hdt : (spikeEnv m).dt s.count s.p = (spikePts x, [[0, 1, 2, 3]]) := by rw [hs]; rfl
  simp only [topology, hdt, hrem, hb, bind, Except.bind, pure, Except.pure]

theorem spike_step {m : ℝ} {s : State} {x : ℝ} (hx : 0 ≤ x) (hs : s.p = spikePts x) (hc : (s.count : ℝ) ≠ m - 1) :
    step (spikeEnv m) s = .running ⟨s.count + 1, spikePts (x + adapt 1 s.step 1 s.oldBad), adapt 1 s.step 1 s.oldBad, some 1⟩ := by
  have htop := spike_topology (m := m) hx hs
  have hp : ∀ a, perturbAll (spikeEnv m) a (spikePts x) [[0, 1, 2, 3]] [0] = .ok (spikePts (x + a)) := by
    intro a
    have hq : corners (spikePts x) [0, 1, 2, 3] = .ok (spike x) := corners_ok rfl
    have hmv : moveOf (spikeEnv m) a (spikePts x) [[0, 1, 2, 3]] 0 = .ok (0, spike (x + a) 0) := by
      simp only [moveOf, item, bind, Except.bind, pure, Except.pure, List.getElem?_cons_zero, hq]
      congr 2
      ext j
      fin_cases j <;> simp [spike, spikeEnv]
      ring
    simp only [perturbAll, List.mapM_cons, List.mapM_nil, hmv, bind, Except.bind, pure, Except.pure]
    simp [spikeEnv, assign, spikePts, spike]
  simp only [step, htop]
  rw [if_neg (by simpa [spikeEnv] using hc)]
  rw [if_neg (by simp)]
  simp only [hp, List.length_singleton]
  rfl

theorem spike_run {m : ℝ} (n : ℕ) (hm : ∀ j < n, (j : ℝ) ≠ m - 1) :
    ∃ s, run (spikeEnv m) n (start (spikePts 0)) = .running s ∧ s.count = n ∧ s.p = spikePts (0.4 * ((5 / 4) ^ n - 1)) ∧
      (n = 0 → s.step = 0.1 ∧ s.oldBad = none) ∧ (n ≠ 0 → s.step = 0.1 * (5 / 4) ^ (n - 1) ∧ s.oldBad = some 1) := by
  induction n with
  | zero => exact ⟨start (spikePts 0), rfl, rfl, by simp [start], fun _ => ⟨rfl, rfl⟩, fun h => absurd rfl h⟩
  | succ n ih =>
    obtain ⟨s, hr, hc, hp, h0, h1⟩ := ih fun j hj => hm j (by omega)
    have hstep := spike_step (m := m) (s := s) (x := 0.4 * ((5 / 4) ^ n - 1))
      (by have := one_le_pow₀ (n := n) (show (1 : ℝ) ≤ 5 / 4 by norm_num); nlinarith) hp (by rw [hc]; exact hm n (by omega))
    have ha : adapt 1 s.step 1 s.oldBad = 0.1 * (5 / 4) ^ n := by
      rcases Nat.eq_zero_or_pos n with rfl | hn
      · rw [(h0 rfl).1, (h0 rfl).2]; norm_num [adapt]
      · obtain ⟨e1, e2⟩ := h1 (by omega)
        rw [e1, e2]
        simp only [adapt, lt_irrefl, if_false]
        obtain ⟨j, rfl⟩ : ∃ j, n = j + 1 := ⟨n - 1, by omega⟩
        simp only [Nat.add_sub_cancel, pow_succ]
        ring
    refine ⟨_, run_snoc hr hstep, by simp [hc], ?_, by omega, fun _ => ⟨by simp [ha], rfl⟩⟩
    simp only [ha]
    congr 1
    rw [pow_succ]; ring

/-- **C94 (the bound is attained).** With `h0 = 1`, default `gamma` and `max_iter = M`, there is a run whose first point has moved exactly
`0.4 * (1.25^n - 1)` after `n < M` passes: while the number of slivers stays the same each pass moves further than the one before by a
quarter, without limit. With the default of 50 iterations the last of the 49 moves alone is longer than 4000 times the mesh size. -/
theorem C94_attained (M n : ℕ) (hn : n < M) : Plain (spikeEnv M) ∧ (spikeEnv M).h0 = 1 ∧ (spikeEnv M).gamma = 1 ∧ (spikeEnv M).maxIter = M ∧
    ∃ s x y, run (spikeEnv M) n (start (spikePts 0)) = .running s ∧ (spikePts 0)[0]? = some x ∧ s.p[0]? = some y ∧
      dist3 x y = 0.4 * ((5 / 4) ^ n - 1) := by
  refine ⟨spikeEnv_plain M, rfl, rfl, rfl, ?_⟩
  obtain ⟨s, hr, -, hp, -⟩ := spike_run (m := M) n (fun j hj h => by
    have : (j : ℝ) + 1 = M := by linarith
    have : j + 1 = M := by exact_mod_cast this
    omega)
  refine ⟨s, spike 0 0, spike (0.4 * ((5 / 4) ^ n - 1)) 0, hr, rfl, by rw [hp]; rfl, ?_⟩
  have h1 := one_le_pow₀ (n := n) (show (1 : ℝ) ≤ 5 / 4 by norm_num)
  have h2 : (0 : ℝ) ≤ 0.4 * ((5 / 4) ^ n - 1) := by nlinarith
  unfold dist3 spike
  simp
  rw [Real.sqrt_sq (by nlinarith)]

example : (4000 : ℝ) < 0.4 * ((5 / 4) ^ 49 - 1) - 0.4 * ((5 / 4) ^ 48 - 1) := by norm_num

/-! ### A complete call -/

/-- The four corner points. -/
def cornerPts : List (Fin 3 → ℝ) := [corner 0, corner 1, corner 2, corner 3]

/-- Options of a call with the documented bounds of 10 and 170 degrees; `dt` is given. -/
def exRest (dt : ℕ → List (Fin 3 → ℝ) → List (Fin 3 → ℝ) × List (List ℕ)) : Rest (List ℝ) (List ℕ) where
  gepsMult := 0.1
  minDeg := 10
  maxDeg := 170
  gamma := 1
  preserve := false
  opts := ⟨true, true, false⟩
  tools := { realTools with ptol := 1 }
  dt := dt
  perturb _ := ![-1, 0, 0]
  deps0 := 1 / 1000

theorem corner_keys : ∀ x ∈ cornerPts, ∀ y ∈ cornerPts, keyOf realTools.enc 1 cornerPts x = keyOf realTools.enc 1 cornerPts y → x = y := by
  have hs : snapLen (1 : ℝ) (corner 0) [corner 1, corner 2, corner 3] = 1 := by
    norm_num [snapLen, colMax, colMin, corner_val, List.ofFn_succ]
  have hr0 : npRound (0 : ℝ) = 0 := by simp [npRound]
  have hr1 : npRound (1 : ℝ) = 1 := by simp [npRound]
  have hk : ∀ x : Fin 3 → ℝ, keyOf realTools.enc 1 cornerPts x = [npRound (x 0), npRound (x 1), npRound (x 2)] := by
    intro x
    simp only [cornerPts, keyOf, realTools, hs]
    simp [snapPt]
  intro x hx y hy h
  rw [hk, hk] at h
  simp only [cornerPts, List.mem_cons, List.not_mem_nil, or_false] at hx hy
  rcases hx with rfl | rfl | rfl | rfl <;> rcases hy with rfl | rfl | rfl | rfl <;> first | rfl | (simp [corner_val, hr0, hr1] at h)

/-- `sliver_removal` of the corner points in a domain that contains everything, `h0 = 1`, default `max_iter`. -/
theorem exCall (dt : ℕ → List (Fin 3 → ℝ) → List (Fin 3 → ℝ) × List (List ℕ)) (hdt : dt 0 cornerPts = (cornerPts, [[0, 1, 2, 3]])) :
    ∃ p t, sliverRemoval 0 (fun _ _ => 0) cornerPts (.geometry (fun _ => -1) [.flt 0, .flt 1, .flt 0, .flt 1, .flt 0, .flt 1] none) (.scalar 1) []
      (exRest dt) 1 = .loop (.done p t true) ∧ t ≠ [] := by
  have hpi := Real.pi_pos
  obtain ⟨bad, hb, -, hlt, hdet⟩ := C61_detect (radians 10) (radians 170) (p := cornerPts) (t := [[0, 1, 2, 3]]) (by simp [InRange, cornerPts]) (by simp)
  have hw : Within (radians 10) (radians 170) corner := by
    intro σ
    obtain ⟨h1, h2⟩ := corner_within σ
    constructor
    · refine le_trans ?_ h1; unfold radians; linarith
    · refine le_trans h2 ?_; unfold radians; linarith
  have hnil : bad = [] := by
    apply List.eq_nil_iff_forall_not_mem.2
    intro k hk
    have h0 : k = 0 := by simpa using hlt k hk
    subst h0
    exact (hdet 0 [0, 1, 2, 3] corner rfl rfl (solid_of_ind corner_ind)).1 hk hw
  subst hnil
  obtain ⟨p', t', hf, -, hback⟩ := fixed_ok (T := (exRest dt).tools) (p := cornerPts) (t := [[0, 1, 2, 3]]) Function.injective_id (by simp [cornerPts])
    (by simp [InRange, cornerPts]) corner_keys
  have hS : Gen.sliverSetup (P := Fin 3 → ℝ) (fun _ _ => 0) 3 (.geometry (fun _ => -1) [.flt 0, .flt 1, .flt 0, .flt 1, .flt 0, .flt 1] none) (.scalar 1) [] =
      .ok (⟨fun _ => -1, fun _ => 1, [0, 1, 0, 1, 0, 1], 1, none, true, (true, false)⟩, 50) := by
    simp [Gen.sliverSetup, Gen.parseKwargs, Gen.getOpt, Gen.defaults, Gen.asNum, Gen.Num.val, Gen.selectVerbosity, Gen.unpackDomain, Gen.maxIterOf,
      Gen.unpackSizing, Gen.checkBbox, Gen.checkFloats, Gen.mergeBbox, Gen.Rebuild, bind, Except.bind, pure, Except.pure, List.lookup]
    norm_num
  refine ⟨p', t', ?_, ?_⟩
  · simp only [sliverRemoval, hS, gt_iff_lt, lt_irrefl, if_false]
    have hrem : Project.removeOutside (d := 3) (fun _ => (-1 : ℝ)) (0.1 * 1) cornerPts [[0, 1, 2, 3]] = .ok [[0, 1, 2, 3]] := by
      have : (-1 : ℝ) < -0.1 := by norm_num
      simp [cornerPts, Project.removeOutside, Project.keeps, Np.take, item, bind, Except.bind, pure, Except.pure, this, List.mapM_cons]
    have htop : topology (envOf (exRest dt) ⟨fun _ => -1, fun _ => 1, [0, 1, 0, 1, 0, 1], 1, none, true, (true, false)⟩ 50) (start cornerPts) =
        .ok (cornerPts, [[0, 1, 2, 3]], []) := by
      simp only [topology, envOf, exRest, start, hdt, hrem, hb, bind, Except.bind, pure, Except.pure]
    simp only [run, step, htop]
    rw [if_neg (by simp [envOf, start]; norm_num), if_pos trivial]
    have hf' : fixed (envOf (exRest dt) ⟨fun _ => -1, fun _ => 1, [0, 1, 0, 1, 0, 1], 1, none, true, (true, false)⟩ 50).tools cornerPts [[0, 1, 2, 3]] =
      .ok (p', t') := hf
    rw [hf']
  · rintro rfl
    obtain ⟨r, hr, -⟩ := hback [0, 1, 2, 3] (by simp)
    simp at hr

/-- The hypotheses of `C93_well_formed`, `C94_returned` and `C94_outside` are met. -/
example : ToolsOk (exRest fun _ s => (s, [[0, 1, 2, 3]])).tools ∧ (exRest fun _ s => (s, [[0, 1, 2, 3]])).tools.vol = rowVol3 ∧
    (∀ k s, ((exRest fun _ s => (s, [[0, 1, 2, 3]])).dt k s).1 = s) ∧
    (∀ q, (exRest fun _ s => (s, [[0, 1, 2, 3]])).perturb q 0 ^ 2 + (exRest fun _ s => (s, [[0, 1, 2, 3]])).perturb q 1 ^ 2 +
      (exRest fun _ s => (s, [[0, 1, 2, 3]])).perturb q 2 ^ 2 ≤ 1) ∧
    ∃ p t, sliverRemoval 0 (fun _ _ => 0) cornerPts (.geometry (fun _ => -1) [.flt 0, .flt 1, .flt 0, .flt 1, .flt 0, .flt 1] none) (.scalar 1) []
      (exRest fun _ s => (s, [[0, 1, 2, 3]])) 1 = .loop (.done p t true) ∧ t ≠ [] :=
  ⟨⟨realTools_ok.rk, realTools_ok.vol, realTools_ok.lint⟩, rfl, fun _ _ => rfl, fun q => by simp [exRest], exCall _ rfl⟩

/-- The hypotheses of `C93_inside` and `C61_degrees` are met. -/
example : NoMerge (exRest fun _ _ => (cornerPts, [[0, 1, 2, 3]])) ∧
    ∃ p t, sliverRemoval 0 (fun _ _ => 0) cornerPts (.geometry (fun _ => -1) [.flt 0, .flt 1, .flt 0, .flt 1, .flt 0, .flt 1] none) (.scalar 1) []
      (exRest fun _ _ => (cornerPts, [[0, 1, 2, 3]])) 1 = .loop (.done p t true) ∧ t ≠ [] :=
  ⟨fun _ _ => ⟨by simp [exRest, cornerPts], by simp [exRest, InRange, cornerPts], by simp [exRest], corner_keys⟩, exCall _ rfl⟩

end

end SM.Sliver
