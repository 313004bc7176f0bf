import Verif.Model.GenerateDt
import Verif.Props.SliverDt
import Verif.Props.Generate
import Verif.Props.Initial
import Verif.Props.Returned
import Verif.Props.Pass

/-!
# C112: every pass of `generate_mesh` triangulates exactly the current points
-/

namespace SM.GenerateDt

open SM.DtWrapper
open Np Topology FixMesh MeshLoop

noncomputable section

variable {d : ℕ} {κ ρ : Type} [LinearOrder κ] [LinearOrder ρ]

/-! ## What CGAL documents about insertion into an empty triangulation -/

/-- Inserting a range of points into an empty triangulation leaves one vertex at every position given; the finite cells have `d + 1` different vertices,
which are finite vertices. -/
structure Fills (C : Cgal (Fin d → ℝ)) : Prop where
  valid : ∀ v l, Valid (C.insertRange (empty v) l)
  positions : ∀ v l, (positions (C.insertRange (empty v) l)).Nodup ∧ ∀ x, x ∈ DtWrapper.positions (C.insertRange (empty v) l) ↔ x ∈ l.map Prod.fst
  cells : ∀ v l, ∀ c ∈ (C.insertRange (empty v) l).cells, c.length = d + 1 ∧ c.Nodup

/-! ## One triangulation -/

/-- **C112 (one pass).** The vertex array holds every current position exactly once; the rows of the cell table are `d + 1` different numbers of rows of that array
and name, entry by entry, the vertices of the cells of the triangulation. -/
theorem C112_triangulation {C : Cgal (Fin d → ℝ)} (hC : Fills C) (p : List (Fin d → ℝ)) :
    (triangulate C p).1.Nodup ∧ (∀ x, x ∈ (triangulate C p).1 ↔ x ∈ p) ∧ Simplices (d + 1) (triangulate C p).2 ∧
      InRange (triangulate C p).1 (triangulate C p).2 ∧ Describes (triangulate C p).1 (triangulate C p).2 (object C p) := by
  have hv : Valid (object C p) := hC.valid _ _
  have hdesc := topology_describes hv
  have hp : (triangulate C p).1 = positions (object C p) := rfl
  have hpos := hC.positions 0 (p.zipIdx (empty (0 : Fin d → ℝ)).verts.length)
  have hrow : ∀ r ∈ (triangulate C p).2, ∃ c ∈ (object C p).cells, List.Forall₂ (fun i h => (triangulate C p).1[i]? = some ((object C p).point h)) r c :=
    fun r hr => forall₂_left hdesc r hr
  refine ⟨hp ▸ hpos.1, fun x => ?_, fun r hr => ?_, fun r hr i hi => ?_, hdesc⟩
  · rw [hp]
    have := hpos.2 x
    rwa [List.zipIdx_map_fst] at this
  · have hr' : r ∈ getFiniteCells (getFiniteVertices (object C p)).2 := hr
    obtain ⟨c, hc, rfl⟩ := List.mem_map.1 hr'
    obtain ⟨h1, h2⟩ := hC.cells _ _ c hc
    refine ⟨by rw [List.length_map]; exact h1, ?_⟩
    refine List.Nodup.map_on ?_ h2
    intro x hx y hy he
    obtain ⟨hj, e1⟩ := info_spec hv (hv.2 c hc x hx)
    obtain ⟨hj', e2⟩ := info_spec hv (hv.2 c hc y hy)
    rw [← e1, ← e2]
    congr 1
  · obtain ⟨c, -, hf⟩ := hrow r hr
    obtain ⟨h, -, hh⟩ := forall₂_left hf i hi
    exact (List.getElem?_eq_some_iff.1 hh).1

theorem triangulate_length {C : Cgal (Fin d → ℝ)} (hC : Fills C) (p : List (Fin d → ℝ)) : (triangulate C p).1.length ≤ p.length := by
  obtain ⟨h1, h2, -⟩ := C112_triangulation hC p
  exact (h1.subperm fun x hx => (h2 x).1 hx).length_le

/-! ## Passes -/

variable {boxEval : List ℝ → (Fin d → ℝ) → ℝ} {domain : Gen.DomainArg (Fin d → ℝ)} {edge : Gen.SizeArg (Fin d → ℝ)} {kw : Gen.Kwargs} {R : Generate.Rest d κ ρ}

/-- The preparation of a call, with the triangulation of this model. -/
abbrev prepare (C : Cgal (Fin d → ℝ)) (boxEval : List ℝ → (Fin d → ℝ) → ℝ) (domain : Gen.DomainArg (Fin d → ℝ)) (edge : Gen.SizeArg (Fin d → ℝ))
    (kw : Gen.Kwargs) (R : Generate.Rest d κ ρ) := Generate.prepare boxEval domain edge kw { R with dt := triangulate C }

theorem prepare_dt {C : Cgal (Fin d → ℝ)} {E : Env d κ ρ} {p0 : List (Fin d → ℝ)} (h : prepare C boxEval domain edge kw R = .ok (E, p0)) :
    E.dt = triangulate C ∧ E.size = 1 ∧ E.rank = 0 := by
  obtain ⟨S, m, hS, hp, hm, -, rfl⟩ := Generate.prepare_ok h
  exact ⟨rfl, rfl, rfl⟩

/-- **C112 (fixed points).** Without user points, the fixed points (user's and corners) are vertices of the triangulation of every pass if they are inside or
on the domain and the subdomains: C55 without its assumption about the triangulation. -/
theorem C112_fixed_points {C : Cgal (Fin d → ℝ)} (hC : Fills C) {E : Env d κ ρ} {p0 : List (Fin d → ℝ)}
    (hprep : prepare C boxEval domain edge kw R = .ok (E, p0)) (hpts : R.points = none) (hfix : FixedOk E) {n : ℕ} {s : State d}
    (h : generateMesh C boxEval domain edge kw R n = .running s) :
    (∀ l, R.pfix = some l → ∀ f ∈ l, f ∈ (triangulate C s.p).1) ∧
    ∀ fd b cs, domain = .geometry fd b (some cs) → ((∃ x, edge = .scalar x) ∨ d ≠ 3) → ∀ c ∈ cs, -1000 * E.deps < E.fd c → c ∈ (triangulate C s.p).1 := by
  have hk : KeepsPoints E := fun p x hx => by
    rw [(prepare_dt hprep).1]
    exact ((C112_triangulation hC p).2.1 x).2 hx
  exact ⟨fun l hl f hf => (Generate.C55_generate_mesh_partial hprep hpts hk hfix h l hl f hf).2,
    fun fd b cs hdom he c hc hlev => (Generate.C55_corners_partial hprep hpts hk hfix h hdom he c hc hlev).2⟩

/-! ## Points are never added -/

theorem projectAll_length (deps h0 : ℝ) : ∀ (ls : List ((Fin d → ℝ) → ℝ)) (idx : ℕ) (x : List (Fin d → ℝ)),
    (projectAll deps h0 idx ls x).length = x.length
  | [], _, _ => rfl
  | l :: ls, idx, x => by
    rw [projectAll, projectAll_length deps h0 ls]
    simp [Project.projectBack]

theorem step_length {E : Env d κ ρ} (hser : E.size = 1) {s s' : State d} (h : step E s = .running s') : s'.p.length = (E.dt s.p).1.length := by
  obtain ⟨-, -, -, p, t, ifix, inv, rx, ht, hm⟩ := MeshLoop.step_running h
  obtain ⟨rfl, hif, -⟩ := topology_serial hser ht
  unfold MeshLoop.move at hm
  simp only [bind, Except.bind, pure, Except.pure] at hm
  split at hm
  · simp at hm
  rename_i F hF
  have hlen := computeForces_length hF
  have hres : s'.p = projectAll E.deps E.h0 0 (E.fd :: E.subs) (advance E.deltaT (E.dt s.p).1 (zeroAt ifix F)) := by
    simp only [hser, gt_iff_lt, lt_irrefl, if_false] at hm
    split at hm
    · split at hm
      · simp [throw, throwThe, MonadExceptOf.throw] at hm
      split at hm
      · simp only [Except.ok.injEq] at hm; exact hm.symm
      · simp [throw, throwThe, MonadExceptOf.throw] at hm
    · simp only [Except.ok.injEq] at hm; exact hm.symm
  rw [hres, projectAll_length]
  simp [advance, zeroAt, hlen]

theorem run_length {E : Env d κ ρ} (hser : E.size = 1) (hdt : ∀ p, (E.dt p).1.length ≤ p.length) :
    ∀ {n : ℕ} {s0 s : State d}, run E n s0 = .running s → s.p.length ≤ s0.p.length
  | 0, s0, s, h => by cases h; exact le_rfl
  | n + 1, s0, s, h => by
    rw [run] at h
    cases hs : step E s0 with
    | running s1 =>
      rw [hs] at h
      exact (run_length hser hdt h).trans ((step_length hser hs).le.trans (hdt _))
    | done p t k => rw [hs] at h; cases h
    | raised e => rw [hs] at h; cases h

theorem nodup_length {l : List ℕ} (h : l.Nodup) {n : ℕ} (hn : ∀ i ∈ l, i < n) : l.length ≤ n := by
  have := (h.subperm (l₂ := List.range n) fun i hi => List.mem_range.2 (hn i hi)).length_le
  simpa using this

theorem fixMesh_length {P K : Type} [LT K] [DecidableLT K] [Zero K] {key : P → κ} {rk : List ℕ → ρ} {vol : List P → K} {p p' : List P} {t t' : List (List ℕ)}
    {jx : List ℕ} {fo : Bool} (h : fixMesh key rk vol p t true fo = .ok (p', t', jx)) : p'.length ≤ p.length := by
  unfold fixMesh at h
  simp only [bind, Except.bind, pure, Except.pure, if_true] at h
  split at h
  · simp [throw, throwThe, MonadExceptOf.throw] at h
  split at h
  · simp at h
  rename_i p1 hp1
  split at h
  · simp at h
  rename_i t1 ht1
  split at h
  · simp at h
  rename_i z hz
  split at hz
  · simp at hz
  rename_i p2 hp2
  simp only [Except.ok.injEq] at hz
  subst hz
  have h1 : p1.length ≤ p.length := by
    rw [take_length hp1, uniqIndex, List.length_map]
    have := ((uniqBy_nodup id (p.map key)).subperm fun x hx => uniqId_mem.1 hx).length_le
    simpa using this
  have h2 : p2.length ≤ p1.length := by
    rw [take_length hp2]
    refine nodup_length (uniqBy_nodup _ _) fun i hi => ?_
    have h3 := take_spec.1 hp2
    have h4 : p1[i]? ∈ p2.map some := h3 ▸ List.mem_map.2 ⟨i, hi, rfl⟩
    obtain ⟨x, -, hx⟩ := List.mem_map.1 h4
    exact (List.getElem?_eq_some_iff.1 hx.symm).1
  have : p' = p2 := by
    cases fo with
    | true =>
      simp only [if_true] at h
      split at h
      · simp at h
      simp only [Except.ok.injEq, Prod.mk.injEq] at h
      exact h.1.symm
    | false =>
      simp only [Bool.false_eq_true, if_false, Except.ok.injEq, Prod.mk.injEq] at h
      exact h.1.symm
  rw [this]
  exact h2.trans h1

theorem fixed_length {T : Tools d κ ρ} {p p' : List (Fin d → ℝ)} {t t' : List (List ℕ)} (h : fixed T p t = .ok (p', t')) : p'.length ≤ p.length := by
  unfold fixed at h
  simp only [bind, Except.bind, pure, Except.pure] at h
  split at h
  · simp at h
  rename_i x hx
  obtain ⟨p1, t1, jx⟩ := x
  simp only [Except.ok.injEq, Prod.mk.injEq] at h
  obtain ⟨rfl, rfl⟩ := h
  cases p with
  | nil => simp [fixMeshK] at hx
  | cons p0 ps =>
    have hx' : fixMesh (keyOf T.enc T.ptol (p0 :: ps)) T.rk T.vol (p0 :: ps) t true true = .ok (p1, t1, jx) := hx
    exact fixMesh_length hx'

theorem cleanup2_length {T : Tools d κ ρ} {o : TermOpts} {p p' : List (Fin d → ℝ)} {t t' : List (List ℕ)}
    (h : cleanup2 T o p t = .ok (p', t')) : p'.length ≤ p.length := by
  unfold cleanup2 at h
  simp only [bind, Except.bind, pure, Except.pure] at h
  split at h
  · simp at h
  rename_i x hx
  obtain ⟨p1, t1⟩ := x
  have h1 := fixed_length hx
  simp only at h
  split at h
  · simp at h
  rename_i y hy
  obtain ⟨p2, t2⟩ := y
  obtain ⟨idx, jx2, hf2⟩ := Linter.deleteBoundary_ok hy
  have h2 := fixMesh_length hf2
  simp only at h
  split at h
  · unfold laplacianFixed at h
    simp only [bind, Except.bind, pure, Except.pure] at h
    split at h
    · simp at h
    simp only [Except.ok.injEq, Prod.mk.injEq] at h
    obtain ⟨rfl, -⟩ := h
    rw [List.length_ofFn]
    exact h2.trans h1
  · simp only [Except.ok.injEq, Prod.mk.injEq] at h
    obtain ⟨rfl, -⟩ := h
    exact h2.trans h1

theorem linter_length {P K : Type} [LT K] [DecidableLT K] [Zero K] {inside : P → List P → Bool} {cent : List P → P} {qual vol : List P → K} {key key' : P → κ}
    {rk : List ℕ → ρ} {srt : List (ℕ × ℕ) → List (ℕ × ℕ)} {width : ℕ} {p p' : List P} {t t' : List (List ℕ)} {dim : ℕ} {mq : K}
    (h : Linter.linter inside cent qual vol key key' rk srt width p t dim mq = .ok (p', t')) : p'.length ≤ p.length := by
  unfold Linter.linter at h
  simp only [bind, Except.bind, pure, Except.pure] at h
  split at h
  · simp at h
  split at h
  · simp at h
  split at h
  · simp at h
  split at h
  · simp at h
  rename_i x hx
  obtain ⟨p1, t1, jx⟩ := x
  have h1 := fixMesh_length hx
  simp only at h
  split at h
  · simp at h
  rename_i y hy
  obtain ⟨p2, t2⟩ := y
  have h2 : p2.length ≤ p1.length := by
    split at hy
    · split at hy
      · simp at hy
      rename_i z hz
      obtain ⟨p3, t3⟩ := z
      obtain ⟨idx, jx2, hf2⟩ := Linter.deleteBoundary_ok hz
      simp only at hy
      split at hy
      · simp at hy
      simp only [Except.ok.injEq, Prod.mk.injEq] at hy
      obtain ⟨rfl, -⟩ := hy
      exact fixMesh_length hf2
    · simp only [Except.ok.injEq, Prod.mk.injEq] at hy
      rw [hy.1]
  simp only at h
  split at h
  · simp at h
  split at h
  · simp [throw, throwThe, MonadExceptOf.throw] at h
  simp only [Except.ok.injEq, Prod.mk.injEq] at h
  rw [← h.1]
  exact h2.trans h1

theorem termination_length {T : Tools d κ ρ} (hT : ToolsOk T) {o : TermOpts} {p p' : List (Fin d → ℝ)} {t t' : List (List ℕ)}
    (h : termination T 0 1 false o p t = .ok (p', t')) : p'.length ≤ p.length := by
  unfold termination at h
  simp only [bind, Except.bind, pure, Except.pure, true_and, gt_iff_lt, lt_irrefl, decide_false, Bool.false_and, Bool.false_eq_true, if_false, if_true] at h
  split at h
  · simp at h
  rename_i y hy
  obtain ⟨p2, t2⟩ := y
  have h2 : p2.length ≤ p.length := by
    split at hy
    · exact cleanup2_length hy
    · simp only [Except.ok.injEq, Prod.mk.injEq] at hy
      rw [hy.1]
  simp only at h
  split at h
  · obtain ⟨_, _, _, _, _, _, _, _, hl⟩ := hT.lint _ _ _ _ h
    exact (linter_length hl).trans h2
  · exact (fixed_length h).trans h2

theorem run_succ {E : Env d κ ρ} {s : State d} : ∀ {n : ℕ} {s0 : State d}, run E n s0 = .running s → run E (n + 1) s0 = step E s
  | 0, s0, h => by
    cases h
    simp only [run]
    cases step E s <;> rfl
  | n + 1, s0, h => by
    rw [run] at h ⊢
    cases hs : step E s0 with
    | running s1 => rw [hs] at h; exact run_succ h
    | done p t k => rw [hs] at h; cases h
    | raised e => rw [hs] at h; cases h

theorem generate_eq {C : Cgal (Fin d → ℝ)} {E : Env d κ ρ} {p0 : List (Fin d → ℝ)} (hprep : prepare C boxEval domain edge kw R = .ok (E, p0)) (n : ℕ) :
    generateMesh C boxEval domain edge kw R n = run E n ⟨0, p0, 0⟩ := by
  simp only [generateMesh, Generate.generateMesh, show Generate.prepare boxEval domain edge kw { R with dt := triangulate C } = .ok (E, p0) from hprep]

/-- **C112 (points are never added).** The number of points never grows from pass to pass, and the mesh returned has at most as many vertices as there were
points in any pass, and as the call started from. -/
theorem C112_never_added {C : Cgal (Fin d → ℝ)} (hC : Fills C) (hT : ToolsOk R.tools) {E : Env d κ ρ} {p0 : List (Fin d → ℝ)}
    (hprep : prepare C boxEval domain edge kw R = .ok (E, p0)) :
    (∀ n s, generateMesh C boxEval domain edge kw R n = .running s → s.p.length ≤ p0.length) ∧
    (∀ n s s', generateMesh C boxEval domain edge kw R n = .running s → generateMesh C boxEval domain edge kw R (n + 1) = .running s' →
      s'.p.length = (triangulate C s.p).1.length ∧ s'.p.length ≤ s.p.length) ∧
    ∀ n p t k, generateMesh C boxEval domain edge kw R n = .done p t k → p.length ≤ p0.length := by
  obtain ⟨hdt, hser, hrk⟩ := prepare_dt hprep
  have hT' : ToolsOk E.tools := by
    obtain ⟨S, m, hS, hp, hm, -, rfl⟩ := Generate.prepare_ok hprep
    exact hT
  have hlen : ∀ p, (E.dt p).1.length ≤ p.length := fun p => hdt ▸ triangulate_length hC p
  have hg := generate_eq hprep
  refine ⟨fun n s h => ?_, fun n s s' h h' => ?_, fun n p t k h => ?_⟩
  · rw [hg] at h
    exact run_length hser hlen h
  · rw [hg] at h h'
    rw [run_succ h] at h'
    have := step_length hser h'
    rw [hdt] at this
    exact ⟨this, this.le.trans (triangulate_length hC _)⟩
  · rw [hg] at h
    obtain ⟨m, s, t1, hr, -, hf⟩ := run_done_serial hser h
    unfold finish at hf
    simp only [hrk, hser, if_true, bind, Except.bind, pure, Except.pure] at hf
    split at hf
    · simp at hf
    rename_i x hx
    obtain ⟨p1, t1'⟩ := x
    simp only at hf
    split at hf
    · simp at hf
    rename_i p2 hp2
    split at hf
    · simp at hf
    simp only [Except.ok.injEq, Prod.mk.injEq] at hf
    rw [← hf.1, improve_length hp2]
    exact (termination_length hT' hx).trans ((hlen _).trans (run_length hser hlen hr))

/-- **C112 (well formed).** C81 without its assumption about the triangulation. -/
theorem C112_well_formed {C : Cgal (Fin d → ℝ)} (hC : Fills C) (hT : ToolsOk R.tools) {n : ℕ} {p : List (Fin d → ℝ)} {t : List (List ℕ)} {k : ℕ}
    (h : generateMesh C boxEval domain edge kw R n = .done p t k) :
    (∀ r ∈ t, r.length = d + 1) ∧ (∀ r ∈ t, ∀ i ∈ r, i < p.length) ∧ t.Pairwise fun r s => ¬ r.Perm s :=
  C81_generate_mesh (R := { R with dt := triangulate C }) hT (fun q r hr => ((C112_triangulation hC q).2.2.1 r hr).1) h

/-- **C112 (relaxation, 2-D).** Consecutive passes of a call: C54 without its assumptions about the triangulation. -/
theorem C112_relaxes2 {C : Cgal (Fin 2 → ℝ)} (hC : Fills C) {boxEval : List ℝ → (Fin 2 → ℝ) → ℝ} {domain : Gen.DomainArg (Fin 2 → ℝ)}
    {edge : Gen.SizeArg (Fin 2 → ℝ)} {R : Generate.Rest 2 κ ρ} {E : Env 2 κ ρ} {p0 : List (Fin 2 → ℝ)}
    (hprep : prepare C boxEval domain edge kw R = .ok (E, p0)) (he : 0 < E.eps) (hfh : ∀ x, 0 < E.fh x) {n : ℕ} {s s' : State 2}
    (h : generateMesh C boxEval domain edge kw R n = .running s) (h' : generateMesh C boxEval domain edge kw R (n + 1) = .running s') :
    Relaxes E (6 / 5) s s' := by
  obtain ⟨hdt, hser, -⟩ := prepare_dt hprep
  rw [generate_eq hprep] at h h'
  rw [run_succ h] at h'
  obtain ⟨-, -, h1, h2, -⟩ := C112_triangulation hC s.p
  exact C54_pass2 hser he h' (by rw [hdt]; exact h1) (by rw [hdt]; exact h2) hfh

/-- **C112 (relaxation, 3-D).** -/
theorem C112_relaxes3 {C : Cgal (Fin 3 → ℝ)} (hC : Fills C) {boxEval : List ℝ → (Fin 3 → ℝ) → ℝ} {domain : Gen.DomainArg (Fin 3 → ℝ)}
    {edge : Gen.SizeArg (Fin 3 → ℝ)} {R : Generate.Rest 3 κ ρ} {E : Env 3 κ ρ} {p0 : List (Fin 3 → ℝ)}
    (hprep : prepare C boxEval domain edge kw R = .ok (E, p0)) (he : 0 < E.eps) (hfh : ∀ x, 0 < E.fh x) {n : ℕ} {s s' : State 3}
    (h : generateMesh C boxEval domain edge kw R n = .running s) (h' : generateMesh C boxEval domain edge kw R (n + 1) = .running s') :
    Relaxes E (11 / 10) s s' := by
  obtain ⟨hdt, hser, -⟩ := prepare_dt hprep
  rw [generate_eq hprep] at h h'
  rw [run_succ h] at h'
  obtain ⟨-, -, h1, h2, -⟩ := C112_triangulation hC s.p
  exact C54_pass3 hser he h' (by rw [hdt]; exact h1) (by rw [hdt]; exact h2) hfh

/-! ## A concrete triangulation -/

/-- Without repetitions. -/
def uniq (l : List (Fin d → ℝ)) : List (Fin d → ℝ) := @List.dedup (Fin d → ℝ) (Classical.decEq _) l

/-- A CGAL that knows the triangulation of `d + 1` points only (one simplex; no cell for other numbers of points) and only insertion into an empty triangulation. -/
def simplexCgal : Cgal (Fin d → ℝ) where
  insertRange dt l := if dt.verts = [] then
    ⟨List.range (uniq (l.map Prod.fst)).length, fun i => (uniq (l.map Prod.fst)).getD i 0, id,
      if (uniq (l.map Prod.fst)).length = d + 1 then [List.range (d + 1)] else []⟩ else dt
  removeOne dt _ := dt
  moveOne dt _ _ := dt

theorem simplexCgal_positions (v : Fin d → ℝ) (l : List ((Fin d → ℝ) × ℕ)) : positions (simplexCgal.insertRange (empty v) l) = uniq (l.map Prod.fst) := by
  simp only [positions, simplexCgal, empty, if_true]
  apply List.ext_getElem
  · simp
  · intro i h1 h2
    simp only [List.getElem_map, List.getElem_range, List.getD_eq_getElem?_getD]
    rw [List.getElem?_eq_getElem h2, Option.getD_some]

theorem simplexCgal_fills : Fills (simplexCgal (d := d)) where
  valid v l := by
    simp only [simplexCgal, empty, if_true]
    refine ⟨List.nodup_range, fun c hc h hh => ?_⟩
    split at hc
    · rename_i hl
      simp only [List.mem_singleton] at hc
      subst hc
      simpa only [hl] using hh
    · simp at hc
  positions v l := by
    rw [simplexCgal_positions]
    exact ⟨@List.nodup_dedup _ (Classical.decEq _) _, fun x => @List.mem_dedup _ (Classical.decEq _) x _⟩
  cells v l c hc := by
    simp only [simplexCgal, empty, if_true] at hc
    split at hc
    · simp only [List.mem_singleton] at hc
      subst hc
      exact ⟨List.length_range, List.nodup_range⟩
    · simp at hc

theorem simplexCgal_triangulate {p : List (Fin d → ℝ)} (hp : p.Nodup) (hl : p.length = d + 1) : triangulate simplexCgal p = (p, [List.range (d + 1)]) := by
  have hu : uniq p = p := @List.Nodup.dedup _ (Classical.decEq _) p hp
  have h1 : (triangulate simplexCgal p).1 = p := by
    have := simplexCgal_positions 0 (p.zipIdx (empty (0 : Fin d → ℝ)).verts.length)
    rw [List.zipIdx_map_fst, hu] at this
    exact this
  obtain ⟨hn, -, hs, hr, hd⟩ := C112_triangulation simplexCgal_fills p
  have hobj : object simplexCgal p = ⟨List.range p.length, fun i => p.getD i 0, id, [List.range (d + 1)]⟩ := by
    simp only [object, DtWrapper.insert, simplexCgal, List.zipIdx_map_fst, hu, hl, if_true, empty]
  have h2 : (triangulate simplexCgal p).2 = [List.range (d + 1)] := by
    rw [h1, hobj] at hd
    unfold Describes at hd
    generalize (triangulate simplexCgal p).2 = t at hd ⊢
    cases hd with
    | cons h3 h4 =>
      cases h4
      congr 1
      apply List.ext_getElem
      · exact h3.length_eq
      · intro i hi1 hi2
        have hi : i < p.length := by simpa [hl] using hi2
        have h5 := List.forall₂_iff_get.1 h3
        have h6 := h5.2 i hi1 hi2
        simp only [List.get_eq_getElem, List.getElem_range, List.getD_eq_getElem?_getD, List.getElem?_eq_getElem hi, Option.getD_some] at h6
        have h7 := List.getElem?_eq_some_iff.1 h6
        obtain ⟨h8, h9⟩ := h7
        simp only [List.getElem_range]
        exact (hp.getElem_inj_iff).1 h9
  rw [Prod.ext_iff]
  exact ⟨h1, h2⟩

theorem step_congr {E E' : Env d κ ρ} {s : State d} (h : E' = { E with dt := E'.dt }) (hs : E'.dt s.p = E.dt s.p) : step E' s = step E s := by
  rw [h]
  have ht : topology { E with dt := E'.dt } s = topology E s := by simp only [topology, hs]
  unfold step
  rw [ht]
  rfl

/-- A whole call with this triangulation returns a mesh: the hypotheses of the theorems above are met. -/
theorem slab_call : ∃ p, generateMesh simplexCgal (fun _ _ => 0) (.geometry (fun x => |x 0| - 10) [.flt (-10), .flt 10, .flt (-10), .flt 10, .flt (-10), .flt 10] none)
    (.scalar 1) [("max_iter", .num (.int 1))]
    ⟨none, some slabTet, [], 1, 0.1, 0.1, false, ⟨true, true, false⟩, fun _ => 0, realTools, fun p => (p, []), 1 / 2 ^ 52, 1 / 2 ^ 26⟩ 1 =
      .done p [[0, 1, 2, 3]] 1 ∧ ToolsOk realTools ∧ Fills (simplexCgal (d := 3)) := by
  obtain ⟨p, -, -, -, -, h, -⟩ := C83_inverted
  refine ⟨p, ?_, realTools_ok, simplexCgal_fills⟩
  have hS : Gen.genSetup (P := Fin 3 → ℝ) (fun _ _ => 0) (.geometry (fun x => |x 0| - 10) [.flt (-10), .flt 10, .flt (-10), .flt 10, .flt (-10), .flt 10] none) (.scalar 1)
      [("max_iter", .num (.int 1))] = .ok ⟨fun x => |x 0| - 10, fun _ => 1, [-10, 10, -10, 10, -10, 10], 1, none, true, (true, false)⟩ := by
    simp [Gen.genSetup, Gen.parseKwargs, Gen.knownNames, Gen.getOpt, Gen.defaults, Gen.asNum, Gen.Num.val, Gen.selectVerbosity, Gen.unpackDomain,
      Gen.unpackSizing, Gen.checkBbox, Gen.checkFloats, Gen.mergeBbox, Gen.Rebuild, bind, Except.bind, pure, Except.pure, List.lookup]
  have hm : Gen.maxIterOf [("max_iter", .num (.int 1))] = .ok 1 := by
    simp [Gen.maxIterOf, Gen.getOpt, Gen.asNum, Gen.Num.val, bind, Except.bind, pure, Except.pure]
  have hne : slabTet ≠ [] := by simp [slabTet]
  have hg : generateMesh simplexCgal (fun _ _ => 0) (.geometry (fun x => |x 0| - 10) [.flt (-10), .flt 10, .flt (-10), .flt 10, .flt (-10), .flt 10] none)
      (.scalar 1) [("max_iter", .num (.int 1))]
      ⟨none, some slabTet, [], 1, 0.1, 0.1, false, ⟨true, true, false⟩, fun _ => 0, realTools, fun p => (p, []), 1 / 2 ^ 52, 1 / 2 ^ 26⟩ 1 =
      run { tetEnv (fun x => |x 0| - 10) with dt := triangulate simplexCgal } 1 (start slabTet) := by
    unfold generateMesh Generate.generateMesh
    simp only [Generate.prepare, hS, Generate.initial, hm, bind, Except.bind, pure, Except.pure]
    simp [hne, Generate.envOf, tetEnv, Generate.fixOf, fixedPoints, unpackPfix, start]
  have hnd : slabTet.Nodup := by
    have ne : ∀ a b : Fin 3 → ℝ, ∀ k, a k ≠ b k → a ≠ b := fun a b k h e => h (by rw [e])
    simp only [slabTet, List.nodup_cons, List.mem_cons, List.not_mem_nil, or_false, not_or, not_false_eq_true, List.nodup_nil, and_true]
    refine ⟨⟨ne _ _ 0 (by norm_num), ne _ _ 0 (by norm_num), ne _ _ 0 (by norm_num)⟩, ⟨ne _ _ 0 (by norm_num), ne _ _ 0 (by norm_num)⟩, ne _ _ 1 (by norm_num)⟩
  rw [hg, ← h]
  simp only [run]
  rw [step_congr (E := tetEnv fun x => |x 0| - 10) rfl (by
    change triangulate simplexCgal slabTet = (slabTet, [[0, 1, 2, 3]])
    rw [simplexCgal_triangulate hnd rfl]; rfl)]

/-- The hypotheses of `C112_fixed_points` are met: the unit square with a fixed point and a corner. -/
example (T : Tools 2 κ ρ) : ∃ (R : Generate.Rest 2 κ ρ) (E : Env 2 κ ρ) (p0 : List (Fin 2 → ℝ)) (s : State 2), R.points = none ∧ R.pfix = some [![1, 1]] ∧
    prepare simplexCgal Gen.box2 (.geometry (Sdf.drectangle 0 1 0 1) [.flt 0, .flt 1, .flt 0, .flt 1] (some [![0, 0]])) (.scalar 1) [] R = .ok (E, p0) ∧
    FixedOk E ∧ -1000 * E.deps < E.fd ![0, 0] ∧
    generateMesh simplexCgal Gen.box2 (.geometry (Sdf.drectangle 0 1 0 1) [.flt 0, .flt 1, .flt 0, .flt 1] (some [![0, 0]])) (.scalar 1) [] R 0 = .running s := by
  obtain ⟨R, E, p0, h1, h2, h3, h4, -, h5, h6, h7⟩ := Initial.square_fixed (D := triangulate simplexCgal) T
    fun p x hx => ((C112_triangulation simplexCgal_fills p).2.1 x).2 hx
  have hR : ({ R with dt := triangulate simplexCgal } : Generate.Rest 2 κ ρ) = R := by rw [← h3]
  refine ⟨R, E, p0, ⟨0, p0, 0⟩, h1, h2, ?_, h5, h6, ?_⟩
  · unfold prepare
    rw [hR, h4]
  · unfold generateMesh
    rw [hR, h7]

end

end SM.GenerateDt
