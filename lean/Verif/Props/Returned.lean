import Verif.Props.LintOnce
import Verif.Props.Generate
import Verif.Props.ParallelSafe

/-!
# C81, C82, C83: the mesh that `generate_mesh` returns is well formed

The clean-up that ends a run (`_termination`) leaves a tidy mesh; the Newton step and the removal of outside cells after it keep part of
this.
-/

namespace SM.MeshLoop

open Np Topology FixMesh

section general
variable {P K κ ρ : Type} [LinearOrder κ] [LinearOrder ρ] [Field K] [LinearOrder K]

/-- No index of a cell is out of range, no two cells have the same vertices. -/
structure WellFormed (p : List P) (t : List (List ℕ)) : Prop where
  inRange : ∀ r ∈ t, ∀ i ∈ r, i < p.length
  distinct : t.Pairwise fun r s => ¬ r.Perm s

/-- Also: every vertex is used by a cell, and the signed volume `vol` of every cell is not negative. -/
structure Tidy (vol : List P → K) (p : List P) (t : List (List ℕ)) : Prop extends WellFormed p t where
  used : ∀ i < p.length, ∃ r ∈ t, i ∈ r
  oriented : ∀ r ∈ t, ∃ vs, Np.take p r = .ok vs ∧ 0 ≤ vol vs

theorem fixMesh_inRange {key : P → κ} {rk : List ℕ → ρ} {vol : List P → K} {p : List P} {t : List (List ℕ)} {del ori : Bool}
    {x : List P × List (List ℕ) × List ℕ} (h : fixMesh key rk vol p t del ori = .ok x) : p ≠ [] ∧ InRange p t := by
  unfold fixMesh at h
  by_cases hp : p.isEmpty = true
  · simp [hp, bind, Except.bind, throw, throwThe, MonadExceptOf.throw] at h
  refine ⟨by simpa using hp, ?_⟩
  simp only [hp, Bool.false_eq_true, if_false, bind, Except.bind, pure, Except.pure] at h
  split at h
  · simp at h
  split at h
  · simp at h
  rename_i t1 ht1
  intro r hr i hi
  obtain ⟨r1, -, hr1⟩ := forall₂_left (mapM_forall₂.1 ht1) r hr
  obtain ⟨j, -, hj⟩ := forall₂_left (mapM_forall₂.1 hr1) i hi
  have := item_ok.1 hj
  rw [List.getElem?_eq_some_iff] at this
  obtain ⟨h', -⟩ := this
  simpa [uniqInverse] using h'

theorem fixMesh_tidy [IsStrictOrderedRing K] {key : P → κ} {rk : List ℕ → ρ} (hrk : Function.Injective rk) {vol : List P → K}
    (hv : ∀ vs, vol (swap01 vs) = - vol vs ∨ vol vs = 0) {p p' : List P} {t t' : List (List ℕ)} {jx : List ℕ}
    (h : fixMesh key rk vol p t true true = .ok (p', t', jx)) :
    Tidy vol p' t' ∧ (∀ n, (∀ r ∈ t, r.length = n) → ∀ r ∈ t', r.length = n) ∧ ∀ x ∈ p', x ∈ p := by
  obtain ⟨hp, hr⟩ := fixMesh_inRange h
  obtain ⟨p1, t1, jx1, h1, hc, hu, ho, -⟩ := fixMesh_run key hrk vol hp hr true true
  obtain ⟨-, -, hl⟩ := Linter.fixMesh_facts hrk hp hr h
  rw [h] at h1
  cases h1
  refine ⟨⟨⟨hc.inRange, hc.rows⟩, hu rfl, fun r hr => ?_⟩, hl, hc.verts⟩
  obtain ⟨r0, vs, hvs, e⟩ := ho rfl r hr
  exact orient_nonneg hv hvs e

theorem linter_tidy [IsStrictOrderedRing K] {inside : P → List P → Bool} {cent : List P → P} {qual vol : List P → K} {key key' : P → κ} {rk : List ℕ → ρ}
    (hrk : Function.Injective rk) (hv : ∀ vs, vol (swap01 vs) = - vol vs ∨ vol vs = 0) {srt : List (ℕ × ℕ) → List (ℕ × ℕ)} {width : ℕ}
    {p p' : List P} {t t' : List (List ℕ)} {dim : ℕ} {minQual : K}
    (h : Linter.linter inside cent qual vol key key' rk srt width p t dim minQual = .ok (p', t')) :
    Tidy vol p' t' ∧ (∀ n, (∀ r ∈ t, r.length = n) → ∀ r ∈ t', r.length = n) ∧ ∀ x ∈ p', x ∈ p := by
  obtain ⟨q, pairs, kept, p1, t1, jx, -, -, hsel, hfix, h2, h3, -⟩ := Linter.C49_linter h
  have hsub : ∀ r ∈ kept, r ∈ t := by
    obtain ⟨ix, -, -, hx⟩ := hsel
    intro r hr
    have : some r ∈ kept.map some := List.mem_map.2 ⟨r, hr, rfl⟩
    rw [hx] at this
    obtain ⟨k, -, hk⟩ := List.mem_map.1 this
    exact List.mem_of_getElem? hk
  obtain ⟨ht1, hl1, hv1⟩ := fixMesh_tidy hrk hv hfix
  by_cases hd : dim = 2
  · obtain ⟨idx, jx2, hf2⟩ := Linter.deleteBoundary_ok (h2 hd)
    obtain ⟨ht2, hl2, hv2⟩ := fixMesh_tidy hrk hv hf2
    exact ⟨ht2, fun n hn => hl2 n fun r hr => hl1 n (fun r hr => hn r (hsub r hr)) r (Linter.npDelete_subset hr), fun x hx => hv1 x (hv2 x hx)⟩
  · obtain ⟨rfl, rfl⟩ := h3 hd
    exact ⟨ht1, fun n hn => hl1 n fun r hr => hn r (hsub r hr), hv1⟩

end general

variable {d : ℕ} {κ ρ : Type} [LinearOrder κ] [LinearOrder ρ]

/-- The linter of the tools is `geometry.linter` (with some overlap test, qualities and threshold), and its rounding keys and volume are sound. -/
structure ToolsOk (T : Tools d κ ρ) : Prop where
  rk : Function.Injective T.rk
  vol : ∀ vs, T.vol (swap01 vs) = - T.vol vs ∨ T.vol vs = 0
  lint : ∀ p t p' t', T.lint p t = .ok (p', t') → ∃ inside cent qual key, ∃ key' : (Fin d → ℝ) → κ, ∃ srt width minQual,
    Linter.linter inside cent qual T.vol key key' T.rk srt width p t d minQual = .ok (p', t')

theorem fixed_tidy {T : Tools d κ ρ} (hT : ToolsOk T) {p p' : List (Fin d → ℝ)} {t t' : List (List ℕ)} (h : fixed T p t = .ok (p', t')) :
    Tidy T.vol p' t' ∧ ∀ n, (∀ r ∈ t, r.length = n) → ∀ r ∈ t', r.length = n := by
  unfold fixed at h
  simp only [bind, Except.bind, pure, Except.pure] at h
  split at h
  · simp at h
  rename_i x hx
  obtain ⟨p1, t1, jx⟩ := x
  simp only [Except.ok.injEq, Prod.mk.injEq] at h
  obtain ⟨rfl, rfl⟩ := h
  cases p with
  | nil => simp [fixMeshK] at hx
  | cons p0 ps =>
    have hx' : fixMesh (keyOf T.enc T.ptol (p0 :: ps)) T.rk T.vol (p0 :: ps) t true true = .ok (p1, t1, jx) := hx
    obtain ⟨h1, h2, -⟩ := fixMesh_tidy hT.rk hT.vol hx'
    exact ⟨h1, h2⟩

theorem cleanup2_width {T : Tools d κ ρ} (hT : ToolsOk T) {o : TermOpts} {p p' : List (Fin d → ℝ)} {t t' : List (List ℕ)}
    (h : cleanup2 T o p t = .ok (p', t')) (n : ℕ) (hn : ∀ r ∈ t, r.length = n) : ∀ r ∈ t', r.length = n := by
  unfold cleanup2 at h
  simp only [bind, Except.bind, pure, Except.pure] at h
  split at h
  · simp at h
  rename_i x hx
  obtain ⟨p1, t1⟩ := x
  obtain ⟨-, hl1⟩ := fixed_tidy hT hx
  simp only at h
  split at h
  · simp at h
  rename_i y hy
  obtain ⟨p2, t2⟩ := y
  obtain ⟨idx, jx2, hf2⟩ := Linter.deleteBoundary_ok hy
  obtain ⟨-, hl2, -⟩ := fixMesh_tidy hT.rk hT.vol hf2
  have hw := hl2 n fun r hr => hl1 n hn r (Linter.npDelete_subset hr)
  simp only at h
  split at h
  · unfold laplacianFixed at h
    simp only [bind, Except.bind, pure, Except.pure] at h
    split at h
    · simp at h
    simp only [Except.ok.injEq, Prod.mk.injEq] at h
    obtain ⟨-, rfl⟩ := h
    exact hw
  · simp only [Except.ok.injEq, Prod.mk.injEq] at h
    obtain ⟨-, rfl⟩ := h
    exact hw

/-- `_termination` on rank 0 leaves a tidy mesh. -/
theorem termination_tidy {T : Tools d κ ρ} (hT : ToolsOk T) {size : ℕ} {sliver : Bool} {o : TermOpts} {p p' : List (Fin d → ℝ)} {t t' : List (List ℕ)}
    (h : termination T 0 size sliver o p t = .ok (p', t')) :
    Tidy T.vol p' t' ∧ ∀ n, (∀ p1 t1, (if size > 1 ∧ sliver = false then T.aggregate p t = .ok (p1, t1) else p1 = p ∧ t1 = t) → ∀ r ∈ t1, r.length = n) →
      ∀ r ∈ t', r.length = n := by
  unfold termination at h
  simp only [bind, Except.bind, pure, Except.pure, true_and, if_true] at h
  split at h
  · simp at h
  rename_i x hx
  obtain ⟨p1, t1⟩ := x
  have hx' : if size > 1 ∧ sliver = false then T.aggregate p t = .ok (p1, t1) else p1 = p ∧ t1 = t := by
    by_cases hs : size > 1 ∧ sliver = false
    · rw [if_pos hs]; simpa [hs.1, hs.2] using hx
    · rw [if_neg hs]
      rw [if_neg (by simpa using hs)] at hx
      simp only [Except.ok.injEq, Prod.mk.injEq] at hx
      exact ⟨hx.1.symm, hx.2.symm⟩
  simp only at h
  split at h
  · simp at h
  rename_i y hy
  obtain ⟨p2, t2⟩ := y
  have hw2 : ∀ n, (∀ r ∈ t1, r.length = n) → ∀ r ∈ t2, r.length = n := by
    intro n hn
    by_cases hd : d = 2
    · rw [if_pos hd] at hy
      exact cleanup2_width hT hy n hn
    · rw [if_neg hd] at hy
      simp only [Except.ok.injEq, Prod.mk.injEq] at hy
      obtain ⟨-, rfl⟩ := hy
      exact hn
  simp only at h
  have key : Tidy T.vol p' t' ∧ ∀ n, (∀ r ∈ t2, r.length = n) → ∀ r ∈ t', r.length = n := by
    by_cases hc : o.performChecks = true
    · rw [if_pos hc] at h
      obtain ⟨inside, cent, qual, key, key', srt, width, mq, hl⟩ := hT.lint _ _ _ _ h
      obtain ⟨h1, h2, -⟩ := linter_tidy hT.rk hT.vol hl
      exact ⟨h1, h2⟩
    · rw [if_neg hc] at h
      exact fixed_tidy hT h
  exact ⟨key.1, fun n hn => key.2 n (hw2 n (hn p1 t1 hx'))⟩

theorem removeOutside_sublist {fd : (Fin d → ℝ) → ℝ} {geps : ℝ} {p : List (Fin d → ℝ)} {t t' : List (List ℕ)}
    (h : Project.removeOutside fd geps p t = .ok t') : t'.Sublist t := by
  unfold Project.removeOutside at h
  simp only [bind, Except.bind, pure, Except.pure] at h
  cases hk : t.mapM (Project.keeps fd geps p) with
  | error e => simp [hk] at h
  | ok ks =>
    simp only [hk, Except.ok.injEq] at h
    subst h
    have hl : t.length = ks.length := (mapM_forall₂.1 hk).length_eq
    have := (List.filter_sublist (l := t.zip ks) (p := fun rk => rk.2)).map Prod.fst
    rwa [List.map_fst_zip (by omega)] at this

theorem improve_length {ρ : Type} [LinearOrder ρ] {rk : List ℕ → ρ} {fd : (Fin d → ℝ) → ℝ} {deps : ℝ} {p p' : List (Fin d → ℝ)} {t : List (List ℕ)}
    (h : Project.improve rk fd deps p t = .ok p') : p'.length = p.length := by
  unfold Project.improve at h
  simp only [bind, Except.bind] at h
  split at h
  · simp at h
  rename_i bid hbid
  have hb : ∀ v ∈ bid, v < p.length := by
    rw [Project.improveLoop] at h
    simp only [Project.improveStep, bind, Except.bind] at h
    cases htk : Np.take p bid with
    | error e => simp [htk] at h
    | ok vs =>
      intro v hv
      obtain ⟨x, -, hx⟩ := forall₂_left (mapM_forall₂.1 htk) v hv
      have := item_ok.1 hx
      rw [List.getElem?_eq_some_iff] at this
      exact this.1
  obtain ⟨q, hq, hl, -⟩ := Project.improveLoop_spec (fd := fd) (deps := deps) (bid := bid) 5 0 1 p hb
  rw [hq] at h
  cases h
  exact hl

/-- What the last pass does on rank 0: a tidy mesh `(p1, t1)`, whose vertices may be moved to `p`, and a part `t` of its cells. -/
theorem finish_tidy {E : Env d κ ρ} (hT : ToolsOk E.tools) (hrank : E.rank = 0) {p0 p : List (Fin d → ℝ)} {t0 t : List (List ℕ)}
    (h : finish E p0 t0 = .ok (p, t)) :
    ∃ p1 t1, termination E.tools 0 E.size false E.opts p0 t0 = .ok (p1, t1) ∧ Tidy E.tools.vol p1 t1 ∧
      Project.improve E.tools.rk E.fd E.deps p1 t1 = .ok p ∧ Project.removeOutside E.fd (E.h0 * 0.001) p t1 = .ok t ∧ p.length = p1.length ∧
      t.Sublist t1 := by
  unfold finish at h
  simp only [hrank, if_true, bind, Except.bind, pure, Except.pure] at h
  split at h
  · simp at h
  rename_i x hx
  obtain ⟨p1, t1⟩ := x
  simp only at h
  split at h
  · simp at h
  rename_i p2 hp2
  split at h
  · simp at h
  rename_i t2 ht2
  simp only [Except.ok.injEq, Prod.mk.injEq] at h
  obtain ⟨rfl, rfl⟩ := h
  exact ⟨p1, t1, hx, (termination_tidy hT hx).1, hp2, ht2, improve_length hp2, removeOutside_sublist ht2⟩

theorem finish_wellFormed {E : Env d κ ρ} (hT : ToolsOk E.tools) (hrank : E.rank = 0) {p0 p : List (Fin d → ℝ)} {t0 t : List (List ℕ)}
    (h : finish E p0 t0 = .ok (p, t)) : WellFormed p t := by
  obtain ⟨p1, t1, -, h1, -, -, hl, hs⟩ := finish_tidy hT hrank h
  exact ⟨fun r hr i hi => by rw [hl]; exact h1.inRange r (hs.subset hr) i hi, h1.distinct.sublist hs⟩

/-- A run that has returned a mesh ended with `finish` on cells with `d + 1` vertices, if those of the triangulation have that many. -/
theorem run_finish {E : Env d κ ρ} (hser : E.size = 1) (hw : ∀ p, ∀ r ∈ (E.dt p).2, r.length = d + 1) {n : ℕ} {p0 p : List (Fin d → ℝ)} {t : List (List ℕ)} {k : ℕ}
    (h : run E n (start p0) = .done p t k) : ∃ q t1, finish E q t1 = .ok (p, t) ∧ ∀ r ∈ t1, r.length = d + 1 := by
  obtain ⟨m, s, t1, -, hrem, hf⟩ := run_done_serial hser h
  exact ⟨_, t1, hf, fun r hr => hw _ r ((removeOutside_sublist hrem).subset hr)⟩

theorem finish_width {E : Env d κ ρ} (hT : ToolsOk E.tools) (hrank : E.rank = 0) (hser : E.size = 1) {p0 p : List (Fin d → ℝ)} {t0 t : List (List ℕ)}
    (h : finish E p0 t0 = .ok (p, t)) (n : ℕ) (hn : ∀ r ∈ t0, r.length = n) : ∀ r ∈ t, r.length = n := by
  obtain ⟨p1, t1, hx, -, -, -, -, hs⟩ := finish_tidy hT hrank h
  refine fun r hr => (termination_tidy hT hx).2 n ?_ r (hs.subset hr)
  intro p2 t2 h2
  rw [hser, if_neg (by simp)] at h2
  rw [h2.2]
  exact hn

/-- **C82 (partial).** The returned vertices are the vertices of a well-formed mesh in which each of them is used, and the returned cells are those of its
cells whose centroid is inside the domain by a margin; so all returned vertices are used if none of its cells is outside. -/
theorem C82_used_partial {E : Env d κ ρ} (hT : ToolsOk E.tools) (hrank : E.rank = 0) (hser : E.size = 1) {n : ℕ} {p0 p : List (Fin d → ℝ)} {t : List (List ℕ)}
    {k : ℕ} (h : run E n (start p0) = .done p t k) :
    ∃ t1, WellFormed p t1 ∧ (∀ i < p.length, ∃ r ∈ t1, i ∈ r) ∧ t.Sublist t1 ∧
      (∀ r ∈ t1, r ∈ t ↔ ∃ vs, Np.take p r = .ok vs ∧ E.fd (fun k => (vs.map fun v => v k).sum / ((d : ℝ) + 1)) < -(E.h0 * 0.001)) ∧
      ((∀ r ∈ t1, ∃ vs, Np.take p r = .ok vs ∧ E.fd (fun k => (vs.map fun v => v k).sum / ((d : ℝ) + 1)) < -(E.h0 * 0.001)) →
        ∀ i < p.length, ∃ r ∈ t, i ∈ r) := by
  obtain ⟨m, s, t0, -, hrem, hf⟩ := run_done_serial hser h
  obtain ⟨p1, t1, -, htidy, himp, hrem2, hl, hs⟩ := finish_tidy hT hrank hf
  have hiff : ∀ r ∈ t1, r ∈ t ↔ ∃ vs, Np.take p r = .ok vs ∧ E.fd (fun k => (vs.map fun v => v k).sum / ((d : ℝ) + 1)) < -(E.h0 * 0.001) :=
    fun r hr => (removeOutside_spec hrem2 r).trans (and_iff_right hr)
  refine ⟨t1, ⟨fun r hr i hi => by rw [hl]; exact htidy.inRange r hr i hi, htidy.distinct⟩, fun i hi => htidy.used i (by rwa [hl] at hi), hs, hiff, ?_⟩
  intro hall i hi
  obtain ⟨r, hr, hir⟩ := htidy.used i (by rwa [hl] at hi)
  exact ⟨r, (hiff r hr).2 (hall r hr), hir⟩

theorem improve_keeps {ρ : Type} [LinearOrder ρ] {rk : List ℕ → ρ} {fd : (Fin d → ℝ) → ℝ} {deps : ℝ} {p p' : List (Fin d → ℝ)} {t : List (List ℕ)}
    (h : Project.improve rk fd deps p t = .ok p') {bid : List ℕ} (hbid : getBoundaryVertices rk t d = .ok bid) {i : ℕ} {x : Fin d → ℝ} (hx : p[i]? = some x)
    (hor : i ∉ bid ∨ fd x = 0) : p'[i]? = some x := by
  simp only [Project.improve, hbid, bind, Except.bind] at h
  have hb : ∀ v ∈ bid, v < p.length := by
    rw [Project.improveLoop] at h
    simp only [Project.improveStep, bind, Except.bind] at h
    cases htk : Np.take p bid with
    | error e => simp [htk] at h
    | ok vs =>
      intro v hv
      obtain ⟨x, -, hx⟩ := forall₂_left (mapM_forall₂.1 htk) v hv
      have := item_ok.1 hx
      rw [List.getElem?_eq_some_iff] at this
      exact this.1
  obtain ⟨q, hq, -, hq'⟩ := Project.improveLoop_spec (fd := fd) (deps := deps) (bid := bid) 5 0 1 p hb
  rw [hq] at h
  cases h
  exact hq' i x hx hor

/-- **C83 (partial).** The returned cells are cells of a mesh `(p1, t1)` with the same vertex numbers in which all signed volumes are non-negative; a vertex that is
not a boundary vertex of it or lies on the level set has the same coordinates in both. So a returned cell without boundary vertices off the level set has a
non-negative signed volume. -/
theorem C83_oriented_partial {E : Env d κ ρ} (hT : ToolsOk E.tools) (hrank : E.rank = 0) (hser : E.size = 1) {n : ℕ} {p0 p : List (Fin d → ℝ)} {t : List (List ℕ)}
    {k : ℕ} (h : run E n (start p0) = .done p t k) :
    ∃ p1 t1 bid, p1.length = p.length ∧ t.Sublist t1 ∧ getBoundaryVertices E.tools.rk t1 d = .ok bid ∧
      (∀ r ∈ t1, ∃ vs, Np.take p1 r = .ok vs ∧ 0 ≤ E.tools.vol vs) ∧
      (∀ i x, p1[i]? = some x → i ∉ bid ∨ E.fd x = 0 → p[i]? = some x) ∧
      ∀ r ∈ t, (∀ i ∈ r, ∀ x, p1[i]? = some x → i ∉ bid ∨ E.fd x = 0) → ∃ vs, Np.take p r = .ok vs ∧ 0 ≤ E.tools.vol vs := by
  obtain ⟨m, s, t0, -, hrem, hf⟩ := run_done_serial hser h
  obtain ⟨p1, t1, -, htidy, himp, hrem2, hl, hs⟩ := finish_tidy hT hrank hf
  obtain ⟨bid, hbid⟩ : ∃ bid, getBoundaryVertices E.tools.rk t1 d = .ok bid := by
    cases hb : getBoundaryVertices E.tools.rk t1 d with
    | error e => simp [Project.improve, hb, bind, Except.bind] at himp
    | ok bid => exact ⟨bid, rfl⟩
  refine ⟨p1, t1, bid, hl.symm, hs, hbid, htidy.oriented, fun i x hx hor => improve_keeps himp hbid hx hor, ?_⟩
  intro r hr hall
  obtain ⟨vs, hvs, hv⟩ := htidy.oriented r (hs.subset hr)
  refine ⟨vs, ?_, hv⟩
  have hvs' := take_spec.1 hvs
  apply take_spec.2
  rw [← hvs']
  apply List.map_congr_left
  intro i hi
  have hin : i < p1.length := htidy.inRange r (hs.subset hr) i hi
  rw [List.getElem?_eq_getElem hin]
  exact improve_keeps himp hbid (List.getElem?_eq_getElem hin) (hall i hi _ (List.getElem?_eq_getElem hin))

/-- **C81 (`generate_mesh`).** The mesh returned by a run on one process has `d + 1` vertex numbers in every cell, all in range, and no two cells with the same
vertices. -/
theorem C81_generate_mesh {boxEval : List ℝ → (Fin d → ℝ) → ℝ} {domain : Gen.DomainArg (Fin d → ℝ)} {edge : Gen.SizeArg (Fin d → ℝ)}
    {kw : Gen.Kwargs} {R : Generate.Rest d κ ρ} (hT : ToolsOk R.tools) (hw : ∀ p, ∀ r ∈ (R.dt p).2, r.length = d + 1) {n : ℕ} {p : List (Fin d → ℝ)}
    {t : List (List ℕ)} {k : ℕ} (h : Generate.generateMesh boxEval domain edge kw R n = .done p t k) :
    (∀ r ∈ t, r.length = d + 1) ∧ (∀ r ∈ t, ∀ i ∈ r, i < p.length) ∧ t.Pairwise fun r s => ¬ r.Perm s := by
  obtain ⟨S, m, p0, hS, hp, hm, hrun⟩ := Generate.generate_done h
  obtain ⟨q, t1, hf, hw1⟩ := run_finish (E := Generate.envOf R S m) rfl hw hrun
  have hwf := finish_wellFormed (E := Generate.envOf R S m) hT rfl hf
  exact ⟨finish_width (E := Generate.envOf R S m) hT rfl rfl hf _ hw1, hwf.inRange, hwf.distinct⟩

/-! ### A mesh that `fix_mesh` does not change -/

theorem uniqBy_of_sorted {α κ : Type} [LinearOrder κ] {f : α → κ} {l : List α} (h : l.Pairwise fun a b => f a < f b) : uniqBy f l = l := by
  induction l with
  | nil => rfl
  | cons a l ih =>
    rw [List.pairwise_cons] at h
    have : uniqBy f (a :: l) = insertBy f a (uniqBy f l) := rfl
    rw [this, ih h.2]
    cases l with
    | nil => rfl
    | cons b l => simp [insertBy, h.1 b (by simp)]

theorem map_idxOf_self {α : Type} [DecidableEq α] {l : List α} (h : l.Nodup) : (l.map fun k => l.idxOf k) = List.range l.length := by
  apply List.ext_getElem
  · simp
  · intro i h1 h2
    simp [h.idxOf_getElem]

theorem take_range {α : Type} (l : List α) : Np.take l (List.range l.length) = .ok l := by
  apply take_spec.2
  apply List.ext_getElem
  · simp
  · intro i h1 h2
    simp only [List.length_map] at h2
    simp [h2]

/-- One entity whose vertices are listed in the order of their keys and whose volume is not negative. -/
theorem fixed_single {T : Tools d κ ρ} {p : List (Fin d → ℝ)} (hp : p ≠ []) (hs : p.Pairwise fun a b => keyOf T.enc T.ptol p a < keyOf T.enc T.ptol p b)
    (hv : 0 ≤ T.vol p) : fixed T p [List.range p.length] = .ok (p, [List.range p.length]) := by
  have hks : (p.map (keyOf T.enc T.ptol p)).Pairwise (· < ·) := by rwa [List.pairwise_map]
  have hkn : (p.map (keyOf T.enc T.ptol p)).Nodup := hks.imp fun h => h.ne
  have hu : uniqBy id (p.map (keyOf T.enc T.ptol p)) = p.map (keyOf T.enc T.ptol p) := uniqBy_of_sorted hks
  have h1 : uniqIndex (p.map (keyOf T.enc T.ptol p)) = List.range p.length := by
    rw [uniqIndex, hu, map_idxOf_self hkn, List.length_map]
  have h2 : uniqInverse (p.map (keyOf T.enc T.ptol p)) = List.range p.length := by
    rw [uniqInverse, hu, map_idxOf_self hkn, List.length_map]
  have h3 : sortRow (List.range p.length) = List.range p.length :=
    sortRow_of_sorted (List.pairwise_le_range)
  have h4 : uniqBy id (List.range p.length) = List.range p.length := uniqBy_of_sorted List.pairwise_lt_range
  have h5 : (List.range p.length).map (fun v => (List.range p.length).idxOf v) = List.range p.length := by
    rw [map_idxOf_self List.nodup_range, List.length_range]
  have h6 : Np.take (List.range p.length) (List.range p.length) = .ok (List.range p.length) := by
    have := take_range (List.range p.length)
    rwa [List.length_range] at this
  have hne : p.isEmpty = false := by simpa using hp
  have hrun : fixMesh (keyOf T.enc T.ptol p) T.rk T.vol p [List.range p.length] true true =
      .ok (p, [List.range p.length], uniqInverse (List.range p.length)) := by
    simp only [fixMesh, hne, h1, h2, take_range, bind, Except.bind, pure, Except.pure, Bool.false_eq_true, if_false, if_true, List.mapM_cons, List.mapM_nil,
      h6, List.map_cons, List.map_nil, h3, show uniqBy T.rk [List.range p.length] = [List.range p.length] from rfl, List.flatten_cons, List.flatten_nil,
      List.append_nil, h4, h5, orient, not_lt.2 hv]
  cases p with
  | nil => exact absurd rfl hp
  | cons p0 ps =>
    have hrun' : fixMeshK T.enc T.rk T.vol T.ptol (p0 :: ps) [List.range (p0 :: ps).length] true true =
      .ok (p0 :: ps, [List.range (p0 :: ps).length], uniqInverse (List.range (p0 :: ps).length)) := hrun
    simp only [fixed, hrun', bind, Except.bind, pure, Except.pure]

/-! ### Two runs on one tetrahedron -/

noncomputable section

theorem npRound_int (n : ℤ) : npRound (n : ℝ) = n := by simp [npRound]

theorem snapPt_of_multiple {s : ℝ} (hs : s ≠ 0) {q : Fin d → ℝ} (h : ∀ i, ∃ n : ℤ, q i = n * s) : snapPt s q = q := by
  funext i
  obtain ⟨n, hn⟩ := h i
  rw [snapPt, hn, mul_div_assoc, div_self hs, mul_one, npRound_int]

/-- Tools with the default tolerance of `fix_mesh` and the real linter. -/
def realTools : Tools 3 (List ℝ) (List ℕ) where
  enc q := [q 0, q 1, q 2]
  rk := id
  vol := rowVol3
  qual _ := 1
  srt := id
  ptol := 2e-13
  solve _ _ b := b
  lint p t := Linter.linter Linter.inside3 (Simplex.centroid · 3) (fun _ => 1) rowVol3 (keyOf (fun q => [q 0, q 1, q 2]) 2e-13 p) (fun q => [q 0, q 1, q 2])
    id id 4 p t 3 0.1
  aggregate p t := .ok (p, t)

theorem realTools_ok : ToolsOk realTools :=
  ⟨fun _ _ h => h, rowVol3_swap, fun _ _ _ _ h => ⟨_, _, _, _, _, _, _, _, h⟩⟩

/-- One process, `max_iter = 1`, `h0 = 1`, default tolerances, no linting; the triangulation of four points is the tetrahedron they span. -/
def tetEnv (fd : (Fin 3 → ℝ) → ℝ) : Env 3 (List ℝ) (List ℕ) where
  tools := realTools
  dt p := (p, [[0, 1, 2, 3]])
  ghost _ _ _ := .error "not used on one process"
  fd := fd
  subs := []
  fh _ := 1
  h0 := 1
  deltaT := 0.1
  geps := 0.1
  deps := 1 / 2 ^ 26
  eps := 1 / 2 ^ 52
  pfix := []
  rank := 0
  size := 1
  maxIter := 1
  opts := ⟨true, true, false⟩

theorem tet_run {fd : (Fin 3 → ℝ) → ℝ} {a b c e : Fin 3 → ℝ}
    (hs : [a, b, c, e].Pairwise fun x y => keyOf realTools.enc realTools.ptol [a, b, c, e] x < keyOf realTools.enc realTools.ptol [a, b, c, e] y)
    (hv : 0 ≤ vol3 a b c e) (hin : fd (fun k => (a k + b k + c k + e k) / 4) < -0.1) {t : List (List ℕ)}
    (h0 : ∀ x ∈ [a, b, c, e], fd (Project.newton fd (1 / 2 ^ 26) 1 x) = 0)
    (ht : Project.removeOutside fd 0.001 ([a, b, c, e].map (Project.newton fd (1 / 2 ^ 26) 1)) [[0, 1, 2, 3]] = .ok t) :
    run (tetEnv fd) 1 (start [a, b, c, e]) = .done ([a, b, c, e].map (Project.newton fd (1 / 2 ^ 26) 1)) t 1 := by
  have hc : (Project.centroid [a, b, c, e] : Fin 3 → ℝ) = fun k => (a k + b k + c k + e k) / 4 := by
    funext k; simp [Project.centroid]; ring
  have hrem : Project.removeOutside fd 0.1 [a, b, c, e] [[0, 1, 2, 3]] = .ok [[0, 1, 2, 3]] := by
    have h : fd (Project.centroid [a, b, c, e]) < -0.1 := by rw [hc]; exact hin
    have htk : Np.take [a, b, c, e] [0, 1, 2, 3] = .ok [a, b, c, e] := rfl
    simp [Project.removeOutside, Project.keeps, htk, bind, Except.bind, pure, Except.pure, List.mapM_cons, h]
  have hfix : fixed realTools [a, b, c, e] [[0, 1, 2, 3]] = .ok ([a, b, c, e], [[0, 1, 2, 3]]) := fixed_single (T := realTools) (by simp) hs hv
  have hterm : termination realTools 0 1 false ⟨true, true, false⟩ [a, b, c, e] [[0, 1, 2, 3]] = .ok ([a, b, c, e], [[0, 1, 2, 3]]) := by
    simp [termination, bind, Except.bind, pure, Except.pure, hfix]
  have hb : getBoundaryVertices (id : List ℕ → List ℕ) [[0, 1, 2, 3]] 3 = .ok [0, 1, 2, 3] := by decide +kernel
  have himp : Project.improve (id : List ℕ → List ℕ) fd (1 / 2 ^ 26) [a, b, c, e] [[0, 1, 2, 3]] =
      .ok ([a, b, c, e].map (Project.newton fd (1 / 2 ^ 26) 1)) := by
    obtain ⟨q, hq, hl, hq'⟩ := Project.improveStep_spec (fd := fd) (deps := 1 / 2 ^ 26) (alpha := 1) (bid := [0, 1, 2, 3]) (p := [a, b, c, e]) (by simp)
    have hqe : q = [a, b, c, e].map (Project.newton fd (1 / 2 ^ 26) 1) := by
      apply List.ext_getElem?
      intro i
      match i with
      | 0 => simpa using hq' 0 a rfl
      | 1 => simpa using hq' 1 b rfl
      | 2 => simpa using hq' 2 c rfl
      | 3 => simpa using hq' 3 e rfl
      | i + 4 => rw [List.getElem?_eq_none (by simp [hl]), List.getElem?_eq_none (by simp)]
    obtain ⟨r, hr, hrl, hr'⟩ := Project.improveLoop_spec (fd := fd) (deps := 1 / 2 ^ 26) (bid := [0, 1, 2, 3]) 4 (0 + 1)
      (1 / (((0 : ℕ) : ℝ) + 1)) q (by rw [hl]; simp)
    have hre : r = q := by
      apply List.ext_getElem?
      intro i
      by_cases hi : i < q.length
      · rw [List.getElem?_eq_getElem hi]
        refine hr' i _ (List.getElem?_eq_getElem hi) (Or.inr ?_)
        have hz : ∀ y ∈ q, fd y = 0 := by
          intro y hy
          rw [hqe] at hy
          obtain ⟨x, hx, rfl⟩ := List.mem_map.1 hy
          exact h0 x hx
        exact hz _ (List.getElem_mem hi)
      · rw [List.getElem?_eq_none (by omega), List.getElem?_eq_none (by omega)]
    have hloop : Project.improveLoop fd (1 / 2 ^ 26) [0, 1, 2, 3] 5 0 1 [a, b, c, e] = .ok q := by
      rw [Project.improveLoop]
      simp only [hq, bind, Except.bind]
      rw [← hre]; exact hre ▸ hr
    simp only [Project.improve, hb, bind, Except.bind, hloop, hqe]
  have htop : topology (tetEnv fd) (start [a, b, c, e]) = .ok ([a, b, c, e], [[0, 1, 2, 3]], [], [], 0) := by
    simp only [topology, tetEnv, start, List.mapM_nil, bind, Except.bind, pure, Except.pure, hrem, gt_iff_lt, lt_irrefl, if_false]
  have hfin : finish (tetEnv fd) [a, b, c, e] [[0, 1, 2, 3]] = .ok ([a, b, c, e].map (Project.newton fd (1 / 2 ^ 26) 1), t) := by
    simp only [finish, tetEnv, hterm, bind, Except.bind, if_true, pure, Except.pure, show realTools.rk = id from rfl, himp, one_mul, ht]
  simp only [run, step, htop, hfin]
  rw [if_pos (by simp [start, tetEnv])]
  simp [start]

theorem key_tet {p0 : Fin 3 → ℝ} {ps : List (Fin 3 → ℝ)} {s : ℝ} (h : snapLen 2e-13 p0 ps = s) (hs : s ≠ 0)
    {q : Fin 3 → ℝ} (hq : ∀ i, ∃ n : ℤ, q i = n * s) : keyOf realTools.enc realTools.ptol (p0 :: ps) q = [q 0, q 1, q 2] := by
  have : keyOf realTools.enc realTools.ptol (p0 :: ps) q = (fun q : Fin 3 → ℝ => [q 0, q 1, q 2]) (snapPt (snapLen 2e-13 p0 ps) q) := rfl
  rw [this, h, snapPt_of_multiple hs hq]

/-- Four points in the half space `x 0 ≤ 0`, three of them on its boundary. -/
def capTet : List (Fin 3 → ℝ) := [![-1, 0, 0], ![0, -1, 0], ![0, 0, 0], ![0, 0, 1]]

/-- Four points in the slab `|x 0| ≤ 10`, three of them on its boundary. -/
def slabTet : List (Fin 3 → ℝ) := [![-10, 0, -10], ![5, 0, -1], ![10, 0, 0], ![10, 10, 0]]

theorem capTet_sorted : capTet.Pairwise fun x y => keyOf realTools.enc realTools.ptol capTet x < keyOf realTools.enc realTools.ptol capTet y := by
  have hl : snapLen 2e-13 (![-1, 0, 0] : Fin 3 → ℝ) [![0, -1, 0], ![0, 0, 0], ![0, 0, 1]] = 2e-13 := by
    norm_num [snapLen, colMax, colMin, List.ofFn_succ, Matrix.cons_val_zero]
  have hk : ∀ q ∈ capTet, keyOf realTools.enc realTools.ptol capTet q = [q 0, q 1, q 2] := by
    intro q hq
    refine key_tet hl (by norm_num) ?_
    have hz : ∃ n : ℤ, (0 : ℝ) = n * 2e-13 := ⟨0, by norm_num⟩
    have h1 : ∃ n : ℤ, (1 : ℝ) = n * 2e-13 := ⟨5000000000000, by norm_num⟩
    have h2 : ∃ n : ℤ, (-1 : ℝ) = n * 2e-13 := ⟨-5000000000000, by norm_num⟩
    simp only [capTet, List.mem_cons, List.not_mem_nil, or_false] at hq
    rcases hq with rfl | rfl | rfl | rfl <;> intro i <;> fin_cases i <;> assumption
  refine List.Pairwise.imp_of_mem (R := fun x y : Fin 3 → ℝ => [x 0, x 1, x 2] < [y 0, y 1, y 2]) (fun {x y} hx hy h => by rw [hk x hx, hk y hy]; exact h) ?_
  simp [capTet, List.cons_lt_cons_iff]

theorem slabTet_sorted : slabTet.Pairwise fun x y => keyOf realTools.enc realTools.ptol slabTet x < keyOf realTools.enc realTools.ptol slabTet y := by
  have hl : snapLen 2e-13 (![-10, 0, -10] : Fin 3 → ℝ) [![5, 0, -1], ![10, 0, 0], ![10, 10, 0]] = 4e-12 := by
    norm_num [snapLen, colMax, colMin, List.ofFn_succ, Matrix.cons_val_zero]
  have hk : ∀ q ∈ slabTet, keyOf realTools.enc realTools.ptol slabTet q = [q 0, q 1, q 2] := by
    intro q hq
    refine key_tet hl (by norm_num) ?_
    have hz : ∃ n : ℤ, (0 : ℝ) = n * 4e-12 := ⟨0, by norm_num⟩
    have h1 : ∃ n : ℤ, (10 : ℝ) = n * 4e-12 := ⟨2500000000000, by norm_num⟩
    have h2 : ∃ n : ℤ, (-10 : ℝ) = n * 4e-12 := ⟨-2500000000000, by norm_num⟩
    have h3 : ∃ n : ℤ, (-1 : ℝ) = n * 4e-12 := ⟨-250000000000, by norm_num⟩
    have h4 : ∃ n : ℤ, (5 : ℝ) = n * 4e-12 := ⟨1250000000000, by norm_num⟩
    simp only [slabTet, List.mem_cons, List.not_mem_nil, or_false] at hq
    rcases hq with rfl | rfl | rfl | rfl <;> intro i <;> fin_cases i <;> assumption
  refine List.Pairwise.imp_of_mem (R := fun x y : Fin 3 → ℝ => [x 0, x 1, x 2] < [y 0, y 1, y 2]) (fun {x y} hx hy h => by rw [hk x hx, hk y hy]; exact h) ?_
  norm_num [slabTet, List.cons_lt_cons_iff]

theorem cap_newton (x : Fin 3 → ℝ) : Project.newton (fun x : Fin 3 → ℝ => x 0) (1 / 2 ^ 26) 1 x = ![0, x 1, x 2] := by
  have hg : ∀ i : Fin 3, Project.dgrad (fun x : Fin 3 → ℝ => x 0) (1 / 2 ^ 26) x i = if i = 0 then 1 else 0 := by
    intro i; fin_cases i <;> simp [Project.dgrad, Project.bump]
  have h2 : Project.dgrad2 (fun x : Fin 3 → ℝ => x 0) (1 / 2 ^ 26) x = 1 := by
    simp only [Project.dgrad2, hg, Fin.sum_univ_three, show ((2 : Fin 3) = 0) = False by simp]
    norm_num
  funext i
  simp only [Project.newton, hg, h2]
  fin_cases i <;> simp

theorem slab_newton : Project.newton (fun x : Fin 3 → ℝ => |x 0| - 10) (1 / 2 ^ 26) 1 ![5, 0, -1] = ![10, 0, -1] := by
  have hg : ∀ i : Fin 3, Project.dgrad (fun x : Fin 3 → ℝ => |x 0| - 10) (1 / 2 ^ 26) ![5, 0, -1] i = if i = 0 then 1 else 0 := by
    intro i
    fin_cases i
    · have h1 : |(5 : ℝ) + 1 / 2 ^ 26| = 5 + 1 / 2 ^ 26 := abs_of_nonneg (by norm_num)
      simp only [Project.dgrad, Project.bump]
      norm_num
    · simp [Project.dgrad, Project.bump]
    · simp [Project.dgrad, Project.bump]
  have h2 : Project.dgrad2 (fun x : Fin 3 → ℝ => |x 0| - 10) (1 / 2 ^ 26) ![5, 0, -1] = 1 := by
    simp only [Project.dgrad2, hg, Fin.sum_univ_three, show ((2 : Fin 3) = 0) = False by simp]
    norm_num
  funext i
  simp only [Project.newton, hg, h2]
  fin_cases i <;> norm_num

/-- **C82 is false.** A run in a half space ends with a mesh of four vertices and no cell: the clean-up moves the only interior vertex to the boundary, and the cell is
then removed without removing its vertices. -/
theorem C82_unused : ∃ p, run (tetEnv fun x => x 0) 1 (start capTet) = .done p [] 1 ∧ p.length = 4 := by
  refine ⟨_, tet_run (fd := fun x => x 0) capTet_sorted ?_ ?_ ?_ ?_, by simp⟩
  · simp only [vol3, cross, Matrix.cons_val]; norm_num
  · norm_num
  · intro x _
    rw [cap_newton]; rfl
  · simp only [List.map_cons, List.map_nil, cap_newton]
    simp [Project.removeOutside, Project.keeps, Project.centroid, Np.take, item, bind, Except.bind, pure, Except.pure, List.mapM_cons]
    norm_num

/-- **C83 is false.** A run in a slab ends with a cell of negative signed volume: the clean-up moves a vertex through the plane of the other three after the last
orientation step. -/
theorem C83_inverted : ∃ p a b c e, run (tetEnv fun x => |x 0| - 10) 1 (start slabTet) = .done p [[0, 1, 2, 3]] 1 ∧ p = [a, b, c, e] ∧ vol3 a b c e < 0 := by
  have hz : ∀ x : Fin 3 → ℝ, |x 0| = 10 → Project.newton (fun x : Fin 3 → ℝ => |x 0| - 10) (1 / 2 ^ 26) 1 x = x :=
    fun x hx => Project.newton_zero (fd := fun x : Fin 3 → ℝ => |x 0| - 10) (by simp [hx]) _ _
  refine ⟨_, _, _, _, _, tet_run (fd := fun x => |x 0| - 10) slabTet_sorted ?_ ?_ ?_ ?_, rfl, ?_⟩
  · simp only [vol3, cross, Matrix.cons_val]; norm_num
  · norm_num
  · intro x hx
    simp only [List.mem_cons, List.not_mem_nil, or_false] at hx
    rcases hx with rfl | rfl | rfl | rfl
    · rw [hz _ (by norm_num)]; norm_num
    · rw [slab_newton]; norm_num
    · rw [hz _ (by norm_num)]; norm_num
    · rw [hz _ (by norm_num)]; norm_num
  · simp only [List.map_cons, List.map_nil]
    rw [hz _ (by norm_num), slab_newton, hz _ (by norm_num), hz _ (by norm_num)]
    simp [Project.removeOutside, Project.keeps, Project.centroid, Np.take, item, bind, Except.bind, pure, Except.pure, List.mapM_cons]
    norm_num
  · rw [hz _ (by norm_num), slab_newton, hz _ (by norm_num), hz _ (by norm_num)]
    simp only [vol3, cross, Matrix.cons_val]; norm_num

/-- The call `generate_mesh(domain, 1.0, bbox=..., points=..., max_iter=1)`, linting off. -/
def tetCall (fd : (Fin 3 → ℝ) → ℝ) (points : List (Fin 3 → ℝ)) : Outcome 3 :=
  Generate.generateMesh (fun _ _ => 0) (.geometry fd [.flt (-10), .flt 10, .flt (-10), .flt 10, .flt (-10), .flt 10] none) (.scalar 1)
    [("max_iter", .num (.int 1))]
    ⟨none, some points, [], 1, 0.1, 0.1, false, ⟨true, true, false⟩, fun _ => 0, realTools, fun p => (p, [[0, 1, 2, 3]]), 1 / 2 ^ 52, 1 / 2 ^ 26⟩ 1

theorem tetCall_eq (fd : (Fin 3 → ℝ) → ℝ) {points : List (Fin 3 → ℝ)} (hp : points ≠ []) : tetCall fd points = run (tetEnv fd) 1 (start points) := by
  have hS : Gen.genSetup (P := Fin 3 → ℝ) (fun _ _ => 0) (.geometry fd [.flt (-10), .flt 10, .flt (-10), .flt 10, .flt (-10), .flt 10] none) (.scalar 1)
      [("max_iter", .num (.int 1))] = .ok ⟨fd, fun _ => 1, [-10, 10, -10, 10, -10, 10], 1, none, true, (true, false)⟩ := by
    simp [Gen.genSetup, Gen.parseKwargs, Gen.knownNames, Gen.getOpt, Gen.defaults, Gen.asNum, Gen.Num.val, Gen.selectVerbosity, Gen.unpackDomain,
      Gen.unpackSizing, Gen.checkBbox, Gen.checkFloats, Gen.mergeBbox, Gen.Rebuild, bind, Except.bind, pure, Except.pure, List.lookup]
  have hm : Gen.maxIterOf [("max_iter", .num (.int 1))] = .ok 1 := by
    simp [Gen.maxIterOf, Gen.getOpt, Gen.asNum, Gen.Num.val, bind, Except.bind, pure, Except.pure]
  unfold tetCall Generate.generateMesh
  simp only [Generate.prepare, hS, Generate.initial, hm, bind, Except.bind, pure, Except.pure]
  simp [hp, Generate.envOf, tetEnv, Generate.fixOf, fixedPoints, unpackPfix, start]

/-- **C82 is false (whole call).** -/
theorem C82_call : ∃ p, tetCall (fun x => x 0) capTet = .done p [] 1 ∧ p.length = 4 := by
  rw [tetCall_eq _ (by simp [capTet])]
  exact C82_unused

/-- **C83 is false (whole call).** -/
theorem C83_call : ∃ p a b c e, tetCall (fun x => |x 0| - 10) slabTet = .done p [[0, 1, 2, 3]] 1 ∧ p = [a, b, c, e] ∧ vol3 a b c e < 0 := by
  rw [tetCall_eq _ (by simp [slabTet])]
  exact C83_inverted

/-- The hypotheses of `C81_generate_mesh`, `C82_used_partial` and `C83_oriented_partial` are met by a call that returns a cell. -/
example : ToolsOk realTools ∧ (tetEnv fun x => |x 0| - 10).rank = 0 ∧ (tetEnv fun x => |x 0| - 10).size = 1 ∧
    ∃ p, tetCall (fun x => |x 0| - 10) slabTet = .done p [[0, 1, 2, 3]] 1 := by
  obtain ⟨p, -, -, -, -, h, -⟩ := C83_call
  exact ⟨realTools_ok, rfl, rfl, p, h⟩

end

end SM.MeshLoop

namespace SM.Parallel

open Mpi Np MeshLoop Distribute

variable {d : ℕ} {κ ρ : Type} [LinearOrder κ] [LinearOrder ρ]

/-- A returned mesh satisfies `Q`. -/
def MeshSat (Q : List (Fin d → ℝ) → List (List ℕ) → Prop) : Result d → Prop
  | .mesh p t => Q p t
  | _ => True

theorem passes_mesh {W : World d κ ρ} {P r : ℕ} {Q : List (Fin d → ℝ) → List (List ℕ) → Prop}
    (hQ : r = 0 → ∀ fh g a p0 t0 m, finish (envWith W P r fh (.ok g) a) p0 t0 = .ok m → Q m.1 m.2) (fh : (Fin d → ℝ) → ℝ) (extents : List (List ℝ)) (n : ℕ)
    (s : State d) : Yields (MeshSat Q) (passes W P r fh extents n s) := by
  induction n generalizing s with
  | zero => trivial
  | succ n ih =>
    have hp : Yields (MeshSat Q) (pass W P r fh extents s) := by
      refine (yields_true _).bind fun _ _ => ?_
      refine (yields_true _).bind fun g _ => ?_
      refine (yields_true _).bind fun top _ => ?_
      split
      · refine (aggregate_yields _ P r _ _).embed.bind fun a ha => ?_
        cases a with
        | none => trivial
        | some a =>
          have h0 : r = 0 := by
            by_contra h
            simpa using ha.2 h
          exact (yields_lift (Q := fun m => finish (envWith W P r fh (.ok g) a) top.1 top.2.1 = .ok m) fun x hx => hx).bind fun m hm =>
            hQ h0 _ _ _ _ _ _ hm
      · exact (yields_true _).bind fun p _ => trivial
    refine hp.bind fun o ho => ?_
    cases o with
    | running s' => exact ih s'
    | flags => exact ho
    | mesh p t => exact ho

/-- **C81 (parallel).** In every execution on `P` ranks, whatever the messages and the schedule: if a rank has returned a mesh, all indices of its cells are in range
and no two cells have the same vertices. -/
theorem C81_parallel {W : World d κ ρ} (hT : ToolsOk W.E.tools) {I : Init.Input d} {eps : ℝ} {points : Option (List (Fin d → ℝ))} {P n m : ℕ} {b : Bool}
    {u : Mpi.State (Msg d) (Result d)} (hu : Run P b m (init fun r => rankRun W I eps points P r n) u) {r : ℕ} {p : List (Fin d → ℝ)} {t : List (List ℕ)}
    (h : (u r).proc = .ret (.mesh p t)) : (∀ row ∈ t, ∀ i ∈ row, i < p.length) ∧ t.Pairwise fun r s => ¬ r.Perm s := by
  have hy : Yields (MeshSat fun p t => WellFormed p t) (rankRun W I eps points P r n) := by
    refine (yields_true _).bind fun i _ => ?_
    split
    · trivial
    split
    · trivial
    · refine passes_mesh (fun h0 fh g a p0 t0 m hm => ?_) _ _ _ _
      exact finish_wellFormed (E := envWith W P r fh (.ok g) a) ⟨hT.rk, hT.vol, hT.lint⟩ h0 hm
  have := yields_run hu hy
  rw [h] at this
  exact ⟨this.inRange, this.distinct⟩

end SM.Parallel
