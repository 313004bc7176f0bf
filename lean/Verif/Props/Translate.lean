import Verif.Props.PointOrder
import Verif.Props.Units
import Verif.Props.Renumber

/-!
# C127: where the domain is placed does not matter

Two serial calls of `generate_mesh` that differ by a translation of everything. Every pass of the loop moves the points of the second call like those of the
first (mesh_generator.py:460-521). In the last pass `fix_mesh` snaps the points to a grid anchored at the origin (geometry/utils.py:388-392), so the numbering
of the returned mesh can differ; the mesh is the same except for that.
-/

namespace SM.MeshLoop

open Np Topology FixMesh Units Laplace

noncomputable section

variable {d : ℕ} {κ ρ : Type} [LinearOrder κ] [LinearOrder ρ]

/-! ### Meshes with the same cells are renumbered meshes -/

section cells
variable {P : Type} {p p' : List P} {t t' : List (List ℕ)}

theorem SameCells.symm (h : SameCells p t p' t') : SameCells p' t' p t :=
  ⟨fun r hr => (h.2 r hr).imp fun _ h => ⟨h.1, h.2.symm⟩, fun r hr => (h.1 r hr).imp fun _ h => ⟨h.1, h.2.symm⟩⟩

theorem mem_of_cells (hin : InRange p t) (hin' : InRange p' t') (hus : ∀ i < p.length, ∃ r ∈ t, i ∈ r) (h : SameCells p t p' t') : ∀ x ∈ p, x ∈ p' := by
  intro x hx
  obtain ⟨i, hi, rfl⟩ := List.getElem_of_mem hx
  obtain ⟨r, hr, hir⟩ := hus i hi
  obtain ⟨r', hr', hp⟩ := h.2 r hr
  have hm : p[i]? ∈ posns p' r' := hp.symm.subset (List.mem_map.2 ⟨i, hir, rfl⟩)
  obtain ⟨j, hj, e⟩ := List.mem_map.1 hm
  rw [List.getElem?_eq_getElem hi] at e
  exact List.mem_of_getElem? e

/-- Two meshes of distinct, used points with the same cells are the same mesh except for the numbering. -/
theorem sameMesh_of_cells (hn : p.Nodup) (hn' : p'.Nodup) (hin : InRange p t) (hin' : InRange p' t') (hus : ∀ i < p.length, ∃ r ∈ t, i ∈ r)
    (hus' : ∀ i < p'.length, ∃ r ∈ t', i ∈ r) (h : SameCells p t p' t') : ∃ σ, SameMesh σ p t p' t' := by
  classical
  have hsub := mem_of_cells hin hin' hus h
  have hsub' := mem_of_cells hin' hin hus' h.symm
  have hperm : p'.Perm p := (List.perm_ext_iff_of_nodup hn' hn).2 fun x => ⟨hsub' x, hsub x⟩
  have hσ : ∀ i < p.length, ∃ j : ℕ, p'[j]? = p[i]? := by
    intro i hi
    rw [List.getElem?_eq_getElem hi]
    exact List.mem_iff_getElem?.1 (hsub _ (List.getElem_mem hi))
  choose! σ hσ using hσ
  have key : ∀ r ∈ t, posns p' (r.map σ) = posns p r := by
    intro r hr
    simp only [posns, List.map_map]
    exact List.map_congr_left fun i hi => hσ i (hin r hr i hi)
  have hlt : ∀ r ∈ t, ∀ i ∈ r.map σ, i < p'.length := by
    intro r hr i hi
    obtain ⟨j, hj, rfl⟩ := List.mem_map.1 hi
    have := hσ j (hin r hr j hj)
    rw [List.getElem?_eq_getElem (hin r hr j hj)] at this
    exact (List.getElem?_eq_some_iff.1 this).1
  refine ⟨σ, hperm, hσ, fun r hr => ?_, fun r' hr' => ?_⟩
  · obtain ⟨r', hr', hp⟩ := h.2 r hr
    exact ⟨r', hr', posns_perm hn' (hin' r' hr') (hlt r hr) (by rw [key r hr]; exact hp)⟩
  · obtain ⟨r, hr, hp⟩ := h.1 r' hr'
    exact ⟨r, hr, posns_perm hn' (hin' r' hr') (hlt r hr) (by rw [key r hr]; exact hp)⟩

end cells

/-- `σ` on the positions below `n`, the identity elsewhere. -/
def extend (σ : ℕ → ℕ) (n i : ℕ) : ℕ := if i < n then σ i else i

theorem extend_inj {σ : ℕ → ℕ} {n : ℕ} (h : Renames σ n) : Function.Injective (extend σ n) := by
  intro i j e
  unfold extend at e
  split_ifs at e with hi hj hj
  · exact h.inj i hi j hj e
  · exact absurd (e ▸ h.lt i hi) hj
  · exact absurd (e ▸ h.lt j hj) hi
  · exact e

/-- The same mesh with different cells is a renumbered mesh in the sense of C101. -/
theorem renumbered_of_same {P : Type} {σ : ℕ → ℕ} {p p' : List P} {t t' : List (List ℕ)} (hσ : Renames σ p.length) (hin : InRange p t)
    (hd : t.Pairwise fun r s => ¬ r.Perm s) (hd' : t'.Pairwise fun r s => ¬ r.Perm s) (h : SameMesh σ p t p' t') : Renumbered (extend σ p.length) t t' := by
  classical
  have hmap : ∀ r ∈ t, r.map (extend σ p.length) = r.map σ := fun r hr => List.map_congr_left fun i hi => if_pos (hin r hr i hi)
  have hinj := extend_inj hσ
  have hb : ∀ r' ∈ t', ∃ r, r ∈ t ∧ r'.Perm (r.map (extend σ p.length)) := by
    intro r' hr'
    obtain ⟨r, hr, hp⟩ := h.back r' hr'
    exact ⟨r, hr, by rw [hmap r hr]; exact hp⟩
  choose! g hg1 hg2 using hb
  refine ⟨t'.map fun r' => (g r').map (extend σ p.length), ?_, ?_⟩
  · rw [List.forall₂_map_left_iff]
    exact List.forall₂_same.2 fun r' hr' => (hg2 r' hr').symm
  · refine (List.perm_ext_iff_of_nodup ?_ ?_).2 fun x => ⟨fun hx => ?_, fun hx => ?_⟩
    · have := List.Pairwise.and_mem.1 hd'
      refine List.pairwise_map.2 (this.imp ?_)
      rintro a b ⟨ha, hb, hab⟩ e
      exact hab ((hg2 a ha).trans (by rw [e]; exact (hg2 b hb).symm))
    · refine List.pairwise_map.2 (hd.imp ?_)
      intro a b hab e
      rw [(List.map_injective_iff.2 hinj) e] at hab
      exact hab (List.Perm.refl _)
    · obtain ⟨r', hr', rfl⟩ := List.mem_map.1 hx
      exact List.mem_map.2 ⟨_, hg1 r' hr', rfl⟩
    · obtain ⟨r, hr, rfl⟩ := List.mem_map.1 hx
      obtain ⟨r', hr', hp⟩ := h.cells r hr
      refine List.mem_map.2 ⟨r', hr', ?_⟩
      have hpp : (g r').Perm r := (List.map_perm_map_iff hinj).1 ((hg2 r' hr').symm.trans (by rw [hmap r hr]; exact hp))
      by_cases e : g r' = r
      · rw [e]
      · exfalso
        have : Std.Symm fun r s : List ℕ => ¬ r.Perm s := ⟨fun _ _ hab hba => hab hba.symm⟩
        exact hd.forall (hg1 r' hr') hr e hpp

/-! ### The level-set improvement of renumbered meshes -/

theorem bv_ok (hd : d = 2 ∨ d = 3) {rk : List ℕ → ρ} (hrk : Function.Injective rk) {t : List (List ℕ)} (ht : Simplices (d + 1) t) :
    ∃ bv, getBoundaryVertices rk t d = .ok bv ∧ ∀ v, v ∈ bv ↔ OnBoundary d t v := by
  rcases hd with rfl | rfl
  · obtain ⟨bv, h1, -, h2⟩ := C35_boundary_vertices2 hrk ht
    exact ⟨bv, h1, by simpa [OnBoundary] using h2⟩
  · obtain ⟨bv, h1, -, h2⟩ := C35_boundary_vertices3 hrk ht
    exact ⟨bv, h1, by simpa [OnBoundary] using h2⟩

theorem onBoundary_lt {n : ℕ} {t : List (List ℕ)} (h : ∀ r ∈ t, ∀ i ∈ r, i < n) {v : ℕ} (hv : OnBoundary d t v) : v < n := by
  unfold OnBoundary at hv
  split_ifs at hv
  · obtain ⟨w, -, hw⟩ := hv
    obtain ⟨r, hr, hvr⟩ := (shared_pos_of (by omega : 0 < shared t v w)).1
    exact h r hr v hvr
  · obtain ⟨a, b, -, -, -, hw⟩ := hv
    have h0 : 0 < shared3 t v a b := by omega
    rw [shared3, List.countP_pos_iff] at h0
    obtain ⟨r, hrt, hrv⟩ := h0
    simp at hrv
    exact h r hrt v hrv.1

theorem improveLoop_same {fd : (Fin d → ℝ) → ℝ} {deps : ℝ} {σ : ℕ → ℕ} {bid bid' : List ℕ} : ∀ (n k : ℕ) (alpha : ℝ) {p p' : List (Fin d → ℝ)},
    Moved σ p p' → (∀ i ∈ bid, i < p.length) → (∀ i ∈ bid', i < p.length) → (∀ i < p.length, σ i ∈ bid' ↔ i ∈ bid) →
    ∃ q q', Project.improveLoop fd deps bid n k alpha p = .ok q ∧ Project.improveLoop fd deps bid' n k alpha p' = .ok q' ∧ q.length = p.length ∧ Moved σ q q'
  | 0, k, alpha, p, p', hm, _, _, _ => ⟨p, p', rfl, rfl, rfl, hm⟩
  | n + 1, k, alpha, p, p', hm, hb, hb', hiff => by
    obtain ⟨q, h1, h2, h3⟩ := Project.improveStep_spec (fd := fd) (deps := deps) (alpha := alpha) hb
    obtain ⟨q', h1', h2', h3'⟩ := Project.improveStep_spec (fd := fd) (deps := deps) (alpha := alpha) (p := p') (bid := bid') (by rw [hm.1]; exact hb')
    have hm' : Moved σ q q' := by
      refine ⟨by rw [h2', hm.1, h2], fun i hi => ?_⟩
      rw [h2] at hi
      have e := List.getElem?_eq_getElem hi
      rw [h3 i _ e, h3' (σ i) _ ((hm.2 i hi).trans e)]
      simp only [hiff i hi]
    obtain ⟨r, r', g1, g2, g3, g4⟩ := improveLoop_same (fd := fd) (deps := deps) n (k + 1) (alpha / ((k : ℝ) + 1)) hm' (by rw [h2]; exact hb) (by rw [h2]; exact hb')
      (by rw [h2]; exact hiff)
    exact ⟨r, r', by simp only [Project.improveLoop, h1, bind, Except.bind, g1], by simp only [Project.improveLoop, h1', bind, Except.bind, g2], g3.trans h2, g4⟩

/-- The level-set improvement of a renumbered mesh is the renumbered improvement. -/
theorem improve_same (hd : d = 2 ∨ d = 3) {rk : List ℕ → ρ} (hrk : Function.Injective rk) (fd : (Fin d → ℝ) → ℝ) (deps : ℝ) {σ : ℕ → ℕ}
    {p p' : List (Fin d → ℝ)} {t t' : List (List ℕ)} (hσ : Renames σ p.length) (hin : InRange p t) (hs : Simplices (d + 1) t) (hdis : t.Pairwise fun r s => ¬ r.Perm s)
    (hdis' : t'.Pairwise fun r s => ¬ r.Perm s) (h : SameMesh σ p t p' t') :
    ∃ q q', Project.improve rk fd deps p t = .ok q ∧ Project.improve rk fd deps p' t' = .ok q' ∧ q.length = p.length ∧ SameMesh σ q t q' t' := by
  have hinj := extend_inj hσ
  have hren := renumbered_of_same hσ hin hdis hdis' h
  have hs' := hren.simplices hinj hs
  obtain ⟨bv, h1, h2⟩ := bv_ok hd hrk hs
  obtain ⟨bv', h1', h2'⟩ := bv_ok hd hrk hs'
  have hlen := h.vertices.length_eq
  obtain ⟨q, q', g1, g2, g3, g4⟩ := improveLoop_same (fd := fd) (deps := deps) (bid := bv) (bid' := bv') 5 0 1 (Moved.of_same h)
    (fun i hi => onBoundary_lt hin ((h2 i).1 hi)) (fun i hi => by rw [← hlen]; exact onBoundary_lt (h.inRange hin) ((h2' i).1 hi)) (fun i hi => by
      rw [h2, h2', hren.onBoundary hinj]
      constructor
      · rintro ⟨v, e, hv⟩
        have hv' := onBoundary_lt hin hv
        simp only [extend, hv', if_true] at e
        rwa [← hσ.inj v hv' i hi e]
      · intro hb
        exact ⟨i, by simp [extend, hi], hb⟩)
  refine ⟨q, q', by simp only [Project.improve, h1, bind, Except.bind, g1], by simp only [Project.improve, h1', bind, Except.bind, g2], g3, ?_⟩
  exact ⟨g4.perm (by rw [g3]; exact hσ), g4.2, h.cells, h.back⟩

/-! ### The clean-up of the translated mesh -/

/-- The cells of the mesh `q`, `t` are the rows `K` with vertex `i` at `x i`. -/
def CellsAt (x : ℕ → Fin d → ℝ) (K : List (List ℕ)) (q : List (Fin d → ℝ)) (t : List (List ℕ)) : Prop :=
  (∀ r' ∈ t, ∃ r ∈ K, (posns q r').Perm (r.map fun i => some (x i))) ∧ ∀ r ∈ K, ∃ r' ∈ t, (posns q r').Perm (r.map fun i => some (x i))

theorem posns_map {P Q : Type} (φ : P → Q) (p : List P) (r : List ℕ) : posns (p.map φ) r = (posns p r).map (Option.map φ) := by
  simp [posns, List.map_map, Function.comp_def]

theorem CellsAt.same {x : ℕ → Fin d → ℝ} {K : List (List ℕ)} {q q' : List (Fin d → ℝ)} {t t' : List (List ℕ)} {φ : (Fin d → ℝ) → Fin d → ℝ}
    (h : CellsAt x K q t) (h' : CellsAt (fun i => φ (x i)) K q' t') : SameCells (q.map φ) t q' t' := by
  have key : ∀ {r r0 : List ℕ}, (posns q r).Perm (r0.map fun i => some (x i)) → (posns (q.map φ) r).Perm (r0.map fun i => some (φ (x i))) := by
    intro r r0 hp
    have := hp.map (Option.map φ)
    rw [← posns_map, List.map_map] at this
    exact this
  constructor
  · intro r' hr'
    obtain ⟨r0, h0, hp⟩ := h'.1 r' hr'
    obtain ⟨r, hr, hq⟩ := h.2 r0 h0
    exact ⟨r, hr, hp.trans (key hq).symm⟩
  · intro r hr
    obtain ⟨r0, h0, hp⟩ := h.1 r hr
    obtain ⟨r', hr', hq⟩ := h'.2 r0 h0
    exact ⟨r', hr', hq.trans (key hp).symm⟩

/-- A clean mesh: distinct vertices, all used, and distinct cells of `d + 1` distinct vertices. -/
structure CleanMesh (q : List (Fin d → ℝ)) (t : List (List ℕ)) : Prop where
  nodup : q.Nodup
  inRange : InRange q t
  used : ∀ i < q.length, ∃ r ∈ t, i ∈ r
  distinct : t.Pairwise fun r s => ¬ r.Perm s
  simplices : Simplices (d + 1) t

theorem CleanMesh.map {φ : (Fin d → ℝ) → Fin d → ℝ} (hφ : Function.Injective φ) {q : List (Fin d → ℝ)} {t : List (List ℕ)} (h : CleanMesh q t) :
    CleanMesh (q.map φ) t :=
  ⟨h.nodup.map hφ, fun r hr i hi => by rw [List.length_map]; exact h.inRange r hr i hi, fun i hi => h.used i (by simpa using hi), h.distinct, h.simplices⟩

/-- What `fix_mesh` returns is clean, except for degenerate cells; a cell is left if there was one. -/
theorem fixed_clean {T : Tools d κ ρ} (hrk : Function.Injective T.rk) {p p' : List (Fin d → ℝ)} {t t' : List (List ℕ)} (h : fixed T p t = .ok (p', t')) :
    p ≠ [] ∧ p'.Nodup ∧ InRange p' t' ∧ (∀ i < p'.length, ∃ r ∈ t', i ∈ r) ∧ (t'.Pairwise fun r s => ¬ r.Perm s) ∧ (t ≠ [] → t' ≠ []) := by
  cases p with
  | nil => simp [fixed, fixMeshK, bind, Except.bind] at h
  | cons x0 ps =>
    unfold fixed at h
    simp only [bind, Except.bind, pure, Except.pure] at h
    split at h
    · simp at h
    rename_i x hx
    obtain ⟨a, b, c⟩ := x
    simp only [Except.ok.injEq, Prod.mk.injEq] at h
    obtain ⟨rfl, rfl⟩ := h
    have hx' : fixMesh (keyOf T.enc T.ptol (x0 :: ps)) T.rk T.vol (x0 :: ps) t true true = .ok (a, b, c) := hx
    obtain ⟨hp, ht⟩ := fixMesh_inRange hx'
    obtain ⟨q1, u1, j1, e1, hin, hus, hrows, hkeys⟩ := C31_clean (keyOf T.enc T.ptol (x0 :: ps)) hrk T.vol hp ht true
    obtain ⟨q2, u2, j2, e2, hc⟩ := fixMesh_run (keyOf T.enc T.ptol (x0 :: ps)) hrk T.vol hp ht true true
    rw [hx'] at e1 e2
    cases e1
    cases e2
    refine ⟨hp, hkeys.imp fun hab e => hab (by rw [e]), hin, hus, hrows, fun hne => ?_⟩
    obtain ⟨r, hr⟩ := List.exists_mem_of_ne_nil _ hne
    obtain ⟨r', hr', -⟩ := hc.1.bwd r hr
    exact List.ne_nil_of_mem hr'

theorem CellsAt.simplices {x : ℕ → Fin d → ℝ} {K : List (List ℕ)} {q : List (Fin d → ℝ)} {t : List (List ℕ)} (h : CellsAt x K q t) {n : ℕ} (hK : Simplices n K)
    (hx : ∀ r ∈ K, ∀ i ∈ r, ∀ j ∈ r, x i = x j → i = j) : Simplices n t := by
  intro r' hr'
  obtain ⟨r, hr, hp⟩ := h.1 r' hr'
  have hl : r'.length = r.length := by simpa [posns] using hp.length_eq
  refine ⟨hl.trans (hK r hr).1, ?_⟩
  have : (posns q r').Nodup := by
    refine hp.nodup_iff.2 ((List.nodup_map_iff_inj_on (hK r hr).2).2 fun i hi j hj e => hx r hr i hi j hj (Option.some.inj e))
  exact List.Nodup.of_map _ this

/-- What the last pass of the two runs must do for the translation to carry over. -/
structure TermMoved (φ : (Fin d → ℝ) → Fin d → ℝ) (T : Tools d κ ρ) (o : TermOpts) (p : List (Fin d → ℝ)) (t : List (List ℕ)) : Prop where
  ok : ∀ q u, termination T 0 1 false o p t = .ok (q, u) → ∃ q' u', termination T 0 1 false o (p.map φ) t = .ok (q', u') ∧ SameCells (q.map φ) u q' u' ∧
    CleanMesh q u ∧ CleanMesh q' u'
  error : ∀ e, termination T 0 1 false o p t = .error e → ∃ e', termination T 0 1 false o (p.map φ) t = .error e'

variable {v : Fin d → ℝ}

theorem chg_one_inj (v : Fin d → ℝ) : Function.Injective (chg 1 v) := by
  intro x y h
  funext k
  have := congrFun h k
  simpa [chg] using this

theorem apart_chg {ptol : ℝ} {p : List (Fin d → ℝ)} (h : Apart ptol p) (v : Fin d → ℝ) : Apart ptol (p.map (chg 1 v)) := by
  obtain ⟨hn, L, h1, h2⟩ := h
  have e : ∀ x y : Fin d → ℝ, ∀ k, chg 1 v x k - chg 1 v y k = x k - y k := by intro x y k; simp [chg]
  refine ⟨hn.map (chg_one_inj v), L, ?_, ?_⟩
  · intro x hx y hy k
    obtain ⟨x', hx', rfl⟩ := List.mem_map.1 hx
    obtain ⟨y', hy', rfl⟩ := List.mem_map.1 hy
    rw [e]; exact h1 x' hx' y' hy' k
  · intro x hx y hy hne
    obtain ⟨x', hx', rfl⟩ := List.mem_map.1 hx
    obtain ⟨y', hy', rfl⟩ := List.mem_map.1 hy
    obtain ⟨k, hk⟩ := h2 x' hx' y' hy' fun h => hne (by rw [h])
    exact ⟨k, by rw [e]; exact hk⟩

theorem inRange_map {φ : (Fin d → ℝ) → Fin d → ℝ} {p : List (Fin d → ℝ)} {t : List (List ℕ)} (h : InRange p t) : InRange (p.map φ) t :=
  fun r hr i hi => by rw [List.length_map]; exact h r hr i hi

theorem posns_getD {p : List (Fin d → ℝ)} {r : List ℕ} (h : ∀ i ∈ r, i < p.length) : posns p r = r.map fun i => some (p.getD i 0) := by
  refine List.map_congr_left fun i hi => ?_
  rw [List.getD_eq_getElem?_getD, List.getElem?_eq_getElem (h i hi)]
  rfl

theorem getD_map {φ : (Fin d → ℝ) → Fin d → ℝ} {p : List (Fin d → ℝ)} {i : ℕ} (h : i < p.length) : (p.map φ).getD i 0 = φ (p.getD i 0) := by
  simp [List.getD_eq_getElem?_getD, h]

theorem getD_inj {p : List (Fin d → ℝ)} (hn : p.Nodup) {i j : ℕ} (hi : i < p.length) (hj : j < p.length) (e : p.getD i 0 = p.getD j 0) : i = j := by
  simp only [List.getD_eq_getElem?_getD, List.getElem?_eq_getElem hi, List.getElem?_eq_getElem hj, Option.getD_some] at e
  exact (List.Nodup.getElem_inj_iff hn).1 e

theorem cellsAt_points {p q : List (Fin d → ℝ)} {K t : List (List ℕ)} (hin : InRange p K) (h1 : ∀ r' ∈ t, ∃ r ∈ K, (posns q r').Perm (posns p r))
    (h2 : ∀ r ∈ K, ∃ r' ∈ t, (posns q r').Perm (posns p r)) : CellsAt (fun i => p.getD i 0) K q t := by
  refine ⟨fun r' hr' => ?_, fun r hr => ?_⟩
  · obtain ⟨r, hr, hp⟩ := h1 r' hr'
    exact ⟨r, hr, by rw [← posns_getD (hin r hr)]; exact hp⟩
  · obtain ⟨r', hr', hp⟩ := h2 r hr
    exact ⟨r', hr', by rw [← posns_getD (hin r hr)]; exact hp⟩

theorem CellsAt.congr {x y : ℕ → Fin d → ℝ} {K t : List (List ℕ)} {q : List (Fin d → ℝ)} (h : CellsAt x K q t) (he : ∀ r ∈ K, ∀ i ∈ r, x i = y i) :
    CellsAt y K q t := by
  have e : ∀ r ∈ K, (r.map fun i => some (x i)) = r.map fun i => some (y i) := fun r hr => List.map_congr_left fun i hi => by rw [he r hr i hi]
  refine ⟨fun r' hr' => ?_, fun r hr => ?_⟩
  · obtain ⟨r, hr, hp⟩ := h.1 r' hr'
    exact ⟨r, hr, by rw [← e r hr]; exact hp⟩
  · obtain ⟨r', hr', hp⟩ := h.2 r hr
    exact ⟨r', hr', by rw [← e r hr]; exact hp⟩

theorem cellsAt_moved {p q : List (Fin d → ℝ)} {K t : List (List ℕ)} (hin : InRange p K) (v : Fin d → ℝ)
    (h : CellsAt (fun i => (p.map (chg 1 v)).getD i 0) K q t) : CellsAt (fun i => chg 1 v (p.getD i 0)) K q t :=
  h.congr fun r hr i hi => getD_map (hin r hr i hi)

/-- Three dimensions, without checks. -/
theorem termMoved3 {T : Tools 3 κ ρ} (henc : Function.Injective T.enc) (hrk : Function.Injective T.rk) (hpt : 0 < T.ptol) {o : TermOpts}
    (hchk : o.performChecks = false) {p : List (Fin 3 → ℝ)} {t : List (List ℕ)} (hap : Apart T.ptol p) (hin : InRange p t) (hs : Simplices 4 t)
    (v : Fin 3 → ℝ) : TermMoved (chg 1 v) T o p t := by
  have hterm : ∀ p, termination T 0 1 false o p t = fixed T p t := by
    intro p
    unfold termination
    simp [hchk, bind, Except.bind, pure, Except.pure]
  have clean : ∀ {p q : List (Fin 3 → ℝ)} {u : List (List ℕ)}, Apart T.ptol p → InRange p t → fixed T p t = .ok (q, u) →
      CellsAt (fun i => p.getD i 0) t q u ∧ CleanMesh q u := by
    intro p q u hap hin hf
    obtain ⟨hc, -, h1, h2, h3, h4⟩ := fixed_same henc hrk hpt hap (fun _ h => h) hf
    have hcell := cellsAt_points hin hc.1 hc.2
    exact ⟨hcell, h1, h2, h3, h4, hcell.simplices hs fun r hr i hi j hj e => getD_inj hap.1 (hin r hr i hi) (hin r hr j hj) e⟩
  refine ⟨fun q u h => ?_, fun e h => ?_⟩
  · rw [hterm] at h
    have hp := (fixed_clean hrk h).1
    obtain ⟨q', u', h'⟩ := fixed_succeeds (T := T) hrk (p := p.map (chg 1 v)) (by simpa using hp) (inRange_map hin)
    obtain ⟨c1, c2⟩ := clean hap hin h
    obtain ⟨c1', c2'⟩ := clean (apart_chg hap v) (inRange_map hin) h'
    exact ⟨q', u', by rw [hterm]; exact h', c1.same (cellsAt_moved hin v c1'), c2, c2'⟩
  · rw [hterm] at h ⊢
    by_cases hp : p = []
    · subst hp
      exact ⟨e, h⟩
    · obtain ⟨q, u, h'⟩ := fixed_succeeds (T := T) hrk hp hin
      rw [h] at h'
      simp at h'

theorem poor_chg {v : Fin 2 → ℝ} {qual : List (Fin 2 → ℝ) → ℝ} (hq : ∀ vs, qual (vs.map (chg 1 v)) = qual vs) (p : List (Fin 2 → ℝ)) (t : List (List ℕ)) (m : ℝ)
    (r : List ℕ) : Poor qual 2 (p.map (chg 1 v)) t m r ↔ Poor qual 2 p t m r := by
  unfold Poor
  refine and_congr_right fun _ => ?_
  simp only [← take_spec, Units.take_map]
  constructor
  · rintro ⟨vs', h, hlt⟩
    cases ht : Np.take p r with
    | error e => rw [ht] at h; simp [Except.map] at h
    | ok vs =>
      rw [ht] at h
      simp only [Except.map, Except.ok.injEq] at h
      exact ⟨vs, rfl, by rw [← hq, h]; exact hlt⟩
  · rintro ⟨vs, h, hlt⟩
    exact ⟨vs.map (chg 1 v), by rw [h]; rfl, by rw [hq]; exact hlt⟩

theorem kept_chg {v : Fin 2 → ℝ} {qual : List (Fin 2 → ℝ) → ℝ} (hq : ∀ vs, qual (vs.map (chg 1 v)) = qual vs) (p : List (Fin 2 → ℝ)) (t : List (List ℕ)) :
    kept qual (p.map (chg 1 v)) t = kept qual p t := by
  unfold kept
  refine List.filter_congr fun r _ => ?_
  exact decide_eq_decide.2 (not_congr (poor_chg hq p t _ r))

/-- If the 2-D clean-up succeeds, its last step is a `fix_mesh` of a mesh with at least one triangle. -/
theorem termination_last {T : Tools 2 κ ρ} (hrk : Function.Injective T.rk) {o : TermOpts} (hchk : o.performChecks = false)
    {p p' : List (Fin 2 → ℝ)} {t t' : List (List ℕ)} (h : termination T 0 1 false o p t = .ok (p', t')) :
    p'.Nodup ∧ InRange p' t' ∧ (∀ i < p'.length, ∃ r ∈ t', i ∈ r) ∧ (t'.Pairwise fun r s => ¬ r.Perm s) ∧ t' ≠ [] := by
  have key : ∃ p2 t2 p3 t3 p4, fixed T p t = .ok (p2, t2) ∧
      deleteBoundaryEntities (keyOf T.enc T.ptol p2) T.rk T.vol T.qual T.srt p2 t2 2 0.15 = .ok (p3, t3) ∧ fixed T p4 t3 = .ok (p', t') ∧ p4.length = p3.length := by
    by_cases hs : o.subdomainsNone = true ∧ o.meshImprovement = true
    · obtain ⟨p2, t2, p3, t3, A, b, h1, h2, -, h4⟩ := termination_smooth hs.1 hs.2 hchk h
      exact ⟨p2, t2, p3, t3, _, h1, h2, h4, by simp⟩
    · have hb : (o.subdomainsNone && o.meshImprovement) = false := by
        rw [Bool.eq_false_iff]; simpa using hs
      have h' : termination T 0 1 false ⟨false, o.meshImprovement, o.performChecks⟩ p t = .ok (p', t') := by
        unfold termination cleanup2 at h ⊢
        simpa [hb] using h
      obtain ⟨p2, t2, p3, t3, h1, h2, h3⟩ := termination_plain (o := ⟨false, o.meshImprovement, o.performChecks⟩) rfl hchk h'
      exact ⟨p2, t2, p3, t3, p3, h1, h2, h3, rfl⟩
  obtain ⟨p2, t2, p3, t3, p4, -, h2, h3, hl⟩ := key
  obtain ⟨hp, a1, a2, a3, a4, a5⟩ := fixed_clean hrk h3
  obtain ⟨-, -, hus, -⟩ := delete_clean hrk h2
  refine ⟨a1, a2, a3, a4, a5 ?_⟩
  have : 0 < p3.length := by rw [← hl]; exact List.length_pos_iff.2 hp
  obtain ⟨r, hr, -⟩ := hus 0 this
  exact List.ne_nil_of_mem hr

/-- Two dimensions, without smoothing and checks. -/
theorem termMoved2 {T : Tools 2 κ ρ} (henc : Function.Injective T.enc) (hrk : Function.Injective T.rk) (hsrt : IsArgsort T.srt)
    (hpt : 0 < T.ptol) (hqual : ∀ vs ws, vs.Perm ws → T.qual vs = T.qual ws) {o : TermOpts}
    (hno : o.subdomainsNone = false ∨ o.meshImprovement = false) (hchk : o.performChecks = false) {v : Fin 2 → ℝ} (hqv : ∀ vs, T.qual (vs.map (chg 1 v)) = T.qual vs)
    {p : List (Fin 2 → ℝ)} {t : List (List ℕ)} (hap : Apart T.ptol p) (hin : InRange p t) (hs : Simplices 3 t)
    (hd : t.Pairwise fun r s => ¬ r.Perm s) : TermMoved (chg 1 v) T o p t := by
  have clean : ∀ {p q : List (Fin 2 → ℝ)} {u : List (List ℕ)}, Apart T.ptol p → InRange p t → termination T 0 1 false o p t = .ok (q, u) →
      CellsAt (fun i => p.getD i 0) (kept T.qual p t) q u ∧ CleanMesh q u := by
    intro p q u hap hin hf
    obtain ⟨h1, h2⟩ := C116_termination henc hrk hsrt hpt hqual hno hchk hap hin hs hd hf
    obtain ⟨a1, a2, a3, a4, -⟩ := termination_last hrk hchk hf
    have hK : InRange p (kept T.qual p t) := fun r hr => hin r (mem_kept.1 hr).1
    have hcell : CellsAt (fun i => p.getD i 0) (kept T.qual p t) q u := cellsAt_points hK
      (fun r' hr' => by obtain ⟨r, hr, hg, hp⟩ := h1 r' hr'; exact ⟨r, mem_kept.2 ⟨hr, hg⟩, hp⟩)
      (fun r hr => h2 r (mem_kept.1 hr).1 (mem_kept.1 hr).2)
    exact ⟨hcell, a1, a2, a3, a4, hcell.simplices (fun r hr => hs r (mem_kept.1 hr).1) fun r hr i hi j hj e => getD_inj hap.1 (hK r hr i hi) (hK r hr j hj) e⟩
  refine ⟨fun q u h => ?_, fun e h => ?_⟩
  · obtain ⟨c1, c2⟩ := clean hap hin h
    obtain ⟨r', hr'⟩ := List.exists_mem_of_ne_nil _ (termination_last hrk hchk h).2.2.2.2
    obtain ⟨r0, hr0, -⟩ := c1.1 r' hr'
    obtain ⟨q', u', h'⟩ := C116_succeeds (p := p.map (chg 1 v)) henc hrk hsrt hpt hqual hno hchk (apart_chg hap v) (inRange_map hin) hs hd (mem_kept.1 hr0).1
      (by rw [poor_chg hqv]; exact (mem_kept.1 hr0).2)
    obtain ⟨c1', c2'⟩ := clean (apart_chg hap v) (inRange_map hin) h'
    rw [kept_chg hqv] at c1'
    exact ⟨q', u', h', c1.same (cellsAt_moved (fun r hr => hin r (mem_kept.1 hr).1) v c1'), c2, c2'⟩
  · cases h' : termination T 0 1 false o (p.map (chg 1 v)) t with
    | error e' => exact ⟨e', rfl⟩
    | ok x =>
      obtain ⟨q', u'⟩ := x
      obtain ⟨c1, -⟩ := clean (apart_chg hap v) (inRange_map hin) h'
      obtain ⟨r', hr'⟩ := List.exists_mem_of_ne_nil _ (termination_last hrk hchk h').2.2.2.2
      obtain ⟨r0, hr0, -⟩ := c1.1 r' hr'
      rw [kept_chg hqv] at hr0
      obtain ⟨q, u, h2⟩ := C116_succeeds henc hrk hsrt hpt hqual hno hchk hap hin hs hd (mem_kept.1 hr0).1 (mem_kept.1 hr0).2
      rw [h] at h2
      simp at h2

theorem smooth_cast {n m : ℕ} (h : n = m) {ents : List (List ℕ)} {f g : ℕ → Fin 2 → ℝ} (hs : Smooth ents (fun i : Fin n => f i) fun i : Fin n => g i) :
    Smooth ents (fun i : Fin m => f i) fun i : Fin m => g i := by
  subst h
  exact hs

theorem smooth_chg {p : List (Fin 2 → ℝ)} {ents : List (List ℕ)} {x : ℕ → Fin 2 → ℝ} (v : Fin 2 → ℝ)
    (h : Smooth ents (fun i : Fin p.length => p.get i) fun i : Fin p.length => x i) :
    Smooth ents (fun i : Fin (p.map (chg 1 v)).length => (p.map (chg 1 v)).get i) fun i : Fin (p.map (chg 1 v)).length => chg 1 v (x i) := by
  have h1 : Smooth ents (fun i : Fin p.length => chg 1 v (p.getD i 0)) fun i : Fin p.length => chg 1 v (x i) := by
    refine ⟨fun i hi => ?_, fun i hi k => ?_⟩
    · simp only [h.boundary i hi]
      congr 1
      simp [List.getD_eq_getElem?_getD]
    · rw [← h.interior i hi k]
      refine Finset.sum_congr rfl fun j _ => ?_
      simp only [chg]
      ring
  have h2 := smooth_cast (f := fun i => chg 1 v (p.getD i 0)) (g := fun i => chg 1 v (x i)) (List.length_map (as := p) (chg 1 v)).symm h1
  have e : (fun i : Fin (p.map (chg 1 v)).length => (p.map (chg 1 v)).get i) = fun i : Fin (p.map (chg 1 v)).length => chg 1 v (p.getD i 0) := by
    funext i
    have hi : (i : ℕ) < p.length := by simpa using i.2
    simp [List.getD_eq_getElem?_getD, hi]
  rw [e]
  exact h2

theorem spread_chg {ptol : ℝ} {t : List (List ℕ)} {x : ℕ → Fin 2 → ℝ} (v : Fin 2 → ℝ) (h : Spread ptol t x) : Spread ptol t fun i => chg 1 v (x i) := by
  have e : ∀ i j k, chg 1 v (x i) k - chg 1 v (x j) k = x i k - x j k := by intro i j k; simp [chg]
  obtain ⟨L, h1, h2⟩ := h
  refine ⟨L, fun i j hi hj k => ?_, fun i j hi hj hne => ?_⟩
  · rw [e]; exact h1 i j hi hj k
  · obtain ⟨k, hk⟩ := h2 i j hi hj hne
    exact ⟨k, by rw [e]; exact hk⟩

theorem spread_inj {ptol : ℝ} (hpt : 0 < ptol) {t : List (List ℕ)} {x : ℕ → Fin 2 → ℝ} (h : Spread ptol t x) {i j : ℕ} (hi : Used t i) (hj : Used t j)
    (e : x i = x j) : i = j := by
  obtain ⟨L, h1, h2⟩ := h
  by_contra hne
  obtain ⟨k, hk⟩ := h2 i j hi hj hne
  have h0 : (0 : ℝ) ≤ L := (abs_nonneg _).trans (h1 i j hi hj k)
  rw [e, sub_self, abs_zero] at hk
  have := mul_nonneg hpt.le h0
  linarith

/-- Two dimensions, with smoothing (the default), without checks. -/
theorem termMoved2s {T : Tools 2 κ ρ} (henc : Function.Injective T.enc) (hrk : Function.Injective T.rk) (hsrt : IsArgsort T.srt)
    (hpt : 0 < T.ptol) (hqual : ∀ vs ws, vs.Perm ws → T.qual vs = T.qual ws) (hsolve : ∀ n A b, (∃ y, A * y = b) → A * T.solve n A b = b) {o : TermOpts}
    (hs1 : o.subdomainsNone = true) (hs2 : o.meshImprovement = true) (hchk : o.performChecks = false) {v : Fin 2 → ℝ}
    (hqv : ∀ vs, T.qual (vs.map (chg 1 v)) = T.qual vs) {p : List (Fin 2 → ℝ)} {t : List (List ℕ)} (hap : Apart T.ptol p) (hin : InRange p t)
    (hs : Simplices 3 t) (hd : t.Pairwise fun r s => ¬ r.Perm s) (hm : Moored (kept T.qual p t)) {x : ℕ → Fin 2 → ℝ}
    (hx : Smooth (kept T.qual p t) (fun i : Fin p.length => p.get i) fun i : Fin p.length => x i) (hsp : Spread T.ptol (kept T.qual p t) x) :
    TermMoved (chg 1 v) T o p t := by
  have clean : ∀ {p q : List (Fin 2 → ℝ)} {u : List (List ℕ)} {x : ℕ → Fin 2 → ℝ}, Apart T.ptol p → InRange p t → Moored (kept T.qual p t) →
      Smooth (kept T.qual p t) (fun i : Fin p.length => p.get i) (fun i : Fin p.length => x i) → Spread T.ptol (kept T.qual p t) x →
      termination T 0 1 false o p t = .ok (q, u) → CellsAt x (kept T.qual p t) q u ∧ CleanMesh q u := by
    intro p q u x hap hin hm hx hsp hf
    obtain ⟨h1, h2⟩ := C117_termination henc hrk hsrt hpt hqual hsolve hs1 hs2 hchk hap hin hs hd hm hx hsp hf
    obtain ⟨a1, a2, a3, a4, -⟩ := termination_last hrk hchk hf
    have hcell : CellsAt x (kept T.qual p t) q u :=
      ⟨fun r' hr' => by obtain ⟨r, hr, hg, hp⟩ := h1 r' hr'; exact ⟨r, mem_kept.2 ⟨hr, hg⟩, hp⟩,
        fun r hr => h2 r (mem_kept.1 hr).1 (mem_kept.1 hr).2⟩
    exact ⟨hcell, a1, a2, a3, a4, hcell.simplices (fun r hr => hs r (mem_kept.1 hr).1)
      fun r hr i hi j hj e => spread_inj hpt hsp ⟨r, hr, hi⟩ ⟨r, hr, hj⟩ e⟩
  have hk := kept_chg hqv p t
  have clean' : ∀ {q : List (Fin 2 → ℝ)} {u : List (List ℕ)}, termination T 0 1 false o (p.map (chg 1 v)) t = .ok (q, u) →
      CellsAt (fun i => chg 1 v (x i)) (kept T.qual p t) q u ∧ CleanMesh q u := by
    intro q u hf
    have := clean (x := fun i => chg 1 v (x i)) (apart_chg hap v) (inRange_map hin) (by rw [hk]; exact hm) (by rw [hk]; exact smooth_chg v hx)
      (by rw [hk]; exact spread_chg v hsp) hf
    rwa [hk] at this
  refine ⟨fun q u h => ?_, fun e h => ?_⟩
  · obtain ⟨c1, c2⟩ := clean hap hin hm hx hsp h
    obtain ⟨r', hr'⟩ := List.exists_mem_of_ne_nil _ (termination_last hrk hchk h).2.2.2.2
    obtain ⟨r0, hr0, -⟩ := c1.1 r' hr'
    obtain ⟨q', u', h'⟩ := C117_succeeds (p := p.map (chg 1 v)) henc hrk hsrt hpt hqual hs1 hs2 hchk (apart_chg hap v) (inRange_map hin) hs hd
      (mem_kept.1 hr0).1 (by rw [poor_chg hqv]; exact (mem_kept.1 hr0).2)
    obtain ⟨c1', c2'⟩ := clean' h'
    exact ⟨q', u', h', c1.same c1', c2, c2'⟩
  · cases h' : termination T 0 1 false o (p.map (chg 1 v)) t with
    | error e' => exact ⟨e', rfl⟩
    | ok y =>
      obtain ⟨q', u'⟩ := y
      obtain ⟨c1, -⟩ := clean' h'
      obtain ⟨r', hr'⟩ := List.exists_mem_of_ne_nil _ (termination_last hrk hchk h').2.2.2.2
      obtain ⟨r0, hr0, -⟩ := c1.1 r' hr'
      obtain ⟨q, u, h2⟩ := C117_succeeds henc hrk hsrt hpt hqual hs1 hs2 hchk hap hin hs hd (mem_kept.1 hr0).1 (mem_kept.1 hr0).2
      rw [h] at h2
      simp at h2

/-! ### The last pass and the loop -/

theorem calmImprove_one (f : (Fin d → ℝ) → ℝ) (deps : ℝ) (bid : List ℕ) : ∀ (n it : ℕ) (alpha : ℝ) (p : List (Fin d → ℝ)), CalmImprove 1 f deps bid n it alpha p
  | 0, _, _, _ => trivial
  | n + 1, it, _, _ => ⟨fun _ _ _ _ => .inl rfl, fun _ _ => calmImprove_one f deps bid n (it + 1) _ _⟩

theorem calmAll_one (deps h0 : ℝ) : ∀ (idx : ℕ) (ls : List ((Fin d → ℝ) → ℝ)) (p : List (Fin d → ℝ)), CalmAll 1 deps h0 idx ls p
  | _, [], _ => trivial
  | idx, _ :: ls, _ => ⟨fun _ _ _ => .inl rfl, calmAll_one deps h0 (idx + 1) ls _⟩

theorem improve_moved {rk : List ℕ → ρ} {f f' : (Fin d → ℝ) → ℝ} (hf : ∀ x, f' (chg 1 v x) = 1 * f x) (deps : ℝ) (p : List (Fin d → ℝ)) (t : List (List ℕ)) :
    Project.improve rk f' deps (p.map (chg 1 v)) t = (Project.improve rk f deps p t).map (List.map (chg 1 v)) := by
  unfold Project.improve
  simp only [bind, Except.bind]
  cases getBoundaryVertices rk t d with
  | error e => rfl
  | ok bid =>
    simp only []
    have := improveLoop_map one_pos hf 5 0 1 (calmImprove_one f deps bid 5 0 1 p)
    rwa [one_mul] at this

/-- The last pass of the two runs. -/
theorem finish_moved (hd : d = 2 ∨ d = 3) {E E' : Env d κ ρ} (h : EnvMove 1 v E E') (hT : E'.tools = E.tools) (hrank : E.rank = 0)
    (hrk : Function.Injective E.tools.rk) {p : List (Fin d → ℝ)} {t : List (List ℕ)} (ht : TermMoved (chg 1 v) E.tools E.opts p t) :
    (∀ q u, finish E p t = .ok (q, u) → ∃ q' u' σ, finish E' (p.map (chg 1 v)) t = .ok (q', u') ∧ SameMesh σ (q.map (chg 1 v)) u q' u') ∧
      ∀ e, finish E p t = .error e → ∃ e', finish E' (p.map (chg 1 v)) t = .error e' := by
  have hdeps : E'.deps = E.deps := by rw [h.deps, one_mul]
  have hh0 : E'.h0 = E.h0 := by rw [h.h0, one_mul]
  have key : ∀ pc tc pc' tc', SameCells (pc.map (chg 1 v)) tc pc' tc' → CleanMesh pc tc → CleanMesh pc' tc' →
      ∃ q q' u u' σ, Project.improve E.tools.rk E.fd E.deps pc tc = .ok q ∧ Project.removeOutside E.fd (E.h0 * 0.001) q tc = .ok u ∧
        Project.improve E.tools.rk E'.fd E.deps pc' tc' = .ok q' ∧ Project.removeOutside E'.fd (E.h0 * 0.001) q' tc' = .ok u' ∧
        SameMesh σ (q.map (chg 1 v)) u q' u' := by
    intro pc tc pc' tc' hsame hc hc'
    have hcm := hc.map (chg_one_inj v)
    obtain ⟨σ, hσm⟩ := sameMesh_of_cells hcm.nodup hc'.nodup hcm.inRange hc'.inRange hcm.used hc'.used hsame
    obtain ⟨q1, q', g1, g2, g3, g4⟩ := improve_same hd hrk E'.fd E.deps (renames_of_same hcm.nodup hσm) hcm.inRange hcm.simplices hcm.distinct hc'.distinct hσm
    rw [improve_moved h.fd] at g1
    cases hq : Project.improve E.tools.rk E.fd E.deps pc tc with
    | error e => rw [hq] at g1; simp [Except.map] at g1
    | ok q =>
      rw [hq] at g1
      simp only [Except.map, Except.ok.injEq] at g1
      subst g1
      obtain ⟨u, u', k1, k2, k3, -⟩ := removeOutside_same (fd := E'.fd) (g := E.h0 * 0.001) (t := tc) (fun r hr i hi => by rw [g3]; exact hcm.inRange r hr i hi) g4
      have hrm := removeOutside_map (v := v) one_pos h.fd (E.h0 * 0.001) q (t := tc) fun r hr => (hc.simplices r hr).1
      rw [one_mul] at hrm
      exact ⟨q, q', u, u', σ, rfl, by rw [← hrm]; exact k1, g2, k2, k3⟩
  have hfin : ∀ p, finish E p t = (termination E.tools 0 1 false E.opts p t >>= fun x => Project.improve E.tools.rk E.fd E.deps x.1 x.2 >>= fun q =>
      Project.removeOutside E.fd (E.h0 * 0.001) q x.2 >>= fun u => .ok (q, u)) := by
    intro p
    unfold finish
    simp only [hrank, h.size, if_true]
    rfl
  have hfin' : ∀ p, finish E' p t = (termination E.tools 0 1 false E.opts p t >>= fun x => Project.improve E.tools.rk E'.fd E.deps x.1 x.2 >>= fun q =>
      Project.removeOutside E'.fd (E.h0 * 0.001) q x.2 >>= fun u => .ok (q, u)) := by
    intro p
    unfold finish
    simp only [h.rank, hrank, h.size', h.opts, hT, hdeps, hh0, if_true]
    rfl
  rw [hfin, hfin']
  cases hterm : termination E.tools 0 1 false E.opts p t with
  | error e =>
    obtain ⟨e', he'⟩ := ht.error e hterm
    rw [he']
    exact ⟨fun q u hq => by simp [bind, Except.bind] at hq, fun _ _ => ⟨e', rfl⟩⟩
  | ok x =>
    obtain ⟨pc, tc⟩ := x
    obtain ⟨pc', tc', h', hsame, hc, hc'⟩ := ht.ok pc tc hterm
    obtain ⟨q, q', u, u', σ, k1, k2, k3, k4, k5⟩ := key pc tc pc' tc' hsame hc hc'
    simp only [h', bind, Except.bind, k1, k2, k3, k4]
    refine ⟨fun q0 u0 h0 => ?_, fun e h0 => by simp at h0⟩
    simp only [Except.ok.injEq, Prod.mk.injEq] at h0
    obtain ⟨rfl, rfl⟩ := h0
    exact ⟨q', u', σ, rfl, k5⟩

/-- Outcomes of two runs that differ by the motion `φ`: moved points while running; at the end the moved mesh, except for the numbering of its vertices and
cells; or both raise an exception. -/
def MovedOutcome (φ : (Fin d → ℝ) → Fin d → ℝ) : Outcome d → Outcome d → Prop
  | .running s, .running s' => s'.count = s.count ∧ s'.tri = s.tri ∧ s'.p = s.p.map φ
  | .done p t k, .done p' t' k' => k' = k ∧ ∃ σ, SameMesh σ (p.map φ) t p' t'
  | .raised _, .raised _ => True
  | _, _ => False

/-- The last pass of a run that has reached `st` carries over to the moved run. -/
def LastMoved (v : Fin d → ℝ) (E : Env d κ ρ) (st : State d) : Prop :=
  (st.count : ℝ) = E.maxIter - 1 → ∀ t, Project.removeOutside E.fd E.geps (E.dt st.p).1 (E.dt st.p).2 = .ok t →
    TermMoved (chg 1 v) E.tools E.opts (E.dt st.p).1 t

theorem step_moved (hd : d = 2 ∨ d = 3) {E E' : Env d κ ρ} (h : EnvMove 1 v E E') (hT : E'.tools = E.tools) (hrank : E.rank = 0)
    (hrk : Function.Injective E.tools.rk) {st : State d} (hdt : DtOk (E.dt st.p)) (hl : LastMoved v E st) :
    MovedOutcome (chg 1 v) (step E st) (step E' ⟨st.count, st.p.map (chg 1 v), st.tri⟩) := by
  unfold step
  rw [topology_map one_pos h hdt]
  cases ht : topology E st with
  | error e => exact trivial
  | ok x =>
    obtain ⟨p, t, ifix, inv, r⟩ := x
    obtain ⟨hp, -, hrem⟩ := topology_serial h.size ht
    have hsub := (removeOutside_sublist hrem).subset
    simp only [Except.map, h.maxIter]
    by_cases hm : (st.count : ℝ) = E.maxIter - 1
    · simp only [if_pos hm]
      obtain ⟨h1, h2⟩ := finish_moved hd h hT hrank hrk (p := p) (t := t) (by rw [hp]; exact hl hm t hrem)
      cases hf : finish E p t with
      | error e =>
        obtain ⟨e', he'⟩ := h2 e hf
        rw [he']
        exact trivial
      | ok y =>
        obtain ⟨q, u⟩ := y
        obtain ⟨q', u', σ, h3, h4⟩ := h1 q u hf
        rw [h3]
        exact ⟨rfl, σ, h4⟩
    · simp only [if_neg hm]
      rw [move_map one_pos h ⟨hp ▸ hdt.nodup, fun r hr => hdt.cells r (hsub hr)⟩ fun F _ => calmAll_one _ _ _ _ _]
      cases move E p t ifix inv r
      · exact trivial
      · exact ⟨rfl, rfl, rfl⟩

theorem run_moved (hd : d = 2 ∨ d = 3) {E E' : Env d κ ρ} (h : EnvMove 1 v E E') (hT : E'.tools = E.tools) (hrank : E.rank = 0)
    (hrk : Function.Injective E.tools.rk) (n : ℕ) (st : State d) (hc : ∀ m st', run E m st = .running st' → DtOk (E.dt st'.p) ∧ LastMoved v E st') :
    MovedOutcome (chg 1 v) (run E n st) (run E' n ⟨st.count, st.p.map (chg 1 v), st.tri⟩) := by
  induction n generalizing st with
  | zero => exact ⟨rfl, rfl, rfl⟩
  | succ n ih =>
    unfold run
    have hs := step_moved hd h hT hrank hrk (hc 0 st rfl).1 (hc 0 st rfl).2
    cases hst : step E st with
    | running st' =>
      rw [hst] at hs
      revert hs
      cases step E' ⟨st.count, st.p.map (chg 1 v), st.tri⟩ with
      | running s2 =>
        rintro ⟨h1, h2, h3⟩
        obtain ⟨c, p2, tr⟩ := s2
        simp only at h1 h2 h3
        subst h1 h2 h3
        refine ih st' fun m st'' hm => hc (m + 1) st'' ?_
        rw [run, hst]
        exact hm
      | done q t k => exact fun h => h.elim
      | raised e => exact fun h => h.elim
    | done q t k =>
      rw [hst] at hs
      revert hs
      cases step E' ⟨st.count, st.p.map (chg 1 v), st.tri⟩ with
      | running s2 => exact fun h => h.elim
      | done q t k => exact fun h => h
      | raised e => exact fun h => h.elim
    | raised e =>
      rw [hst] at hs
      revert hs
      cases step E' ⟨st.count, st.p.map (chg 1 v), st.tri⟩ with
      | running s2 => exact fun h => h.elim
      | done q t k => exact fun h => h.elim
      | raised e => exact fun h => h

end

end SM.MeshLoop

namespace SM.Generate

open MeshLoop FixMesh Units Np Topology Laplace

noncomputable section

variable {κ ρ : Type} [LinearOrder κ] [LinearOrder ρ]

theorem generate_moved {d : ℕ} (hd : d = 2 ∨ d = 3) {v : Fin d → ℝ} {boxEval : List ℝ → (Fin d → ℝ) → ℝ} (hb : BoxAlong 1 v boxEval)
    {domain : Gen.DomainArg (Fin d → ℝ)} {edge : Gen.SizeArg (Fin d → ℝ)} {kw : Gen.Kwargs} {R : Rest d κ ρ}
    {dt' : List (Fin d → ℝ) → List (Fin d → ℝ) × List (List ℕ)} (hrk : Function.Injective R.tools.rk)
    (hdt : ∀ p, dt' (p.map (chg 1 v)) = onMesh (chg 1 v) (R.dt p))
    (hc : ∀ E p0 m st, prepare boxEval domain edge kw R = .ok (E, p0) → generateMesh boxEval domain edge kw R m = .running st →
      DtOk (E.dt st.p) ∧ LastMoved v E st) (n : ℕ) :
    MovedOutcome (chg 1 v) (generateMesh boxEval domain edge kw R n)
      (generateMesh boxEval (chgDomain 1 v domain) (chgEdge 1 v edge) (chgKw 1 v kw) (chgRest 1 v R.tools dt' R) n) := by
  rcases prepare_chg one_pos hb domain edge kw R.tools hdt with ⟨e, h1, h2⟩ | ⟨E, E', p0, h1, ht, ht', he, h2⟩
  · simp only [generateMesh, h1, h2]
    exact trivial
  · have hc' := fun m st => hc E p0 m st h1
    simp only [generateMesh, h1, h2] at hc' ⊢
    have hrank : E.rank = 0 := by
      obtain ⟨S, m, -, -, -, -, rfl⟩ := prepare_ok h1
      rfl
    exact run_moved hd he (ht'.trans ht.symm) hrank (by rw [ht]; exact hrk) n ⟨0, p0, 0⟩ hc'

/-- In the pass `st` of the call the triangulation of the points is proper; in the last pass its vertices are farther apart than the tolerance of the clean-up. -/
structure PassOk {d : ℕ} (kw : Gen.Kwargs) (R : Rest d κ ρ) (st : State d) : Prop where
  nodup : (R.dt st.p).1.Nodup
  inRange : InRange (R.dt st.p).1 (R.dt st.p).2
  simplices : Simplices (d + 1) (R.dt st.p).2
  distinct : (R.dt st.p).2.Pairwise fun r s => ¬ r.Perm s
  apart : ∀ M, Gen.maxIterOf kw = .ok M → (st.count : ℝ) = M - 1 → MeshLoop.Apart R.tools.ptol (R.dt st.p).1

theorem qual_chg (v : Fin 2 → ℝ) (vs : List (Fin 2 → ℝ)) : MeshLoop.rowQual (vs.map (chg 1 v)) = MeshLoop.rowQual vs := by
  match vs with
  | [] | [_] | [_, _] | _ :: _ :: _ :: _ :: _ => rfl
  | [a, b, c] => exact triQual_chg one_pos a b c

/-- **C127 (2-D, without smoothing).** Move the domain, the size function, the fixed points, the initial points and the subdomains of a serial 2-D call of
`generate_mesh` by `v`, and nothing else. The two calls do the same thing: they reach the moved points in every pass, they end in the same pass, with the moved
mesh except for the numbering of its vertices and cells, or both raise an exception. Assumed: the triangulator commutes with the motion, and `PassOk`. -/
theorem C127_plain2 {v : Fin 2 → ℝ} {domain : Gen.DomainArg (Fin 2 → ℝ)} {edge : Gen.SizeArg (Fin 2 → ℝ)} {kw : Gen.Kwargs} {R : Rest 2 κ ρ}
    {dt' : List (Fin 2 → ℝ) → List (Fin 2 → ℝ) × List (List ℕ)} (henc : Function.Injective R.tools.enc) (hrk : Function.Injective R.tools.rk)
    (hsrt : IsArgsort R.tools.srt) (hpt : 0 < R.tools.ptol) (hqual : R.tools.qual = MeshLoop.rowQual)
    (hno : R.opts.subdomainsNone = false ∨ R.opts.meshImprovement = false) (hchk : R.opts.performChecks = false)
    (hdt : ∀ p, dt' (p.map (chg 1 v)) = onMesh (chg 1 v) (R.dt p))
    (hc : ∀ m st, generateMesh Gen.box2 domain edge kw R m = .running st → PassOk kw R st) (n : ℕ) :
    MovedOutcome (chg 1 v) (generateMesh Gen.box2 domain edge kw R n)
      (generateMesh Gen.box2 (chgDomain 1 v domain) (chgEdge 1 v edge) (chgKw 1 v kw) (chgRest 1 v R.tools dt' R) n) := by
  refine generate_moved (d := 2) (v := v) (boxEval := Gen.box2) (domain := domain) (edge := edge) (kw := kw) (R := R) (dt' := dt') (Or.inl rfl)
    (C97_box2 one_pos v) hrk hdt ?_ n
  intro E p0 m st hE hst
  obtain ⟨S, M, -, -, hM, -, rfl⟩ := prepare_ok hE
  have hk := hc m st hst
  refine ⟨⟨hk.nodup, fun r hr => (hk.simplices r hr).1, fun r hr => (hk.simplices r hr).2⟩, fun hlast t ht => ?_⟩
  have hsub := removeOutside_sublist ht
  exact termMoved2 henc hrk hsrt hpt (fun vs ws h => by show R.tools.qual vs = R.tools.qual ws; rw [hqual]; exact MeshLoop.rowQual_perm h) hno hchk
    (fun vs => by show R.tools.qual _ = R.tools.qual vs; rw [hqual]; exact qual_chg v vs) (hk.apart M hM hlast)
    (fun r hr => hk.inRange r (hsub.subset hr)) (fun r hr => hk.simplices r (hsub.subset hr)) (hk.distinct.sublist hsub)

/-- **C127 (2-D, default).** The same with the Laplacian smoothing of the default options, if in addition, in the last pass, every kept vertex is connected to
the boundary and the smoothed positions are farther apart than the tolerance; the linear solver is exact. -/
theorem C127_smoothed2 {v : Fin 2 → ℝ} {domain : Gen.DomainArg (Fin 2 → ℝ)} {edge : Gen.SizeArg (Fin 2 → ℝ)} {kw : Gen.Kwargs} {R : Rest 2 κ ρ}
    {dt' : List (Fin 2 → ℝ) → List (Fin 2 → ℝ) × List (List ℕ)} (henc : Function.Injective R.tools.enc) (hrk : Function.Injective R.tools.rk)
    (hsrt : IsArgsort R.tools.srt) (hpt : 0 < R.tools.ptol) (hqual : R.tools.qual = MeshLoop.rowQual)
    (hsolve : ∀ n A b, (∃ y, A * y = b) → A * R.tools.solve n A b = b)
    (hs1 : R.opts.subdomainsNone = true) (hs2 : R.opts.meshImprovement = true) (hchk : R.opts.performChecks = false)
    (hdt : ∀ p, dt' (p.map (chg 1 v)) = onMesh (chg 1 v) (R.dt p))
    (hc : ∀ m st, generateMesh Gen.box2 domain edge kw R m = .running st → PassOk kw R st)
    (hsm : ∀ E p0 m st t, prepare Gen.box2 domain edge kw R = .ok (E, p0) → generateMesh Gen.box2 domain edge kw R m = .running st →
      Project.removeOutside E.fd E.geps (R.dt st.p).1 (R.dt st.p).2 = .ok t → Moored (kept MeshLoop.rowQual (R.dt st.p).1 t) ∧
      ∃ x : ℕ → Fin 2 → ℝ, Smooth (kept MeshLoop.rowQual (R.dt st.p).1 t) (fun i : Fin (R.dt st.p).1.length => (R.dt st.p).1.get i)
        (fun i : Fin (R.dt st.p).1.length => x i) ∧ Spread R.tools.ptol (kept MeshLoop.rowQual (R.dt st.p).1 t) x) (n : ℕ) :
    MovedOutcome (chg 1 v) (generateMesh Gen.box2 domain edge kw R n)
      (generateMesh Gen.box2 (chgDomain 1 v domain) (chgEdge 1 v edge) (chgKw 1 v kw) (chgRest 1 v R.tools dt' R) n) := by
  refine generate_moved (d := 2) (v := v) (boxEval := Gen.box2) (domain := domain) (edge := edge) (kw := kw) (R := R) (dt' := dt') (Or.inl rfl)
    (C97_box2 one_pos v) hrk hdt ?_ n
  intro E p0 m st hE hst
  have hE' := hE
  obtain ⟨S, M, -, -, hM, -, rfl⟩ := prepare_ok hE
  have hk := hc m st hst
  refine ⟨⟨hk.nodup, fun r hr => (hk.simplices r hr).1, fun r hr => (hk.simplices r hr).2⟩, fun hlast t ht => ?_⟩
  have hsub := removeOutside_sublist ht
  obtain ⟨hm, x, hx, hsp⟩ := hsm _ p0 m st t hE' hst ht
  rw [← hqual] at hm hx hsp
  exact termMoved2s henc hrk hsrt hpt (fun vs ws h => by show R.tools.qual vs = R.tools.qual ws; rw [hqual]; exact MeshLoop.rowQual_perm h) hsolve hs1 hs2 hchk
    (fun vs => by show R.tools.qual _ = R.tools.qual vs; rw [hqual]; exact qual_chg v vs) (hk.apart M hM hlast)
    (fun r hr => hk.inRange r (hsub.subset hr)) (fun r hr => hk.simplices r (hsub.subset hr)) (hk.distinct.sublist hsub) hm hx hsp

/-- **C127 (3-D).** The same in three dimensions, where there is no smoothing. -/
theorem C127_moved3 {v : Fin 3 → ℝ} {domain : Gen.DomainArg (Fin 3 → ℝ)} {edge : Gen.SizeArg (Fin 3 → ℝ)} {kw : Gen.Kwargs} {R : Rest 3 κ ρ}
    {dt' : List (Fin 3 → ℝ) → List (Fin 3 → ℝ) × List (List ℕ)} (henc : Function.Injective R.tools.enc) (hrk : Function.Injective R.tools.rk)
    (hpt : 0 < R.tools.ptol) (hchk : R.opts.performChecks = false) (hdt : ∀ p, dt' (p.map (chg 1 v)) = onMesh (chg 1 v) (R.dt p))
    (hc : ∀ m st, generateMesh Gen.box3 domain edge kw R m = .running st → PassOk kw R st) (n : ℕ) :
    MovedOutcome (chg 1 v) (generateMesh Gen.box3 domain edge kw R n)
      (generateMesh Gen.box3 (chgDomain 1 v domain) (chgEdge 1 v edge) (chgKw 1 v kw) (chgRest 1 v R.tools dt' R) n) := by
  refine generate_moved (d := 3) (v := v) (boxEval := Gen.box3) (domain := domain) (edge := edge) (kw := kw) (R := R) (dt' := dt') (Or.inr rfl)
    (C97_box3 one_pos v) hrk hdt ?_ n
  intro E p0 m st hE hst
  obtain ⟨S, M, -, -, hM, -, rfl⟩ := prepare_ok hE
  have hk := hc m st hst
  refine ⟨⟨hk.nodup, fun r hr => (hk.simplices r hr).1, fun r hr => (hk.simplices r hr).2⟩, fun hlast t ht => ?_⟩
  have hsub := removeOutside_sublist ht
  exact termMoved3 henc hrk hpt hchk (hk.apart M hM hlast) (fun r hr => hk.inRange r (hsub.subset hr)) (fun r hr => hk.simplices r (hsub.subset hr)) v

/-! ### Points within the tolerance -/

/-- Two thin triangles whose tips are six tenths of the snapping length apart. -/
def nearP : List (Fin 2 → ℚ) := [![0, 0], ![3 / 5, 0], ![0, 1], ![5000000000000, 0]]
def nearT : List (List ℕ) := [[0, 3, 2], [1, 3, 2]]

/-- The sizes of the cleaned mesh after moving it to the right by `a`. -/
def sizesAt (a : ℚ) : Option (ℕ × ℕ) :=
  match fixMeshK lexKey id rowVol2 (2 / 10 ^ 13) (nearP.map fun q => ![q 0 + a, q 1]) nearT true true with
  | .error _ => none
  | .ok (q, s, _) => some (q.length, s.length)

/-- **C127 (points within the tolerance).** The clean-up itself does depend on the position if two vertices are within its tolerance: the snapping grid is
anchored at the origin, not at the mesh. The same mesh keeps its four vertices in one place and loses a vertex and a triangle six tenths of a snapping length
to the right. -/
theorem C127_tolerance_false : ∃ (p p' : List (Fin 2 → ℚ)) (t : List (List ℕ)) (q q' : List (Fin 2 → ℚ)) (s s' : List (List ℕ)) (jx jx' : List ℕ),
    p' = (p.map fun x => ![x 0 + 3 / 5, x 1]) ∧ fixMeshK lexKey id rowVol2 (2 / 10 ^ 13) p t true true = .ok (q, s, jx) ∧
    fixMeshK lexKey id rowVol2 (2 / 10 ^ 13) p' t true true = .ok (q', s', jx') ∧ q.length = 4 ∧ s.length = 2 ∧ q'.length = 3 ∧ s'.length = 1 := by
  have h0 : sizesAt 0 = some (4, 2) := by decide +kernel
  have h1 : sizesAt (3 / 5) = some (3, 1) := by decide +kernel
  unfold sizesAt at h0 h1
  split at h0
  · cases h0
  · rename_i q s jx e0
    split at h1
    · cases h1
    · rename_i q' s' jx' e1
      simp only [Option.some.injEq, Prod.mk.injEq] at h0 h1
      have hid : (nearP.map fun q => ![q 0 + 0, q 1]) = nearP := by decide +kernel
      rw [hid] at e0
      exact ⟨nearP, _, nearT, q, q', s, s', jx, jx', rfl, e0, e1, h0.1, h0.2, h1.1, h1.2⟩

/-- A concrete case of `C127_plain2`: a call with three user points and one pass, moved by any `v`. -/
example {κ ρ : Type} [LinearOrder κ] [LinearOrder ρ] (v : Fin 2 → ℝ) (domain : Gen.DomainArg (Fin 2 → ℝ)) (edge : Gen.SizeArg (Fin 2 → ℝ)) (R : Rest 2 κ ρ)
    (hR : R.points = some [![0, 0], ![1, 0], ![0, 1]]) (hdt : R.dt = fun a => (a, [[0, 1, 2]])) (henc : Function.Injective R.tools.enc)
    (hrk : Function.Injective R.tools.rk) (hsrt : IsArgsort R.tools.srt) (hpt : R.tools.ptol = 1 / 1000) (hq : R.tools.qual = MeshLoop.rowQual)
    (hno : R.opts.meshImprovement = false) (hchk : R.opts.performChecks = false) (n : ℕ) :
    MovedOutcome (chg 1 v) (generateMesh Gen.box2 domain edge kw1 R n)
      (generateMesh Gen.box2 (chgDomain 1 v domain) (chgEdge 1 v edge) (chgKw 1 v kw1) (chgRest 1 v R.tools (fun a => (a, [[0, 1, 2]])) R) n) := by
  have ne1 : (![0, 0] : Fin 2 → ℝ) ≠ ![1, 0] := fun h => by have := congrFun h 0; simp at this
  have ne2 : (![0, 0] : Fin 2 → ℝ) ≠ ![0, 1] := fun h => by have := congrFun h 1; simp at this
  have ne3 : (![1, 0] : Fin 2 → ℝ) ≠ ![0, 1] := fun h => by have := congrFun h 0; simp at this
  have hnd : [(![0, 0] : Fin 2 → ℝ), ![1, 0], ![0, 1]].Nodup := by simp [ne1, ne2, ne3]
  refine C127_plain2 henc hrk hsrt (by rw [hpt]; norm_num) hq (Or.inr hno) hchk (fun p => by rw [hdt]; rfl) (fun m s hs => ?_) n
  have hs0 : s.p = [![0, 0], ![1, 0], ![0, 1]] := by
    cases hE : prepare Gen.box2 domain edge kw1 R with
    | error e => simp [generateMesh, hE] at hs
    | ok Ep =>
      obtain ⟨E, p⟩ := Ep
      obtain ⟨S, M, -, hp, hm, -, rfl⟩ := prepare_ok hE
      have hp' : p = [![0, 0], ![1, 0], ![0, 1]] := by simpa [initial, hR] using hp.symm
      subst hp'
      have hm1 : M = 1 := by
        have : Gen.maxIterOf kw1 = .ok 1 := by
          simp [kw1, Gen.maxIterOf, Gen.getOpt, Gen.asNum, Gen.Num.val, bind, Except.bind, pure, Except.pure]
        rw [this] at hm; exact (Except.ok.inj hm).symm
      subst hm1
      simp only [generateMesh, hE] at hs
      cases m with
      | zero => simp only [run, Outcome.running.injEq] at hs; rw [← hs]
      | succ k =>
        exfalso
        simp only [run] at hs
        have : ∀ w, step (envOf R S 1) ⟨0, [![0, 0], ![1, 0], ![0, 1]], 0⟩ ≠ .running w := by
          intro w hw
          have e : (((0 : ℕ) : ℝ)) = (envOf R S 1).maxIter - 1 := by simp [envOf]
          unfold step at hw
          split at hw
          · simp at hw
          · rw [if_pos e] at hw
            split at hw <;> simp at hw
        cases hst : step (envOf R S 1) ⟨0, [![0, 0], ![1, 0], ![0, 1]], 0⟩ with
        | running w => exact this w hst
        | done q t k => rw [hst] at hs; simp at hs
        | raised e => rw [hst] at hs; simp at hs
  have hdt' : R.dt s.p = ([![0, 0], ![1, 0], ![0, 1]], [[0, 1, 2]]) := by rw [hs0, hdt]
  refine ⟨by rw [hdt']; exact hnd, ?_, ?_, by rw [hdt']; simp, fun _ _ _ => ?_⟩
  · rw [hdt']; intro r hr i hi; simp only [List.mem_singleton] at hr; subst hr; simp at hi ⊢; omega
  · rw [hdt']; intro r hr; simp only [List.mem_singleton] at hr; subst hr; simp
  · rw [hdt', hpt]
    refine ⟨hnd, 1, ?_, ?_⟩
    · intro x hx y hy k
      simp only [List.mem_cons, List.not_mem_nil, or_false] at hx hy
      rcases hx with rfl | rfl | rfl <;> rcases hy with rfl | rfl | rfl <;> fin_cases k <;> simp
    · intro x hx y hy hne
      simp only [List.mem_cons, List.not_mem_nil, or_false] at hx hy
      rcases hx with rfl | rfl | rfl <;> rcases hy with rfl | rfl | rfl <;>
        first
          | exact absurd rfl hne
          | (refine ⟨0, ?_⟩; norm_num; done)
          | (refine ⟨1, ?_⟩; norm_num; done)

end

end SM.Generate
