import Verif.Props.Adjacency
import Verif.Props.Manifold

/-!
# C101: the numbering of a mesh does not matter

Renumbering the vertices of a mesh, reordering its entities and permuting the vertices inside each entity permutes
the answers of the connectivity functions accordingly and changes nothing else.
-/

namespace SM.Topology

open Np FixMesh

variable {ρ : Type} [LinearOrder ρ]

/-- `ents'` is the mesh `ents` with vertex `v` called `σ v`, its entities in any order, and the vertices of each
entity in any order. -/
def Renumbered (σ : ℕ → ℕ) (ents ents' : List (List ℕ)) : Prop :=
  ∃ l, List.Forall₂ List.Perm l ents' ∧ l.Perm (ents.map (List.map σ))

variable {σ : ℕ → ℕ} {ents ents' : List (List ℕ)}

theorem countP_forall₂ {p : List ℕ → Bool} (hp : ∀ r s : List ℕ, r.Perm s → p r = p s) :
    ∀ {l l' : List (List ℕ)}, List.Forall₂ List.Perm l l' → l.countP p = l'.countP p
  | _, _, .nil => rfl
  | _, _, .cons h t => by simp only [List.countP_cons, countP_forall₂ hp t, hp _ _ h]

theorem Renumbered.countP (h : Renumbered σ ents ents') {p q : List ℕ → Bool}
    (hp : ∀ r s : List ℕ, r.Perm s → p r = p s) (hq : ∀ r, p (r.map σ) = q r) :
    ents'.countP p = ents.countP q := by
  obtain ⟨l, h1, h2⟩ := h
  rw [← countP_forall₂ hp h1, h2.countP_eq, List.countP_map]
  congr 1; funext r; exact hq r

theorem Renumbered.mem (h : Renumbered σ ents ents') {r' : List ℕ} :
    r' ∈ ents' → ∃ r ∈ ents, r'.Perm (r.map σ) := by
  obtain ⟨l, h1, h2⟩ := h
  intro hr
  obtain ⟨i, hi, rfl⟩ := List.getElem_of_mem hr
  have hl := h1.length_eq
  have hp : l[i].Perm ents'[i] := h1.get (by omega) hi
  have hm : l[i] ∈ ents.map (List.map σ) := h2.subset (List.getElem_mem (by omega))
  obtain ⟨r, hr', e⟩ := List.mem_map.1 hm
  exact ⟨r, hr', by rw [e]; exact hp.symm⟩

theorem Renumbered.mem' (h : Renumbered σ ents ents') {r : List ℕ} (hr : r ∈ ents) :
    ∃ r' ∈ ents', r'.Perm (r.map σ) := by
  obtain ⟨l, h1, h2⟩ := h
  have hm : r.map σ ∈ l := h2.symm.subset (List.mem_map_of_mem hr)
  obtain ⟨i, hi, e⟩ := List.getElem_of_mem hm
  have hl := h1.length_eq
  have hp : l[i].Perm ents'[i] := h1.get hi (by omega)
  exact ⟨ents'[i], List.getElem_mem _, by rw [← e]; exact hp.symm⟩

theorem Renumbered.simplices (hσ : Function.Injective σ) (h : Renumbered σ ents ents') {k : ℕ}
    (hs : Simplices k ents) : Simplices k ents' := by
  intro r' hr'
  obtain ⟨r, hr, hp⟩ := h.mem hr'
  obtain ⟨h1, h2⟩ := hs r hr
  exact ⟨by rw [hp.length_eq, List.length_map, h1], hp.nodup_iff.2 (h2.map hσ)⟩

theorem Renumbered.shared (hσ : Function.Injective σ) (h : Renumbered σ ents ents') (a b : ℕ) :
    shared ents' (σ a) (σ b) = shared ents a b := by
  refine h.countP (fun r s hrs => by simp only [hrs.mem_iff]) fun r => ?_
  simp only [List.mem_map_of_injective hσ]

theorem Renumbered.shared3 (hσ : Function.Injective σ) (h : Renumbered σ ents ents') (a b c : ℕ) :
    shared3 ents' (σ a) (σ b) (σ c) = shared3 ents a b c := by
  refine h.countP (fun r s hrs => by simp only [hrs.mem_iff]) fun r => ?_
  simp only [List.mem_map_of_injective hσ]

/-- Vertices of the renumbered mesh have old names. -/
theorem Renumbered.range (h : Renumbered σ ents ents') {r' : List ℕ} (hr : r' ∈ ents') {v : ℕ} (hv : v ∈ r') :
    ∃ u, σ u = v := by
  obtain ⟨r, -, hp⟩ := h.mem hr
  obtain ⟨u, -, e⟩ := List.mem_map.1 (hp.subset hv)
  exact ⟨u, e⟩

theorem range_of_shared (h : Renumbered σ ents ents') {v w : ℕ} (hs : 0 < shared ents' v w) :
    ∃ a b, σ a = v ∧ σ b = w := by
  obtain ⟨r, hr, hd⟩ := List.countP_pos_iff.1 hs
  have hd := of_decide_eq_true hd
  obtain ⟨a, ea⟩ := h.range hr hd.1
  obtain ⟨b, eb⟩ := h.range hr hd.2
  exact ⟨a, b, ea, eb⟩

theorem range_of_shared3 (h : Renumbered σ ents ents') {u v w : ℕ} (hs : 0 < shared3 ents' u v w) :
    ∃ a b c, σ a = u ∧ σ b = v ∧ σ c = w := by
  obtain ⟨r, hr, hd⟩ := List.countP_pos_iff.1 hs
  have hd := of_decide_eq_true hd
  obtain ⟨a, ea⟩ := h.range hr hd.1
  obtain ⟨b, eb⟩ := h.range hr hd.2.1
  obtain ⟨c, ec⟩ := h.range hr hd.2.2
  exact ⟨a, b, c, ea, eb, ec⟩

theorem Renumbered.onBoundary2 (hσ : Function.Injective σ) (h : Renumbered σ ents ents') (v' : ℕ) :
    OnBoundary2 ents' v' ↔ ∃ v, σ v = v' ∧ OnBoundary2 ents v := by
  constructor
  · rintro ⟨w', hne, h1⟩
    obtain ⟨a, b, rfl, rfl⟩ := range_of_shared h (Nat.lt_of_lt_of_eq Nat.one_pos h1.symm)
    exact ⟨a, rfl, b, fun e => hne (by rw [e]), by rw [← h.shared hσ]; exact h1⟩
  · rintro ⟨v, rfl, w, hne, h1⟩
    exact ⟨σ w, fun e => hne (hσ e), by rw [h.shared hσ]; exact h1⟩

theorem Renumbered.onBoundary3 (hσ : Function.Injective σ) (h : Renumbered σ ents ents') (v' : ℕ) :
    OnBoundary3 ents' v' ↔ ∃ v, σ v = v' ∧ OnBoundary3 ents v := by
  constructor
  · rintro ⟨a', b', n1, n2, n3, h1⟩
    obtain ⟨v, a, b, rfl, rfl, rfl⟩ := range_of_shared3 h (Nat.lt_of_lt_of_eq Nat.one_pos h1.symm)
    exact ⟨v, rfl, a, b, fun e => n1 (by rw [e]), fun e => n2 (by rw [e]), fun e => n3 (by rw [e]),
      by rw [← h.shared3 hσ]; exact h1⟩
  · rintro ⟨v, rfl, a, b, n1, n2, n3, h1⟩
    exact ⟨σ a, σ b, fun e => n1 (hσ e), fun e => n2 (hσ e), fun e => n3 (hσ e), by rw [h.shared3 hσ]; exact h1⟩

theorem Renumbered.onBoundary (hσ : Function.Injective σ) (h : Renumbered σ ents ents') {dim : ℕ} (v' : ℕ) :
    OnBoundary dim ents' v' ↔ ∃ v, σ v = v' ∧ OnBoundary dim ents v := by
  unfold OnBoundary
  split_ifs
  · exact h.onBoundary2 hσ v'
  · exact h.onBoundary3 hσ v'

/-- **C101 (bars).** The bars of the renumbered mesh are the renumbered bars. -/
theorem C101_bars (hσ : Function.Injective σ) (h : Renumbered σ ents ents') {k : ℕ} (hk : k = 3 ∨ k = 4)
    (hs : Simplices k ents) :
    ∃ es es', getBars ents k = .ok es ∧ getBars ents' k = .ok es' ∧
      ∀ e', e' ∈ es' ↔ ∃ e ∈ es, e' = (min (σ e.1) (σ e.2), max (σ e.1) (σ e.2)) := by
  have key : ∀ {es es' : List (ℕ × ℕ)}, (∀ a b, (a, b) ∈ es ↔ a < b ∧ ∃ r ∈ ents, a ∈ r ∧ b ∈ r) →
      (∀ a b, (a, b) ∈ es' ↔ a < b ∧ ∃ r ∈ ents', a ∈ r ∧ b ∈ r) →
      ∀ e', e' ∈ es' ↔ ∃ e ∈ es, e' = (min (σ e.1) (σ e.2), max (σ e.1) (σ e.2)) := by
    rintro es es' h1 h2 ⟨a', b'⟩
    rw [h2]
    constructor
    · rintro ⟨hlt, r', hr', ha, hb⟩
      obtain ⟨r, hr, hp⟩ := h.mem hr'
      obtain ⟨a, ha', rfl⟩ := List.mem_map.1 (hp.subset ha)
      obtain ⟨b, hb', rfl⟩ := List.mem_map.1 (hp.subset hb)
      rcases lt_trichotomy a b with hab | rfl | hab
      · exact ⟨(a, b), (h1 a b).2 ⟨hab, r, hr, ha', hb'⟩, by simp [min_eq_left hlt.le, max_eq_right hlt.le]⟩
      · exact absurd hlt (lt_irrefl _)
      · exact ⟨(b, a), (h1 b a).2 ⟨hab, r, hr, hb', ha'⟩, by simp [min_eq_right hlt.le, max_eq_left hlt.le]⟩
    · rintro ⟨⟨a, b⟩, he, e⟩
      obtain ⟨hlt, r, hr, ha, hb⟩ := (h1 a b).1 he
      obtain ⟨r', hr', hp⟩ := h.mem' hr
      have ha' := hp.symm.subset (List.mem_map_of_mem (f := σ) ha)
      have hb' := hp.symm.subset (List.mem_map_of_mem (f := σ) hb)
      simp only [Prod.mk.injEq] at e
      obtain ⟨rfl, rfl⟩ := e
      have hne : σ a ≠ σ b := fun e => hlt.ne (hσ e)
      refine ⟨by omega, r', hr', ?_, ?_⟩
      · rcases min_choice (σ a) (σ b) with e | e <;> rw [e] <;> assumption
      · rcases max_choice (σ a) (σ b) with e | e <;> rw [e] <;> assumption
  rcases hk with rfl | rfl
  · obtain ⟨es, e1, e2, -⟩ := C34_bars2 hs
    obtain ⟨es', e1', e2', -⟩ := C34_bars2 (h.simplices hσ hs)
    exact ⟨es, es', e1, e1', key e2 e2'⟩
  · obtain ⟨es, e1, e2, -⟩ := C34_bars3 hs
    obtain ⟨es', e1', e2', -⟩ := C34_bars3 (h.simplices hσ hs)
    exact ⟨es, es', e1, e1', key e2 e2'⟩

/-- **C101 (boundary edges).** A row is a boundary edge of the renumbered mesh exactly if it is a boundary edge of the
old mesh with the new names (smaller first); none is listed twice. -/
theorem C101_boundary_edges {rk : List ℕ → ρ} (hrk : Function.Injective rk) (hσ : Function.Injective σ)
    (h : Renumbered σ ents ents') (hs : Simplices 3 ents) :
    ∃ b b', getBoundaryEdges rk ents 2 = .ok b ∧ getBoundaryEdges rk ents' 2 = .ok b' ∧
      b'.Perm (b.map fun e => sortRow (e.map σ)) := by
  obtain ⟨b, e1, n1, m1⟩ := C35_boundary_edges hrk hs
  obtain ⟨b', e2, n2, m2⟩ := C35_boundary_edges hrk (h.simplices hσ hs)
  have hsort : ∀ x y : ℕ, x ≠ y → ∃ u v, u < v ∧ sortRow [x, y] = [u, v] ∧ (u = x ∧ v = y ∨ u = y ∧ v = x) := by
    intro x y hne
    rcases lt_or_gt_of_ne hne with hl | hl
    · refine ⟨x, y, hl, ?_, .inl ⟨rfl, rfl⟩⟩
      simp [sortRow, List.insertionSort, List.orderedInsert, hl.le]
    · refine ⟨y, x, hl, ?_, .inr ⟨rfl, rfl⟩⟩
      simp [sortRow, List.insertionSort, List.orderedInsert, not_le.2 hl]
  refine ⟨b, b', e1, e2, (List.perm_ext_iff_of_nodup n2 ?_).2 fun s => ?_⟩
  · refine n1.map_on fun e he e' he' heq => ?_
    obtain ⟨x, y, rfl, hxy, -⟩ := (m1 e).1 he
    obtain ⟨x', y', rfl, hxy', -⟩ := (m1 e').1 he'
    have hp : ([x, y].map σ).Perm ([x', y'].map σ) :=
      (sortRow_perm _).symm.trans (heq ▸ sortRow_perm _)
    have hp' : [x, y].Perm [x', y'] := (List.map_perm_map_iff hσ).1 hp
    have hx : x ∈ [x', y'] := hp'.subset (by simp)
    have hy : y ∈ [x', y'] := hp'.subset (by simp)
    simp only [List.mem_cons, List.not_mem_nil, or_false] at hx hy
    have : x = x' ∧ y = y' := by omega
    rw [this.1, this.2]
  · rw [m2, List.mem_map]
    constructor
    · rintro ⟨x', y', rfl, hlt, h1⟩
      obtain ⟨x, y, rfl, rfl⟩ := range_of_shared h (Nat.lt_of_lt_of_eq Nat.one_pos h1.symm)
      rw [h.shared hσ] at h1
      have hne : x ≠ y := fun e => hlt.ne (by rw [e])
      rcases lt_or_gt_of_ne hne with hl | hl
      · refine ⟨[x, y], (m1 _).2 ⟨x, y, rfl, hl, h1⟩, ?_⟩
        simp [sortRow, List.insertionSort, List.orderedInsert, hlt.le]
      · refine ⟨[y, x], (m1 _).2 ⟨y, x, rfl, hl, by rw [shared_comm]; exact h1⟩, ?_⟩
        simp [sortRow, List.insertionSort, List.orderedInsert, not_le.2 hlt]
    · rintro ⟨e, he, rfl⟩
      obtain ⟨x, y, rfl, hlt, h1⟩ := (m1 e).1 he
      obtain ⟨u, v, huv, es, hc⟩ := hsort (σ x) (σ y) fun e => hlt.ne (hσ e)
      refine ⟨u, v, es, huv, ?_⟩
      rcases hc with ⟨rfl, rfl⟩ | ⟨rfl, rfl⟩
      · rw [h.shared hσ]; exact h1
      · rw [shared_comm, h.shared hσ]; exact h1

theorem mem3_perm {a b c a' b' c' : ℕ} (h : [a, b, c].Perm [a', b', c']) (r : List ℕ) :
    a ∈ r ∧ b ∈ r ∧ c ∈ r ↔ a' ∈ r ∧ b' ∈ r ∧ c' ∈ r := by
  have : (∀ x ∈ [a, b, c], x ∈ r) ↔ ∀ x ∈ [a', b', c'], x ∈ r := by simp only [h.mem_iff]
  simpa using this

/-- **C101 (boundary facets).** Likewise for the faces of a tetrahedral mesh. -/
theorem C101_boundary_facets {rk : List ℕ → ρ} (hrk : Function.Injective rk) (hσ : Function.Injective σ)
    (h : Renumbered σ ents ents') (hs : Simplices 4 ents) :
    ∃ b b', getBoundaryFacets rk ents = .ok b ∧ getBoundaryFacets rk ents' = .ok b' ∧
      ∀ f', f' ∈ b' ↔ ∃ f ∈ b, f' = sortRow (f.map σ) := by
  obtain ⟨b, e1, n1, m1⟩ := C35_boundary_facets hrk hs
  obtain ⟨b', e2, n2, m2⟩ := C35_boundary_facets hrk (h.simplices hσ hs)
  refine ⟨b, b', e1, e2, fun s => ?_⟩
  rw [m2]
  constructor
  · rintro ⟨x', y', z', rfl, hxy, hyz, h1⟩
    obtain ⟨x, y, z, rfl, rfl, rfl⟩ := range_of_shared3 h (Nat.lt_of_lt_of_eq Nat.one_pos h1.symm)
    rw [h.shared3 hσ] at h1
    have nxy : x ≠ y := fun e => hxy.ne (by rw [e])
    have nyz : y ≠ z := fun e => hyz.ne (by rw [e])
    have nxz : x ≠ z := fun e => (hxy.trans hyz).ne (by rw [e])
    set f := sortRow [x, y, z] with hf
    have hfp : f.Perm [x, y, z] := sortRow_perm _
    have hfs : f.Pairwise (· ≤ ·) := sortRow_sorted _
    have hfn : f.Nodup := hfp.nodup_iff.2 (by simp [nxy, nyz, nxz])
    obtain ⟨a, b1, c, ef⟩ := length3 (by rw [hfp.length_eq]; rfl)
    refine ⟨f, (m1 f).2 ⟨a, b1, c, ef, ?_, ?_, ?_⟩, ?_⟩
    · rw [ef] at hfs hfn; simp at hfs hfn; omega
    · rw [ef] at hfs hfn; simp at hfs hfn; omega
    · rw [← h1]
      exact shared3_perm ents (mem3_perm (by rw [← ef]; exact hfp))
    · have hp : [σ x, σ y, σ z].Perm (sortRow (f.map σ)) :=
        ((hfp.map σ).symm.trans (sortRow_perm _).symm)
      refine hp.eq_of_pairwise (fun a b _ _ => le_antisymm) ?_ (sortRow_sorted _)
      simp; omega
  · rintro ⟨f, hf, rfl⟩
    obtain ⟨x, y, z, rfl, hxy, hyz, h1⟩ := (m1 f).1 hf
    set g := sortRow ([x, y, z].map σ) with hg
    have hgp : g.Perm [σ x, σ y, σ z] := sortRow_perm _
    have hgs : g.Pairwise (· ≤ ·) := sortRow_sorted _
    have hgn : g.Nodup := hgp.nodup_iff.2 (by
      have a1 : σ x ≠ σ y := fun e => hxy.ne (hσ e)
      have a2 : σ y ≠ σ z := fun e => hyz.ne (hσ e)
      have a3 : σ x ≠ σ z := fun e => (hxy.trans hyz).ne (hσ e)
      simp [a1, a2, a3])
    obtain ⟨a, b1, c, eg⟩ := length3 (by rw [hgp.length_eq]; rfl)
    refine ⟨a, b1, c, eg, ?_, ?_, ?_⟩
    · rw [eg] at hgs hgn; simp at hgs hgn; omega
    · rw [eg] at hgs hgn; simp at hgs hgn; omega
    · rw [← h1, ← h.shared3 hσ x y z]
      exact shared3_perm ents' (mem3_perm (by rw [← eg]; exact hgp))

/-- **C101 (boundary vertices).** 2-D and 3-D. -/
theorem C101_boundary_vertices {rk : List ℕ → ρ} (hrk : Function.Injective rk) (hσ : Function.Injective σ)
    (h : Renumbered σ ents ents') {dim : ℕ} (hd : dim = 2 ∨ dim = 3) (hs : Simplices (dim + 1) ents) :
    ∃ v v', getBoundaryVertices rk ents dim = .ok v ∧ getBoundaryVertices rk ents' dim = .ok v' ∧
      v'.Perm (v.map σ) := by
  have bv : ∀ {t : List (List ℕ)}, Simplices (dim + 1) t → ∃ v, getBoundaryVertices rk t dim = .ok v ∧
      v.Pairwise (· < ·) ∧ ∀ w, w ∈ v ↔ OnBoundary dim t w := by
    intro t ht
    unfold OnBoundary
    rcases hd with rfl | rfl
    · exact C35_boundary_vertices2 hrk ht
    · exact C35_boundary_vertices3 hrk ht
  obtain ⟨v, e1, n1, m1⟩ := bv hs
  obtain ⟨v', e2, n2, m2⟩ := bv (h.simplices hσ hs)
  refine ⟨v, v', e1, e2, (List.perm_ext_iff_of_nodup (n2.imp fun h => h.ne) ?_).2 fun w => ?_⟩
  · have n1' : v.Nodup := n1.imp fun h => h.ne
    exact n1'.map hσ
  · rw [m2, h.onBoundary hσ, List.mem_map]
    constructor
    · rintro ⟨u, e, hu⟩; exact ⟨u, (m1 u).2 hu, e⟩
    · rintro ⟨u, hu, e⟩; exact ⟨u, e, (m1 u).1 hu⟩

/-- **C101 (is_manifold).** The verdict does not depend on the numbering. -/
theorem C101_is_manifold {rk : List ℕ → ρ} (hrk : Function.Injective rk) (hσ : Function.Injective σ)
    (h : Renumbered σ ents ents') (hs : Simplices 3 ents) {nv : ℕ} (hr : ∀ r ∈ ents, ∀ i ∈ r, i < nv ∧ σ i < nv)
    (hb : ∃ v, OnBoundary2 ents v) :
    ∃ res, isManifold rk nv 2 ents 2 = .ok res ∧ isManifold rk nv 2 ents' 2 = .ok res := by
  have hr' : ∀ r ∈ ents', ∀ i ∈ r, i < nv := by
    intro r' hr' i hi
    obtain ⟨r, hr1, hp⟩ := h.mem hr'
    obtain ⟨u, hu, rfl⟩ := List.mem_map.1 (hp.subset hi)
    exact (hr r hr1 u hu).2
  have hb' : ∃ v, OnBoundary2 ents' v := by
    obtain ⟨v, hv⟩ := hb
    exact ⟨σ v, (h.onBoundary2 hσ _).2 ⟨v, rfl, hv⟩⟩
  obtain ⟨b, S, m1, n1, -, s1, e1⟩ := isManifold_run hrk hs (fun r hr1 i hi => (hr r hr1 i hi).1) hb
  obtain ⟨b', S', m2, n2, -, s2, e2⟩ := isManifold_run hrk (h.simplices hσ hs) hr' hb'
  refine ⟨_, e1, ?_⟩
  rw [e2]
  obtain ⟨c, c', ec, ec', hp⟩ := C101_boundary_edges hrk hσ h hs
  have hl : b.length = c.length := by
    obtain ⟨d, ed, nd, md⟩ := C35_boundary_edges hrk hs
    rw [ed] at ec; cases ec
    exact ((List.perm_ext_iff_of_nodup n1 nd).2 fun s => by rw [m1, md]).length_eq
  have hl' : b'.length = c'.length := by
    obtain ⟨d, ed, nd, md⟩ := C35_boundary_edges hrk (h.simplices hσ hs)
    rw [ed] at ec'; cases ec'
    exact ((List.perm_ext_iff_of_nodup n2 nd).2 fun s => by rw [m2, md]).length_eq
  have hS : S' = S.map ⟨σ, hσ⟩ := by
    ext w
    rw [s2, h.onBoundary2 hσ, Finset.mem_map]
    constructor
    · rintro ⟨u, e, hu⟩; exact ⟨u, (s1 u).2 hu, e⟩
    · rintro ⟨u, hu, e⟩; exact ⟨u, e, (s1 u).1 hu⟩
  rw [hS, Finset.card_map, hl, hl', hp.length_eq, List.length_map]

/-- Two triangles glued along an edge, with every vertex number raised by one, the rows in the other order and the
vertices of both rows shuffled: all hypotheses of the theorems above hold. -/
example : Renumbered (· + 1) [[0, 1, 2], [1, 3, 2]] [[3, 4, 2], [2, 1, 3]] ∧ Function.Injective (· + 1 : ℕ → ℕ) ∧
    Simplices 3 [[0, 1, 2], [1, 3, 2]] ∧ (∀ r ∈ [[0, 1, 2], [1, 3, 2]], ∀ i ∈ r, i < 5 ∧ i + 1 < 5) ∧
    ∃ v, OnBoundary2 [[0, 1, 2], [1, 3, 2]] v := by
  refine ⟨⟨[[2, 4, 3], [1, 2, 3]], ?_, ?_⟩, fun a b h => by simpa using h, ?_, by decide, ?_⟩
  · exact .cons (by decide) (.cons (by decide) .nil)
  · decide
  · unfold Simplices; decide
  · exact ⟨0, 1, by decide⟩

end SM.Topology
