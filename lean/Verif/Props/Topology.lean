import Verif.Lemmas.Topology
import Verif.Props.FixMesh
import Verif.Props.Sdf
import Mathlib.Algebra.BigOperators.Group.Finset.Basic
import Mathlib.Algebra.Order.BigOperators.Group.Finset
import Mathlib.Tactic.FinCases

/-!
# C34 – C37, C39, C50: connectivity utilities

Specification vocabulary: a mesh is a list of rows of vertex numbers; `shared ents a b` counts the
entities containing both `a` and `b`.
-/

namespace SM.Topology

open Np FixMesh

variable {ρ : Type} [LinearOrder ρ]

/-! ### Specification -/

/-- Number of entities that contain both vertices. -/
def shared (ents : List (List ℕ)) (a b : ℕ) : ℕ := ents.countP fun r => decide (a ∈ r ∧ b ∈ r)

/-- Number of entities that contain the three vertices. -/
def shared3 (ents : List (List ℕ)) (a b c : ℕ) : ℕ :=
  ents.countP fun r => decide (a ∈ r ∧ b ∈ r ∧ c ∈ r)

/-- Entities are simplices with `k` different vertices. -/
def Simplices (k : ℕ) (ents : List (List ℕ)) : Prop := ∀ r ∈ ents, r.length = k ∧ r.Nodup

/-- A vertex of an edge that belongs to exactly one triangle. -/
def OnBoundary2 (ents : List (List ℕ)) (v : ℕ) : Prop := ∃ w, w ≠ v ∧ shared ents v w = 1

/-- A vertex of a face that belongs to exactly one tetrahedron. -/
def OnBoundary3 (ents : List (List ℕ)) (v : ℕ) : Prop :=
  ∃ a b, a ≠ v ∧ b ≠ v ∧ a ≠ b ∧ shared3 ents v a b = 1

theorem shared_comm (ents : List (List ℕ)) (a b : ℕ) : shared ents a b = shared ents b a := by
  unfold shared; congr 1; funext r; simp [and_comm]

theorem length3 {r : List ℕ} (h : r.length = 3) : ∃ a b c, r = [a, b, c] := by
  match r, h with
  | [a, b, c], _ => exact ⟨a, b, c, rfl⟩

theorem length4 {r : List ℕ} (h : r.length = 4) : ∃ a b c d, r = [a, b, c, d] := by
  match r, h with
  | [a, b, c, d], _ => exact ⟨a, b, c, d, rfl⟩

/-! ### C34 -/

/-- **C34.** `unique_edges` returns exactly the undirected edges of its input, as (min, max). -/
theorem C34_unique_edges_exact (edges : List (ℕ × ℕ)) (a b : ℕ) :
    (a, b) ∈ uniqueEdges edges ↔ a ≤ b ∧ ((a, b) ∈ edges ∨ (b, a) ∈ edges) := uniqueEdges_mem

/-- **C34.** ... each once, in lexicographic order. -/
theorem C34_unique_edges_sorted (edges : List (ℕ × ℕ)) :
    (uniqueEdges edges).Pairwise fun e f => e.1 < f.1 ∨ e.1 = f.1 ∧ e.2 < f.2 :=
  uniqueEdges_sorted edges

theorem colPair_ok {t : List (List ℕ)} {i j : ℕ} (f g : List ℕ → ℕ)
    (h : ∀ r ∈ t, r[i]? = some (f r) ∧ r[j]? = some (g r)) :
    colPair t i j = .ok (t.map fun r => (f r, g r)) := by
  unfold colPair
  apply mapM_ok
  intro r hr
  obtain ⟨h1, h2⟩ := h r hr
  simp [item, h1, h2, bind, Except.bind, pure, Except.pure]

theorem getD_some {r : List ℕ} {i : ℕ} (h : i < r.length) : r[i]? = some (r.getD i 0) := by
  simp [List.getD, h]

/-- **C34 (triangles).** The bars of a triangle mesh are exactly the undirected edges of its
triangles, each once, ordered. -/
theorem C34_bars2 {t : List (List ℕ)} (ht : Simplices 3 t) :
    ∃ es, getBars t 3 = .ok es ∧
      (∀ a b, (a, b) ∈ es ↔ a < b ∧ ∃ r ∈ t, a ∈ r ∧ b ∈ r) ∧
      es.Pairwise fun e f => e.1 < f.1 ∨ e.1 = f.1 ∧ e.2 < f.2 := by
  have h1 : ∀ i < 3, ∀ r ∈ t, r[i]? = some (r.getD i 0) := fun i hi r hr =>
    getD_some (by rw [(ht r hr).1]; exact hi)
  have hrun : getBars t 3 = .ok (uniqueEdges ((t.map fun r => (r.getD 0 0, r.getD 1 0)) ++
        (t.map fun r => (r.getD 1 0, r.getD 2 0)) ++
        (t.map fun r => (r.getD 2 0, r.getD 0 0)))) := by
    unfold getBars
    rw [colPair_ok (i := 0) (j := 1) _ _ fun r hr => ⟨h1 0 (by omega) r hr, h1 1 (by omega) r hr⟩,
      colPair_ok (i := 1) (j := 2) _ _ fun r hr => ⟨h1 1 (by omega) r hr, h1 2 (by omega) r hr⟩,
      colPair_ok (i := 2) (j := 0) _ _ fun r hr => ⟨h1 2 (by omega) r hr, h1 0 (by omega) r hr⟩]
    rfl
  refine ⟨_, hrun, ?_, uniqueEdges_sorted _⟩
  · intro a b
    rw [uniqueEdges_mem]
    simp only [List.mem_append, List.mem_map, Prod.mk.injEq]
    constructor
    · rintro ⟨hab, h⟩
      have : ∃ r ∈ t, a ∈ r ∧ b ∈ r ∧ a ≠ b := by
        rcases h with ((⟨r, hr, ha, hb⟩ | ⟨r, hr, ha, hb⟩) | ⟨r, hr, ha, hb⟩) |
            ((⟨r, hr, ha, hb⟩ | ⟨r, hr, ha, hb⟩) | ⟨r, hr, ha, hb⟩) <;>
          (obtain ⟨x, y, z, rfl⟩ := length3 (ht r hr).1
           have hn := (ht _ hr).2
           simp at hn ha hb
           subst ha hb
           refine ⟨_, hr, by simp, by simp, ?_⟩
           omega)
      obtain ⟨r, hr, h1, h2, hne⟩ := this
      exact ⟨lt_of_le_of_ne hab hne, r, hr, h1, h2⟩
    · rintro ⟨hab, r, hr, ha, hb⟩
      refine ⟨hab.le, ?_⟩
      obtain ⟨x, y, z, rfl⟩ := length3 (ht r hr).1
      simp only [List.mem_cons, List.not_mem_nil, or_false] at ha hb
      have := hab.ne
      rcases ha with rfl | rfl | rfl <;> rcases hb with rfl | rfl | rfl <;>
        first
          | exact absurd rfl this
          | exact Or.inl (Or.inl (Or.inl ⟨_, hr, rfl, rfl⟩))
          | exact Or.inl (Or.inl (Or.inr ⟨_, hr, rfl, rfl⟩))
          | exact Or.inl (Or.inr ⟨_, hr, rfl, rfl⟩)
          | exact Or.inr (Or.inl (Or.inl ⟨_, hr, rfl, rfl⟩))
          | exact Or.inr (Or.inl (Or.inr ⟨_, hr, rfl, rfl⟩))
          | exact Or.inr (Or.inr ⟨_, hr, rfl, rfl⟩)

/-- **C34 (tetrahedra).** -/
theorem C34_bars3 {t : List (List ℕ)} (ht : Simplices 4 t) :
    ∃ es, getBars t 4 = .ok es ∧
      (∀ a b, (a, b) ∈ es ↔ a < b ∧ ∃ r ∈ t, a ∈ r ∧ b ∈ r) ∧
      es.Pairwise fun e f => e.1 < f.1 ∨ e.1 = f.1 ∧ e.2 < f.2 := by
  have h1 : ∀ i < 4, ∀ r ∈ t, r[i]? = some (r.getD i 0) := fun i hi r hr =>
    getD_some (by rw [(ht r hr).1]; exact hi)
  have hrun : getBars t 4 = .ok (uniqueEdges ((t.map fun r => (r.getD 0 0, r.getD 1 0)) ++
        (t.map fun r => (r.getD 1 0, r.getD 2 0)) ++
        (t.map fun r => (r.getD 2 0, r.getD 0 0)) ++
        (t.map fun r => (r.getD 0 0, r.getD 3 0)) ++
        (t.map fun r => (r.getD 1 0, r.getD 3 0)) ++
        (t.map fun r => (r.getD 2 0, r.getD 3 0)))) := by
    unfold getBars
    rw [colPair_ok (i := 0) (j := 1) _ _ fun r hr => ⟨h1 0 (by omega) r hr, h1 1 (by omega) r hr⟩,
      colPair_ok (i := 1) (j := 2) _ _ fun r hr => ⟨h1 1 (by omega) r hr, h1 2 (by omega) r hr⟩,
      colPair_ok (i := 2) (j := 0) _ _ fun r hr => ⟨h1 2 (by omega) r hr, h1 0 (by omega) r hr⟩,
      colPair_ok (i := 0) (j := 3) _ _ fun r hr => ⟨h1 0 (by omega) r hr, h1 3 (by omega) r hr⟩,
      colPair_ok (i := 1) (j := 3) _ _ fun r hr => ⟨h1 1 (by omega) r hr, h1 3 (by omega) r hr⟩,
      colPair_ok (i := 2) (j := 3) _ _ fun r hr => ⟨h1 2 (by omega) r hr, h1 3 (by omega) r hr⟩]
    rfl
  refine ⟨_, hrun, ?_, uniqueEdges_sorted _⟩
  · intro a b
    rw [uniqueEdges_mem]
    simp only [List.mem_append, List.mem_map, Prod.mk.injEq]
    constructor
    · rintro ⟨hab, h⟩
      have : ∃ r ∈ t, a ∈ r ∧ b ∈ r ∧ a ≠ b := by
        rcases h with (((((⟨r, hr, ha, hb⟩ | ⟨r, hr, ha, hb⟩) | ⟨r, hr, ha, hb⟩) | ⟨r, hr, ha, hb⟩) |
            ⟨r, hr, ha, hb⟩) | ⟨r, hr, ha, hb⟩) |
            (((((⟨r, hr, ha, hb⟩ | ⟨r, hr, ha, hb⟩) | ⟨r, hr, ha, hb⟩) | ⟨r, hr, ha, hb⟩) |
            ⟨r, hr, ha, hb⟩) | ⟨r, hr, ha, hb⟩) <;>
          (obtain ⟨x, y, z, w, rfl⟩ := length4 (ht r hr).1
           have hn := (ht _ hr).2
           simp at hn ha hb
           subst ha hb
           refine ⟨_, hr, by simp, by simp, ?_⟩
           omega)
      obtain ⟨r, hr, h1, h2, hne⟩ := this
      exact ⟨lt_of_le_of_ne hab hne, r, hr, h1, h2⟩
    · rintro ⟨hab, r, hr, ha, hb⟩
      refine ⟨hab.le, ?_⟩
      obtain ⟨x, y, z, w, rfl⟩ := length4 (ht r hr).1
      simp only [List.mem_cons, List.not_mem_nil, or_false] at ha hb
      have := hab.ne
      simp only [or_assoc]
      rcases ha with rfl | rfl | rfl | rfl <;> rcases hb with rfl | rfl | rfl | rfl <;>
        first
          | exact absurd rfl this
          | exact Or.inl ⟨_, hr, rfl, rfl⟩
          | exact Or.inr (Or.inl ⟨_, hr, rfl, rfl⟩)
          | exact Or.inr (Or.inr (Or.inl ⟨_, hr, rfl, rfl⟩))
          | exact Or.inr (Or.inr (Or.inr (Or.inl ⟨_, hr, rfl, rfl⟩)))
          | exact Or.inr (Or.inr (Or.inr (Or.inr (Or.inl ⟨_, hr, rfl, rfl⟩))))
          | exact Or.inr (Or.inr (Or.inr (Or.inr (Or.inr (Or.inl ⟨_, hr, rfl, rfl⟩)))))
          | exact Or.inr (Or.inr (Or.inr (Or.inr (Or.inr (Or.inr (Or.inl ⟨_, hr, rfl, rfl⟩))))))
          | exact Or.inr (Or.inr (Or.inr (Or.inr (Or.inr (Or.inr (Or.inr (Or.inl ⟨_, hr, rfl, rfl⟩)))))))
          | exact Or.inr (Or.inr (Or.inr (Or.inr (Or.inr (Or.inr (Or.inr (Or.inr (Or.inl ⟨_, hr, rfl, rfl⟩))))))))
          | exact Or.inr (Or.inr (Or.inr (Or.inr (Or.inr (Or.inr (Or.inr (Or.inr (Or.inr (Or.inl ⟨_, hr, rfl, rfl⟩)))))))))
          | exact Or.inr (Or.inr (Or.inr (Or.inr (Or.inr (Or.inr (Or.inr (Or.inr (Or.inr (Or.inr (Or.inl ⟨_, hr, rfl, rfl⟩))))))))))
          | exact Or.inr (Or.inr (Or.inr (Or.inr (Or.inr (Or.inr (Or.inr (Or.inr (Or.inr (Or.inr (Or.inr ⟨_, hr, rfl, rfl⟩))))))))))

/-- Two triangles sharing an edge: five bars. -/
example : getBars [[0, 1, 2], [2, 1, 3]] 3 = .ok [(0, 1), (0, 2), (1, 2), (1, 3), (2, 3)] := by
  decide +kernel

example : Simplices 3 [[0, 1, 2], [2, 1, 3]] := by intro r hr; fin_cases hr <;> decide

/-! ### C35 -/

theorem edges2_ok {ents : List (List ℕ)} (h : Simplices 3 ents) :
    getEdges ents 2 = .ok (ents.map fun r =>
      [[r.getD 0 0, r.getD 1 0], [r.getD 0 0, r.getD 2 0], [r.getD 1 0, r.getD 2 0]]).flatten := by
  unfold getEdges edgeIx
  simp only [bind, Except.bind]
  apply subRows_ok
  intro r hr
  obtain ⟨a, b, c, rfl⟩ := length3 (h r hr).1
  rfl

theorem facets_ok {ents : List (List ℕ)} (h : Simplices 4 ents) :
    getFacets ents = .ok (ents.map fun r =>
      [[r.getD 0 0, r.getD 1 0, r.getD 3 0], [r.getD 1 0, r.getD 2 0, r.getD 3 0],
        [r.getD 2 0, r.getD 0 0, r.getD 3 0], [r.getD 1 0, r.getD 2 0, r.getD 0 0]]).flatten := by
  unfold getFacets facetIx
  apply subRows_ok
  intro r hr
  obtain ⟨a, b, c, d, rfl⟩ := length4 (h r hr).1
  rfl

/-- **C35 (edges).** `get_boundary_edges` of a triangle mesh returns each edge that belongs to
exactly one triangle once (smaller vertex first), and nothing else. -/
theorem C35_boundary_edges {rk : List ℕ → ρ} (hrk : Function.Injective rk) {ents : List (List ℕ)}
    (h : Simplices 3 ents) :
    ∃ b, getBoundaryEdges rk ents 2 = .ok b ∧ b.Nodup ∧
      ∀ s, s ∈ b ↔ ∃ x y, s = [x, y] ∧ x < y ∧ shared ents x y = 1 := by
  have hcount : ∀ x y, x < y → occ [x, y] ((ents.map fun r =>
      [[r.getD 0 0, r.getD 1 0], [r.getD 0 0, r.getD 2 0], [r.getD 1 0, r.getD 2 0]]).flatten.map
        sortRow) = shared ents x y := by
    intro x y hxy
    rw [List.map_flatten, List.map_map]
    unfold shared
    apply occ_flatten_map (q := fun r => x ∈ r ∧ y ∈ r)
    intro r hr
    have hnd := (h r hr).2
    obtain ⟨a, b, c, rfl⟩ := length3 (h r hr).1
    exact count_edges3 hnd hxy
  refine ⟨_, by rw [getBoundaryEdges, edges2_ok h]; rfl, rowsOccurring_nodup _ _ _, ?_⟩
  intro s
  rw [rowsOccurring_mem hrk (by omega)]
  constructor
  · intro hs
    have hmem : s ∈ (ents.map fun r => [[r.getD 0 0, r.getD 1 0], [r.getD 0 0, r.getD 2 0],
        [r.getD 1 0, r.getD 2 0]]).flatten.map sortRow := by
      unfold occ at hs
      obtain ⟨a, ha, hsa⟩ := List.countP_pos_iff.1 (hs ▸ (by omega : 0 < 2 - 1))
      exact of_decide_eq_true hsa ▸ ha
    obtain ⟨e, he, rfl⟩ := List.mem_map.1 hmem
    obtain ⟨l, hl, hel⟩ := List.mem_flatten.1 he
    obtain ⟨r, hr, rfl⟩ := List.mem_map.1 hl
    have hnd := (h r hr).2
    obtain ⟨a, b, c, rfl⟩ := length3 (h r hr).1
    have hshape : ∀ u v, u ≠ v → ∃ x y, sortRow [u, v] = [x, y] ∧ x < y := by
      intro u v huv
      rcases lt_or_gt_of_ne huv with h1 | h1
      · exact ⟨u, v, sortRow_of_sorted (by simp [h1.le]), h1⟩
      · refine ⟨v, u, ?_, h1⟩
        rw [← sortRow_of_sorted (r := [v, u]) (by simp [h1.le]), sortRow_eq_iff]
        exact List.Perm.swap _ _ _
    have : ∃ x y, sortRow e = [x, y] ∧ x < y := by
      simp at hnd hel
      rcases hel with rfl | rfl | rfl <;> apply hshape <;> omega
    obtain ⟨x, y, hxy, hlt⟩ := this
    refine ⟨x, y, hxy, hlt, ?_⟩
    rw [← hcount x y hlt, ← hxy]; exact hs
  · rintro ⟨x, y, rfl, hxy, hs⟩
    rw [hcount x y hxy, hs]

/-- **C35 (facets).** `get_boundary_facets` of a tetrahedral mesh returns each face that belongs
to exactly one tetrahedron once (vertices ascending), and nothing else. -/
theorem C35_boundary_facets {rk : List ℕ → ρ} (hrk : Function.Injective rk) {ents : List (List ℕ)}
    (h : Simplices 4 ents) :
    ∃ b, getBoundaryFacets rk ents = .ok b ∧ b.Nodup ∧
      ∀ s, s ∈ b ↔ ∃ x y z, s = [x, y, z] ∧ x < y ∧ y < z ∧ shared3 ents x y z = 1 := by
  have hcount : ∀ x y z, x < y → y < z → occ [x, y, z] ((ents.map fun r =>
      [[r.getD 0 0, r.getD 1 0, r.getD 3 0], [r.getD 1 0, r.getD 2 0, r.getD 3 0],
        [r.getD 2 0, r.getD 0 0, r.getD 3 0], [r.getD 1 0, r.getD 2 0, r.getD 0 0]]).flatten.map
        sortRow) = shared3 ents x y z := by
    intro x y z hxy hyz
    rw [List.map_flatten, List.map_map]
    unfold shared3
    apply occ_flatten_map (q := fun r => x ∈ r ∧ y ∈ r ∧ z ∈ r)
    intro r hr
    have hnd := (h r hr).2
    obtain ⟨a, b, c, d, rfl⟩ := length4 (h r hr).1
    refine (count_facets4 (s := [x, y, z]) hnd ?_ rfl ?_).trans ?_
    · simp; omega
    · simp; omega
    · simp
  refine ⟨_, by rw [getBoundaryFacets, facets_ok h]; rfl, rowsOccurring_nodup _ _ _, ?_⟩
  intro s
  rw [rowsOccurring_mem hrk (by omega)]
  constructor
  · intro hs
    have hmem : s ∈ (ents.map fun r =>
      [[r.getD 0 0, r.getD 1 0, r.getD 3 0], [r.getD 1 0, r.getD 2 0, r.getD 3 0],
        [r.getD 2 0, r.getD 0 0, r.getD 3 0], [r.getD 1 0, r.getD 2 0, r.getD 0 0]]).flatten.map
        sortRow := by
      unfold occ at hs
      obtain ⟨a, ha, hsa⟩ := List.countP_pos_iff.1 (hs ▸ (by omega : 0 < 1))
      exact of_decide_eq_true hsa ▸ ha
    obtain ⟨e, he, rfl⟩ := List.mem_map.1 hmem
    obtain ⟨l, hl, hel⟩ := List.mem_flatten.1 he
    obtain ⟨r, hr, rfl⟩ := List.mem_map.1 hl
    have hnd := (h r hr).2
    obtain ⟨a, b, c, d, rfl⟩ := length4 (h r hr).1
    have hshape : ∀ e : List ℕ, e.length = 3 → e.Nodup →
        ∃ x y z, sortRow e = [x, y, z] ∧ x < y ∧ y < z := by
      intro e hl hn
      obtain ⟨x, y, z, hxyz⟩ := length3 (r := sortRow e) (by rw [sortRow_length, hl])
      have h1 := sortRow_sorted e
      have h2 : (sortRow e).Nodup := (sortRow_perm e).nodup_iff.2 hn
      rw [hxyz] at h1 h2
      simp at h1 h2
      exact ⟨x, y, z, hxyz, by omega, by omega⟩
    have : ∃ x y z, sortRow e = [x, y, z] ∧ x < y ∧ y < z := by
      simp at hnd hel
      rcases hel with rfl | rfl | rfl | rfl <;> apply hshape <;> simp <;> omega
    obtain ⟨x, y, z, hxy, hlt, hlt'⟩ := this
    refine ⟨x, y, z, hxy, hlt, hlt', ?_⟩
    rw [← hcount x y z hlt hlt', ← hxy]; exact hs
  · rintro ⟨x, y, z, rfl, hxy, hyz, hs⟩
    rw [hcount x y z hxy hyz, hs]

/-- **C35 (vertices, 2-D).** -/
theorem C35_boundary_vertices2 {rk : List ℕ → ρ} (hrk : Function.Injective rk)
    {ents : List (List ℕ)} (h : Simplices 3 ents) :
    ∃ bv, getBoundaryVertices rk ents 2 = .ok bv ∧ bv.Pairwise (· < ·) ∧
      ∀ v, v ∈ bv ↔ OnBoundary2 ents v := by
  obtain ⟨b, hb, -, hm⟩ := C35_boundary_edges hrk h
  refine ⟨uniqBy id b.flatten, ?_, uniqBy_sorted id _, ?_⟩
  · simp only [getBoundaryVertices, hb, bind, Except.bind, pure, Except.pure]
  · intro v
    rw [uniqId_mem, List.mem_flatten]
    constructor
    · rintro ⟨s, hs, hv⟩
      obtain ⟨x, y, rfl, hxy, h1⟩ := (hm s).1 hs
      simp only [List.mem_cons, List.not_mem_nil, or_false] at hv
      rcases hv with rfl | rfl
      · exact ⟨y, hxy.ne', h1⟩
      · exact ⟨x, hxy.ne, by rw [shared_comm]; exact h1⟩
    · rintro ⟨w, hw, h1⟩
      rcases lt_or_gt_of_ne hw with h2 | h2
      · exact ⟨[w, v], (hm _).2 ⟨w, v, rfl, h2, by rw [shared_comm]; exact h1⟩, by simp⟩
      · exact ⟨[v, w], (hm _).2 ⟨v, w, rfl, h2, h1⟩, by simp⟩

theorem shared3_perm (ents : List (List ℕ)) {a b c a' b' c' : ℕ}
    (h : ∀ r : List ℕ, (a ∈ r ∧ b ∈ r ∧ c ∈ r) ↔ (a' ∈ r ∧ b' ∈ r ∧ c' ∈ r)) :
    shared3 ents a b c = shared3 ents a' b' c' := by
  unfold shared3; congr 1; funext r; simp only [h r]

/-- **C35 (vertices, 3-D).** -/
theorem C35_boundary_vertices3 {rk : List ℕ → ρ} (hrk : Function.Injective rk)
    {ents : List (List ℕ)} (h : Simplices 4 ents) :
    ∃ bv, getBoundaryVertices rk ents 3 = .ok bv ∧ bv.Pairwise (· < ·) ∧
      ∀ v, v ∈ bv ↔ OnBoundary3 ents v := by
  obtain ⟨b, hb, -, hm⟩ := C35_boundary_facets hrk h
  refine ⟨uniqBy id b.flatten, ?_, uniqBy_sorted id _, ?_⟩
  · simp only [getBoundaryVertices, hb, bind, Except.bind, pure, Except.pure]
  · intro v
    rw [uniqId_mem, List.mem_flatten]
    constructor
    · rintro ⟨s, hs, hv⟩
      obtain ⟨x, y, z, rfl, hxy, hyz, h1⟩ := (hm s).1 hs
      simp only [List.mem_cons, List.not_mem_nil, or_false] at hv
      rcases hv with rfl | rfl | rfl
      · exact ⟨y, z, by omega, by omega, by omega, h1⟩
      · exact ⟨x, z, by omega, by omega, by omega,
          by rw [shared3_perm (a' := x) (b' := v) (c' := z)]; exact h1; intro r; tauto⟩
      · exact ⟨x, y, by omega, by omega, by omega,
          by rw [shared3_perm (a' := x) (b' := y) (c' := v)]; exact h1; intro r; tauto⟩
    · rintro ⟨a, c, ha, hc, hac, h1⟩
      have hex : ∃ x y z, x < y ∧ y < z ∧ v ∈ [x, y, z] ∧
          ∀ r : List ℕ, (x ∈ r ∧ y ∈ r ∧ z ∈ r) ↔ (v ∈ r ∧ a ∈ r ∧ c ∈ r) := by
        rcases lt_or_gt_of_ne ha with h2 | h2 <;> rcases lt_or_gt_of_ne hc with h3 | h3 <;>
          rcases lt_or_gt_of_ne hac with h4 | h4
        · exact ⟨a, c, v, by omega, by omega, by simp, by intro r; tauto⟩
        · exact ⟨c, a, v, by omega, by omega, by simp, by intro r; tauto⟩
        · exact ⟨a, v, c, by omega, by omega, by simp, by intro r; tauto⟩
        · omega
        · omega
        · exact ⟨c, v, a, by omega, by omega, by simp, by intro r; tauto⟩
        · exact ⟨v, a, c, by omega, by omega, by simp, by intro r; tauto⟩
        · exact ⟨v, c, a, by omega, by omega, by simp, by intro r; tauto⟩
      obtain ⟨x, y, z, h2, h3, hv, hr⟩ := hex
      exact ⟨[x, y, z], (hm _).2 ⟨x, y, z, rfl, h2, h3, by rw [shared3_perm ents hr]; exact h1⟩, hv⟩

/-- Other dimensions raise. -/
theorem C35_dim_raises (rk : List ℕ → ρ) (ents : List (List ℕ)) {dim : ℕ} (h2 : dim ≠ 2)
    (h3 : dim ≠ 3) : ∃ e, getBoundaryVertices rk ents dim = .error e := by
  unfold getBoundaryVertices
  split
  · exact absurd rfl h2
  · exact absurd rfl h3
  · exact ⟨_, rfl⟩

/-- Finding: `get_boundary_edges(..., dim=3)` looks for edges occurring twice. On a single
tetrahedron, all of whose edges are on the boundary, it returns nothing. -/
theorem C35_edges3_wrong : getBoundaryEdges (fun r => (r : List ℕ)) [[0, 1, 2, 3]] 3 = .ok [] := by
  decide +kernel

example : getBoundaryEdges (fun r => (r : List ℕ)) [[0, 1, 2], [2, 1, 3]] 2 =
    .ok [[0, 1], [0, 2], [1, 3], [2, 3]] := by decide +kernel

example : getBoundaryFacets (fun r => (r : List ℕ)) [[0, 1, 2, 3], [1, 2, 3, 4]] =
    .ok [[0, 1, 2], [0, 1, 3], [0, 2, 3], [1, 2, 4], [1, 3, 4], [2, 3, 4]] := by decide +kernel

end SM.Topology
