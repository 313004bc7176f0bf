import Verif.Props.Topology

/-!
# C50: `is_manifold`

The full property is false of the code in both directions at its edges: `is_manifold` only compares
the number of boundary edges with the number of boundary vertices. It is proved here to be exact on
every triangle mesh with a boundary in which no edge belongs to more than two triangles; a mesh
with an edge in three triangles that is accepted, and the closed-surface error, are given as
counterexamples to the full statement.
-/

namespace SM.Topology

open Np FixMesh

variable {ρ : Type} [LinearOrder ρ]

/-! ### Specification -/

/-- Number of boundary edges (edges belonging to exactly one triangle) at a vertex. -/
def boundaryDegree (ents : List (List ℕ)) (v : ℕ) : ℕ :=
  (ents.flatten.toFinset.filter fun w => w ≠ v ∧ shared ents v w = 1).card

/-- Condition on edges: no edge belongs to more than two triangles. -/
def EdgesOk (ents : List (List ℕ)) : Prop := ∀ a b, a ≠ b → shared ents a b ≤ 2

/-- Condition on boundary vertices: each has exactly two boundary edges. -/
def BoundaryOk (ents : List (List ℕ)) : Prop := ∀ v, OnBoundary2 ents v → boundaryDegree ents v = 2

/-- A triangle mesh that is a manifold with boundary in the sense of C50. -/
def Manifold2 (ents : List (List ℕ)) : Prop := EdgesOk ents ∧ BoundaryOk ents

/-! ### Double counting -/

theorem sum_countP {α β : Type} (S : Finset α) (l : List β) (R : α → β → Prop)
    [∀ a b, Decidable (R a b)] :
    ∑ a ∈ S, l.countP (fun b => decide (R a b)) = (l.map fun b => (S.filter fun a => R a b).card).sum := by
  induction l with
  | nil => simp
  | cons b l ih =>
    simp only [List.countP_cons, Finset.sum_add_distrib, ih, List.map_cons, List.sum_cons,
      decide_eq_true_eq]
    rw [Finset.card_filter]
    omega

theorem shared_pos_mem {ents : List (List ℕ)} {v w : ℕ} (h : 0 < shared ents v w) :
    w ∈ ents.flatten.toFinset := by
  obtain ⟨r, hr, hd⟩ := List.countP_pos_iff.1 h
  exact List.mem_toFinset.2 (List.mem_flatten.2 ⟨r, hr, (of_decide_eq_true hd).2⟩)

/-- In a triangle mesh the numbers of triangles at the edges of a vertex add up to twice the
number of triangles at the vertex. -/
theorem sum_shared {ents : List (List ℕ)} (h : Simplices 3 ents) (v : ℕ) :
    ∑ w ∈ ents.flatten.toFinset.erase v, shared ents v w =
      2 * ents.countP fun r => decide (v ∈ r) := by
  have := sum_countP (ents.flatten.toFinset.erase v) ents (fun w r => v ∈ r ∧ w ∈ r)
  unfold shared
  rw [this]
  have hS : ∀ r ∈ ents, ∀ w ∈ r, w ∈ ents.flatten.toFinset := fun r hr w hw =>
    List.mem_toFinset.2 (List.mem_flatten.2 ⟨r, hr, hw⟩)
  generalize ents.flatten.toFinset = S at hS
  clear this
  induction ents with
  | nil => simp
  | cons r rs ih =>
    rw [List.map_cons, List.sum_cons, ih (fun r hr => h r (by simp [hr]))
      (fun r hr => hS r (by simp [hr])), List.countP_cons]
    by_cases hv : v ∈ r
    · have : ((S.erase v).filter fun w => v ∈ r ∧ w ∈ r) = r.toFinset.erase v := by
        ext w
        simp only [Finset.mem_filter, Finset.mem_erase, List.mem_toFinset, hv, true_and]
        constructor
        · rintro ⟨⟨h1, -⟩, h2⟩; exact ⟨h1, h2⟩
        · rintro ⟨h1, h2⟩; exact ⟨⟨h1, hS r (by simp) w h2⟩, h2⟩
      rw [this, Finset.card_erase_of_mem (List.mem_toFinset.2 hv),
        List.toFinset_card_of_nodup (h r (by simp)).2, (h r (by simp)).1]
      simp [hv]; omega
    · have : ((S.erase v).filter fun w => v ∈ r ∧ w ∈ r) = ∅ := by
        ext w; simp [hv]
      rw [this]
      simp [hv]

/-- If no edge is in more than two triangles, the number of boundary edges at a vertex is even. -/
theorem boundaryDegree_even {ents : List (List ℕ)} (h : Simplices 3 ents) (he : EdgesOk ents)
    (v : ℕ) : 2 ∣ boundaryDegree ents v := by
  have hsum := sum_shared h v
  have h1 : ∀ w ∈ ents.flatten.toFinset.erase v, shared ents v w =
      (if shared ents v w = 1 then 1 else 0) + 2 * (if shared ents v w = 2 then 1 else 0) := by
    intro w hw
    have := he v w (Finset.ne_of_mem_erase hw).symm
    split_ifs <;> omega
  rw [Finset.sum_congr rfl h1, Finset.sum_add_distrib, ← Finset.mul_sum, ← Finset.card_filter] at hsum
  have h2 : boundaryDegree ents v =
      ((ents.flatten.toFinset.erase v).filter fun w => shared ents v w = 1).card := by
    unfold boundaryDegree
    congr 1
    ext w
    simp only [Finset.mem_filter, Finset.mem_erase]
    tauto
  rw [h2]
  omega

theorem boundaryDegree_pos {ents : List (List ℕ)} {v : ℕ} (h : OnBoundary2 ents v) :
    0 < boundaryDegree ents v := by
  obtain ⟨w, hw, h1⟩ := h
  exact Finset.card_pos.2 ⟨w, Finset.mem_filter.2 ⟨shared_pos_mem (v := v) (by omega), hw, h1⟩⟩

/-- The number of edges in the boundary list that contain `v`. -/
theorem countP_boundary {ents : List (List ℕ)} {b : List (List ℕ)} (hnd : b.Nodup)
    (hm : ∀ s, s ∈ b ↔ ∃ x y, s = [x, y] ∧ x < y ∧ shared ents x y = 1) (v : ℕ) :
    b.countP (fun e => decide (v ∈ e)) = boundaryDegree ents v := by
  rw [List.countP_eq_length_filter, ← List.toFinset_card_of_nodup (hnd.filter _)]
  unfold boundaryDegree
  symm
  refine Finset.card_bij (fun w _ => [min v w, max v w]) ?_ ?_ ?_
  · intro w hw
    rw [Finset.mem_filter] at hw
    rw [List.mem_toFinset, List.mem_filter]
    refine ⟨(hm _).2 ⟨_, _, rfl, ?_, ?_⟩, ?_⟩
    · have := hw.2.1; omega
    · rcases le_total v w with h | h
      · rw [min_eq_left h, max_eq_right h]; exact hw.2.2
      · rw [min_eq_right h, max_eq_left h, shared_comm]; exact hw.2.2
    · rcases le_total v w with h | h <;> simp [h]
  · intro w1 h1 w2 h2 heq
    simp only [List.cons.injEq, and_true] at heq
    omega
  · intro e he
    rw [List.mem_toFinset, List.mem_filter] at he
    obtain ⟨x, y, rfl, hxy, hs⟩ := (hm e).1 he.1
    have hv := of_decide_eq_true he.2
    simp only [List.mem_cons, List.not_mem_nil, or_false] at hv
    rcases hv with rfl | rfl
    · exact ⟨y, Finset.mem_filter.2 ⟨shared_pos_mem (v := v) (by omega), hxy.ne', hs⟩,
        by simp [hxy.le]⟩
    · refine ⟨x, Finset.mem_filter.2 ⟨shared_pos_mem (v := v) (by rw [shared_comm]; omega), hxy.ne,
        by rw [shared_comm]; exact hs⟩, by simp [hxy.le]⟩

theorem boundary_handshake {ents : List (List ℕ)} {b : List (List ℕ)} (hnd : b.Nodup)
    (hm : ∀ s, s ∈ b ↔ ∃ x y, s = [x, y] ∧ x < y ∧ shared ents x y = 1) (S : Finset ℕ)
    (hS : ∀ v, v ∈ S ↔ ∃ e ∈ b, v ∈ e) :
    ∑ v ∈ S, boundaryDegree ents v = 2 * b.length := by
  rw [← Finset.sum_congr rfl fun v _ => countP_boundary hnd hm v,
    sum_countP S b (fun v e => v ∈ e)]
  have hb : ∀ e ∈ b, ((S.filter fun v => v ∈ e).card = 2) := by
    intro e he
    obtain ⟨x, y, rfl, hxy, -⟩ := (hm e).1 he
    have : (S.filter fun v => v ∈ [x, y]) = {x, y} := by
      ext v
      simp only [Finset.mem_filter, List.mem_cons, List.not_mem_nil, or_false, Finset.mem_insert,
        Finset.mem_singleton, and_iff_right_iff_imp]
      intro hv
      exact (hS v).2 ⟨[x, y], he, by simpa using hv⟩
    rw [this, Finset.card_pair hxy.ne]
  rw [List.map_congr_left hb]
  simp [Nat.mul_comm]

theorem flatten_length {ents : List (List ℕ)} {b : List (List ℕ)}
    (hm : ∀ s, s ∈ b ↔ ∃ x y, s = [x, y] ∧ x < y ∧ shared ents x y = 1) :
    b.flatten.length = 2 * b.length := by
  rw [List.length_flatten]
  have : b.map List.length = b.map fun _ => 2 := by
    apply List.map_congr_left
    intro e he
    obtain ⟨x, y, rfl, -, -⟩ := (hm e).1 he; rfl
  rw [this]; simp [Nat.mul_comm]

/-! ### Theorems -/

/-- Shape of the computation on a triangle mesh with a boundary: the result compares the number
of boundary edges with the number of boundary vertices. -/
theorem isManifold_run {rk : List ℕ → ρ} (hrk : Function.Injective rk) {ents : List (List ℕ)}
    (h : Simplices 3 ents) {nv : ℕ} (hr : ∀ r ∈ ents, ∀ i ∈ r, i < nv)
    (hb : ∃ v, OnBoundary2 ents v) :
    ∃ (b : List (List ℕ)) (S : Finset ℕ), (∀ s, s ∈ b ↔ ∃ x y, s = [x, y] ∧ x < y ∧ shared ents x y = 1) ∧ b.Nodup ∧
      (∀ v, v ∈ S ↔ ∃ e ∈ b, v ∈ e) ∧ (∀ v, v ∈ S ↔ OnBoundary2 ents v) ∧
      isManifold rk nv 2 ents 2 = .ok (decide (b.length = Finset.card S)) := by
  obtain ⟨b, hbe, hnd, hm⟩ := C35_boundary_edges hrk h
  have hS : ∀ v, v ∈ (uniqBy id b.flatten).toFinset ↔ ∃ e ∈ b, v ∈ e := by
    intro v; rw [List.mem_toFinset, uniqId_mem, List.mem_flatten]
  have hS2 : ∀ v, (∃ e ∈ b, v ∈ e) ↔ OnBoundary2 ents v := by
    intro v
    constructor
    · rintro ⟨s, hs, hv⟩
      obtain ⟨x, y, rfl, hxy, h1⟩ := (hm s).1 hs
      simp only [List.mem_cons, List.not_mem_nil, or_false] at hv
      rcases hv with rfl | rfl
      · exact ⟨y, hxy.ne', h1⟩
      · exact ⟨x, hxy.ne, by rw [shared_comm]; exact h1⟩
    · rintro ⟨w, hw, h1⟩
      rcases lt_or_gt_of_ne hw with h2 | h2
      · exact ⟨[w, v], (hm _).2 ⟨w, v, rfl, h2, by rw [shared_comm]; exact h1⟩, by simp⟩
      · exact ⟨[v, w], (hm _).2 ⟨v, w, rfl, h2, h1⟩, by simp⟩
  refine ⟨b, _, hm, hnd, hS, fun v => (hS v).trans (hS2 v), ?_⟩
  obtain ⟨v0, hv0⟩ := hb
  obtain ⟨e0, he0, -⟩ := (hS2 v0).2 hv0
  have hne : b.isEmpty = false := by
    cases b with
    | nil => simp at he0
    | cons => rfl
  obtain ⟨t, ht⟩ := take_ok (a := List.range nv) (ix := uniqBy id b.flatten) (by
    intro i hi
    rw [List.length_range]
    have hi' := (hS2 i).1 ((hS i).1 (List.mem_toFinset.2 hi))
    obtain ⟨w, -, hc⟩ := hi'
    obtain ⟨r, hr', hd⟩ := List.countP_pos_iff.1 (show 0 < shared ents i w by omega)
    exact hr r hr' i (of_decide_eq_true hd).1)
  unfold isManifold
  simp only [hbe, bind, Except.bind, hne, Bool.false_eq_true, if_false, ht, pure, Except.pure]
  congr 1
  rw [flatten_length hm, List.toFinset_card_of_nodup (uniqBy_nodup id _)]
  congr 1
  rw [Nat.mul_comm, eq_iff_iff]
  omega

/-- **C50 (partial: edges in at most two triangles, and a boundary).** For a triangle mesh with a
boundary in which no edge belongs to more than two triangles, `is_manifold` returns True exactly
if every boundary vertex has exactly two boundary edges. -/
theorem C50_exact_partial {rk : List ℕ → ρ} (hrk : Function.Injective rk) {ents : List (List ℕ)}
    (h : Simplices 3 ents) {nv : ℕ} (hr : ∀ r ∈ ents, ∀ i ∈ r, i < nv)
    (hb : ∃ v, OnBoundary2 ents v) (he : EdgesOk ents) :
    ∃ res, isManifold rk nv 2 ents 2 = .ok res ∧ (res = true ↔ Manifold2 ents) := by
  obtain ⟨b, S, hm, hnd, hS, hS2, hrun⟩ := isManifold_run hrk h hr hb
  refine ⟨_, hrun, ?_⟩
  rw [decide_eq_true_eq]
  have hhs := boundary_handshake hnd hm S hS
  have hge : ∀ v ∈ S, 2 ≤ boundaryDegree ents v := by
    intro v hv
    have := boundaryDegree_pos ((hS2 v).1 hv)
    have := boundaryDegree_even h he v
    omega
  have hsum2 : ∑ v ∈ S, 2 = 2 * S.card := by simp [Nat.mul_comm]
  have hiff := Finset.sum_eq_sum_iff_of_le hge
  rw [hhs, hsum2] at hiff
  constructor
  · intro heq
    refine ⟨he, fun v hv => ?_⟩
    exact ((hiff.1 (by omega)) v ((hS2 v).2 hv)).symm
  · intro hman
    have := hiff.2 fun v hv => (hman.2 v ((hS2 v).1 hv)).symm
    omega

/-- **C50 (one direction, in general).** On every triangle mesh with a boundary, manifold or not:
a manifold is never reported as non-manifold. -/
theorem C50_true_if_manifold {rk : List ℕ → ρ} (hrk : Function.Injective rk) {ents : List (List ℕ)}
    (h : Simplices 3 ents) {nv : ℕ} (hr : ∀ r ∈ ents, ∀ i ∈ r, i < nv)
    (hb : ∃ v, OnBoundary2 ents v) (hman : BoundaryOk ents) :
    isManifold rk nv 2 ents 2 = .ok true := by
  obtain ⟨b, S, hm, hnd, hS, hS2, hrun⟩ := isManifold_run hrk h hr hb
  rw [hrun]
  congr 1
  rw [decide_eq_true_eq]
  have hhs := boundary_handshake hnd hm S hS
  rw [Finset.sum_congr rfl fun v hv => hman v ((hS2 v).1 hv)] at hhs
  simp at hhs
  omega

/-- **C50 is false in general (1).** Three cones over the loop 0-1-2 (every edge of the
loop is in three triangles) next to a separate triangle: `is_manifold` returns True. -/
theorem C50_accepts_nonmanifold :
    ∃ ents, Simplices 3 ents ∧ isManifold (fun r => (r : List ℕ)) 9 2 ents 2 = .ok true ∧
      ¬ Manifold2 ents := by
  refine ⟨[[0, 1, 3], [1, 2, 3], [2, 0, 3], [0, 1, 4], [1, 2, 4], [2, 0, 4],
    [0, 1, 5], [1, 2, 5], [2, 0, 5], [6, 7, 8]], ?_, by decide +kernel, ?_⟩
  · intro r hr; fin_cases hr <;> decide
  · intro h
    have := h.1 0 1 (by decide)
    revert this; decide

/-- **C50 is false in general (2).** On a closed surface (the boundary of a tetrahedron), which
satisfies the definition vacuously, `is_manifold` raises. -/
theorem C50_closed_surface_raises :
    ∃ ents, Simplices 3 ents ∧ Manifold2 ents ∧
      ∃ e, isManifold (fun r => (r : List ℕ)) 4 2 ents 2 = .error e := by
  have hs : Simplices 3 [[0, 1, 2], [0, 1, 3], [0, 2, 3], [1, 2, 3]] := by
    intro r hr; fin_cases hr <;> decide
  have hfin : ∀ a < 4, ∀ b < 4, a ≠ b → shared [[0, 1, 2], [0, 1, 3], [0, 2, 3], [1, 2, 3]] a b = 2 := by
    decide
  have hz : ∀ a b, 0 < shared [[0, 1, 2], [0, 1, 3], [0, 2, 3], [1, 2, 3]] a b → a < 4 ∧ b < 4 := by
    intro a b hp
    obtain ⟨r, hr, hd⟩ := List.countP_pos_iff.1 hp
    have := of_decide_eq_true hd
    fin_cases hr <;> simp at this <;> omega
  have h2 : ∀ a b, a ≠ b → shared [[0, 1, 2], [0, 1, 3], [0, 2, 3], [1, 2, 3]] a b = 0 ∨
      shared [[0, 1, 2], [0, 1, 3], [0, 2, 3], [1, 2, 3]] a b = 2 := by
    intro a b hab
    rcases Nat.eq_zero_or_pos (shared [[0, 1, 2], [0, 1, 3], [0, 2, 3], [1, 2, 3]] a b) with h | h
    · exact Or.inl h
    · exact Or.inr (hfin a (hz a b h).1 b (hz a b h).2 hab)
  refine ⟨_, hs, ⟨?_, ?_⟩, "IndexError", by decide +kernel⟩
  · intro a b hab
    rcases h2 a b hab with h | h <;> omega
  · rintro v ⟨w, hw, h1⟩
    rcases h2 v w (Ne.symm hw) with h | h <;> omega

/-- Non-vacuity of the partial theorem: two triangles sharing an edge. -/
example : Simplices 3 [[0, 1, 2], [2, 1, 3]] ∧ (∃ v, OnBoundary2 [[0, 1, 2], [2, 1, 3]] v) ∧
    EdgesOk [[0, 1, 2], [2, 1, 3]] := by
  refine ⟨by intro r hr; fin_cases hr <;> decide, ⟨0, 1, by decide, by decide⟩, ?_⟩
  intro a b _
  exact List.countP_le_length

/-- Two triangles touching in a vertex only are reported as non-manifold. -/
example : isManifold (fun r => (r : List ℕ)) 5 2 [[0, 1, 2], [2, 3, 4]] 2 = .ok false := by
  decide +kernel

end SM.Topology
