import Verif.Model.Winding
import Verif.Props.Manifold
import Mathlib.Logic.Relation

/-!
# C38: `get_winded_boundary_edges`
-/

namespace SM.Winding

open Np Topology FixMesh

variable {ρ : Type} [LinearOrder ρ]

/-! ### Specification -/

/-- The edges `es` are passed one after the other on the way from `a` to `c`: each edge has the
two ends through which it is entered and left. In particular consecutive edges share a vertex. -/
inductive Trail : ℕ → List (List ℕ) → ℕ → Prop
  | nil (a : ℕ) : Trail a [] a
  | cons {a b c : ℕ} {e : List ℕ} {es : List (List ℕ)} (hab : a ≠ b) (he : e.Perm [a, b])
      (h : Trail b es c) : Trail a (e :: es) c

/-- Boundary edge of a triangle mesh: belongs to exactly one triangle (written smaller vertex
first). -/
def BoundaryEdge (ents : List (List ℕ)) (e : List ℕ) : Prop :=
  ∃ x y, e = [x, y] ∧ x < y ∧ shared ents x y = 1

/-- Any two boundary edges are connected by boundary edges, each sharing a vertex with the next. -/
def Connected (ents : List (List ℕ)) : Prop :=
  ∀ e f, BoundaryEdge ents e → BoundaryEdge ents f →
    Relation.ReflTransGen (fun e f => BoundaryEdge ents f ∧ ∃ v, v ∈ e ∧ v ∈ f) e f

/-- The boundary is a single closed loop. -/
def SingleLoop (ents : List (List ℕ)) : Prop := BoundaryOk ents ∧ Connected ents

/-! ### The walk -/

theorem getD_get {α : Type} {l : List α} {d : α} {i : ℕ} (h : i < l.length) : l.getD i d = l[i] := by
  simp [List.getD, h]


theorem walk_spec {edges : List (List ℕ)} (hedge : ∀ e ∈ edges, ∃ x y, e = [x, y] ∧ x < y) :
    ∀ (n : ℕ) (unv : List ℕ) (v : ℕ), unv.length = n → unv.Nodup → (∀ i ∈ unv, i < edges.length) →
    ∃ l c, walk edges unv v = .ok l ∧ l.Nodup ∧ (∀ i ∈ l, i ∈ unv) ∧
      Trail v (l.map fun i => edges.getD i []) c ∧
      ∀ i ∈ unv, i ∉ l → c ∉ edges.getD i [] := by
  intro n
  induction n with
  | zero =>
    intro unv v hn _ _
    have : unv = [] := List.eq_nil_of_length_eq_zero hn
    subst this
    refine ⟨[], v, ?_, by simp, by simp, Trail.nil v, by simp⟩
    unfold walk; rfl
  | succ n ih =>
    intro unv v hn hnd hlt
    cases hf : unv.find? fun i => decide (v ∈ edges.getD i []) with
    | none =>
      refine ⟨[], v, ?_, by simp, by simp, Trail.nil v, ?_⟩
      · unfold walk; split
        · rfl
        · rename_i h; rw [hf] at h; cases h
      · intro i hi _
        have := List.find?_eq_none.1 hf i hi
        simpa using this
    | some c =>
      have hc := List.mem_of_find?_eq_some hf
      have hv : v ∈ edges.getD c [] := by simpa using List.find?_some hf
      have hcl := hlt c hc
      have hmem : edges.getD c [] ∈ edges := by
        rw [getD_get hcl]; exact List.getElem_mem hcl
      obtain ⟨x, y, hxy, hlt'⟩ := hedge _ hmem
      rw [hxy] at hv
      simp only [List.mem_cons, List.not_mem_nil, or_false] at hv
      -- the other end
      obtain ⟨w, hw, hvw, hperm⟩ : ∃ w, ((edges.getD c []).filter fun u => decide (u ≠ v)) = [w] ∧
          v ≠ w ∧ (edges.getD c []).Perm [v, w] := by
        rw [hxy]
        rcases hv with rfl | rfl
        · exact ⟨y, by simp [hlt'.ne'], hlt'.ne, List.Perm.refl _⟩
        · exact ⟨x, by simp [hlt'.ne], hlt'.ne', List.Perm.swap _ _ _⟩
      obtain ⟨l, c', hl, hlnd, hlsub, htr, hend⟩ := ih (unv.erase c) w
        (by rw [List.length_erase_of_mem hc]; omega) (hnd.erase c)
        (fun i hi => hlt i (List.mem_of_mem_erase hi))
      refine ⟨c :: l, c', ?_, ?_, ?_, ?_, ?_⟩
      · unfold walk
        split
        · rename_i h; rw [hf] at h; cases h
        · rename_i c0 h
          rw [hf] at h; cases h
          simp only [hw, hl, bind, Except.bind, pure, Except.pure]
      · refine List.nodup_cons.2 ⟨fun h => ?_, hlnd⟩
        exact ((List.Nodup.mem_erase_iff hnd).1 (hlsub c h)).1 rfl
      · intro i hi
        rcases List.mem_cons.1 hi with rfl | hi
        · exact hc
        · exact List.mem_of_mem_erase (hlsub i hi)
      · exact Trail.cons hvw hperm htr
      · intro i hi hni
        have hic : i ≠ c := fun h => hni (by simp [h])
        exact hend i ((List.mem_erase_of_ne hic).2 hi) fun h => hni (by simp [h])

/-- Unfolded result of the function on a triangle mesh with a boundary. -/
theorem winded_run {rk : List ℕ → ρ} (hrk : Function.Injective rk) {ents : List (List ℕ)}
    (h : Simplices 3 ents) (hb : ∃ e, BoundaryEdge ents e) :
    ∃ out a c, windedBoundaryEdges rk ents = .ok out ∧ out ≠ [] ∧ out.Nodup ∧
      (∀ e ∈ out, BoundaryEdge ents e) ∧ Trail a out c ∧
      ∀ e, BoundaryEdge ents e → e ∉ out → c ∉ e := by
  obtain ⟨b, hbe, hnd, hm⟩ := C35_boundary_edges hrk h
  have hedge : ∀ e ∈ b, ∃ x y, e = [x, y] ∧ x < y := by
    intro e he
    obtain ⟨x, y, h1, h2, -⟩ := (hm e).1 he
    exact ⟨x, y, h1, h2⟩
  match b, hbe, hnd, hm, hedge with
  | [], _, _, hm, _ =>
    obtain ⟨e, he⟩ := hb
    exact absurd ((hm e).2 he) (by simp)
  | e0 :: bs, hbe, hnd, hm, hedge =>
    obtain ⟨x, y, hxy, hlt⟩ := hedge e0 (by simp)
    have htail : (List.range (e0 :: bs).length).tail.Nodup :=
      (List.tail_sublist _).nodup List.nodup_range
    obtain ⟨l, c, hl, hlnd, hlsub, htr, hend⟩ := walk_spec hedge _ (List.range (e0 :: bs).length).tail y
      rfl htail (fun i hi => List.mem_range.1 (List.mem_of_mem_tail hi))
    have hlr : ∀ i ∈ l, i < (e0 :: bs).length := fun i hi =>
      List.mem_range.1 (List.mem_of_mem_tail (hlsub i hi))
    have h0l : 0 ∉ l := by
      intro h0
      have := hlsub 0 h0
      rw [List.length_cons, List.range_succ_eq_map, List.tail_cons] at this
      simp at this
    have htake : Np.take (e0 :: bs) (0 :: l) = .ok ((0 :: l).map fun i => (e0 :: bs).getD i []) := by
      rw [take_spec, List.map_map]
      apply List.map_congr_left
      intro i hi
      have : i < (e0 :: bs).length := by
        rcases List.mem_cons.1 hi with rfl | hi
        · simp
        · exact hlr i hi
      simp only [Function.comp_apply, getD_get this, List.getElem?_eq_getElem this]
    have hinj : ∀ i j, i < (e0 :: bs).length → j < (e0 :: bs).length →
        (e0 :: bs).getD i [] = (e0 :: bs).getD j [] → i = j := by
      intro i j hi hj hij
      rw [getD_get hi, getD_get hj] at hij
      exact (List.Nodup.getElem_inj_iff hnd).1 hij
    refine ⟨(0 :: l).map fun i => (e0 :: bs).getD i [], x, c, ?_, by simp, ?_, ?_, ?_, ?_⟩
    · unfold windedBoundaryEdges
      simp only [hbe, bind, Except.bind]
      have : item e0 1 = .ok y := by rw [hxy]; rfl
      simp only [this, hl, htake]
    · refine List.Nodup.map_on ?_ (List.nodup_cons.2 ⟨h0l, hlnd⟩)
      intro i hi j hj hij
      refine hinj i j ?_ ?_ hij
      · rcases List.mem_cons.1 hi with rfl | hi
        · simp
        · exact hlr i hi
      · rcases List.mem_cons.1 hj with rfl | hj
        · simp
        · exact hlr j hj
    · intro e he
      obtain ⟨i, hi, rfl⟩ := List.mem_map.1 he
      have hi' : i < (e0 :: bs).length := by
        rcases List.mem_cons.1 hi with rfl | hi
        · simp
        · exact hlr i hi
      refine (hm _).1 ?_
      rw [getD_get hi']; exact List.getElem_mem hi'
    · refine Trail.cons hlt.ne ?_ htr
      show e0.Perm [x, y]
      rw [hxy]
    · intro e he hout
      obtain ⟨i, hi, hie⟩ := List.mem_iff_getElem.1 ((hm e).2 he)
      have hid : (e0 :: bs).getD i [] = e := by rw [getD_get hi, hie]
      have hi0 : i ∉ 0 :: l := fun h' => hout (List.mem_map.2 ⟨i, h', hid⟩)
      rw [List.mem_cons, not_or] at hi0
      have := hend i ?_ hi0.2
      · rwa [hid] at this
      · rw [List.length_cons, List.range_succ_eq_map, List.tail_cons, List.mem_map]
        exact ⟨i - 1, List.mem_range.2 (by simp at hi; omega), by omega⟩

/-- **C38 (walk).** On every triangle mesh with a boundary, `get_winded_boundary_edges` terminates
and returns boundary edges only, none twice, forming a walk, which ends at a vertex `c` where no
boundary edge is left unvisited. -/
theorem C38_walk {rk : List ℕ → ρ} (hrk : Function.Injective rk) {ents : List (List ℕ)}
    (h : Simplices 3 ents) (hb : ∃ e, BoundaryEdge ents e) :
    ∃ out a c, windedBoundaryEdges rk ents = .ok out ∧ out ≠ [] ∧ out.Nodup ∧
      (∀ e ∈ out, BoundaryEdge ents e) ∧ Trail a out c ∧
      ∀ e, BoundaryEdge ents e → e ∉ out → c ∉ e := winded_run hrk h hb

/-- A mesh without boundary raises. -/
theorem C38_closed_raises {rk : List ℕ → ρ} (hrk : Function.Injective rk) {ents : List (List ℕ)}
    (h : Simplices 3 ents) (hb : ¬ ∃ e, BoundaryEdge ents e) :
    ∃ e, windedBoundaryEdges rk ents = .error e := by
  obtain ⟨b, hbe, -, hm⟩ := C35_boundary_edges hrk h
  have : b = [] := by
    cases b with
    | nil => rfl
    | cons e bs => exact absurd ⟨e, (hm e).1 (by simp)⟩ hb
  subst this
  exact ⟨"IndexError", by unfold windedBoundaryEdges; simp only [hbe, bind, Except.bind]; rfl⟩

/-! ### Single loop -/

/-- Parity of the number of trail edges at a vertex. -/
theorem trail_parity {a c : ℕ} {es : List (List ℕ)} (h : Trail a es c) (v : ℕ) :
    2 ∣ es.countP (fun e => decide (v ∈ e)) + (if v = a then 1 else 0) + (if v = c then 1 else 0) := by
  induction h with
  | nil a => by_cases hv : v = a <;> simp [hv]
  | @cons a b c e es hab he _ ih =>
    rw [List.countP_cons]
    have hmem : v ∈ e ↔ v = a ∨ v = b := by rw [he.mem_iff]; simp
    by_cases hva : v = a
    · have hvb : v ≠ b := fun h => hab (hva.symm.trans h)
      have hd : decide (v ∈ e) = true := decide_eq_true (hmem.2 (Or.inl hva))
      rw [hd]
      rw [if_neg hvb] at ih
      rw [if_pos hva]
      simp only [if_true]; omega
    · by_cases hvb : v = b
      · have hd : decide (v ∈ e) = true := decide_eq_true (hmem.2 (Or.inr hvb))
        rw [hd]
        rw [if_pos hvb] at ih
        rw [if_neg hva]
        simp only [if_true]; omega
      · have hd : decide (v ∈ e) = false := by
          rw [decide_eq_false_iff_not, hmem]; tauto
        rw [hd]
        rw [if_neg hvb] at ih
        rw [if_neg hva]
        simpa using ih

/-- A duplicate-free list of edges of `b` contains at most as many edges at `v` as `b`; if it
contains that many, it contains all of them. -/
theorem countP_le_degree {out b : List (List ℕ)} (hnd : out.Nodup)
    (hsub : ∀ e ∈ out, e ∈ b) (v : ℕ) :
    out.countP (fun e => decide (v ∈ e)) ≤ b.countP (fun e => decide (v ∈ e)) ∧
      (b.Nodup → out.countP (fun e => decide (v ∈ e)) = b.countP (fun e => decide (v ∈ e)) →
        ∀ e ∈ b, v ∈ e → e ∈ out) := by
  have h1 : (out.filter fun e => decide (v ∈ e)) ⊆ b.filter fun e => decide (v ∈ e) := by
    intro e he
    rw [List.mem_filter] at he ⊢
    exact ⟨hsub e he.1, he.2⟩
  have h2 := List.subperm_of_subset (hnd.filter _) h1
  rw [List.countP_eq_length_filter, List.countP_eq_length_filter]
  refine ⟨h2.length_le, fun _ heq e he hv => ?_⟩
  have h3 := h2.perm_of_length_le heq.ge
  have : e ∈ out.filter fun e => decide (v ∈ e) :=
    h3.mem_iff.2 (List.mem_filter.2 ⟨he, decide_eq_true hv⟩)
  exact (List.mem_filter.1 this).1

/-- **C38 (single loop).** If the boundary is a single closed loop, every boundary edge is
returned, and the walk is closed. -/
theorem C38_single_loop {rk : List ℕ → ρ} (hrk : Function.Injective rk) {ents : List (List ℕ)}
    (h : Simplices 3 ents) (hb : ∃ e, BoundaryEdge ents e) (hl : SingleLoop ents) :
    ∃ out a, windedBoundaryEdges rk ents = .ok out ∧ out.Nodup ∧ Trail a out a ∧
      ∀ e, e ∈ out ↔ BoundaryEdge ents e := by
  obtain ⟨out, a, c, hrun, hne, hnd, hsub, htr, hend⟩ := winded_run hrk h hb
  obtain ⟨b, -, hbnd, hm⟩ := C35_boundary_edges hrk h
  have hsubb : ∀ e ∈ out, e ∈ b := fun e he => (hm e).2 (hsub e he)
  have hdeg := fun v => countP_boundary hbnd hm v
  have honb : ∀ e v, BoundaryEdge ents e → v ∈ e → OnBoundary2 ents v := by
    rintro e v ⟨x, y, rfl, hxy, h1⟩ hv
    simp only [List.mem_cons, List.not_mem_nil, or_false] at hv
    rcases hv with rfl | rfl
    · exact ⟨y, hxy.ne', h1⟩
    · exact ⟨x, hxy.ne, by rw [shared_comm]; exact h1⟩
  -- the walk is closed
  have hca : c = a := by
    by_contra hca
    have hpar := trail_parity htr c
    rw [if_neg hca, if_pos rfl] at hpar
    have hpos : 0 < out.countP fun e => decide (c ∈ e) := by omega
    obtain ⟨e, he, hce⟩ := List.countP_pos_iff.1 hpos
    have hd2 := hl.1 c (honb e c (hsub e he) (of_decide_eq_true hce))
    rw [← hdeg c] at hd2
    have hle := (countP_le_degree hnd hsubb c).1
    have hlt : out.countP (fun e => decide (c ∈ e)) < b.countP fun e => decide (c ∈ e) := by omega
    have hexists : ∃ e ∈ b, c ∈ e ∧ e ∉ out := by
      by_contra hcon
      push Not at hcon
      have hbs : (b.filter fun e => decide (c ∈ e)) ⊆ out.filter fun e => decide (c ∈ e) := by
        intro e he
        rw [List.mem_filter] at he ⊢
        exact ⟨hcon e he.1 (of_decide_eq_true he.2), he.2⟩
      have := (List.subperm_of_subset (hbnd.filter _) hbs).length_le
      rw [List.countP_eq_length_filter, List.countP_eq_length_filter] at hlt
      omega
    obtain ⟨f, hf, hcf, hfo⟩ := hexists
    exact hend f ((hm f).1 hf) hfo hcf
  subst hca
  -- all edges at trail vertices are in the trail
  have hfull : ∀ e ∈ out, ∀ v ∈ e, ∀ f, BoundaryEdge ents f → v ∈ f → f ∈ out := by
    intro e he v hv f hf hvf
    have hpar := trail_parity htr v
    have hpos : 0 < out.countP fun e => decide (v ∈ e) :=
      List.countP_pos_iff.2 ⟨e, he, decide_eq_true hv⟩
    have hd2 := hl.1 v (honb e v (hsub e he) hv)
    rw [← hdeg v] at hd2
    obtain ⟨hle, hall⟩ := countP_le_degree hnd hsubb v
    refine hall hbnd ?_ f ((hm f).2 hf) hvf
    split_ifs at hpar <;> omega
  refine ⟨out, c, hrun, hnd, htr, fun e => ⟨hsub e, fun he => ?_⟩⟩
  match out, hne, hsub, hfull with
  | e1 :: es, _, hsub, hfull =>
    have hconn := hl.2 e1 e (hsub e1 (by simp)) he
    induction hconn with
    | refl => simp
    | tail _ hstep ih =>
      rename_i f g hfg
      obtain ⟨hg, v, hvf, hvg⟩ := hstep
      by_cases hbf : BoundaryEdge ents f
      · exact hfull f (ih hbf) v hvf g hg hvg
      · -- the first edge is a boundary edge, and so is every later one
        cases hfg with
        | refl => exact absurd (hsub e1 (by simp)) hbf
        | tail _ h2 => exact absurd h2.1 hbf

/-- Finding: with more than one boundary loop only the loop of the first edge is returned. Here
two separate triangles have six boundary edges; three are returned. -/
theorem C38_other_loops_dropped :
    ∃ out, windedBoundaryEdges (fun r => (r : List ℕ)) [[0, 1, 2], [3, 4, 5]] = .ok out ∧
      out.length = 3 ∧ BoundaryEdge [[0, 1, 2], [3, 4, 5]] [3, 4] ∧ [3, 4] ∉ out := by
  refine ⟨[[0, 1], [1, 2], [0, 2]], by decide +kernel, rfl, ⟨3, 4, rfl, by omega, by decide⟩, by decide⟩

/-- Computed case: two triangles sharing an edge; the boundary is the loop 0-1-3-2. -/
example : windedBoundaryEdges (fun r => (r : List ℕ)) [[0, 1, 2], [2, 1, 3]] =
    .ok [[0, 1], [1, 3], [2, 3], [0, 2]] := by decide +kernel

/-- Non-vacuity of the single-loop hypothesis: one triangle. -/
example : SingleLoop [[0, 1, 2]] ∧ BoundaryEdge [[0, 1, 2]] [0, 1] := by
  have hsh : ∀ a b, shared [[0, 1, 2]] a b = 1 → a < 3 ∧ b < 3 := by
    intro a b hp
    obtain ⟨r, hr, hd⟩ := List.countP_pos_iff.1 (show 0 < shared [[0, 1, 2]] a b by omega)
    have := of_decide_eq_true hd
    fin_cases hr; simp at this; omega
  refine ⟨⟨?_, ?_⟩, ⟨0, 1, rfl, by omega, by decide⟩⟩
  · rintro v ⟨w, -, h1⟩
    have := (hsh v w h1).1
    interval_cases v <;> decide
  · intro e f he hf
    apply Relation.ReflTransGen.single
    refine ⟨hf, ?_⟩
    obtain ⟨a, b, rfl, hab, h1⟩ := he
    obtain ⟨c, d, rfl, hcd, h2⟩ := hf
    have := hsh _ _ h1
    have := hsh _ _ h2
    simp only [List.mem_cons, List.not_mem_nil, or_false]
    by_contra hcon
    push Not at hcon
    have h3 := hcon a
    have h4 := hcon b
    omega

end SM.Winding
