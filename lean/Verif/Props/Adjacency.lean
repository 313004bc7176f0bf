import Verif.Props.Topology

/-!
# C36, C37, C39: adjacency, boundary clean-up, block clipping
-/

namespace SM.Topology

open Np FixMesh

variable {ρ : Type} [LinearOrder ρ]

/-! ### C36 -/

theorem ptr_spec {srt : List (ℕ × ℕ) → List (ℕ × ℕ)} (hsrt : IsArgsort srt) {ents : List (List ℕ)}
    {dim n : ℕ} (hw : ∀ r ∈ ents, r.length = dim + 1)
    (hocc : ∀ v, v < n ↔ ∃ r ∈ ents, v ∈ r) (hn : 0 < n) {v : ℕ} (hv : v ≤ n) :
    (vertexToEntities srt ents dim).2[v]? =
      some ((srt (incidences ents)).countP fun x => decide (x.1 < v)) := by
  have hperm := hsrt.perm (incidences ents)
  have hsorted := hsrt.sorted (incidences ents)
  have hlen : (srt (incidences ents)).length = ents.length * (dim + 1) := by
    rw [hperm.length_eq, incidences_length hw]
  have hmem : ∀ w, w ∈ (srt (incidences ents)).map Prod.fst ↔ w < n := by
    intro w
    rw [hocc, List.mem_map]
    constructor
    · rintro ⟨⟨a, i⟩, h, rfl⟩
      obtain ⟨r, hr, hw⟩ := mem_incidences.1 (hperm.mem_iff.1 h)
      exact ⟨r, List.mem_of_getElem? hr, hw⟩
    · rintro ⟨r, hr, hw⟩
      obtain ⟨i, hi⟩ := List.mem_iff_getElem?.1 hr
      exact ⟨(w, i), hperm.mem_iff.2 (mem_incidences.2 ⟨r, hi, hw⟩), rfl⟩
  have hcount : ∀ w, (srt (incidences ents)).countP (fun x => decide (x.1 < w)) =
      ((srt (incidences ents)).map Prod.fst).countP fun y => decide (y < w) := by
    intro w; rw [List.countP_map]; rfl
  have hs : ((srt (incidences ents)).map Prod.fst).Pairwise (· ≤ ·) := List.pairwise_map.2 hsorted
  unfold vertexToEntities
  simp only
  rw [hcount]
  have hlen' : ((srt (incidences ents)).map Prod.fst).length = ents.length * (dim + 1) := by
    rw [List.length_map, hlen]
  rw [← hlen']
  generalize ((srt (incidences ents)).map Prod.fst) = col at hmem hs
  clear hlen hlen' hcount hsorted hperm
  match col, hmem, hs with
  | [], hmem, _ => exact absurd ((hmem 0).2 hn) (by simp)
  | x :: xs, hmem, hs =>
    have hx : x = 0 := by
      have h0 := (hmem 0).2 hn
      rw [List.pairwise_cons] at hs
      rcases List.mem_cons.1 h0 with h | h
      · exact h.symm
      · have := hs.1 0 h; omega
    subst hx
    rw [List.pairwise_cons] at hs
    obtain ⟨h1, h2⟩ := changes_spec (prev := 0) (pos := 1) hs.2 (fun y _ => Nat.zero_le y) (by
      intro y hy w hw hwy
      have hyn := (hmem y).1 (by simp [hy])
      have := (hmem w).2 (by omega)
      rcases List.mem_cons.1 this with h | h
      · omega
      · exact h)
    rcases Nat.eq_zero_or_pos v with rfl | hv0
    · simp [changePoints]
    · have hl : (changes 0 1 xs).length = n - 1 := by
        have := h2 (n - 1) ?_ ?_ (Nat.zero_le _)
        · simpa using this
        · by_cases h : n - 1 = 0
          · exact Or.inl h
          · right
            have := (hmem (n - 1)).2 (by omega)
            rcases List.mem_cons.1 this with h' | h'
            · omega
            · exact h'
        · intro y hy
          have := (hmem y).1 (by simp [hy]); omega
      have e1 : v = (v - 1) + 1 := by omega
      rw [show (0 :: changePoints (0 :: xs) ++ [(0 :: xs).length])[v]? =
        (changes 0 1 xs ++ [(0 :: xs).length])[v - 1]? by
          conv_lhs => rw [e1]
          rfl]
      by_cases hvn : v = n
      · have : (0 :: xs).countP (fun y => decide (y < v)) = (0 :: xs).length := by
          rw [List.countP_eq_length]
          intro y hy
          have := (hmem y).1 hy; simp; omega
        rw [this, List.getElem?_append_right (by omega), show v - 1 - (changes 0 1 xs).length = 0 by omega]
        rfl
      · rw [List.getElem?_append_left (by omega)]
        have hvx : v ∈ xs := by
          have := (hmem v).2 (by omega)
          rcases List.mem_cons.1 this with h' | h'
          · omega
          · exact h'
        have := h1 v hvx hv0
        rw [Nat.sub_zero] at this
        rw [this, List.countP_cons]
        simp only [hv0, decide_true, if_true]
        congr 1; omega

/-- **C36.** In every mesh whose rows have `dim + 1` entries and in which exactly the vertices
`0, ..., n-1` occur, `vtoe[ptr[v] : ptr[v + 1]]` lists exactly the entities containing `v` (each
once, if no entity repeats a vertex) — whatever order `argsort` chooses among equal keys. -/
theorem C36_inverse {srt : List (ℕ × ℕ) → List (ℕ × ℕ)} (hsrt : IsArgsort srt)
    {ents : List (List ℕ)} {dim n : ℕ} (hw : ∀ r ∈ ents, r.length = dim + 1)
    (hocc : ∀ v, v < n ↔ ∃ r ∈ ents, v ∈ r) {v : ℕ} (hv : v < n) :
    ∃ l, entitiesOf (vertexToEntities srt ents dim) v = .ok l ∧
      (∀ i, i ∈ l ↔ ∃ r, ents[i]? = some r ∧ v ∈ r) ∧
      ((∀ r ∈ ents, r.Nodup) → l.Nodup) := by
  have h1 := ptr_spec hsrt hw hocc (by omega) hv.le
  have h2 := ptr_spec hsrt hw hocc (by omega) (show v + 1 ≤ n by omega)
  refine ⟨((srt (incidences ents)).filter fun x => decide (x.1 = v)).map Prod.snd, ?_, ?_, ?_⟩
  · unfold entitiesOf item
    simp only [h1, h2, bind, Except.bind, pure, Except.pure]
    rw [← countP_split (f := Prod.fst) (hsrt.sorted _)]
    simp only [vertexToEntities, List.map_drop, List.map_take]
  · intro i
    simp only [List.mem_map, List.mem_filter, decide_eq_true_eq, Prod.exists, exists_eq_right]
    constructor
    · intro h; exact mem_incidences.1 ((hsrt.perm _).mem_iff.1 h)
    · intro h; exact (hsrt.perm _).mem_iff.2 (mem_incidences.2 h)
  · intro hnd
    have h3 : (srt (incidences ents)).Nodup := (hsrt.perm _).nodup_iff.2 (incidences_nodup hnd)
    refine (List.Nodup.filter _ h3).map_on ?_
    rintro ⟨a, i⟩ ha ⟨b, j⟩ hb hij
    simp only [List.mem_filter, decide_eq_true_eq] at ha hb
    simp only at hij
    rw [ha.2, hb.2, hij]

/-- A stable sort is an `argsort`. -/
theorem isArgsort_insertionSort :
    IsArgsort (fun l => l.insertionSort fun a b => a.1 ≤ b.1) := by
  have : IsTrans (ℕ × ℕ) fun a b => a.1 ≤ b.1 := ⟨fun _ _ _ h1 h2 => le_trans h1 h2⟩
  have : Std.Total (α := ℕ × ℕ) fun a b => a.1 ≤ b.1 := ⟨fun a b => le_total a.1 b.1⟩
  exact ⟨fun l => List.perm_insertionSort _ l, fun l => List.pairwise_insertionSort _ l⟩

/-- Non-vacuity and a computed case: two triangles on vertices 0..3. -/
example : (∀ v, v < 4 ↔ ∃ r ∈ [[0, 1, 2], [2, 1, 3]], v ∈ r) ∧
    entitiesOf (vertexToEntities (fun l => l.insertionSort fun a b => a.1 ≤ b.1)
      [[0, 1, 2], [2, 1, 3]] 2) 1 = .ok [0, 1] := by
  refine ⟨fun v => ?_, by decide +kernel⟩
  simp only [List.mem_cons, List.not_mem_nil, or_false, exists_eq_or_imp, exists_eq_left]
  omega

/-- The hypothesis on the vertices is needed: with an unused vertex (here 1) the pointer array is
shifted, and triangle 0, which contains vertex 3, is not reported for vertex 3. -/
theorem C36_unused_vertex_breaks :
    ∃ l, entitiesOf (vertexToEntities (fun l => l.insertionSort fun a b => a.1 ≤ b.1)
      [[0, 2, 3], [0, 3, 4]] 2) 3 = .ok l ∧ ¬ (0 ∈ l) := by
  refine ⟨[1], by decide +kernel, by decide⟩

/-! ### C37 -/

theorem npDelete_eq_filter {α : Type} (a : List α) (idx : List ℕ) (keep : α → Bool)
    (h : ∀ i x, a[i]? = some x → (i ∈ idx ↔ keep x = false)) : npDelete a idx = a.filter keep := by
  unfold npDelete
  have : (a.zipIdx.filter fun xi => !idx.contains xi.2) = a.zipIdx.filter (keep ∘ Prod.fst) := by
    apply List.filter_congr
    rintro ⟨x, i⟩ hxi
    have := h i x (by simpa using List.mem_zipIdx_iff_getElem?.1 hxi)
    simp only [List.contains_eq_mem, Function.comp_apply]
    cases hk : keep x with
    | false => simp [this.2 hk]
    | true =>
      have : i ∉ idx := fun hi => by rw [this.1 hi] at hk; cases hk
      simp [this]
  rw [this, ← List.filter_map, List.zipIdx_map_fst]

/-- Being on the boundary, in either dimension. -/
def OnBoundary (dim : ℕ) (ents : List (List ℕ)) (v : ℕ) : Prop :=
  if dim = 2 then OnBoundary2 ents v else OnBoundary3 ents v

theorem boundary_vertices {rk : List ℕ → ρ} (hrk : Function.Injective rk) {ents : List (List ℕ)}
    {dim : ℕ} (hd : dim = 2 ∨ dim = 3) (h : Simplices (dim + 1) ents) :
    ∃ bv, getBoundaryVertices rk ents dim = .ok bv ∧ ∀ v, v ∈ bv ↔ OnBoundary dim ents v := by
  rcases hd with rfl | rfl
  · obtain ⟨bv, h1, -, h2⟩ := C35_boundary_vertices2 hrk h
    exact ⟨bv, h1, fun v => by rw [h2, OnBoundary, if_pos rfl]⟩
  · obtain ⟨bv, h1, -, h2⟩ := C35_boundary_vertices3 hrk h
    exact ⟨bv, h1, fun v => by rw [h2, OnBoundary, if_neg (by omega)]⟩

theorem onBoundary_used {dim : ℕ} {ents : List (List ℕ)} {v : ℕ} (h : OnBoundary dim ents v) :
    ∃ r ∈ ents, v ∈ r := by
  unfold OnBoundary at h
  split at h
  · obtain ⟨w, -, hc⟩ := h
    obtain ⟨r, hr, hd⟩ := List.countP_pos_iff.1 (show 0 < shared ents v w by omega)
    exact ⟨r, hr, (of_decide_eq_true hd).1⟩
  · obtain ⟨a, b, -, -, -, hc⟩ := h
    obtain ⟨r, hr, hd⟩ := List.countP_pos_iff.1 (show 0 < shared3 ents v a b by omega)
    exact ⟨r, hr, (of_decide_eq_true hd).1⟩

/-- `get_boundary_entities` returns exactly the entities with a vertex on the boundary. -/
theorem C37_boundary_entities {rk : List ℕ → ρ} (hrk : Function.Injective rk)
    {srt : List (ℕ × ℕ) → List (ℕ × ℕ)} (hsrt : IsArgsort srt) {ents : List (List ℕ)} {dim n : ℕ}
    (hd : dim = 2 ∨ dim = 3) (h : Simplices (dim + 1) ents)
    (hocc : ∀ v, v < n ↔ ∃ r ∈ ents, v ∈ r) :
    ∃ be, getBoundaryEntities rk srt ents dim = .ok be ∧ be.Pairwise (· < ·) ∧
      ∀ i, i ∈ be ↔ ∃ r, ents[i]? = some r ∧ ∃ v ∈ r, OnBoundary dim ents v := by
  obtain ⟨bv, hbv, hm⟩ := boundary_vertices hrk hd h
  have hex : ∀ v ∈ bv, ∃ l, entitiesOf (vertexToEntities srt ents dim) v = .ok l ∧
      ∀ i, i ∈ l ↔ ∃ r, ents[i]? = some r ∧ v ∈ r := by
    intro v hv
    have hvn := (hocc v).2 (onBoundary_used ((hm v).1 hv))
    obtain ⟨l, h1, h2, -⟩ := C36_inverse hsrt (fun r hr => (h r hr).1) hocc hvn
    exact ⟨l, h1, h2⟩
  obtain ⟨ls, hls⟩ := mapM_exists (f := entitiesOf (vertexToEntities srt ents dim)) (l := bv)
    fun v hv => (hex v hv).imp fun l h => h.1
  have hF := mapM_forall₂.1 hls
  refine ⟨uniqBy id ls.flatten, ?_, uniqBy_sorted id _, ?_⟩
  · unfold getBoundaryEntities
    simp only [hbv, hls, bind, Except.bind, pure, Except.pure]
  · intro i
    rw [uniqId_mem, List.mem_flatten]
    constructor
    · rintro ⟨l, hl, hi⟩
      obtain ⟨v, hv, he⟩ := forall₂_right hF l hl
      obtain ⟨l', hl', hmem⟩ := hex v hv
      rw [hl'] at he; cases he
      obtain ⟨r, hr, hvr⟩ := (hmem i).1 hi
      exact ⟨r, hr, v, hvr, (hm v).1 hv⟩
    · rintro ⟨r, hr, v, hvr, hb⟩
      have hv := (hm v).2 hb
      obtain ⟨l, hl, he⟩ := forall₂_left hF v hv
      obtain ⟨l', hl', hmem⟩ := hex v hv
      rw [hl'] at he; cases he
      exact ⟨_, hl, (hmem i).2 ⟨r, hr, hvr⟩⟩

section delete
variable {P κ K : Type} [LinearOrder κ] [LinearOrder K] [Zero K]

/-- The entity (row `r`) is to be deleted: it touches the boundary and its quality, computed from
the coordinates `vs` of its vertices, is below the threshold. -/
def Poor (qual : List P → K) (dim : ℕ) (p : List P) (ents : List (List ℕ)) (minQual : K)
    (r : List ℕ) : Prop :=
  (∃ v ∈ r, OnBoundary dim ents v) ∧ ∃ vs, r.map (fun i => p[i]?) = vs.map some ∧ qual vs < minQual

/-- **C37.** `delete_boundary_entities` on a valid mesh without duplicate vertices (2-D or 3-D)
succeeds, and the returned entities are — as vertex lists up to order — exactly the input
entities that are not poor boundary entities. -/
theorem C37_exact (key : P → κ) {rk : List ℕ → ρ} (hrk : Function.Injective rk)
    (vol qual : List P → K) {srt : List (ℕ × ℕ) → List (ℕ × ℕ)} (hsrt : IsArgsort srt)
    {p : List P} (hp : p ≠ []) {ents : List (List ℕ)} {dim : ℕ} (hd : dim = 2 ∨ dim = 3)
    (h : Simplices (dim + 1) ents) (hocc : ∀ v, v < p.length ↔ ∃ r ∈ ents, v ∈ r)
    (hk : ∀ x ∈ p, ∀ y ∈ p, key x = key y → x = y) (minQual : K) :
    ∃ p' t', deleteBoundaryEntities key rk vol qual srt p ents dim minQual = .ok (p', t') ∧
      (∀ r' ∈ t', ∃ r ∈ ents, ¬ Poor qual dim p ents minQual r ∧
        (r'.map fun i => p'[i]?).Perm (r.map fun i => p[i]?)) ∧
      (∀ r ∈ ents, ¬ Poor qual dim p ents minQual r → ∃ r' ∈ t',
        (r'.map fun i => p'[i]?).Perm (r.map fun i => p[i]?)) := by
  classical
  have hex : ∀ r ∈ ents, ∃ vs, Np.take p r = .ok vs := fun r hr =>
    (take_ok fun i hi => (hocc i).2 ⟨r, hr, hi⟩)
  obtain ⟨q, hq⟩ := mapM_exists (f := fun r => (do return qual (← Np.take p r) : Except String K))
    (l := ents) (by
      intro r hr
      obtain ⟨vs, hvs⟩ := hex r hr
      exact ⟨qual vs, by simp only [hvs, bind, Except.bind, pure, Except.pure]⟩)
  have hF := mapM_forall₂.1 hq
  have hqlen : q.length = ents.length := hF.length_eq.symm
  have hqi : ∀ (i : ℕ) (r : List ℕ), ents[i]? = some r → ∃ vs, Np.take p r = .ok vs ∧ q[i]? = some (qual vs) := by
    intro i r hr
    obtain ⟨hi, hri⟩ := List.getElem?_eq_some_iff.1 hr
    have h1 := (List.forall₂_iff_get.1 hF).2 i hi (by omega)
    obtain ⟨vs, hvs⟩ := hex r (List.mem_of_getElem? hr)
    simp only [List.get_eq_getElem, hri, hvs, bind, Except.bind, pure, Except.pure,
      Except.ok.injEq] at h1
    exact ⟨vs, hvs, by rw [List.getElem?_eq_getElem (l := q) (i := i) (by omega), ← h1]⟩
  obtain ⟨be, hbe, -, hbm⟩ := C37_boundary_entities hrk hsrt hd h hocc
  obtain ⟨qb, hqb⟩ := take_ok (a := q) (ix := be) (by
    intro i hi
    obtain ⟨r, hr, -⟩ := (hbm i).1 hi
    rw [hqlen]; exact (List.getElem?_eq_some_iff.1 hr).1)
  let keep : List ℕ → Bool := fun r => decide (¬ Poor qual dim p ents minQual r)
  have hdel : npDelete ents (((be.zip qb).filter fun eq => decide (eq.2 < minQual)).map Prod.fst) =
      ents.filter keep := by
    apply npDelete_eq_filter
    intro i r hr
    obtain ⟨vs, hvs, hqv⟩ := hqi i r hr
    have hmem : i ∈ ((be.zip qb).filter fun eq => decide (eq.2 < minQual)).map Prod.fst ↔
        i ∈ be ∧ qual vs < minQual := by
      simp only [List.mem_map, List.mem_filter, decide_eq_true_eq, Prod.exists, exists_and_right,
        exists_eq_right]
      constructor
      · rintro ⟨x, hx, hlt⟩
        obtain ⟨n, hn⟩ := List.mem_iff_getElem?.1 hx
        rw [List.getElem?_zip_eq_some] at hn
        have h3 := take_get hqb hn.1
        rw [hn.2, hqv] at h3
        cases h3
        exact ⟨List.mem_of_getElem? hn.1, hlt⟩
      · rintro ⟨hi, hlt⟩
        obtain ⟨n, hn⟩ := List.mem_iff_getElem?.1 hi
        have h3 := take_get hqb hn
        rw [hqv] at h3
        refine ⟨qual vs, List.mem_of_getElem? (i := n) ?_, hlt⟩
        rw [List.getElem?_zip_eq_some]
        exact ⟨hn, h3⟩
    rw [hmem, hbm]
    simp only [keep, decide_eq_false_iff_not, not_not]
    unfold Poor
    have e1 : (∃ r', ents[i]? = some r' ∧ ∃ v ∈ r', OnBoundary dim ents v) ↔
        ∃ v ∈ r, OnBoundary dim ents v := by
      rw [hr]; simp
    rw [e1]
    refine and_congr_right fun _ => ⟨fun hlt => ⟨vs, take_spec.1 hvs, hlt⟩, ?_⟩
    rintro ⟨vs', hvs', hlt⟩
    have := take_spec.2 hvs'
    rw [hvs] at this; cases this; exact hlt
  have hir : InRange p (ents.filter keep) := by
    intro r hr i hi
    exact (hocc i).2 ⟨r, (List.mem_filter.1 hr).1, hi⟩
  obtain ⟨p', t', jx', hrun, h1, h2⟩ := C32_exact key hrk vol hp hir hk true true
  refine ⟨p', t', ?_, ?_, ?_⟩
  · unfold deleteBoundaryEntities
    simp only [bind, Except.bind, pure, Except.pure] at hq ⊢
    rw [hq]
    simp only [hbe, hqb, hdel, hrun]
  · intro r' hr'
    obtain ⟨r, hr, hp⟩ := h1 r' hr'
    rw [List.mem_filter] at hr
    exact ⟨r, hr.1, of_decide_eq_true hr.2, hp⟩
  · intro r hr hnp
    exact h2 r (List.mem_filter.2 ⟨hr, decide_eq_true hnp⟩)

/-- Non-vacuity: two triangles on four points; and a computed deletion (quality = first
coordinate here), which removes the triangle of quality 0. -/
example : ∃ p' t', deleteBoundaryEntities (id : ℕ → ℕ) (id : List ℕ → List ℕ) (fun _ => (0 : ℤ))
    (fun vs => if vs = [10, 11, 12] then (0 : ℤ) else 1)
    (fun l => l.insertionSort fun a b => a.1 ≤ b.1) [10, 11, 12, 13] [[0, 1, 2], [2, 1, 3]] 2 1 =
      .ok (p', t') ∧ p' = [11, 12, 13] ∧ t' = [[0, 1, 2]] :=
  ⟨[11, 12, 13], [[0, 1, 2]], by decide +kernel, rfl, rfl⟩

example : (∀ v, v < ([10, 11, 12, 13] : List ℕ).length ↔ ∃ r ∈ [[0, 1, 2], [2, 1, 3]], v ∈ r) ∧
    Simplices (2 + 1) [[0, 1, 2], [2, 1, 3]] := by
  refine ⟨fun v => ?_, by intro r hr; fin_cases hr <;> decide⟩
  simp only [List.length_cons, List.length_nil, List.mem_cons, List.not_mem_nil, or_false,
    exists_eq_or_imp, exists_eq_left]
  omega

end delete

/-! ### C39 -/

section external
variable {P K : Type} [LinearOrder K] [Zero K]

theorem removeExternal_spec (sd : P → K) {p : List P} {ents : List (List ℕ)} {dim : ℕ}
    (hw : ∀ r ∈ ents, r.length = dim + 1) (hr : InRange p ents) (keep : List ℕ → Bool)
    (hk : ∀ r ∈ ents, keep r = true ↔ ∃ i ∈ r, ∃ x, p[i]? = some x ∧ sd x ≤ 0) :
    removeExternal sd p ents dim = .ok (p, ents.filter keep, List.range p.length) := by
  obtain ⟨d, hd⟩ := mapM_exists
    (f := fun r => (do return (← Np.take p r).map sd : Except String (List K))) (l := ents) (by
      intro r hr'
      obtain ⟨vs, hvs⟩ := take_ok (hr r hr')
      exact ⟨vs.map sd, by simp only [hvs, bind, Except.bind, pure, Except.pure]⟩)
  have hF := mapM_forall₂.1 hd
  unfold removeExternal
  simp only [bind, Except.bind, pure, Except.pure] at hd hF ⊢
  rw [hd]
  simp only [Except.ok.injEq, Prod.mk.injEq, true_and, and_true]
  clear hd
  induction hF with
  | nil => rfl
  | @cons r ds rs dss h1 _ ih =>
    have ih' := ih (fun r h => hw r (by simp [h])) (fun r h => hr r (by simp [h]))
      (fun r h => hk r (by simp [h]))
    obtain ⟨vs, hvs⟩ := take_ok (hr r (by simp))
    rw [hvs] at h1
    simp only [Except.ok.injEq] at h1
    subst h1
    have hlen : vs.length = dim + 1 := by rw [take_length hvs, hw r (by simp)]
    have hcnt : (((vs.map sd).map fun x => decide (0 < x)).count true != dim + 1) = keep r := by
      rw [Bool.eq_iff_iff, bne_iff_ne, hk r (by simp), List.map_map]
      have h2 : ((vs.map ((fun x => decide (0 < x)) ∘ sd)).count true = dim + 1) ↔
          ∀ x ∈ vs, 0 < sd x := by
        rw [← hlen, ← List.length_map (f := (fun x => decide (0 < x)) ∘ sd), List.count_eq_length]
        simp [eq_comm]
      rw [Ne, h2]
      push Not
      have h3 := take_spec.1 hvs
      constructor
      · rintro ⟨x, hx, hle⟩
        have : some x ∈ r.map fun i => p[i]? := by rw [h3]; exact List.mem_map.2 ⟨x, hx, rfl⟩
        obtain ⟨i, hi, hix⟩ := List.mem_map.1 this
        exact ⟨i, hi, x, hix, hle⟩
      · rintro ⟨i, hi, x, hix, hle⟩
        have : some x ∈ vs.map some := by rw [← h3]; exact List.mem_map.2 ⟨i, hi, hix⟩
        obtain ⟨y, hy, hxy⟩ := List.mem_map.1 this
        cases hxy
        exact ⟨x, hy, hle⟩
    simp only [List.map_cons, List.zip_cons_cons, List.filter_cons, hcnt]
    cases keep r with
    | true => simp only [if_true, List.map_cons, ih']
    | false => simp only [Bool.false_eq_true, if_false, ih']

end external

open Classical in
/-- **C39 (2-D).** With `extent = (x0, y0, x1, y1)`: an entity survives exactly if one of its
vertices lies in the closed rectangle; survivors keep their order, vertices are unchanged. -/
theorem C39_external2 {p : List (Sdf.Pt 2)} {ents : List (List ℕ)}
    (hw : ∀ r ∈ ents, r.length = 3) (hr : InRange p ents) (e : Fin 4 → ℝ) :
    removeExternal2 p ents e = .ok (p, ents.filter (fun r => decide (∃ i ∈ r, ∃ x, p[i]? = some x ∧
      e 0 ≤ x 0 ∧ x 0 ≤ e 2 ∧ e 1 ≤ x 1 ∧ x 1 ≤ e 3)), List.range p.length) := by
  apply removeExternal_spec _ hw hr
  intro r _
  rw [decide_eq_true_eq]
  refine exists_congr fun i => and_congr_right fun _ => exists_congr fun x => and_congr_right fun _ => ?_
  rw [Sdf.drectangle_le, Fin.forall_fin_two]
  simp only [Matrix.cons_val_zero, Matrix.cons_val_one, sub_nonpos]
  tauto

open Classical in
/-- **C39 (3-D).** With `extent = (x0, y0, z0, x1, y1, z1)`. -/
theorem C39_external3 {p : List (Sdf.Pt 3)} {ents : List (List ℕ)}
    (hw : ∀ r ∈ ents, r.length = 4) (hr : InRange p ents) (e : Fin 6 → ℝ) :
    removeExternal3 p ents e = .ok (p, ents.filter (fun r => decide (∃ i ∈ r, ∃ x, p[i]? = some x ∧
      e 0 ≤ x 0 ∧ x 0 ≤ e 3 ∧ e 1 ≤ x 1 ∧ x 1 ≤ e 4 ∧ e 2 ≤ x 2 ∧ x 2 ≤ e 5)),
      List.range p.length) := by
  apply removeExternal_spec _ hw hr
  intro r _
  rw [decide_eq_true_eq]
  refine exists_congr fun i => and_congr_right fun _ => exists_congr fun x => and_congr_right fun _ => ?_
  rw [Sdf.dblock_le, Sdf.forall_fin3]
  simp only [Matrix.cons_val, sub_nonpos]
  tauto

/-- Non-vacuity of C39: a triangle with one corner in the unit square is kept, one outside goes. -/
example : InRange ([![0, 0], ![3, 0], ![0, 3], ![3, 3]] : List (Sdf.Pt 2)) [[0, 1, 2], [1, 2, 3]] ∧
    ∀ r ∈ [[0, 1, 2], [1, 2, 3]], r.length = 3 := by
  constructor
  · intro r hr i hi
    fin_cases hr <;> simp at hi ⊢ <;> omega
  · decide

end SM.Topology
