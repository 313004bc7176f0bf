import Verif.Model.Bytes
import Verif.Props.FixMesh
import Verif.Props.Topology
import Mathlib.Data.Prod.Lex

/-!
# C95: rows are identified by their bytes

The contract of `unique_rows` and `unique_row_view`, and that the keys the mesh utilities use (byte strings of integer
rows) may be taken to be injective, as the other theorems do.
-/

namespace SM.Bytes

open Np Topology FixMesh

/-- A row of `n` items of `w` bytes. -/
def IsRow (w n : ℕ) (r : List ℕ) : Prop := r.length = n ∧ ∀ v ∈ r, v < 256 ^ w

theorem leBytes_length (w v : ℕ) : (leBytes w v).length = w := by
  induction w generalizing v with
  | zero => rfl
  | succ w ih => simp [leBytes, ih]

theorem leBytes_inj {w u v : ℕ} (hu : u < 256 ^ w) (hv : v < 256 ^ w) (h : leBytes w u = leBytes w v) : u = v := by
  induction w generalizing u v with
  | zero => simp at hu hv; omega
  | succ w ih =>
    simp only [leBytes, List.cons.injEq] at h
    rw [pow_succ] at hu hv
    have := ih (Nat.div_lt_of_lt_mul (by omega)) (Nat.div_lt_of_lt_mul (by omega)) h.2
    omega

theorem voidKey_length (w : ℕ) (r : List ℕ) : (voidKey w r).length = r.length * w := by
  induction r with
  | nil => simp [voidKey]
  | cons v r ih =>
    have : voidKey w (v :: r) = leBytes w v ++ voidKey w r := rfl
    rw [this, List.length_append, ih, leBytes_length, List.length_cons]; ring

theorem voidKey_inj {w n : ℕ} {r s : List ℕ} (hr : IsRow w n r) (hs : IsRow w n s) (h : voidKey w r = voidKey w s) : r = s := by
  obtain ⟨hrl, hrv⟩ := hr
  obtain ⟨hsl, hsv⟩ := hs
  have hl : r.length = s.length := hrl.trans hsl.symm
  clear hrl hsl
  induction r generalizing s with
  | nil => cases s with
    | nil => rfl
    | cons b s => simp at hl
  | cons a r ih => cases s with
    | nil => simp at hl
    | cons b s =>
      have h' : leBytes w a ++ voidKey w r = leBytes w b ++ voidKey w s := h
      obtain ⟨h1, h2⟩ := List.append_inj h' (by rw [leBytes_length, leBytes_length])
      have e1 := leBytes_inj (hrv a (by simp)) (hsv b (by simp)) h1
      have e2 := ih h2 (fun v hv => hrv v (by simp [hv])) (fun v hv => hsv v (by simp [hv])) (by simpa using hl)
      rw [e1, e2]

/-- A list is determined by its length and what is left without trailing zeros. -/
theorem stripNul_inj {l m : List ℕ} (hl : l.length = m.length) (h : stripNul l = stripNul m) : l = m := by
  have hrep : ∀ l : List ℕ, ∃ k, l.reverse = List.replicate k 0 ++ l.reverse.dropWhile (· == 0) := by
    intro l
    refine ⟨(l.reverse.takeWhile (· == 0)).length, ?_⟩
    conv_lhs => rw [← List.takeWhile_append_dropWhile (p := (· == 0)) (l := l.reverse)]
    congr 1
    rw [List.eq_replicate_iff]
    have hall := List.all_takeWhile (p := (· == 0)) (l := l.reverse)
    rw [List.all_eq_true] at hall
    exact ⟨rfl, fun b hb => by simpa using hall b hb⟩
  have h' : l.reverse.dropWhile (· == 0) = m.reverse.dropWhile (· == 0) := List.reverse_injective h
  obtain ⟨k, hk⟩ := hrep l
  obtain ⟨j, hj⟩ := hrep m
  rw [h'] at hk
  have hkj : k = j := by
    have e1 := congrArg List.length hk
    have e2 := congrArg List.length hj
    simp only [List.length_reverse, List.length_append, List.length_replicate] at e1 e2
    omega
  rw [← hkj, ← hk] at hj
  exact (List.reverse_injective hj).symm

theorem stringKey_inj {w n : ℕ} {r s : List ℕ} (hr : IsRow w n r) (hs : IsRow w n s) (h : stringKey w r = stringKey w s) : r = s :=
  voidKey_inj hr hs (stripNul_inj (by rw [voidKey_length, voidKey_length, hr.1, hs.1]) h)

theorem uniqBy_of_injOn {α κ : Type} [LinearOrder κ] {f : α → κ} {l : List α} (hf : ∀ a ∈ l, ∀ b ∈ l, f a = f b → a = b) (z : α) :
    z ∈ uniqBy f l ↔ z ∈ l := by
  refine ⟨mem_of_mem_uniqBy, fun hz => ?_⟩
  obtain ⟨y, hy, hyz⟩ := List.mem_map.1 (key_mem_uniqBy (f := f) hz)
  rwa [← hf y (mem_of_mem_uniqBy hy) z hz hyz]

theorem map_uniqBy {α κ : Type} [LinearOrder κ] (f : α → κ) (l : List α) : (uniqBy f l).map f = uniqBy id (l.map f) := by
  have hins : ∀ (x : α) (l : List α), (insertBy f x l).map f = insertBy id (f x) (l.map f) := by
    intro x l
    induction l with
    | nil => rfl
    | cons y l ih =>
      simp only [insertBy, List.map_cons, id]
      split_ifs <;> simp_all
  induction l with
  | nil => rfl
  | cons x l ih => simp only [uniqBy, List.foldr_cons, List.map_cons] at ih ⊢; rw [hins, ih]

theorem uniq_contract {α κ : Type} [LinearOrder κ] {f : α → κ} {A : List α} (hinj : ∀ a ∈ A, ∀ b ∈ A, f a = f b → a = b) :
    Np.take A (uniqIndex (A.map f)) = .ok (uniqBy f A) ∧ Np.take (uniqBy f A) (uniqInverse (A.map f)) = .ok A ∧
    ∀ i ∈ uniqIndex (A.map f), ∀ j < i, A[j]? ≠ A[i]? := by
  have hk : uniqBy id (A.map f) = (uniqBy f A).map f := (map_uniqBy _ _).symm
  have hidx : ∀ (L : List α), (∀ x ∈ L, x ∈ A) → ∀ r ∈ L, L[(L.map f).idxOf (f r)]? = some r := by
    intro L hL r hr
    have hlt : (L.map f).idxOf (f r) < (L.map f).length := List.idxOf_lt_length_iff.2 (List.mem_map_of_mem hr)
    have hlt' : (L.map f).idxOf (f r) < L.length := by simpa using hlt
    rw [List.getElem?_eq_getElem hlt']
    have he := List.getElem_idxOf hlt
    rw [List.getElem_map] at he
    rw [hinj _ (hL _ (List.getElem_mem _)) _ (hL r hr) he]
  refine ⟨?_, ?_, ?_⟩
  · rw [uniqIndex, hk, List.map_map]
    apply mapM_forall₂.2
    rw [List.forall₂_map_left_iff, List.forall₂_same]
    intro r hr
    rw [item_ok]
    exact hidx A (fun _ h => h) r (mem_of_mem_uniqBy hr)
  · rw [uniqInverse, hk, List.map_map]
    apply mapM_forall₂.2
    rw [List.forall₂_map_left_iff, List.forall₂_same]
    intro r hr
    rw [item_ok]
    exact hidx _ (fun _ h => mem_of_mem_uniqBy h) r ((uniqBy_of_injOn hinj r).2 hr)
  · intro i hi j hj
    rw [uniqIndex, hk, List.map_map] at hi
    obtain ⟨r, hr, rfl⟩ := List.mem_map.1 hi
    simp only [Function.comp] at hj ⊢
    rw [hidx A (fun _ h => h) r (mem_of_mem_uniqBy hr)]
    intro hjr
    have hjl : j < (A.map f).length := by
      have := (List.getElem?_eq_some_iff.1 hjr).1
      simpa using this
    have := List.not_of_lt_findIdx (p := (· == f r)) (xs := A.map f) (i := j) hj
    have hg : A[j]'(by simpa using hjl) = r := (List.getElem?_eq_some_iff.1 hjr).2
    simp [hg] at this

/-- **C95 (`unique_rows`).** For every array of rows of `n` items of `w` bytes: `B = A[I]`, `A = B[J]`, the rows of `B` are distinct and
exactly those of `A`, and `I` holds their first positions. -/
theorem C95_unique_rows {w n : ℕ} {A B : List (List ℕ)} {I J : List ℕ} (hA : ∀ r ∈ A, IsRow w n r) (h : uniqueRows w A = (B, I, J)) :
    Np.take A I = .ok B ∧ Np.take B J = .ok A ∧ B.Nodup ∧ (∀ r, r ∈ B ↔ r ∈ A) ∧
    ∀ i ∈ I, ∀ j < i, A[j]? ≠ A[i]? := by
  have hinj : ∀ a ∈ A, ∀ b ∈ A, stringKey w a = stringKey w b → a = b := fun a ha b hb => stringKey_inj (hA a ha) (hA b hb)
  simp only [uniqueRows, Prod.mk.injEq] at h
  obtain ⟨rfl, rfl, rfl⟩ := h
  obtain ⟨h1, h2, h3⟩ := uniq_contract hinj
  exact ⟨h1, h2, uniqBy_nodup _ _, uniqBy_of_injOn hinj, h3⟩

/-- Rows with the same bytes up to trailing zeros: a zero item at the end is not confused with a shorter value. -/
example : uniqueRows 2 [[1, 0], [1, 256], [0, 0], [1, 0]] = ([[0, 0], [1, 0], [1, 256]], [2, 0, 1], [1, 2, 0, 1]) := by decide +kernel

/-- **C95 (`unique_row_view`).** The distinct rows, each once, and how often each of them occurs. -/
theorem C95_row_view {w n : ℕ} {A U : List (List ℕ)} {cnt : List ℕ} (hA : ∀ r ∈ A, IsRow w n r) (h : uniqueRowView w A = (U, cnt)) :
    U.Nodup ∧ (∀ r, r ∈ U ↔ r ∈ A) ∧ cnt = U.map fun r => A.count r := by
  have hinj : ∀ a ∈ A, ∀ b ∈ A, voidKey w a = voidKey w b → a = b := fun a ha b hb => voidKey_inj (hA a ha) (hA b hb)
  simp only [uniqueRowView, Prod.mk.injEq] at h
  obtain ⟨rfl, rfl⟩ := h
  refine ⟨uniqBy_nodup _ _, uniqBy_of_injOn hinj, ?_⟩
  apply List.map_congr_left
  intro r hr
  have hrA := mem_of_mem_uniqBy hr
  rw [List.count_eq_countP, List.countP_map, List.count_eq_countP]
  apply List.countP_congr
  intro a ha
  simp only [Function.comp, beq_iff_eq]
  exact ⟨hinj a ha r hrA, fun e => by rw [e]⟩

/-! ### The keys of the other theorems -/

theorem uniqBy_congr {α κ κ' : Type} [LinearOrder κ] [LinearOrder κ'] {f : α → κ} {g : α → κ'} {l : List α}
    (h : ∀ a ∈ l, ∀ b ∈ l, f a < f b ↔ g a < g b) : uniqBy f l = uniqBy g l := by
  have hins : ∀ (x : α) (m : List α), (∀ b ∈ m, (f x < f b ↔ g x < g b) ∧ (f b < f x ↔ g b < g x)) → insertBy f x m = insertBy g x m := by
    intro x m hm
    induction m with
    | nil => rfl
    | cons y m ih =>
      obtain ⟨h1, h2⟩ := hm y (by simp)
      simp only [insertBy, h1, h2, ih fun b hb => hm b (by simp [hb])]
  induction l with
  | nil => rfl
  | cons x l ih =>
    have ih' := ih fun a ha b hb => h a (by simp [ha]) b (by simp [hb])
    show insertBy f x (uniqBy f l) = insertBy g x (uniqBy g l)
    rw [ih']
    apply hins
    intro b hb
    have := mem_of_mem_uniqBy hb
    exact ⟨h x (by simp) b (by simp [this]), h b (by simp [this]) x (by simp)⟩

open Classical in
/-- An injective key that orders rows of `n` items of `w` bytes as their bytes do. -/
noncomputable def rowKey (w n : ℕ) (r : List ℕ) : Bool ×ₗ List ℕ := if IsRow w n r then toLex (false, voidKey w r) else toLex (true, r)

theorem rowKey_injective (w n : ℕ) : Function.Injective (rowKey w n) := by
  intro r s h
  unfold rowKey at h
  split_ifs at h with hr hs hs
  · simp only [EmbeddingLike.apply_eq_iff_eq, Prod.mk.injEq, true_and] at h
    exact voidKey_inj hr hs h
  · simp at h
  · simp at h
  · simpa using h

theorem rowKey_lt {w n : ℕ} {r s : List ℕ} (hr : IsRow w n r) (hs : IsRow w n s) : voidKey w r < voidKey w s ↔ rowKey w n r < rowKey w n s := by
  simp [rowKey, hr, hs, Prod.Lex.toLex_lt_toLex]

theorem uniqBy_bytes {w n : ℕ} {A : List (List ℕ)} (hA : ∀ r ∈ A, IsRow w n r) : uniqBy (voidKey w) A = uniqBy (rowKey w n) A :=
  uniqBy_congr fun a ha b hb => rowKey_lt (hA a ha) (hA b hb)

theorem sortRow_isRow {w n : ℕ} {r : List ℕ} (h : IsRow w n r) : IsRow w n (sortRow r) :=
  ⟨by rw [(sortRow_perm r).length_eq, h.1], fun v hv => h.2 v ((sortRow_perm r).mem_iff.1 hv)⟩

theorem rowsOccurring_bytes {w n k : ℕ} {rows : List (List ℕ)} (h : ∀ r ∈ rows, IsRow w n r) :
    rowsOccurring (voidKey w) k rows = rowsOccurring (rowKey w n) k rows := by
  unfold rowsOccurring uniqCounts
  rw [uniqBy_bytes (w := w) (n := n)]
  intro r hr
  obtain ⟨r0, hr0, rfl⟩ := List.mem_map.1 hr
  exact sortRow_isRow (h r0 hr0)

section fix
variable {P K κ : Type} [LinearOrder κ] [Field K] [LinearOrder K]

theorem uniqInverse_lt {ks : List κ} : ∀ j ∈ uniqInverse ks, j < ks.length := by
  intro j hj
  obtain ⟨k, hk, rfl⟩ := List.mem_map.1 hj
  have h1 : (uniqBy id ks).idxOf k < (uniqBy id ks).length := List.idxOf_lt_length_iff.2 (uniqId_mem.2 hk)
  refine lt_of_lt_of_le h1 ?_
  have := List.Nodup.subperm (uniqBy_nodup id ks) (fun x hx => mem_of_mem_uniqBy hx)
  exact this.length_le

/-- `fix_mesh` with the byte strings of rows as keys is `fix_mesh` with an injective key, if the vertex numbers fit into `w` bytes. -/
theorem fixMesh_bytes {w n : ℕ} (key : P → κ) (vol : List P → K) {p : List P} {t : List (List ℕ)} (hw : p.length ≤ 256 ^ w)
    (hn : ∀ r ∈ t, r.length = n) (del ori : Bool) : fixMesh key (voidKey w) vol p t del ori = fixMesh key (rowKey w n) vol p t del ori := by
  unfold fixMesh
  by_cases hp : p.isEmpty = true
  · simp [hp, bind, Except.bind, throw, throwThe, MonadExceptOf.throw]
  simp only [hp, Bool.false_eq_true, if_false, bind, Except.bind, pure, Except.pure]
  cases Np.take p (uniqIndex (p.map key)) with
  | error e => rfl
  | ok p1 =>
  cases ht1 : t.mapM (Np.take (uniqInverse (p.map key))) with
  | error e => rfl
  | ok t1 =>
  simp only
  have hrow : ∀ r ∈ t1, IsRow w n r := by
    intro r hr
    obtain ⟨r0, hr0, h0⟩ := forall₂_right (mapM_forall₂.1 ht1) r hr
    have hf := mapM_forall₂.1 h0
    refine ⟨by rw [← hf.length_eq, hn r0 hr0], fun v hv => ?_⟩
    obtain ⟨i, -, hi⟩ := forall₂_right hf v hv
    have := uniqInverse_lt v (List.mem_of_getElem? (item_ok.1 hi))
    simp only [List.length_map] at this
    omega
  have : uniqBy (voidKey w) (t1.map sortRow) = uniqBy (rowKey w n) (t1.map sortRow) := by
    apply uniqBy_bytes
    intro r hr
    obtain ⟨r0, hr0, rfl⟩ := List.mem_map.1 hr
    exact sortRow_isRow (hrow r0 hr0)
  rw [this]

/-- **C95 (`fix_mesh`).** With the real row keys, the bytes of the sorted vertex numbers: `fix_mesh` of a mesh of at most `256 ^ w` vertices, `w` the
size of an integer in bytes, leaves valid connectivity, no unused vertex, no two entities with the same vertices and no two vertices with the same
snapped position. -/
theorem C95_fix_mesh [IsStrictOrderedRing K] {w n : ℕ} (key : P → κ) (vol : List P → K) {p : List P} (hp : p ≠ []) (hw : p.length ≤ 256 ^ w) {t : List (List ℕ)} (ht : InRange p t)
    (hn : ∀ r ∈ t, r.length = n) (ori : Bool) :
    ∃ p' t' jx', fixMesh key (voidKey w) vol p t true ori = .ok (p', t', jx') ∧
      InRange p' t' ∧ (∀ i < p'.length, ∃ r ∈ t', i ∈ r) ∧
      t'.Pairwise (fun r s => ¬ r.Perm s) ∧ p'.Pairwise (fun a b => key a ≠ key b) := by
  rw [fixMesh_bytes key vol hw hn]
  exact C31_clean key (rowKey_injective w n) vol hp ht ori

end fix

theorem subRows_isRow {w k : ℕ} {ix ents es : List (List ℕ)} (hk : ∀ l ∈ ix, l.length = k) (hw : ∀ r ∈ ents, ∀ v ∈ r, v < 256 ^ w)
    (h : subRows ix ents = .ok es) : ∀ e ∈ es, IsRow w k e := by
  unfold subRows at h
  simp only [bind, Except.bind, pure, Except.pure] at h
  split at h
  · simp at h
  rename_i parts hp
  simp only [Except.ok.injEq] at h
  subst h
  intro e he
  obtain ⟨part, hpart, hmem⟩ := List.mem_flatten.1 he
  obtain ⟨r, hr, hf⟩ := forall₂_right (mapM_forall₂.1 hp) part hpart
  obtain ⟨l, hl, hle⟩ := forall₂_right (mapM_forall₂.1 hf) e hmem
  have h2 := mapM_forall₂.1 hle
  refine ⟨by rw [← h2.length_eq, hk l hl], fun v hv => ?_⟩
  obtain ⟨i, -, hi⟩ := forall₂_right h2 v hv
  exact hw r hr v (List.mem_of_getElem? (item_ok.1 hi))

/-- **C95 (boundary edges).** With the real keys, `get_boundary_edges` of a triangle mesh whose vertex numbers fit into `w` bytes returns exactly the edges of
one triangle only, each once. -/
theorem C95_boundary_edges {w : ℕ} {ents : List (List ℕ)} (h : Simplices 3 ents) (hw : ∀ r ∈ ents, ∀ v ∈ r, v < 256 ^ w) :
    ∃ b, getBoundaryEdges (voidKey w) ents 2 = .ok b ∧ b.Nodup ∧ ∀ s, s ∈ b ↔ ∃ x y, s = [x, y] ∧ x < y ∧ shared ents x y = 1 := by
  obtain ⟨b, hb, h1, h2⟩ := C35_boundary_edges (rowKey_injective w 2) h
  refine ⟨b, ?_, h1, h2⟩
  rw [← hb]
  unfold getBoundaryEdges getEdges
  simp only [edgeIx, bind, Except.bind, pure, Except.pure]
  cases hs : subRows [[0, 1], [0, 2], [1, 2]] ents with
  | error e => rfl
  | ok es => simp only; rw [rowsOccurring_bytes (subRows_isRow (k := 2) (by simp) hw hs)]

/-- **C95 (boundary facets).** The same for the faces of a tetrahedral mesh. -/
theorem C95_boundary_facets {w : ℕ} {ents : List (List ℕ)} (h : Simplices 4 ents) (hw : ∀ r ∈ ents, ∀ v ∈ r, v < 256 ^ w) :
    ∃ b, getBoundaryFacets (voidKey w) ents = .ok b ∧ b.Nodup ∧
      ∀ s, s ∈ b ↔ ∃ x y z, s = [x, y, z] ∧ x < y ∧ y < z ∧ shared3 ents x y z = 1 := by
  obtain ⟨b, hb, h1, h2⟩ := C35_boundary_facets (rowKey_injective w 3) h
  refine ⟨b, ?_, h1, h2⟩
  rw [← hb]
  unfold getBoundaryFacets getFacets
  simp only [bind, Except.bind, pure, Except.pure]
  cases hs : subRows facetIx ents with
  | error e => rfl
  | ok es => simp only; rw [rowsOccurring_bytes (subRows_isRow (k := 3) (by simp [facetIx]) hw hs)]

/-- Two triangles sharing an edge, vertex numbers in two bytes; and the bytes decide the order: 256 comes before 1. -/
example : getBoundaryEdges (voidKey 2) [[0, 1, 256], [1, 256, 2]] 2 = .ok [[0, 256], [0, 1], [1, 2], [2, 256]] := by decide +kernel

end SM.Bytes
