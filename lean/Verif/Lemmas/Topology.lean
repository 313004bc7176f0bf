import Verif.Model.Topology
import Verif.Lemmas.FixMesh
import Mathlib.Data.List.Destutter
import Mathlib.Tactic.Linarith
import Mathlib.Tactic.SplitIfs

namespace SM.Topology

open Np

variable {ρ : Type} [LinearOrder ρ]

/-! ### unique_edges -/

theorem uniqueEdges_mem {edges : List (ℕ × ℕ)} {a b : ℕ} :
    (a, b) ∈ uniqueEdges edges ↔ a ≤ b ∧ ((a, b) ∈ edges ∨ (b, a) ∈ edges) := by
  unfold uniqueEdges
  simp only
  rw [List.Pairwise.destutter_eq_dedup (r := (· ≤ ·)) (List.pairwise_insertionSort (· ≤ ·) _)]
  simp only [List.mem_map, List.mem_dedup, List.mem_insertionSort]
  constructor
  · rintro ⟨_, ⟨_, ⟨⟨x, y⟩, h, rfl⟩, rfl⟩, hxy⟩
    simp only [ofLex_toLex, Prod.mk.injEq] at hxy
    obtain ⟨rfl, rfl⟩ := hxy
    refine ⟨min_le_max, ?_⟩
    rcases le_total x y with h1 | h1
    · rw [min_eq_left h1, max_eq_right h1]; exact Or.inl h
    · rw [min_eq_right h1, max_eq_left h1]; exact Or.inr h
  · rintro ⟨hab, h | h⟩
    · exact ⟨_, ⟨_, ⟨_, h, rfl⟩, rfl⟩, by simp [hab]⟩
    · exact ⟨_, ⟨_, ⟨_, h, rfl⟩, rfl⟩, by simp [hab]⟩

theorem uniqueEdges_sorted (edges : List (ℕ × ℕ)) :
    (uniqueEdges edges).Pairwise fun e f => e.1 < f.1 ∨ e.1 = f.1 ∧ e.2 < f.2 := by
  unfold uniqueEdges
  simp only
  rw [List.pairwise_map]
  have hs := List.pairwise_insertionSort (· ≤ ·)
    ((edges.map fun e => (min e.1 e.2, max e.1 e.2)).map toLex)
  have h1 := List.Pairwise.sublist (List.destutter_sublist (· ≠ ·) _) hs
  rw [List.Pairwise.destutter_eq_dedup (r := (· ≤ ·)) hs] at h1 ⊢
  have h2 : (List.dedup (List.insertionSort (· ≤ ·)
    ((edges.map fun e => (min e.1 e.2, max e.1 e.2)).map toLex))).Nodup := List.nodup_dedup _
  refine (h1.and h2).imp ?_
  rintro x y ⟨h, hne⟩
  exact Prod.Lex.lt_iff.1 (lt_of_le_of_ne h hne)

/-! ### counting faces -/

/-- Number of occurrences. -/
def occ {α : Type} [DecidableEq α] (s : α) (l : List α) : ℕ := l.countP fun e => decide (e = s)

theorem count_eq_occ {α : Type} [DecidableEq α] (s : α) (l : List α) : l.count s = occ s l := by
  unfold occ List.count
  congr 1

theorem rowsOccurring_mem {rk : List ℕ → ρ} (hrk : Function.Injective rk) {n : ℕ} (hn : 0 < n)
    {rows : List (List ℕ)} {s : List ℕ} :
    s ∈ rowsOccurring rk n rows ↔ occ s (rows.map sortRow) = n := by
  unfold rowsOccurring uniqCounts
  simp only [List.mem_map, List.mem_filter, beq_iff_eq, count_eq_occ]
  constructor
  · rintro ⟨_, ⟨⟨x, hx, rfl⟩, h2⟩, rfl⟩; exact h2
  · intro h
    have : s ∈ rows.map sortRow := by
      unfold occ at h
      obtain ⟨a, ha, hs⟩ := List.countP_pos_iff.1 (h ▸ hn)
      exact of_decide_eq_true hs ▸ ha
    exact ⟨_, ⟨⟨s, (mem_uniqBy hrk).2 this, rfl⟩, h⟩, rfl⟩

theorem rowsOccurring_nodup (rk : List ℕ → ρ) (n : ℕ) (rows : List (List ℕ)) :
    (rowsOccurring rk n rows).Nodup := by
  unfold rowsOccurring uniqCounts
  refine List.pairwise_map.2 (List.Pairwise.sublist List.filter_sublist ?_)
  rw [List.pairwise_map]; exact uniqBy_nodup rk _

theorem subRows_ok {ix : List (List ℕ)} {ents : List (List ℕ)} {g : List ℕ → List (List ℕ)}
    (h : ∀ r ∈ ents, ix.mapM (Np.take r) = .ok (g r)) :
    subRows ix ents = .ok (ents.map g).flatten := by
  unfold subRows
  rw [mapM_ok (g := g) h]; rfl

theorem occ_flatten_map {α β : Type} [DecidableEq β] (g : α → List β) (l : List α) (s : β)
    (q : α → Prop) [DecidablePred q] (h : ∀ x ∈ l, occ s (g x) = if q x then 1 else 0) :
    occ s (l.map g).flatten = l.countP fun x => decide (q x) := by
  induction l with
  | nil => simp [occ]
  | cons x xs ih =>
    have h1 := h x (by simp)
    have h2 := ih fun y hy => h y (by simp [hy])
    unfold occ at h1 h2 ⊢
    rw [List.map_cons, List.flatten_cons, List.countP_append, h1, h2, List.countP_cons]
    by_cases hq : q x <;> simp [hq, Nat.add_comm]

/-- Elements of `r` missing from `s`: `|r| - |s|` many, if `s ⊆ r` and both have no repetition. -/
theorem countP_missing {r s : List ℕ} (hr : r.Nodup) (hs : s.Nodup) (h : ∀ x ∈ s, x ∈ r) :
    r.countP (fun x => decide (x ∉ s)) + s.length = r.length := by
  have h1 : (r.filter fun x => decide (x ∈ s)).Perm s := by
    rw [List.perm_ext_iff_of_nodup (hr.filter _) hs]
    intro a
    simp only [List.mem_filter, decide_eq_true_eq]
    exact ⟨fun h => h.2, fun ha => ⟨h a ha, ha⟩⟩
  have h2 := List.length_eq_countP_add_countP (fun x => decide (x ∈ s)) (l := r)
  rw [List.countP_eq_length_filter, h1.length_eq] at h2
  have h3 : r.countP (fun x => decide (x ∉ s)) = r.countP fun a => ¬decide (a ∈ s) = true := by
    congr 1; funext x; simp
  omega

theorem perm_of_subset {r s : List ℕ} (hs : s.Nodup) (hl : r.length = s.length) :
    r.Perm s ↔ ∀ x ∈ s, x ∈ r := by
  constructor
  · intro h x hx; exact h.mem_iff.2 hx
  · intro h
    exact ((List.subperm_of_subset hs h).perm_of_length_le hl.le).symm

/-- The three edges of a triangle: a sorted pair occurs once if both are vertices, else never. -/
theorem count_edges3 {a b c x y : ℕ} (hnd : [a, b, c].Nodup) (hxy : x < y) :
    occ [x, y] ([[a, b], [a, c], [b, c]].map sortRow) =
      if x ∈ [a, b, c] ∧ y ∈ [a, b, c] then 1 else 0 := by
  have key : ∀ u v, (sortRow [u, v] = [x, y] ↔ (x ∈ [u, v] ∧ y ∈ [u, v])) := by
    intro u v
    have h0 : sortRow [x, y] = [x, y] := sortRow_of_sorted (by simp [hxy.le])
    rw [show (sortRow [u, v] = [x, y] ↔ sortRow [u, v] = sortRow [x, y]) by rw [h0], sortRow_eq_iff,
      perm_of_subset (r := [u, v]) (s := [x, y]) (by simp [hxy.ne]) rfl]
    simp
  simp only [List.nodup_cons, List.mem_cons, List.not_mem_nil, or_false, not_or, not_false_eq_true,
    List.nodup_nil, and_true] at hnd
  obtain ⟨⟨hab, hac⟩, hbc⟩ := hnd
  simp only [List.map_cons, List.map_nil, List.countP_cons, List.countP_nil, decide_eq_true_eq, occ,
    key, List.mem_cons, List.not_mem_nil, or_false]
  have := hxy.ne
  by_cases h1 : x = a <;> by_cases h2 : x = b <;> by_cases h3 : x = c <;>
    by_cases h4 : y = a <;> by_cases h5 : y = b <;> by_cases h6 : y = c <;> simp_all

/-- The four faces of a tetrahedron. -/
theorem count_facets4 {a b c d : ℕ} {s : List ℕ} (hnd : [a, b, c, d].Nodup) (hs : s.Nodup)
    (hl : s.length = 3) (hsort : s.Pairwise (· ≤ ·)) :
    occ s ([[a, b, d], [b, c, d], [c, a, d], [b, c, a]].map sortRow) =
      if (∀ x ∈ s, x ∈ [a, b, c, d]) then 1 else 0 := by
  have key : ∀ u v w, (sortRow [u, v, w] = s ↔ ∀ x ∈ s, x ∈ [u, v, w]) := by
    intro u v w
    have h0 : sortRow s = s := sortRow_of_sorted hsort
    rw [show (sortRow [u, v, w] = s ↔ sortRow [u, v, w] = sortRow s) by rw [h0], sortRow_eq_iff,
      perm_of_subset hs (by simp [hl])]
  have hnd' := hnd
  simp only [List.nodup_cons, List.mem_cons, List.not_mem_nil, or_false, not_or, not_false_eq_true,
    List.nodup_nil, and_true] at hnd
  obtain ⟨⟨hab, hac, had⟩, ⟨hbc, hbd⟩, hcd⟩ := hnd
  simp only [List.map_cons, List.map_nil, List.countP_cons, List.countP_nil, decide_eq_true_eq, occ,
    key]
  by_cases hsub : ∀ x ∈ s, x ∈ [a, b, c, d]
  · have e1 : (∀ x ∈ s, x ∈ [a, b, d]) ↔ c ∉ s := by
      constructor
      · intro h hc; have := h c hc; simp only [List.mem_cons, List.not_mem_nil, or_false] at this; omega
      · intro h x hx; have := hsub x hx
        simp only [List.mem_cons, List.not_mem_nil, or_false] at this ⊢
        rcases this with h' | h' | h' | h' <;> simp_all
    have e2 : (∀ x ∈ s, x ∈ [b, c, d]) ↔ a ∉ s := by
      constructor
      · intro h hc; have := h a hc; simp only [List.mem_cons, List.not_mem_nil, or_false] at this; omega
      · intro h x hx; have := hsub x hx
        simp only [List.mem_cons, List.not_mem_nil, or_false] at this ⊢
        rcases this with h' | h' | h' | h' <;> simp_all
    have e3 : (∀ x ∈ s, x ∈ [c, a, d]) ↔ b ∉ s := by
      constructor
      · intro h hc; have := h b hc; simp only [List.mem_cons, List.not_mem_nil, or_false] at this; omega
      · intro h x hx; have := hsub x hx
        simp only [List.mem_cons, List.not_mem_nil, or_false] at this ⊢
        rcases this with h' | h' | h' | h' <;> simp_all
    have e4 : (∀ x ∈ s, x ∈ [b, c, a]) ↔ d ∉ s := by
      constructor
      · intro h hc; have := h d hc; simp [Ne.symm had, Ne.symm hbd, Ne.symm hcd] at this
      · intro h x hx; have := hsub x hx
        simp only [List.mem_cons, List.not_mem_nil, or_false] at this ⊢
        rcases this with h' | h' | h' | h' <;> simp_all
    rw [if_pos hsub]
    have hm := countP_missing hnd' hs hsub
    simp only [hl, List.length_cons, List.length_nil, List.countP_cons, List.countP_nil,
      decide_eq_true_eq] at hm
    simp only [e1, e2, e3, e4]
    omega
  · rw [if_neg hsub]
    have n : ∀ u v w, (∀ x ∈ [u, v, w], x ∈ [a, b, c, d]) → ¬ ∀ x ∈ s, x ∈ [u, v, w] :=
      fun u v w h h' => hsub fun x hx => h x (h' x hx)
    rw [if_neg (n a b d (by simp)), if_neg (n b c d (by simp)), if_neg (n c a d (by simp)),
      if_neg (n b c a (by simp))]

/-! ### vertex_to_entities -/

theorem changes_spec {xs : List ℕ} : ∀ {prev pos : ℕ}, xs.Pairwise (· ≤ ·) → (∀ y ∈ xs, prev ≤ y) →
    (∀ y ∈ xs, ∀ w, prev < w → w ≤ y → w ∈ xs) →
    (∀ w ∈ xs, prev < w → (changes prev pos xs)[w - prev - 1]? =
      some (pos + xs.countP fun y => decide (y < w))) ∧
    (∀ m, (m = prev ∨ m ∈ xs) → (∀ y ∈ xs, y ≤ m) → prev ≤ m →
      (changes prev pos xs).length = m - prev) := by
  induction xs with
  | nil =>
    intro prev pos _ _ _
    refine ⟨by simp, ?_⟩
    rintro m (rfl | h) - -
    · simp [changes]
    · simp at h
  | cons x xs ih =>
    intro prev pos hs hge hcl
    rw [List.pairwise_cons] at hs
    have hpx := hge x (by simp)
    unfold changes
    split_ifs with hx
    · subst hx
      obtain ⟨h1, h2⟩ := ih (prev := x) (pos := pos + 1) hs.2 hs.1 (by
        intro y hy w hw hwy
        rcases List.mem_cons.1 (hcl y (by simp [hy]) w hw hwy) with rfl | h
        · omega
        · exact h)
      constructor
      · intro w hw hxw
        rcases List.mem_cons.1 hw with rfl | hw
        · omega
        · rw [h1 w hw hxw, List.countP_cons]
          simp only [hxw, decide_true, if_true]
          congr 1; omega
      · intro m hm hle hxm
        refine h2 m ?_ (fun y hy => hle y (by simp [hy])) hxm
        rcases hm with rfl | hm
        · exact Or.inl rfl
        · simpa using hm
    · have hx1 : x = prev + 1 := by
        have := hcl x (by simp) (prev + 1) (by omega) (by omega)
        rcases List.mem_cons.1 this with h | h
        · exact h.symm
        · have := hs.1 _ h; omega
      obtain ⟨h1, h2⟩ := ih (prev := x) (pos := pos + 1) hs.2 hs.1 (by
        intro y hy w hw hwy
        rcases List.mem_cons.1 (hcl y (by simp [hy]) w (by omega) hwy) with rfl | h
        · omega
        · exact h)
      constructor
      · intro w hw hpw
        by_cases hwx : w = x
        · subst hwx
          have : w - prev - 1 = 0 := by omega
          rw [this]
          simp only [List.getElem?_cons_zero, Option.some.injEq, List.countP_cons, lt_irrefl,
            decide_false, Bool.false_eq_true, if_false, Nat.add_zero]
          have : xs.countP (fun y => decide (y < w)) = 0 := by
            rw [List.countP_eq_zero]
            intro y hy; simp [hs.1 y hy]
          omega
        · have hw' : w ∈ xs := by simpa [hwx] using hw
          have hxw : x < w := lt_of_le_of_ne (hs.1 w hw') (Ne.symm hwx)
          have : w - prev - 1 = (w - x - 1) + 1 := by omega
          rw [this, List.getElem?_cons_succ, h1 w hw' hxw, List.countP_cons]
          simp only [hxw, decide_true, if_true]
          congr 1; omega
      · intro m hm hle hpm
        have hxm := hle x (by simp)
        have : (changes x (pos + 1) xs).length = m - x := by
          refine h2 m ?_ (fun y hy => hle y (by simp [hy])) hxm
          rcases hm with rfl | hm
          · omega
          · simpa using hm
        rw [List.length_cons, this]; omega

theorem countP_split {α : Type} {l : List α} {f : α → ℕ} {v : ℕ}
    (hs : l.Pairwise fun a b => f a ≤ f b) :
    (l.take (l.countP fun x => decide (f x < v + 1))).drop (l.countP fun x => decide (f x < v)) =
      l.filter fun x => decide (f x = v) := by
  induction l with
  | nil => simp
  | cons x xs ih =>
    rw [List.pairwise_cons] at hs
    have hh := ih hs.2
    rw [List.countP_cons, List.countP_cons, List.filter_cons]
    rcases lt_trichotomy (f x) v with h | h | h
    · have h' : f x < v + 1 := by omega
      have h'' : f x ≠ v := by omega
      simp only [h, h', h'', decide_true, decide_false, if_true, Bool.false_eq_true, if_false,
        List.take_succ_cons, List.drop_succ_cons]
      exact hh
    · have h' : f x < v + 1 := by omega
      have h0 : xs.countP (fun x => decide (f x < v)) = 0 := by
        rw [List.countP_eq_zero]; intro y hy; have := hs.1 y hy; simp; omega
      rw [h0] at hh
      simp only [h, h', h0, lt_irrefl, decide_true, decide_false, if_true, Bool.false_eq_true,
        if_false, List.take_succ_cons, List.drop_zero, Nat.lt_succ_self]
      rw [List.drop_zero] at hh
      rw [hh]; rfl
    · have h' : ¬ f x < v + 1 := by omega
      have h'' : ¬ f x < v := by omega
      have h3 : f x ≠ v := by omega
      have h0 : xs.countP (fun x => decide (f x < v)) = 0 := by
        rw [List.countP_eq_zero]; intro y hy; have := hs.1 y hy; simp; omega
      have h1 : xs.countP (fun x => decide (f x < v + 1)) = 0 := by
        rw [List.countP_eq_zero]; intro y hy; have := hs.1 y hy; simp; omega
      have h2 : xs.filter (fun x => decide (f x = v)) = [] := by
        rw [List.filter_eq_nil_iff]; intro y hy; have := hs.1 y hy; simp; omega
      rw [h0, h1, h2]; simp only [h', h'', h3, decide_false, Bool.false_eq_true, if_false]; rfl

theorem mem_incidences {ents : List (List ℕ)} {v i : ℕ} :
    (v, i) ∈ incidences ents ↔ ∃ r, ents[i]? = some r ∧ v ∈ r := by
  unfold incidences
  simp only [List.mem_flatMap, List.mem_map, Prod.mk.injEq, Prod.exists]
  constructor
  · rintro ⟨r, j, h, w, hw, rfl, rfl⟩
    exact ⟨r, by simpa using List.mem_zipIdx_iff_getElem?.1 h, hw⟩
  · rintro ⟨r, h, hv⟩
    exact ⟨r, i, List.mem_zipIdx_iff_getElem?.2 (by simpa using h), v, hv, rfl, rfl⟩

theorem incidences_length {ents : List (List ℕ)} {k : ℕ} (h : ∀ r ∈ ents, r.length = k) :
    (incidences ents).length = ents.length * k := by
  unfold incidences
  rw [List.length_flatMap]
  have : (ents.zipIdx.map fun a => (a.1.map fun v => (v, a.2)).length) = ents.zipIdx.map fun _ => k := by
    apply List.map_congr_left
    rintro ⟨r, i⟩ hri
    simp only [List.length_map]
    exact h r (List.fst_mem_of_mem_zipIdx hri)
  rw [this]; simp

theorem incidences_nodup {ents : List (List ℕ)} (h : ∀ r ∈ ents, r.Nodup) :
    (incidences ents).Nodup := by
  unfold incidences
  rw [List.nodup_flatMap]
  constructor
  · rintro ⟨r, i⟩ hri
    exact (h r (List.fst_mem_of_mem_zipIdx hri)).map fun a b hab => by simpa using hab
  · have : (ents.zipIdx.map Prod.snd).Nodup := by
      rw [List.zipIdx_map_snd]; exact List.nodup_range'
    rw [List.Nodup, List.pairwise_map] at this
    refine this.imp ?_
    rintro ⟨r, i⟩ ⟨s, j⟩ hij
    simp only [Function.onFun, List.disjoint_left, List.mem_map, not_exists, not_and]
    rintro ⟨a, b⟩ ⟨x, _, hx⟩ y _ hy
    simp only [Prod.mk.injEq] at hx hy
    exact hij (hx.2.trans hy.2.symm)

theorem sortRow_length (r : List ℕ) : (sortRow r).length = r.length := (sortRow_perm r).length_eq

end SM.Topology
