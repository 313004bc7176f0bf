import Verif.Model.Linter
import Verif.Props.Adjacency
import Verif.Props.Simplex

/-!
# C49: overlap linting
-/

namespace SM.Linter

open Np Topology Simplex

section overlap
variable {P : Type}

/-- `do_any_overlap` on a mesh that uses the vertices `0, ..., n - 1`. -/
theorem overlap_initial (inside : P → List P → Bool) (cent : List P → P)
    {srt : List (ℕ × ℕ) → List (ℕ × ℕ)} (hsrt : IsArgsort srt) {p : List P} {ents : List (List ℕ)}
    {dim n : ℕ} (hw : ∀ r ∈ ents, r.length = dim + 1) (hnp : n ≤ p.length) (hocc : ∀ v, v < n ↔ ∃ r ∈ ents, v ∈ r) :
    ∃ out, doAnyOverlap inside cent srt p ents dim = .ok out ∧ ∀ i j, (i, j) ∈ out ↔
      i ≠ j ∧ ∃ ri rj vi vj, ents[i]? = some ri ∧ ents[j]? = some rj ∧ (∃ v, v ∈ ri ∧ v ∈ rj) ∧
        ri.map (fun k => p[k]?) = vi.map some ∧ rj.map (fun k => p[k]?) = vj.map some ∧
        inside (cent vi) vj = true := by
  have hpts : ∀ r ∈ ents, ∃ vs, Np.take p r = .ok vs := fun r hr =>
    take_ok fun i hi => lt_of_lt_of_le ((hocc i).2 ⟨r, hr, hi⟩) hnp
  obtain ⟨cents, hc⟩ := mapM_exists (f := fun r => (do return cent (← Np.take p r) : Except String P))
    (l := ents) (by
      intro r hr
      obtain ⟨vs, hvs⟩ := hpts r hr
      exact ⟨cent vs, by simp only [hvs, bind, Except.bind, pure, Except.pure]⟩)
  have hcf := mapM_forall₂.1 hc
  have hclen : cents.length = ents.length := hcf.length_eq.symm
  have hci : ∀ (i : ℕ) r, ents[i]? = some r → ∃ vs, Np.take p r = .ok vs ∧ cents[i]? = some (cent vs) := by
    intro i r hr
    obtain ⟨hlt, hr'⟩ := List.getElem?_eq_some_iff.1 hr
    have hl : i < cents.length := by omega
    have hg := List.Forall₂.get hcf hlt hl
    simp only [List.get_eq_getElem, hr'] at hg
    obtain ⟨vs, hvs⟩ := hpts r (hr' ▸ List.getElem_mem hlt)
    simp only [hvs, bind, Except.bind, pure, Except.pure] at hg
    exact ⟨vs, hvs, by rw [List.getElem?_eq_getElem hl, ← Except.ok.inj hg]⟩
  have hring : ∀ r ∈ ents, ∃ l, oneRing (vertexToEntities srt ents dim) r = .ok l ∧
      ∀ j, j ∈ l ↔ ∃ v ∈ r, ∃ rj, ents[j]? = some rj ∧ v ∈ rj := by
    intro r hr
    obtain ⟨parts, hp⟩ := mapM_exists (f := entitiesOf (vertexToEntities srt ents dim)) (l := r) (by
      intro v hv
      obtain ⟨l, hl, -⟩ := C36_inverse hsrt hw hocc ((hocc v).2 ⟨r, hr, hv⟩)
      exact ⟨l, hl⟩)
    have hpf := mapM_forall₂.1 hp
    refine ⟨parts.flatten, by simp only [oneRing, hp, bind, Except.bind, pure, Except.pure], ?_⟩
    intro j
    rw [List.mem_flatten]
    constructor
    · rintro ⟨l, hl, hj⟩
      obtain ⟨v, hv, hvl⟩ := forall₂_right hpf l hl
      obtain ⟨l', hl', hmem, -⟩ := C36_inverse hsrt hw hocc ((hocc v).2 ⟨r, hr, hv⟩)
      rw [hvl] at hl'
      cases hl'
      obtain ⟨rj, hrj, hvj⟩ := (hmem j).1 hj
      exact ⟨v, hv, rj, hrj, hvj⟩
    · rintro ⟨v, hv, rj, hrj, hvj⟩
      obtain ⟨l, hl, hvl⟩ := forall₂_left hpf v hv
      obtain ⟨l', hl', hmem, -⟩ := C36_inverse hsrt hw hocc ((hocc v).2 ⟨r, hr, hv⟩)
      rw [hvl] at hl'
      cases hl'
      exact ⟨l, hl, (hmem j).2 ⟨rj, hrj, hvj⟩⟩
  have hhit : ∀ ie c ele, (∃ rj, ents[ele]? = some rj) → ∃ l, hit inside p ents ie c ele = .ok l ∧
      ∀ i j, (i, j) ∈ l ↔ i = ie ∧ j = ele ∧ ie ≠ ele ∧ ∃ rj vj, ents[ele]? = some rj ∧
        Np.take p rj = .ok vj ∧ inside c vj = true := by
    rintro ie c ele ⟨rj, hrj⟩
    obtain ⟨vj, hvj⟩ := hpts rj (List.mem_of_getElem? hrj)
    by_cases he : ie = ele
    · refine ⟨[], by simp [hit, he], ?_⟩
      intro i j; simp [he]
    · refine ⟨if inside c vj then [(ie, ele)] else [], ?_, ?_⟩
      · simp only [hit, if_neg he, item, hrj, hvj, bind, Except.bind, pure, Except.pure]
      · intro i j
        by_cases hin : inside c vj = true
        · simp only [hin, if_true, List.mem_singleton, Prod.mk.injEq]
          constructor
          · rintro ⟨rfl, rfl⟩; exact ⟨rfl, rfl, he, rj, vj, hrj, hvj, hin⟩
          · rintro ⟨rfl, rfl, -⟩; exact ⟨rfl, rfl⟩
        · rw [if_neg hin]
          refine ⟨fun h => absurd h List.not_mem_nil, ?_⟩
          rintro ⟨-, -, -, rj', vj', h1, h2, h3⟩
          rw [hrj] at h1; cases h1; rw [hvj] at h2; cases h2
          exact absurd h3 hin
  have hhits : ∀ x ∈ (ents.zip cents).zipIdx, ∃ l, hits inside (vertexToEntities srt ents dim) p ents x = .ok l ∧
      ∀ i j, (i, j) ∈ l ↔ i = x.2 ∧ x.2 ≠ j ∧ (∃ v ∈ x.1.1, ∃ rj, ents[j]? = some rj ∧ v ∈ rj) ∧
        ∃ rj vj, ents[j]? = some rj ∧ Np.take p rj = .ok vj ∧ inside x.1.2 vj = true := by
    rintro ⟨⟨r, c⟩, ie⟩ hx
    have hr : r ∈ ents := (List.of_mem_zip (List.fst_mem_of_mem_zipIdx hx)).1
    obtain ⟨neis, hn, hmem⟩ := hring r hr
    obtain ⟨hs, hhs⟩ := mapM_exists (f := hit inside p ents ie c) (l := neis) (by
      intro ele hele
      obtain ⟨v, -, rj, hrj, -⟩ := (hmem ele).1 hele
      obtain ⟨l, hl, -⟩ := hhit ie c ele ⟨rj, hrj⟩
      exact ⟨l, hl⟩)
    have hsf := mapM_forall₂.1 hhs
    refine ⟨hs.flatten, by simp only [hits, hn, hhs, bind, Except.bind, pure, Except.pure], ?_⟩
    intro i j
    rw [List.mem_flatten]
    constructor
    · rintro ⟨l, hl, hij⟩
      obtain ⟨ele, hele, hel⟩ := forall₂_right hsf l hl
      obtain ⟨v, hv, rj, hrj, hvj⟩ := (hmem ele).1 hele
      obtain ⟨l', hl', hm⟩ := hhit ie c ele ⟨rj, hrj⟩
      rw [hel] at hl'; cases hl'
      obtain ⟨rfl, rfl, hne, h⟩ := (hm i j).1 hij
      exact ⟨rfl, hne, ⟨v, hv, rj, hrj, hvj⟩, h⟩
    · rintro ⟨rfl, hne, hsh, h⟩
      obtain ⟨l, hl, hel⟩ := forall₂_left hsf j ((hmem j).2 hsh)
      obtain ⟨v, hv, rj, hrj, hvj⟩ := hsh
      obtain ⟨l', hl', hm⟩ := hhit i c j ⟨rj, hrj⟩
      rw [hel] at hl'; cases hl'
      exact ⟨l, hl, (hm i j).2 ⟨rfl, rfl, hne, h⟩⟩
  obtain ⟨parts, hp⟩ := mapM_exists (f := hits inside (vertexToEntities srt ents dim) p ents)
    fun x hx => (hhits x hx).imp fun _ h => h.1
  have hpf := mapM_forall₂.1 hp
  have hrun : doAnyOverlap inside cent srt p ents dim = .ok parts.flatten := by
    simp only [bind, Except.bind, pure, Except.pure] at hc
    simp only [doAnyOverlap, hc, hp, bind, Except.bind, pure, Except.pure]
  refine ⟨_, hrun, ?_⟩
  intro i j
  rw [List.mem_flatten]
  constructor
  · rintro ⟨l, hl, hij⟩
    obtain ⟨x, hx, hxl⟩ := forall₂_right hpf l hl
    obtain ⟨l', hl', hm⟩ := hhits x hx
    rw [hxl] at hl'; cases hl'
    obtain ⟨⟨r, c⟩, ie⟩ := x
    obtain ⟨rfl, hne, ⟨v, hv, rj, hrj, hvj⟩, rj', vj, hrj', hvj', hin⟩ := (hm i j).1 hij
    rw [hrj] at hrj'; cases hrj'
    have hz := List.mem_zipIdx_iff_getElem?.1 hx
    simp only [List.getElem?_zip_eq_some] at hz
    obtain ⟨vi, hvi, hci'⟩ := hci _ _ hz.1
    rw [hz.2] at hci'; cases hci'
    refine ⟨hne, r, rj, vi, vj, hz.1, hrj, ⟨v, hv, hvj⟩, take_spec.1 hvi, take_spec.1 hvj', hin⟩
  · rintro ⟨hne, ri, rj, vi, vj, hri, hrj, ⟨v, hv, hvj⟩, hvi, hvj', hin⟩
    obtain ⟨vi', hvi', hci'⟩ := hci _ _ hri
    have := take_spec.2 hvi
    rw [this] at hvi'; cases hvi'
    have hx : ((ri, cent vi), i) ∈ (ents.zip cents).zipIdx :=
      List.mem_zipIdx_iff_getElem?.2 (List.getElem?_zip_eq_some.2 ⟨hri, hci'⟩)
    obtain ⟨l, hl, hxl⟩ := forall₂_left hpf _ hx
    obtain ⟨l', hl', hm⟩ := hhits _ hx
    rw [hxl] at hl'; cases hl'
    exact ⟨l, hl, (hm i j).2 ⟨rfl, hne, ⟨v, hv, rj, hrj, hvj⟩, rj, vj, hrj, take_spec.2 hvj', hin⟩⟩

/-- **C49, detection.** On every mesh whose rows have `dim + 1` entries and in which exactly the vertices
of the vertex array occur, `do_any_overlap` succeeds and reports exactly the pairs `(i, j)`, `i ≠ j`,
of entities sharing a vertex such that the centroid of entity `i` is inside entity `j`. -/
theorem C49_overlap (inside : P → List P → Bool) (cent : List P → P)
    {srt : List (ℕ × ℕ) → List (ℕ × ℕ)} (hsrt : IsArgsort srt) {p : List P} {ents : List (List ℕ)}
    {dim : ℕ} (hw : ∀ r ∈ ents, r.length = dim + 1) (hocc : ∀ v, v < p.length ↔ ∃ r ∈ ents, v ∈ r) :
    ∃ out, doAnyOverlap inside cent srt p ents dim = .ok out ∧ ∀ i j, (i, j) ∈ out ↔
      i ≠ j ∧ ∃ ri rj vi vj, ents[i]? = some ri ∧ ents[j]? = some rj ∧ (∃ v, v ∈ ri ∧ v ∈ rj) ∧
        ri.map (fun k => p[k]?) = vi.map some ∧ rj.map (fun k => p[k]?) = vj.map some ∧
        inside (cent vi) vj = true :=
  overlap_initial inside cent hsrt hw le_rfl hocc

end overlap

section geometry

/-- The four corners named by a row. -/
theorem pts3 {α : Type} {p : List α} {r : List ℕ} {vs : List α} (h : r.length = 3)
    (hv : r.map (fun k => p[k]?) = vs.map some) : ∃ a b c, vs = [a, b, c] := by
  have : vs.length = 3 := by have := congrArg List.length hv; simpa [h] using this.symm
  match vs, this with
  | [a, b, c], _ => exact ⟨a, b, c, rfl⟩

theorem pts4 {α : Type} {p : List α} {r : List ℕ} {vs : List α} (h : r.length = 4)
    (hv : r.map (fun k => p[k]?) = vs.map some) : ∃ a b c d, vs = [a, b, c, d] := by
  have : vs.length = 4 := by have := congrArg List.length hv; simpa [h] using this.symm
  match vs, this with
  | [a, b, c, d], _ => exact ⟨a, b, c, d, rfl⟩

/-- **C49, detection in 2-D.** For triangles `i` and `j`: the pair is reported exactly if they are different,
share a vertex, `j` is not degenerate, and the centroid of `i` lies in the closed triangle `j`. -/
theorem C49_overlap2 {srt : List (ℕ × ℕ) → List (ℕ × ℕ)} (hsrt : IsArgsort srt) {p : List (Fin 2 → ℝ)}
    {ents : List (List ℕ)} (hw : ∀ r ∈ ents, r.length = 3)
    (hocc : ∀ v, v < p.length ↔ ∃ r ∈ ents, v ∈ r) :
    ∃ out, doAnyOverlap inside2 (centroid · 2) srt p ents 2 = .ok out ∧
      ∀ (i j : ℕ) (ri rj : List ℕ) (a b c a' b' c' : Fin 2 → ℝ), ents[i]? = some ri → ents[j]? = some rj →
        ri.map (fun k => p[k]?) = [some a, some b, some c] →
        rj.map (fun k => p[k]?) = [some a', some b', some c'] →
        ((i, j) ∈ out ↔ i ≠ j ∧ (∃ v, v ∈ ri ∧ v ∈ rj) ∧ AffineIndependent ℝ ![a', b', c'] ∧
          (1 / 3 : ℝ) • (a + b + c) ∈ convexHull ℝ {a', b', c'}) := by
  obtain ⟨out, hrun, hout⟩ := C49_overlap inside2 (centroid · 2) hsrt (p := p) (dim := 2) hw hocc
  refine ⟨out, hrun, ?_⟩
  intro i j ri rj a b c a' b' c' hri hrj hi hj
  have hcent : centroid [a, b, c] 2 = (1 / 3 : ℝ) • (a + b + c) := by
    ext k; simp [centroid]; ring
  have key : inside2 (centroid [a, b, c] 2) [a', b', c'] = true ↔
      AffineIndependent ℝ ![a', b', c'] ∧ (1 / 3 : ℝ) • (a + b + c) ∈ convexHull ℝ {a', b', c'} := by
    rw [hcent]
    by_cases hind : AffineIndependent ℝ ![a', b', c']
    · rw [← C42_triangle _ _ _ _ hind]; simp [hind, inside2]
    · simp [hind, inside2, C42_flat_triangle _ _ _ _ hind]
  rw [hout i j, ← key]
  constructor
  · rintro ⟨hne, ri', rj', vi, vj, h1, h2, hs, h3, h4, h5⟩
    rw [hri] at h1; rw [hrj] at h2; cases h1; cases h2
    rw [hi] at h3; rw [hj] at h4
    have e1 : vi = [a, b, c] := (List.map_injective_iff.2 (Option.some_injective _)) h3.symm
    have e2 : vj = [a', b', c'] := (List.map_injective_iff.2 (Option.some_injective _)) h4.symm
    subst e1 e2
    exact ⟨hne, hs, h5⟩
  · rintro ⟨hne, hs, h5⟩
    exact ⟨hne, ri, rj, [a, b, c], [a', b', c'], hri, hrj, hs, hi, hj, h5⟩

/-- **C49, detection in 3-D**: the same with the open tetrahedron. -/
theorem C49_overlap3 {srt : List (ℕ × ℕ) → List (ℕ × ℕ)} (hsrt : IsArgsort srt) {p : List (Fin 3 → ℝ)}
    {ents : List (List ℕ)} (hw : ∀ r ∈ ents, r.length = 4)
    (hocc : ∀ v, v < p.length ↔ ∃ r ∈ ents, v ∈ r) :
    ∃ out, doAnyOverlap inside3 (centroid · 3) srt p ents 3 = .ok out ∧
      ∀ (i j : ℕ) (ri rj : List ℕ) (a b c d a' b' c' d' : Fin 3 → ℝ), ents[i]? = some ri → ents[j]? = some rj →
        ri.map (fun k => p[k]?) = [some a, some b, some c, some d] →
        rj.map (fun k => p[k]?) = [some a', some b', some c', some d'] →
        ((i, j) ∈ out ↔ i ≠ j ∧ (∃ v, v ∈ ri ∧ v ∈ rj) ∧ AffineIndependent ℝ ![a', b', c', d'] ∧
          (1 / 4 : ℝ) • (a + b + c + d) ∈ interior (convexHull ℝ {a', b', c', d'})) := by
  obtain ⟨out, hrun, hout⟩ := C49_overlap inside3 (centroid · 3) hsrt (p := p) (dim := 3) hw hocc
  refine ⟨out, hrun, ?_⟩
  intro i j ri rj a b c d a' b' c' d' hri hrj hi hj
  have hcent : centroid [a, b, c, d] 3 = (1 / 4 : ℝ) • (a + b + c + d) := by
    ext k; simp [centroid]; ring
  have key : inside3 (centroid [a, b, c, d] 3) [a', b', c', d'] = true ↔
      AffineIndependent ℝ ![a', b', c', d'] ∧ (1 / 4 : ℝ) • (a + b + c + d) ∈ interior (convexHull ℝ {a', b', c', d'}) := by
    rw [hcent]
    by_cases hind : AffineIndependent ℝ ![a', b', c', d']
    · rw [← C42_tetrahedron _ _ _ _ _ hind]; simp [hind, inside3]
    · simp [hind, inside3, C42_flat_tetrahedron _ _ _ _ _ hind]
  rw [hout i j, ← key]
  constructor
  · rintro ⟨hne, ri', rj', vi, vj, h1, h2, hs, h3, h4, h5⟩
    rw [hri] at h1; rw [hrj] at h2; cases h1; cases h2
    rw [hi] at h3; rw [hj] at h4
    have e1 : vi = [a, b, c, d] := (List.map_injective_iff.2 (Option.some_injective _)) h3.symm
    have e2 : vj = [a', b', c', d'] := (List.map_injective_iff.2 (Option.some_injective _)) h4.symm
    subst e1 e2
    exact ⟨hne, hs, h5⟩
  · rintro ⟨hne, hs, h5⟩
    exact ⟨hne, ri, rj, [a, b, c, d], [a', b', c', d'], hri, hrj, hs, hi, hj, h5⟩

end geometry

section lint
variable {P κ K ρ : Type} [LinearOrder κ] [LinearOrder ρ] [LinearOrder K] [Zero K]

/-- Entity `k` is the worse one of a reported pair (specification): its quality is below the other's,
or equal to it and `k` is the first of the pair. -/
def WorseInPair (q : List K) (pairs : List (ℕ × ℕ)) (k : ℕ) : Prop :=
  ∃ i j a b, (i, j) ∈ pairs ∧ q[i]? = some a ∧ q[j]? = some b ∧ ((k = i ∧ a ≤ b) ∨ (k = j ∧ b < a))

/-- Entities with an index satisfying `R` (specification of a selection of rows). -/
def Selected {α : Type} (R : ℕ → Prop) (a b : List α) : Prop :=
  ∃ ix : List ℕ, ix.Pairwise (· < ·) ∧ (∀ k, k ∈ ix ↔ k < a.length ∧ R k) ∧
    b.map some = ix.map fun k => a[k]?

theorem npDelete_selected {α : Type} (a : List α) (idx : List ℕ) :
    Selected (fun k => k ∉ idx) a (npDelete a idx) := by
  refine ⟨(a.zipIdx.filter fun xi => !idx.contains xi.2).map Prod.snd, ?_, ?_, ?_⟩
  · have h : (a.zipIdx.map Prod.snd).Pairwise (· < ·) := by
      rw [List.zipIdx_map_snd]; exact List.pairwise_lt_range'
    refine h.sublist ?_
    exact (List.filter_sublist).map _
  · intro k
    simp only [List.mem_map, List.mem_filter, Prod.exists, exists_eq_right, List.mem_zipIdx_iff_getElem?]
    constructor
    · rintro ⟨x, hx, hk⟩
      exact ⟨(List.getElem?_eq_some_iff.1 hx).1, by simpa using hk⟩
    · rintro ⟨h1, h2⟩
      exact ⟨a[k], List.getElem?_eq_getElem h1, by simpa using h2⟩
  · unfold npDelete
    simp only [List.map_map]
    apply List.map_congr_left
    rintro ⟨x, i⟩ hx
    have := List.mem_zipIdx_iff_getElem?.1 (List.mem_of_mem_filter hx)
    simpa using this.symm

theorem selectWorse_spec {q : List K} {i j k : ℕ} (h : selectWorse q (i, j) = .ok k) :
    ∃ a b, q[i]? = some a ∧ q[j]? = some b ∧ k = if b < a then j else i := by
  unfold selectWorse item at h
  simp only [bind, Except.bind, pure, Except.pure] at h
  cases ha : q[i]? with
  | none => simp [ha] at h
  | some a =>
    cases hb : q[j]? with
    | none => simp [ha, hb] at h
    | some b =>
      simp [ha, hb] at h
      exact ⟨a, b, rfl, rfl, h.symm⟩

/-- **C49, deletion.** Whenever `linter` returns, the entities handed to the clean-up (`fix_mesh`) are
exactly those that are not the worse one of a pair reported by `do_any_overlap`, in their original
order; what follows is only `fix_mesh` and, in 2-D, `delete_boundary_entities` (C37). -/
theorem C49_linter {inside : P → List P → Bool} {cent : List P → P} {qual vol : List P → K}
    {key key' : P → κ} {rk : List ℕ → ρ} {srt : List (ℕ × ℕ) → List (ℕ × ℕ)} {width : ℕ} {p p' : List P}
    {ents t' : List (List ℕ)} {dim : ℕ} {minQual : K}
    (h : linter inside cent qual vol key key' rk srt width p ents dim minQual = .ok (p', t')) :
    ∃ q pairs kept p1 t1 jx, quals qual p ents = .ok q ∧
      doAnyOverlap inside cent srt p ents dim = .ok pairs ∧
      Selected (fun k => ¬ WorseInPair q pairs k) ents kept ∧
      FixMesh.fixMesh key rk vol p kept true true = .ok (p1, t1, jx) ∧
      (dim = 2 → deleteBoundaryEntities key' rk vol qual srt p1 t1 2 minQual = .ok (p', t')) ∧
      (dim ≠ 2 → p' = p1 ∧ t' = t1) ∧ t' ≠ [] := by
  unfold linter at h
  simp only [bind, Except.bind, pure, Except.pure] at h
  split at h
  · simp at h
  rename_i q hq
  split at h
  · simp at h
  rename_i pairs hpairs
  split at h
  · simp at h
  rename_i del hdel
  have hdf := mapM_forall₂.1 hdel
  split at h
  · simp at h
  rename_i pt hfix
  obtain ⟨p1, t1, jx⟩ := pt
  have hsel : Selected (fun k => ¬ WorseInPair q pairs k) ents (npDelete ents (uniqBy id del)) := by
    obtain ⟨ix, h1, h2, h3⟩ := npDelete_selected ents (uniqBy id del)
    refine ⟨ix, h1, ?_, h3⟩
    intro k
    rw [h2 k]
    refine and_congr_right fun _ => not_congr ?_
    rw [uniqId_mem]
    constructor
    · intro hk
      obtain ⟨⟨i, j⟩, hij, hs⟩ := forall₂_right hdf k hk
      obtain ⟨a, b, ha, hb, hk'⟩ := selectWorse_spec hs
      refine ⟨i, j, a, b, hij, ha, hb, ?_⟩
      by_cases hba : b < a
      · rw [if_pos hba] at hk'; exact Or.inr ⟨hk', hba⟩
      · rw [if_neg hba] at hk'; exact Or.inl ⟨hk', not_lt.1 hba⟩
    · rintro ⟨i, j, a, b, hij, ha, hb, hor⟩
      obtain ⟨k', hk', hs⟩ := forall₂_left hdf (i, j) hij
      obtain ⟨a', b', ha', hb', hk''⟩ := selectWorse_spec hs
      rw [ha] at ha'; rw [hb] at hb'; cases ha'; cases hb'
      rcases hor with ⟨rfl, hle⟩ | ⟨rfl, hlt⟩
      · rw [if_neg (not_lt.2 hle)] at hk''; rw [← hk'']; exact hk'
      · rw [if_pos hlt] at hk''; rw [← hk'']; exact hk'
  refine ⟨q, pairs, _, p1, t1, jx, hq, hpairs, hsel, hfix, ?_⟩
  have hne : ∀ (pp : List P) (tt : List (List ℕ)) (q' : List K), quals qual pp tt = .ok q' →
      q'.isEmpty = false → tt ≠ [] := by
    rintro pp tt q' h1 h2 rfl
    simp [quals, pure, Except.pure] at h1
    subst h1
    simp at h2
  split at h
  · simp at h
  rename_i pt2 hstage
  obtain ⟨p2, t2⟩ := pt2
  simp only at h
  split at h
  · simp at h
  rename_i q' hq'
  split at h
  · simp [throw, throwThe, MonadExceptOf.throw] at h
  rename_i hemp
  simp at h
  obtain ⟨rfl, rfl⟩ := h
  refine ⟨?_, ?_, hne _ _ _ hq' (by simpa using hemp)⟩
  · intro hd
    subst hd
    simp only [if_true] at hstage
    split at hstage
    · simp at hstage
    rename_i pt3 h3
    obtain ⟨p3, t3⟩ := pt3
    simp only at hstage
    split at hstage
    · simp at hstage
    simp at hstage
    obtain ⟨rfl, rfl⟩ := hstage
    exact h3
  · intro hd
    rw [if_neg hd] at hstage
    simp at hstage
    exact ⟨hstage.1.symm, hstage.2.symm⟩

end lint

/-! ### A concrete mesh -/

/-- Two overlapping triangles with a common edge, and a third one beside them; as quality a rational
stand-in (four times the signed area). -/
def exP : List (Fin 2 → ℚ) := [![0, 0], ![2, 0], ![0, 2], ![1 / 2, 1 / 2], ![2, 2]]
def exT : List (List ℕ) := [[0, 1, 2], [0, 1, 3], [1, 4, 2]]
def exSort : List (ℕ × ℕ) → List (ℕ × ℕ) := fun l => l.insertionSort fun a b => a.1 ≤ b.1
def exQual (vs : List (Fin 2 → ℚ)) : ℚ := 4 * FixMesh.rowVol2 vs

/-- The small triangle's centroid lies in the large one and it is the one removed; the hypotheses of
`C49_overlap` hold (`linter` itself is run below). -/
example : doAnyOverlap inside2 (centroid · 2) exSort exP exT 2 = .ok [(1, 0), (1, 0)] ∧
    (∀ v, v < exP.length ↔ ∃ r ∈ exT, v ∈ r) ∧
    (linter inside2 (centroid · 2) exQual FixMesh.rowVol2 (fun q => [q 0, q 1]) (fun q => [q 0, q 1])
      (fun r => r) exSort 2 exP exT 2 (1 / 10)).map Prod.snd = .ok [[1, 0, 2], [1, 2, 3]] := by
  refine ⟨by decide +kernel, fun v => ?_, by decide +kernel⟩
  simp only [exP, exT, List.mem_cons, List.not_mem_nil, or_false, exists_eq_or_imp, exists_eq_left, List.length_cons, List.length_nil]
  omega

def tieP : List (Fin 2 → ℚ) := [![0, 0], ![2, 0], ![0, 2], ![2, 2]]
def tieT : List (List ℕ) := [[0, 1, 2], [0, 2, 1], [1, 3, 2]]

/-- Finding: when both members of an overlapping pair have the same quality (here the same triangle
listed twice with a different orientation), both are the "first minimum" of one of the two reported
pairs, so both are deleted and the area is no longer covered. -/
theorem C49_tie_deletes_both :
    ∃ pairs del, doAnyOverlap inside2 (centroid · 2) exSort tieP tieT 2 = .ok pairs ∧
      pairs.mapM (selectWorse [(1 : ℚ), 1, 1]) = .ok del ∧
      npDelete tieT (uniqBy id del) = [[1, 3, 2]] := by
  refine ⟨[(0, 1), (0, 1), (0, 1), (1, 0), (1, 0), (1, 0)], [0, 0, 0, 1, 1, 1], ?_, ?_, ?_⟩
  · decide +kernel
  · decide +kernel
  · decide +kernel

end SM.Linter
