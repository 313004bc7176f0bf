import Verif.Props.FixMesh
import Mathlib.Data.List.Perm.Subperm
import Mathlib.Data.List.Range
import Mathlib.Data.Fintype.Pi
import Mathlib.Tactic.NormNum

/-!
# C124: `fix_mesh` gives a canonical mesh

SeismicMesh/geometry/utils.py:204-249. The result depends only on the geometry, not on the numbering, as long as nothing is merged;
cleaning a clean mesh changes nothing as long as the snapping length stays the same, and may merge more if it does not.
-/

namespace SM.Np

variable {α κ : Type} [LinearOrder κ]

/-- Two lists strictly sorted by a key with the same members are equal. -/
theorem eq_of_sorted_of_mem {f : α → κ} : ∀ {l l' : List α}, (l.Pairwise fun a b => f a < f b) →
    (l'.Pairwise fun a b => f a < f b) → (∀ z, z ∈ l ↔ z ∈ l') → l = l'
  | [], [], _, _, _ => rfl
  | [], b :: l', _, _, h => absurd ((h b).2 (by simp)) (by simp)
  | a :: l, [], _, _, h => absurd ((h a).1 (by simp)) (by simp)
  | a :: l, b :: l', h1, h2, h => by
    rw [List.pairwise_cons] at h1 h2
    have hab : a = b := by
      rcases List.mem_cons.1 ((h a).1 (by simp)) with e | e
      · exact e
      · rcases List.mem_cons.1 ((h b).2 (by simp)) with e' | e'
        · exact e'.symm
        · exact absurd (h1.1 b e') (not_lt.2 (h2.1 a e).le)
    subst hab
    congr 1
    apply eq_of_sorted_of_mem h1.2 h2.2
    intro z
    constructor
    · intro hz
      rcases List.mem_cons.1 ((h z).1 (by simp [hz])) with e | e
      · subst e; exact absurd (h1.1 z hz) (lt_irrefl _)
      · exact e
    · intro hz
      rcases List.mem_cons.1 ((h z).2 (by simp [hz])) with e | e
      · subst e; exact absurd (h2.1 z hz) (lt_irrefl _)
      · exact e

theorem uniqBy_congr {f : α → κ} (hf : Function.Injective f) {l l' : List α} (h : ∀ z, z ∈ l ↔ z ∈ l') :
    uniqBy f l = uniqBy f l' :=
  eq_of_sorted_of_mem (uniqBy_sorted f l) (uniqBy_sorted f l') fun z => by rw [mem_uniqBy hf, mem_uniqBy hf, h z]

theorem uniqBy_of_sorted {ks : List κ} (h : ks.Pairwise (· < ·)) : uniqBy id ks = ks :=
  eq_of_sorted_of_mem (f := id) (uniqBy_sorted id ks) h fun z => uniqId_mem

theorem take_range (p : List α) : Np.take p (List.range p.length) = .ok p := by
  rw [take_spec]
  apply List.ext_getElem?
  intro i
  by_cases hi : i < p.length
  · simp [hi]
  · simp [hi]

theorem map_idxOf_self [DecidableEq κ] {ks : List κ} (h : ks.Nodup) : ks.map (fun k => ks.idxOf k) = List.range ks.length := by
  apply List.ext_getElem?
  intro i
  by_cases hi : i < ks.length
  · simp [hi, h.idxOf_getElem i hi]
  · simp [hi]

end SM.Np

namespace SM.FixMesh
open Np

variable {P κ ρ K : Type} [LinearOrder κ] [LinearOrder ρ] [LT K] [DecidableLT K] [Zero K]

/-- The stages of `fix_mesh`: representatives `p1` and sorted distinct rows `T`, then `p3`, `T3` after the deletion of unused vertices, then
the orientation. -/
theorem fixMesh_form (key : P → κ) {rk : List ℕ → ρ} (hrk : Function.Injective rk) (vol : List P → K) {p : List P} (hp : p ≠ [])
    {t : List (List ℕ)} (ht : InRange p t) (del ori : Bool) :
    ∃ p1 T p3 T3 t4 jx, Np.take p (uniqIndex (p.map key)) = .ok p1 ∧ Clean key p t p1 T ∧ (∀ r ∈ T, r.Pairwise (· ≤ ·)) ∧
      (T.Pairwise fun a b => rk a < rk b) ∧
      ((del = false ∧ p3 = p1 ∧ T3 = T) ∨ (del = true ∧ Np.take p1 (uniqBy id T.flatten) = .ok p3 ∧
        T3 = T.map fun r => r.map fun v => (uniqBy id T.flatten).idxOf v)) ∧
      Clean key p t p3 T3 ∧ (del = true → ∀ i < p3.length, ∃ r ∈ T3, i ∈ r) ∧
      (if ori then T3.mapM (orient vol p3) = .ok t4 else t4 = T3) ∧
      fixMesh key rk vol p t del ori = .ok (p3, t4, jx) := by
  have he : p.isEmpty = false := by simpa using hp
  obtain ⟨p1, hp1, -, -, -⟩ := stage1 key p
  obtain ⟨t1, ht1, hc2⟩ := stage2 hrk ht hp1
  have hsrt : ∀ r ∈ uniqBy rk (t1.map sortRow), r.Pairwise (· ≤ ·) := by
    intro r hr
    obtain ⟨r1, -, rfl⟩ := List.mem_map.1 (mem_of_mem_uniqBy hr)
    exact sortRow_sorted r1
  have fin : ∀ (p3 : List P) (t3 : List (List ℕ)) (jx3 : List ℕ), Clean key p t p3 t3 →
      ((if del then do
          let pix := uniqBy id (uniqBy rk (t1.map sortRow)).flatten
          let p' ← Np.take p1 pix
          pure (p', (uniqBy rk (t1.map sortRow)).map fun r => r.map fun v => pix.idxOf v,
            uniqInverse (uniqBy rk (t1.map sortRow)).flatten)
        else pure (p1, uniqBy rk (t1.map sortRow), uniqInverse (p.map key)) :
          Except String (List P × List (List ℕ) × List ℕ)) = .ok (p3, t3, jx3)) →
      ∃ t4, (if ori then t3.mapM (orient vol p3) = .ok t4 else t4 = t3) ∧ fixMesh key rk vol p t del ori = .ok (p3, t4, jx3) := by
    intro p3 t3 jx3 hc hrun
    obtain ⟨t4, h4, -, -⟩ := stage4 (vol := vol) hc
    cases ori with
    | false =>
      refine ⟨t3, by simp, ?_⟩
      unfold fixMesh
      simp only [bind, Except.bind, pure, Except.pure] at hrun
      simp only [he, hp1, ht1, bind, Except.bind, pure, Except.pure, Bool.false_eq_true, if_false]
      rw [hrun]
    | true =>
      refine ⟨t4, by simpa using h4, ?_⟩
      unfold fixMesh
      simp only [bind, Except.bind, pure, Except.pure] at hrun
      simp only [he, hp1, ht1, bind, Except.bind, pure, Except.pure, Bool.false_eq_true, if_false,
        if_true]
      rw [hrun]
      simp only [h4]
  cases del with
  | false =>
    obtain ⟨t4, h4, h5⟩ := fin p1 _ _ hc2 rfl
    exact ⟨p1, _, p1, _, t4, _, hp1, hc2, hsrt, uniqBy_sorted rk _, Or.inl ⟨rfl, rfl, rfl⟩, hc2, by simp, h4, h5⟩
  | true =>
    obtain ⟨p3, hp3, hc3, hu⟩ := stage3 hc2
    obtain ⟨t4, h4, h5⟩ := fin p3 _ _ hc3 (by simp only [if_true, bind, Except.bind, pure, Except.pure]; rw [hp3])
    exact ⟨p1, _, p3, _, t4, _, hp1, hc2, hsrt, uniqBy_sorted rk _, Or.inr ⟨rfl, hp3, rfl⟩, hc3, fun _ => hu, h4, h5⟩

/-- With distinct keys, a row is determined up to order by the keys of its vertices. -/
theorem perm_of_rowKeys {key : P → κ} {p : List P} (hd : (p.map key).Nodup) {r s : List ℕ} (hr : ∀ i ∈ r, i < p.length)
    (hs : ∀ i ∈ s, i < p.length) (h : (rowKeys key p r).Perm (rowKeys key p s)) : r.Perm s := by
  classical
  let back : Option κ → ℕ := fun o => match o with | some k => (p.map key).idxOf k | none => 0
  have hb : ∀ i < p.length, back ((p[i]?).map key) = i := by
    intro i hi
    have hi' : i < (p.map key).length := by simpa using hi
    have := hd.idxOf_getElem i hi'
    simp only [List.getElem_map] at this
    simpa [back, hi] using this
  have hm : ∀ r : List ℕ, (∀ i ∈ r, i < p.length) → (rowKeys key p r).map back = r := by
    intro r hr
    rw [rowKeys, List.map_map]
    conv_rhs => rw [← List.map_id r]
    exact List.map_congr_left fun i hi => hb i (hr i hi)
  have := h.map back
  rwa [hm r hr, hm s hs] at this

/-- **The result depends only on the representatives and on the keys of the rows.** -/
theorem fixMesh_congr (key : P → κ) {rk : List ℕ → ρ} (hrk : Function.Injective rk) (vol : List P → K) {p p' : List P} (hp : p ≠ [])
    (hp' : p' ≠ []) {t t' : List (List ℕ)} (ht : InRange p t) (ht' : InRange p' t')
    (hrep : Np.take p (uniqIndex (p.map key)) = Np.take p' (uniqIndex (p'.map key)))
    (hf : ∀ r ∈ t, ∃ r' ∈ t', (rowKeys key p' r').Perm (rowKeys key p r))
    (hb : ∀ r' ∈ t', ∃ r ∈ t, (rowKeys key p' r').Perm (rowKeys key p r)) (del ori : Bool) :
    ∃ q s jx jx', fixMesh key rk vol p t del ori = .ok (q, s, jx) ∧ fixMesh key rk vol p' t' del ori = .ok (q, s, jx') := by
  obtain ⟨p1, T, p3, T3, t4, jx, a1, a2, a3, a4, a5, -, -, a6, a7⟩ := fixMesh_form key hrk vol hp ht del ori
  obtain ⟨p1', T', p3', T3', t4', jx', b1, b2, b3, b4, b5, -, -, b6, b7⟩ := fixMesh_form key hrk vol hp' ht' del ori
  have e1 : p1 = p1' := by rw [a1, b1] at hrep; exact Except.ok.inj hrep
  subst e1
  have eT : T = T' := by
    apply eq_of_sorted_of_mem a4 b4
    intro z
    constructor
    · intro hz
      obtain ⟨r, hr, h1⟩ := a2.fwd z hz
      obtain ⟨r', hr', h2⟩ := hf r hr
      obtain ⟨z', hz', h3⟩ := b2.bwd r' hr'
      have := perm_of_rowKeys a2.distinct (a2.inRange z hz) (b2.inRange z' hz') (h1.trans (h2.symm.trans h3.symm))
      have e : z = z' := by rw [← sortRow_of_sorted (a3 z hz), ← sortRow_of_sorted (b3 z' hz')]; exact sortRow_eq_iff.2 this
      rwa [e]
    · intro hz
      obtain ⟨r', hr', h1⟩ := b2.fwd z hz
      obtain ⟨r, hr, h2⟩ := hb r' hr'
      obtain ⟨z', hz', h3⟩ := a2.bwd r hr
      have := perm_of_rowKeys a2.distinct (b2.inRange z hz) (a2.inRange z' hz') (h1.trans (h2.trans h3.symm))
      have e : z = z' := by rw [← sortRow_of_sorted (b3 z hz), ← sortRow_of_sorted (a3 z' hz')]; exact sortRow_eq_iff.2 this
      rwa [e]
  subst eT
  have e3 : p3 = p3' ∧ T3 = T3' := by
    rcases a5 with ⟨d1, d2, d3⟩ | ⟨d1, d2, d3⟩ <;> rcases b5 with ⟨c1, c2, c3⟩ | ⟨c1, c2, c3⟩
    · exact ⟨d2.trans c2.symm, d3.trans c3.symm⟩
    · rw [d1] at c1; cases c1
    · rw [d1] at c1; cases c1
    · rw [d2] at c2; exact ⟨Except.ok.inj c2, d3.trans c3.symm⟩
  obtain ⟨rfl, rfl⟩ := e3
  have e4 : t4 = t4' := by
    cases ori with
    | false => simp only [Bool.false_eq_true, if_false] at a6 b6; rw [a6, b6]
    | true => simp only [if_true] at a6 b6; rw [a6] at b6; exact Except.ok.inj b6
  subst e4
  exact ⟨p3, t4, jx, jx', a7, b7⟩

/-! ### Numbering -/

/-- The two meshes are the same except for the numbering: they have the same vertices in some order, vertex `i` of the first is vertex `σ i` of the
second, and they have the same entities, listed in any order and with the vertices of each entity in any order. -/
structure SameMesh (σ : ℕ → ℕ) (p : List P) (t : List (List ℕ)) (p' : List P) (t' : List (List ℕ)) : Prop where
  vertices : p'.Perm p
  place : ∀ i < p.length, p'[σ i]? = p[i]?
  cells : ∀ r ∈ t, ∃ r' ∈ t', r'.Perm (r.map σ)
  back : ∀ r' ∈ t', ∃ r ∈ t, r'.Perm (r.map σ)

theorem rowKeys_map {σ : ℕ → ℕ} {p p' : List P} (key : P → κ) (h : ∀ i < p.length, p'[σ i]? = p[i]?) {r : List ℕ} (hr : ∀ i ∈ r, i < p.length) :
    rowKeys key p' (r.map σ) = rowKeys key p r := by
  simp only [rowKeys, List.map_map]
  apply List.map_congr_left
  intro i hi
  simp only [Function.comp_apply, h i (hr i hi)]

/-- Lists of vertices with the same keys, taken from vertices with distinct keys, are equal. -/
theorem eq_of_keys {key : P → κ} : ∀ {a b : List P}, (∀ x ∈ a, ∀ y ∈ b, key x = key y → x = y) → a.map key = b.map key → a = b
  | [], [], _, _ => rfl
  | [], _ :: _, _, h => by simp at h
  | _ :: _, [], _, h => by simp at h
  | x :: a, y :: b, hk, h => by
    simp only [List.map_cons, List.cons.injEq] at h
    rw [hk x (by simp) y (by simp) h.1, eq_of_keys (fun x hx y hy => hk x (by simp [hx]) y (by simp [hy])) h.2]

theorem key_inj_of_nodup {key : P → κ} {p : List P} (hk : (p.map key).Nodup) : ∀ x ∈ p, ∀ y ∈ p, key x = key y → x = y := by
  intro x hx y hy h
  exact List.inj_on_of_nodup_map hk hx hy h

theorem fixMesh_numbering (key : P → κ) {rk : List ℕ → ρ} (hrk : Function.Injective rk) (vol : List P → K) {p p' : List P} (hp : p ≠ [])
    {t t' : List (List ℕ)} {σ : ℕ → ℕ} (ht : InRange p t) (h : SameMesh σ p t p' t') (hk : (p.map key).Nodup) (del ori : Bool) :
    ∃ q s jx jx', fixMesh key rk vol p t del ori = .ok (q, s, jx) ∧ fixMesh key rk vol p' t' del ori = .ok (q, s, jx') := by
  have hp' : p' ≠ [] := by
    intro e; rw [e] at h; exact hp h.vertices.symm.eq_nil
  have ht' : InRange p' t' := by
    intro r' hr' j hj
    obtain ⟨r, hr, hperm⟩ := h.back r' hr'
    obtain ⟨i, hi, rfl⟩ := List.mem_map.1 (hperm.mem_iff.1 hj)
    have hi' := ht r hr i hi
    have := h.place i hi'
    rw [List.getElem?_eq_getElem hi'] at this
    exact (List.getElem?_eq_some_iff.1 this).1
  refine fixMesh_congr key hrk vol hp hp' ht ht' ?_ ?_ ?_ del ori
  · obtain ⟨p1, a1, a2, a3, -⟩ := stage1 key p
    obtain ⟨p1', b1, b2, b3, -⟩ := stage1 key p'
    rw [a1, b1]
    congr 1
    apply eq_of_keys (key := key)
    · intro x hx y hy
      exact key_inj_of_nodup hk x (a3 x hx) y (h.vertices.mem_iff.1 (b3 y hy))
    · rw [a2, b2]
      exact uniqBy_congr Function.injective_id fun z => (h.vertices.map key).mem_iff.symm
  · intro r hr
    obtain ⟨r', hr', hperm⟩ := h.cells r hr
    exact ⟨r', hr', by rw [← rowKeys_map key h.place (ht r hr)]; exact hperm.map _⟩
  · intro r' hr'
    obtain ⟨r, hr, hperm⟩ := h.back r' hr'
    exact ⟨r, hr, by rw [← rowKeys_map key h.place (ht r hr)]; exact hperm.map _⟩

/-! ### Cleaning twice -/

theorem take_strict {key : P → κ} {p : List P} (h : (p.map key).Pairwise (· < ·)) : Np.take p (uniqIndex (p.map key)) = .ok p := by
  rw [uniqIndex, uniqBy_of_sorted h, map_idxOf_self (h.imp fun h => ne_of_lt h), List.length_map]
  exact take_range p

theorem uniqId_sorted (l : List κ) : (uniqBy id l).Pairwise (· < ·) := uniqBy_sorted id l

/-- Strictly increasing positions in a list with strictly increasing keys. -/
theorem take_sorted {key : P → κ} {p q : List P} {ix : List ℕ} (h : (p.map key).Pairwise (· < ·)) (hix : ix.Pairwise (· < ·))
    (hq : Np.take p ix = .ok q) : (q.map key).Pairwise (· < ·) := by
  rw [List.pairwise_map]
  rw [List.pairwise_iff_getElem] at h hix ⊢
  intro i j hi hj hij
  have hl := take_length hq
  have gi := take_get hq (List.getElem?_eq_getElem (show i < ix.length by omega))
  have gj := take_get hq (List.getElem?_eq_getElem (show j < ix.length by omega))
  rw [List.getElem?_eq_getElem hi] at gi
  rw [List.getElem?_eq_getElem hj] at gj
  obtain ⟨hi', ei⟩ := List.getElem?_eq_some_iff.1 gi.symm
  obtain ⟨hj', ej⟩ := List.getElem?_eq_some_iff.1 gj.symm
  have := h _ _ (by simpa using hi') (by simpa using hj') (hix i j _ _ hij)
  simp only [List.getElem_map] at this
  rwa [ei, ej] at this

theorem idxOf_mono {l : List ℕ} (h : l.Pairwise (· < ·)) {a b : ℕ} (ha : a ∈ l) (hb : b ∈ l) (hab : a ≤ b) : l.idxOf a ≤ l.idxOf b := by
  by_contra hlt
  push Not at hlt
  have ha' := List.idxOf_lt_length_iff.2 ha
  have hb' := List.idxOf_lt_length_iff.2 hb
  have := (List.pairwise_iff_getElem.1 h) _ _ hb' ha' hlt
  rw [List.getElem_idxOf, List.getElem_idxOf] at this
  omega

/-- The shape of the result: keys strictly increasing, rows the oriented form of sorted rows. -/
theorem fixMesh_shape (key : P → κ) {rk : List ℕ → ρ} (hrk : Function.Injective rk) (vol : List P → K) {p : List P} (hp : p ≠ [])
    {t : List (List ℕ)} (ht : InRange p t) (del ori : Bool) :
    ∃ q T s jx, fixMesh key rk vol p t del ori = .ok (q, s, jx) ∧ (q.map key).Pairwise (· < ·) ∧ (∀ r ∈ T, r.Pairwise (· ≤ ·)) ∧
      (if ori then T.mapM (orient vol q) = .ok s else s = T) ∧ Clean key p t q T ∧ (del = true → ∀ i < q.length, ∃ r ∈ T, i ∈ r) ∧
      (del = false ∨ (∀ i < p.length, ∃ r ∈ t, i ∈ r) → Np.take p (uniqIndex (p.map key)) = .ok q) := by
  obtain ⟨p1, T, p3, T3, t4, jx, a1, a2, a3, a4, a5, a6, a7, a8, a9⟩ := fixMesh_form key hrk vol hp ht del ori
  obtain ⟨p1', b1, b2, b3, b4⟩ := stage1 key p
  rw [a1] at b1
  obtain rfl := Except.ok.inj b1
  have hs1 : (p1.map key).Pairwise (· < ·) := by rw [b2]; exact uniqId_sorted _
  rcases a5 with ⟨rfl, rfl, rfl⟩ | ⟨rfl, h1, rfl⟩
  · exact ⟨_, _, t4, jx, a9, hs1, a3, a8, a6, a7, fun _ => a1⟩
  · refine ⟨p3, _, t4, jx, a9, take_sorted hs1 (uniqId_sorted _) h1, ?_, a8, a6, a7, ?_⟩
    · intro r' hr'
      obtain ⟨r, hr, rfl⟩ := List.mem_map.1 hr'
      rw [List.pairwise_map]
      refine (a3 r hr).imp_of_mem ?_
      intro a b ha hb hab
      exact idxOf_mono (uniqId_sorted _) (uniqId_mem.2 (List.mem_flatten.2 ⟨r, hr, ha⟩)) (uniqId_mem.2 (List.mem_flatten.2 ⟨r, hr, hb⟩)) hab
    · rintro (h | h)
      · cases h
      · rw [a1]
        congr 1
        have hall : uniqBy id T.flatten = List.range p1.length := by
          refine eq_of_sorted_of_mem (f := id) (uniqBy_sorted id _) List.pairwise_lt_range ?_
          intro i
          rw [uniqId_mem, List.mem_range, List.mem_flatten]
          constructor
          · rintro ⟨r, hr, hi⟩; exact a2.inRange r hr i hi
          · intro hi
            -- the vertex comes from the input, where it is used
            have hx := b3 p1[i] (List.getElem_mem hi)
            obtain ⟨j, hj, ej⟩ := List.getElem_of_mem hx
            obtain ⟨r, hr, hjr⟩ := h j hj
            obtain ⟨r2, hr2, hperm⟩ := a2.bwd r hr
            have hmem : (p[j]?).map key ∈ rowKeys key p1 r2 := hperm.mem_iff.2 (List.mem_map.2 ⟨j, hjr, rfl⟩)
            obtain ⟨i', hi', e⟩ := List.mem_map.1 hmem
            have hi1 := a2.inRange r2 hr2 i' hi'
            rw [List.getElem?_eq_getElem hi1, List.getElem?_eq_getElem hj] at e
            simp only [Option.map_some, Option.some.injEq] at e
            rw [ej] at e
            have hnd := a2.distinct
            have h1' : i' < (p1.map key).length := by simpa using hi1
            have h2' : i < (p1.map key).length := by simpa using hi
            have : (p1.map key)[i'] = (p1.map key)[i] := by simpa using e
            have := (List.Nodup.getElem_inj_iff hnd).1 this
            exact ⟨r2, hr2, this ▸ hi'⟩
        rw [hall, take_range] at h1
        exact Except.ok.inj h1

theorem clean_oriented {key : P → κ} {vol : List P → K} {p q : List P} {t T s : List (List ℕ)} {ori : Bool} (hc : Clean key p t q T)
    (ho : if ori then T.mapM (orient vol q) = .ok s else s = T) : Clean key p t q s ∧ List.Forall₂ (fun r r' : List ℕ => r'.Perm r) T s := by
  cases ori with
  | false =>
    simp only [Bool.false_eq_true, if_false] at ho
    subst ho
    exact ⟨hc, List.forall₂_same.2 fun r _ => List.Perm.refl r⟩
  | true =>
    simp only [if_true] at ho
    obtain ⟨t4, h4, hc4, hF⟩ := stage4 (vol := vol) hc
    rw [h4] at ho
    obtain rfl := Except.ok.inj ho
    exact ⟨hc4, hF.imp fun _ _ h => h.1⟩

theorem oriented_perm {vol : List P → K} {q : List P} {T T' s s' : List (List ℕ)} {ori : Bool} (h : T'.Perm T)
    (ho : if ori then T.mapM (orient vol q) = .ok s else s = T) (ho' : if ori then T'.mapM (orient vol q) = .ok s' else s' = T') :
    s'.Perm s := by
  cases ori with
  | false =>
    simp only [Bool.false_eq_true, if_false] at ho ho'
    rw [ho, ho']; exact h
  | true =>
    simp only [if_true] at ho ho'
    let g : List ℕ → List ℕ := fun r => match orient vol q r with | .ok x => x | .error _ => r
    have key : ∀ {A B : List (List ℕ)}, A.mapM (orient vol q) = .ok B → B = A.map g := by
      intro A B hAB
      have := mapM_forall₂.1 hAB
      clear hAB
      induction this with
      | nil => rfl
      | cons h _ ih => rw [List.map_cons, ← ih]; simp only [g, h]
    rw [key ho, key ho']
    exact h.map g

/-- **Cleaning the result again** with the same keys changes nothing except possibly the order of the entities, and not even that if there were no
unused vertices to delete. -/
theorem fixMesh_twice (key : P → κ) {rk : List ℕ → ρ} (hrk : Function.Injective rk) (vol : List P → K) {p q : List P} (hp : p ≠ [])
    {t s : List (List ℕ)} {jx : List ℕ} (ht : InRange p t) {del ori : Bool} (h : fixMesh key rk vol p t del ori = .ok (q, s, jx)) (hq : q ≠ []) :
    ∃ s' jx', fixMesh key rk vol q s del ori = .ok (q, s', jx') ∧ s'.Perm s ∧
      (del = false ∨ (∀ i < p.length, ∃ r ∈ t, i ∈ r) → s' = s) := by
  obtain ⟨q0, T, s0, jx0, a1, a2, a3, a4, a5, a6, a7⟩ := fixMesh_shape key hrk vol hp ht del ori
  rw [h] at a1
  simp only [Except.ok.injEq, Prod.mk.injEq] at a1
  obtain ⟨rfl, rfl, rfl⟩ := a1
  obtain ⟨hcs, hF⟩ := clean_oriented a5 a4
  have hs : InRange q s := hcs.inRange
  obtain ⟨q2, T2, s2, jx2, b1, b2, b3, b4, b5, b6, b7⟩ := fixMesh_shape key hrk vol hq hs del ori
  have hstr := take_strict a2
  have e2 : q = q2 := by
    have hused : del = false ∨ ∀ i < q.length, ∃ r ∈ s, i ∈ r := by
      cases del with
      | false => exact Or.inl rfl
      | true =>
        refine Or.inr fun i hi => ?_
        obtain ⟨r, hr, hir⟩ := a6 rfl i hi
        obtain ⟨r', hr', hpm⟩ := forall₂_left hF r hr
        exact ⟨r', hr', hpm.mem_iff.2 hir⟩
    have := b7 hused
    rw [hstr] at this
    exact Except.ok.inj this
  subst e2
  have hT : T2.Perm T := by
    have nd : ∀ {A : List (List ℕ)}, (A.Pairwise fun r s => ¬ r.Perm s) → A.Nodup := fun h => List.Pairwise.imp (fun {a b} hne (e : a = b) => hne (by rw [e])) h
    rw [List.perm_ext_iff_of_nodup (nd b5.rows) (nd a5.rows)]
    intro z
    constructor
    · intro hz
      obtain ⟨r, hr, h1⟩ := b5.fwd z hz
      have h2 := perm_of_rowKeys b5.distinct (b5.inRange z hz) (hs r hr) h1
      obtain ⟨r0, hr0, h3⟩ := forall₂_right hF r hr
      have : z = r0 := by rw [← sortRow_of_sorted (b3 z hz), ← sortRow_of_sorted (a3 r0 hr0)]; exact sortRow_eq_iff.2 (h2.trans h3)
      rwa [this]
    · intro hz
      obtain ⟨r, hr, h3⟩ := forall₂_left hF z hz
      obtain ⟨z', hz', h1⟩ := b5.bwd r hr
      have h2 := perm_of_rowKeys b5.distinct (b5.inRange z' hz') (hs r hr) h1
      have : z = z' := by rw [← sortRow_of_sorted (b3 z' hz'), ← sortRow_of_sorted (a3 z hz)]; exact sortRow_eq_iff.2 ((h2.trans h3).symm)
      rwa [this]
  refine ⟨s2, jx2, b1, oriented_perm hT a4 b4, fun hu => ?_⟩
  have hrep := a7 hu
  obtain ⟨q0, s0, j0, j0', c1, c2⟩ := fixMesh_congr key hrk vol hp hq ht hs (hrep.trans hstr.symm) hcs.bwd
    (fun r' hr' => hcs.fwd r' hr') del ori
  rw [h] at c1
  rw [b1] at c2
  simp only [Except.ok.injEq, Prod.mk.injEq] at c1 c2
  rw [c2.2.1, c1.2.1]

/-! ### The statements, for coordinates -/

section coordinates
variable {K : Type} [Field K] [LinearOrder K] [IsStrictOrderedRing K] [FloorRing K] {d : ℕ}

/-- `L` is the extent of the points: the greatest difference between the coordinates of two of them, in any direction. -/
def Extent (p : List (Fin d → K)) (L : K) : Prop := IsGreatest {e | ∃ x ∈ p, ∃ y ∈ p, ∃ i, e = |x i - y i|} L

/-- No two vertices are closer than `tol` in all directions. -/
def Apart (tol : K) (p : List (Fin d → K)) : Prop := p.Pairwise fun a b => ∃ i, tol < |a i - b i|

theorem fixMeshK_eq {κ ρ : Type} [LinearOrder κ] [LinearOrder ρ] (enc : (Fin d → K) → κ) (rk : List ℕ → ρ) (vol : List (Fin d → K) → K)
    {ptol L : K} {p : List (Fin d → K)} (hL : Extent p L) (t : List (List ℕ)) (del ori : Bool) :
    fixMeshK enc rk vol ptol p t del ori = fixMesh (fun q => enc (snapPt (ptol * L) q)) rk vol p t del ori := by
  obtain ⟨x, hx, y, -, i, -⟩ := hL.1
  have hd : 0 < d := lt_of_le_of_lt (Nat.zero_le _) i.2
  match p, hL, hx with
  | p0 :: ps, hL, _ =>
    obtain ⟨L', h1, h2⟩ := C32_tolerance hd ptol p0 ps
    have : L' = L := h1.unique hL
    subst this
    simp only [fixMeshK, h2]

theorem Extent.ne_nil {p : List (Fin d → K)} {L : K} (h : Extent p L) : p ≠ [] := by
  obtain ⟨x, hx, -⟩ := h.1
  exact List.ne_nil_of_mem hx

theorem Extent.of_mem {p p' : List (Fin d → K)} {L : K} (h : Extent p L) (hm : ∀ x, x ∈ p' ↔ x ∈ p) : Extent p' L := by
  unfold Extent at h ⊢
  simpa only [hm] using h

theorem keys_nodup {κ : Type} [LinearOrder κ] {enc : (Fin d → K) → κ} (henc : Function.Injective enc) {ptol L : K} (hpt : 0 < ptol)
    {p : List (Fin d → K)} (hL : Extent p L) (hap : Apart (ptol * L) p) : (p.map fun q => enc (snapPt (ptol * L) q)).Nodup := by
  have hL0 : 0 ≤ L := by
    obtain ⟨x, -, y, -, i, e⟩ := hL.1
    rw [e]; exact abs_nonneg _
  unfold List.Nodup
  rw [List.pairwise_map]
  refine hap.imp_of_mem ?_
  rintro a b ha hb ⟨i, hi⟩ he
  have hpos : 0 < ptol * L := by
    rcases hL0.lt_or_eq with h | h
    · exact mul_pos hpt h
    · have h0 : |a i - b i| ≤ L := hL.2 ⟨a, ha, b, hb, i, rfl⟩
      rw [← h] at h0 hi
      simp only [mul_zero] at hi
      exact absurd hi (not_lt.2 h0)
  exact absurd (C32_snap_close hpos (henc he) i) (not_le.2 hi)

variable {κ ρ : Type} [LinearOrder κ] [LinearOrder ρ]

/-- **C124 (numbering).** If no two vertices are within the tolerance of each other, `fix_mesh` returns the same vertex array and the same connectivity,
entry by entry, whatever the numbering of the vertices, the order of the entities and the order of the vertices in each entity. -/
theorem C124_numbering {enc : (Fin d → K) → κ} (henc : Function.Injective enc) {rk : List ℕ → ρ} (hrk : Function.Injective rk)
    (vol : List (Fin d → K) → K) {ptol L : K} (hpt : 0 < ptol) {p p' : List (Fin d → K)} {t t' : List (List ℕ)} {σ : ℕ → ℕ} (ht : InRange p t)
    (hL : Extent p L) (hap : Apart (ptol * L) p) (h : SameMesh σ p t p' t') (del ori : Bool) :
    ∃ q s jx jx', fixMeshK enc rk vol ptol p t del ori = .ok (q, s, jx) ∧ fixMeshK enc rk vol ptol p' t' del ori = .ok (q, s, jx') := by
  rw [fixMeshK_eq enc rk vol hL, fixMeshK_eq enc rk vol (hL.of_mem fun x => h.vertices.mem_iff)]
  exact fixMesh_numbering _ hrk vol hL.ne_nil ht h (keys_nodup henc hpt hL hap) del ori

/-- **C124 (twice).** Cleaning the mesh that `fix_mesh` returned, with the same options, gives the same vertex array, and the same entities with the
same vertex order, provided its points have the same extent as the original ones. Even the order of the entities is the same unless unused vertices
were deleted in between. -/
theorem C124_twice_partial (enc : (Fin d → K) → κ) {rk : List ℕ → ρ} (hrk : Function.Injective rk) (vol : List (Fin d → K) → K) {ptol L : K}
    {p q : List (Fin d → K)} {t s : List (List ℕ)} {jx : List ℕ} (ht : InRange p t) {del ori : Bool}
    (h : fixMeshK enc rk vol ptol p t del ori = .ok (q, s, jx)) (hL : Extent p L) (hL' : Extent q L) :
    ∃ s' jx', fixMeshK enc rk vol ptol q s del ori = .ok (q, s', jx') ∧ s'.Perm s ∧
      (del = false ∨ (∀ i < p.length, ∃ r ∈ t, i ∈ r) → s' = s) := by
  rw [fixMeshK_eq enc rk vol hL] at h
  rw [fixMeshK_eq enc rk vol hL']
  exact fixMesh_twice _ hrk vol hL.ne_nil ht h hL'.ne_nil

/-- **C124 (twice, nothing merged).** For a mesh without unused vertices and without vertices within the tolerance of each other, `fix_mesh` is idempotent:
calling it on its result returns exactly the same arrays. -/
theorem C124_twice_exact {enc : (Fin d → K) → κ} (henc : Function.Injective enc) {rk : List ℕ → ρ} (hrk : Function.Injective rk)
    (vol : List (Fin d → K) → K) {ptol L : K} (hpt : 0 < ptol) {p : List (Fin d → K)} {t : List (List ℕ)} (ht : InRange p t)
    (hL : Extent p L) (hap : Apart (ptol * L) p) (hu : ∀ i < p.length, ∃ r ∈ t, i ∈ r) (del ori : Bool) :
    ∃ q s jx jx', fixMeshK enc rk vol ptol p t del ori = .ok (q, s, jx) ∧ fixMeshK enc rk vol ptol q s del ori = .ok (q, s, jx') := by
  obtain ⟨q, T, s, jx, a1, a2, a3, a4, a5, a6, a7⟩ := fixMesh_shape (fun q => enc (snapPt (ptol * L) q)) hrk vol hL.ne_nil ht del ori
  have hkn := keys_nodup henc hpt hL hap
  have hm : ∀ x, x ∈ q ↔ x ∈ p := by
    intro x
    refine ⟨a5.verts x, fun hx => ?_⟩
    obtain ⟨i, hi, rfl⟩ := List.getElem_of_mem hx
    obtain ⟨r, hr, hir⟩ := hu i hi
    obtain ⟨r2, hr2, hperm⟩ := a5.bwd r hr
    have hmem := hperm.mem_iff.2 (List.mem_map.2 ⟨i, hir, rfl⟩)
    obtain ⟨j, hj, e⟩ := List.mem_map.1 hmem
    have hj1 := a5.inRange r2 hr2 j hj
    rw [List.getElem?_eq_getElem hj1, List.getElem?_eq_getElem hi] at e
    simp only [Option.map_some, Option.some.injEq] at e
    have := key_inj_of_nodup hkn _ (a5.verts _ (List.getElem_mem hj1)) _ hx e
    exact this ▸ List.getElem_mem hj1
  have h1 : fixMeshK enc rk vol ptol p t del ori = .ok (q, s, jx) := by rw [fixMeshK_eq enc rk vol hL]; exact a1
  obtain ⟨s', jx', b1, -, b3⟩ := C124_twice_partial enc hrk vol ht h1 hL (hL.of_mem hm)
  rw [b3 (Or.inr hu)] at b1
  exact ⟨q, s, jx, jx', h1, b1⟩

end coordinates

/-! ### The extent matters -/

/-- Two thin triangles with different tips, and an unused vertex twice as far away as the others. -/
def farP : List (Fin 2 → ℚ) := [![2 / 5, 0], ![3 / 5, 0], ![0, 1], ![2500000000000, 0], ![5000000000000, 0]]
def farT : List (List ℕ) := [[0, 3, 2], [1, 3, 2]]

/-- The sizes of the meshes after one and after two calls with the default tolerance. -/
def twoSizes : Option ((ℕ × ℕ) × (ℕ × ℕ)) :=
  match fixMeshK lexKey id rowVol2 (2 / 10 ^ 13) farP farT true true with
  | .error _ => none
  | .ok (q, s, _) =>
    match fixMeshK lexKey id rowVol2 (2 / 10 ^ 13) q s true true with
    | .error _ => none
    | .ok (q', s', _) => some ((q.length, s.length), (q'.length, s'.length))

/-- **C124 (not idempotent).** In general a second call does change the mesh: with the default tolerance and `delete_unused`, deleting a far unused vertex
shrinks the extent and with it the snapping length, and the second call merges two vertices that the first one kept, and with them two triangles. -/
theorem C124_idempotent_false : ∃ q s jx q' s' jx', InRange farP farT ∧
    fixMeshK lexKey id rowVol2 (2 / 10 ^ 13) farP farT true true = .ok (q, s, jx) ∧
    fixMeshK lexKey id rowVol2 (2 / 10 ^ 13) q s true true = .ok (q', s', jx') ∧
    q.length = 4 ∧ s.length = 2 ∧ q'.length = 3 ∧ s'.length = 1 := by
  have h : twoSizes = some ((4, 2), (3, 1)) := by decide +kernel
  have hr : InRange farP farT := by unfold InRange; decide
  unfold twoSizes at h
  split at h
  · cases h
  · rename_i q s jx h1
    split at h
    · cases h
    · rename_i q' s' jx' h2
      simp only [Option.some.injEq, Prod.mk.injEq] at h
      exact ⟨q, s, jx, q', s', jx', hr, h1, h2, h.1.1, h.1.2, h.2.1, h.2.2⟩

/-! ### Concrete cases -/

/-- A square of two triangles, and the same square numbered differently. -/
def sqP : List (Fin 2 → ℚ) := [![0, 0], ![1, 0], ![0, 1], ![1, 1]]
def sqT : List (List ℕ) := [[0, 1, 2], [1, 3, 2]]
def sqP' : List (Fin 2 → ℚ) := [![1, 1], ![0, 0], ![1, 0], ![0, 1]]
def sqT' : List (List ℕ) := [[3, 2, 0], [2, 3, 1]]
def sqσ (i : ℕ) : ℕ := [1, 2, 3, 0].getD i 0

/-- It meets the hypotheses of `C124_numbering` and `C124_twice_exact`. -/
example : InRange sqP sqT ∧ Extent sqP 1 ∧ Apart (1 / 1000 * 1) sqP ∧ SameMesh sqσ sqP sqT sqP' sqT' ∧
    (∀ i < sqP.length, ∃ r ∈ sqT, i ∈ r) ∧ Function.Injective lexKey := by
  refine ⟨by unfold InRange; decide, ⟨⟨![0, 0], by simp [sqP], ![1, 0], by simp [sqP], 0, by simp⟩, ?_⟩, ?_, ?_, by decide, ?_⟩
  · rintro e ⟨x, hx, y, hy, i, rfl⟩
    have h : ∀ x ∈ sqP, ∀ y ∈ sqP, ∀ i, |x i - y i| ≤ 1 := by decide +kernel
    exact h x hx y hy i
  · unfold Apart; decide +kernel
  · exact ⟨by decide +kernel, by decide +kernel, by decide +kernel, by decide +kernel⟩
  · intro a b h
    simp only [lexKey, List.cons.injEq, and_true] at h
    funext i
    match i with
    | 0 => exact h.1
    | 1 => exact h.2

/-- The two numberings give the same arrays (a test). -/
example : (fixMeshK lexKey id rowVol2 (1 / 1000) sqP sqT true true).toOption.map (fun x => (x.1.map lexKey, x.2.1)) =
    (fixMeshK lexKey id rowVol2 (1 / 1000) sqP' sqT' true true).toOption.map (fun x => (x.1.map lexKey, x.2.1)) := by decide +kernel

end SM.FixMesh
