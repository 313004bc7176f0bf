import Mathlib.Data.List.Induction
import Verif.Model.DtWrapper
import Mathlib.Data.List.Forall2
import Mathlib.Data.List.Dedup

/-!
# C72: numbering of the vertices in the incremental triangulation
-/

namespace SM.DtWrapper

variable {V : Type}

/-! ## Assumptions about CGAL -/

/-- A triangulation as CGAL leaves it: the iterator visits every finite vertex once, and the vertices of a finite cell are finite vertices. -/
def Valid (dt : Tds V) : Prop := dt.verts.Nodup ∧ ∀ c ∈ dt.cells, ∀ h ∈ c, h ∈ dt.verts

/-- CGAL operations leave a valid triangulation valid. -/
structure Lawful (C : Cgal V) : Prop where
  insertRange : ∀ dt l, Valid dt → Valid (C.insertRange dt l)
  removeOne : ∀ dt h, Valid dt → h ∈ dt.verts → Valid (C.removeOne dt h)
  moveOne : ∀ dt h x, Valid dt → h ∈ dt.verts → Valid (C.moveOne dt h x)

/-! ## Specification -/

/-- The index rows `t` describe the cells of the triangulation in terms of the point array `p`: entry by entry, `p[i]` is the point of the cell's vertex. -/
def Describes (p : List V) (t : List (List ℕ)) (dt : Tds V) : Prop :=
  List.Forall₂ (List.Forall₂ fun i h => p[i]? = some (dt.point h)) t dt.cells

/-! ## Histories -/

theorem foldlM_inv {σ α : Type} {f : σ → α → Except String σ} {I : σ → Prop} (hf : ∀ s a s', I s → f s a = .ok s' → I s') {l : List α} {s s' : σ}
    (hs : I s) (h : l.foldlM f s = .ok s') : I s' := by
  induction l generalizing s with
  | nil => obtain rfl := Except.ok.inj h; exact hs
  | cons a l ih =>
    rw [List.foldlM_cons] at h
    cases ha : f s a with
    | error e => rw [ha] at h; cases h
    | ok s1 => rw [ha] at h; exact ih (hf s a s1 hs ha) h

theorem apply_valid {C : Cgal V} (hC : Lawful C) {dt dt' : Tds V} {op : Op V} (hv : Valid dt) (h : apply C dt op = .ok dt') : Valid dt' := by
  cases op with
  | insert ps => obtain rfl := Except.ok.inj h; exact hC.insertRange _ _ hv
  | remove idx =>
    change (do let hs ← idx.mapM (Np.item dt.verts); hs.foldlM (remove1 C) dt) = .ok dt' at h
    cases hm : idx.mapM (Np.item dt.verts) with
    | error e => rw [hm] at h; cases h
    | ok hs =>
      rw [hm] at h
      refine foldlM_inv (I := Valid) ?_ hv h
      intro s a s' hs hok
      unfold remove1 at hok
      split at hok
      · rename_i ha; obtain rfl := Except.ok.inj hok; exact hC.removeOne _ _ hs ha
      · cases hok
  | move idx pos =>
    simp only [apply, move, bind, Except.bind] at h
    cases hm : idx.mapM (Np.item dt.verts) with
    | error e => rw [hm] at h; cases h
    | ok hs =>
      rw [hm] at h
      simp only [] at h
      split at h
      · cases h
      · refine foldlM_inv (I := Valid) ?_ hv h
        intro s a s' hs hok
        unfold move1 at hok
        split at hok
        · rename_i ha; obtain rfl := Except.ok.inj hok; exact hC.moveOne _ _ _ hs ha
        · cases hok
  | getVertices => obtain rfl := Except.ok.inj h; exact hv
  | getCells => obtain rfl := Except.ok.inj h; exact hv

/-! ## Renumbering -/

theorem renumber_not_mem (hs : List (ℕ × ℕ)) (f : ℕ → ℕ) {h : ℕ} (hh : h ∉ hs.map Prod.fst) : renumber f hs h = f h := by
  unfold renumber
  induction hs generalizing f with
  | nil => rfl
  | cons a hs ih =>
    simp only [List.map_cons, List.mem_cons, not_or] at hh
    rw [List.foldl_cons, ih _ hh.2, Function.update_of_ne hh.1]

theorem renumber_get (l : List ℕ) (hl : l.Nodup) (k : ℕ) (f : ℕ → ℕ) {j : ℕ} (hj : j < l.length) : renumber f (l.zipIdx k) l[j] = k + j := by
  induction l generalizing k f j with
  | nil => simp at hj
  | cons a l ih =>
    rw [List.nodup_cons] at hl
    rw [List.zipIdx_cons]
    change renumber (Function.update f a k) (l.zipIdx (k + 1)) _ = _
    cases j with
    | zero =>
      rw [List.getElem_cons_zero, renumber_not_mem _ _ (by simpa [List.zipIdx_map_fst] using hl.1)]
      simp
    | succ j =>
      rw [List.getElem_cons_succ, ih hl.2 (k + 1) _ (by simpa using hj)]
      omega

theorem info_spec {dt : Tds V} (hv : Valid dt) {h : ℕ} (hh : h ∈ dt.verts) :
    ∃ hj : (getFiniteVertices dt).2.info h < dt.verts.length, dt.verts[(getFiniteVertices dt).2.info h] = h := by
  obtain ⟨j, hj, rfl⟩ := List.getElem_of_mem hh
  have : (getFiniteVertices dt).2.info dt.verts[j] = j := by
    simp only [getFiniteVertices]
    rw [renumber_get _ hv.1 0 _ hj, Nat.zero_add]
  rw [this]
  exact ⟨hj, rfl⟩

/-- Renumbering and reading the cells is consistent with the returned array. -/
theorem topology_describes {dt : Tds V} (hv : Valid dt) : Describes (getTopology dt).1.1 (getTopology dt).1.2 dt := by
  simp only [getTopology, getFiniteCells, Describes]
  rw [List.forall₂_map_left_iff]
  refine List.forall₂_same.2 fun c hc => ?_
  rw [List.forall₂_map_left_iff]
  refine List.forall₂_same.2 fun h hh => ?_
  obtain ⟨hj, he⟩ := info_spec hv (hv.2 c hc h hh)
  change (dt.verts.map dt.point)[(getFiniteVertices dt).2.info h]? = _
  rw [List.getElem?_map, List.getElem?_eq_getElem hj, he]
  rfl

/-- **C72.** After any sequence of calls (that does not use a dead handle), `get_finite_vertices` followed by `get_finite_cells` describes the cells of the
triangulation: every index of a cell is the position in the returned array of that vertex of the cell. -/
theorem C72_consistent {C : Cgal V} (hC : Lawful C) (v : V) {ops : List (Op V)} {dt : Tds V} (h : applyAll C (empty v) ops = .ok dt) :
    Describes (getTopology dt).1.1 (getTopology dt).1.2 dt := by
  apply topology_describes
  refine foldlM_inv (I := Valid) (fun s a s' hs hok => apply_valid hC hs hok) (s := empty v) ⟨List.nodup_nil, ?_⟩ h
  intro c hc
  simp [empty] at hc

/-- **C72, range and identity.** All indices are in range, and two entries of the cell table are equal only if they are the same vertex. -/
theorem C72_range {C : Cgal V} (hC : Lawful C) (v : V) {ops : List (Op V)} {dt : Tds V} (h : applyAll C (empty v) ops = .ok dt) :
    (∀ c ∈ (getTopology dt).1.2, ∀ i ∈ c, i < (getTopology dt).1.1.length) ∧
    (∀ c ∈ dt.cells, ∀ c' ∈ dt.cells, ∀ x ∈ c, ∀ y ∈ c', (getTopology dt).2.info x = (getTopology dt).2.info y → x = y) := by
  have hv : Valid dt := by
    refine foldlM_inv (I := Valid) (fun s a s' hs hok => apply_valid hC hs hok) (s := empty v) ⟨List.nodup_nil, ?_⟩ h
    intro c hc
    simp [empty] at hc
  constructor
  · intro c hc i hi
    simp only [getTopology, getFiniteCells, List.mem_map] at hc
    obtain ⟨c0, hc0, rfl⟩ := hc
    obtain ⟨x, hx, rfl⟩ := List.mem_map.1 hi
    obtain ⟨hj, -⟩ := info_spec hv (hv.2 c0 hc0 x hx)
    simpa [getTopology, getFiniteVertices] using hj
  · intro c hc c' hc' x hx y hy he
    obtain ⟨hj, e1⟩ := info_spec hv (hv.2 c hc x hx)
    obtain ⟨hj', e2⟩ := info_spec hv (hv.2 c' hc' y hy)
    rw [← e1, ← e2]
    congr 1

/-! ## Without renumbering -/

/-- A toy CGAL: no geometry, one cell of all the vertices; new vertices go to the end. -/
def toy : Cgal ℕ where
  insertRange dt l :=
    let n := (dt.verts.foldl max 0) + 1
    let new := (List.range l.length).map (· + n)
    ⟨dt.verts ++ new, fun h => if h < n then dt.point h else (l.getD (h - n) (0, 0)).1, fun h => if h < n then dt.info h else (l.getD (h - n) (0, 0)).2,
      [dt.verts ++ new]⟩
  removeOne dt h := { dt with verts := dt.verts.filter (· ≠ h), cells := [dt.verts.filter (· ≠ h)] }
  moveOne dt h x := { dt with point := fun g => if g = h then x else dt.point g }

theorem toy_lawful : Lawful toy where
  insertRange dt l hv := by
    have hmax : ∀ (l : List ℕ) (m : ℕ), m ≤ l.foldl max m ∧ ∀ x ∈ l, x ≤ l.foldl max m := by
      intro l
      induction l with
      | nil => simp
      | cons a l ih =>
        intro m
        obtain ⟨h1, h2⟩ := ih (max m a)
        refine ⟨le_trans (le_max_left _ _) h1, fun x hx => ?_⟩
        rcases List.mem_cons.1 hx with rfl | hx
        · exact le_trans (le_max_right _ _) h1
        · exact h2 x hx
    refine ⟨?_, ?_⟩
    · simp only [toy]
      rw [List.nodup_append]
      refine ⟨hv.1, List.Nodup.map (fun a b h => by simpa using h) List.nodup_range, ?_⟩
      intro a ha b hb
      simp only [List.mem_map, List.mem_range] at hb
      obtain ⟨i, _, rfl⟩ := hb
      have := (hmax dt.verts 0).2 a ha
      omega
    · intro c hc h hh
      simp only [toy, List.mem_singleton] at hc
      subst hc
      exact hh
  removeOne dt h hv _ := ⟨hv.1.filter _, fun c hc x hx => by
    simp only [toy, List.mem_singleton] at hc
    subst hc
    exact hx⟩
  moveOne dt h x hv _ := hv

/-- The call of `get_finite_vertices` is needed: after a removal `get_finite_cells` alone returns numbers that do not belong to the vertex array
(here 2 for the second of two vertices), although the array, requested afterwards, is right. -/
theorem C72_stale : ∃ (C : Cgal ℕ) (ops : List (Op ℕ)) (dt : Tds ℕ), Lawful C ∧ applyAll C (empty 0) ops = .ok dt ∧
    getFiniteCells dt = [[0, 2]] ∧ (getTopology dt).1 = ([10, 12], [[0, 1]]) :=
  ⟨toy, [.insert [10, 11, 12], .remove [1]], _, toy_lawful, rfl, by decide, by decide⟩

/-- A history with insertions, a move and a removal. -/
example : ∃ dt, applyAll toy (empty 0) [.insert [10, 11, 12], .getVertices, .move [0] [20], .remove [1], .insert [13]] = .ok dt ∧
    (getTopology dt).1 = ([20, 12, 13], [[0, 1, 2]]) := ⟨_, rfl, by decide⟩

/-! ## Insertion only -/

/-- What CGAL's range insertion does with points at which there is no vertex yet: one new vertex for each, with the number that came with
the point; the existing vertices keep their points and numbers. -/
def Tags (C : Cgal V) : Prop := ∀ dt l, Valid dt → (l.map Prod.fst).Nodup → (∀ x ∈ l, x.1 ∉ dt.verts.map dt.point) →
  ∃ new, (C.insertRange dt l).verts.Perm (dt.verts ++ new) ∧
    (new.map fun h => ((C.insertRange dt l).point h, (C.insertRange dt l).info h)).Perm l ∧
    ∀ h ∈ dt.verts, (C.insertRange dt l).point h = dt.point h ∧ (C.insertRange dt l).info h = dt.info h

theorem inserted_tags {C : Cgal V} (hC : Lawful C) (ht : Tags C) (v : V) (batches : List (List V)) (hd : batches.flatten.Nodup) {dt : Tds V}
    (h : applyAll C (empty v) (batches.map Op.insert) = .ok dt) :
    Valid dt ∧ (dt.verts.map fun h => (dt.point h, dt.info h)).Perm batches.flatten.zipIdx := by
  induction batches using List.reverseRecOn generalizing dt with
  | nil =>
    obtain rfl := Except.ok.inj h
    exact ⟨⟨List.nodup_nil, fun c hc => by simp [empty] at hc⟩, by simp [empty]⟩
  | append_singleton bs b ih =>
    rw [List.flatten_append, List.nodup_append] at hd
    simp only [List.flatten_cons, List.flatten_nil, List.append_nil] at hd
    obtain ⟨hd1, hd2, hd3⟩ := hd
    unfold applyAll at h
    rw [List.map_append, List.foldlM_append] at h
    cases h1 : (bs.map Op.insert).foldlM (apply C) (empty v) with
    | error e => rw [h1] at h; cases h
    | ok dt1 =>
      rw [h1] at h
      obtain rfl := Except.ok.inj h
      obtain ⟨hv, hp⟩ := ih hd1 h1
      have hpts : (dt1.verts.map dt1.point).Perm bs.flatten := by
        have := hp.map Prod.fst
        rwa [List.map_map, List.zipIdx_map_fst] at this
      have hlen : dt1.verts.length = bs.flatten.length := by
        have := hpts.length_eq
        rwa [List.length_map] at this
      obtain ⟨new, p1, p2, p3⟩ := ht dt1 (b.zipIdx dt1.verts.length) hv (by rw [List.zipIdx_map_fst]; exact hd2) (by
        intro x hx hx'
        have hb : x.1 ∈ b := by
          have := List.mem_map_of_mem (f := Prod.fst) hx
          rwa [List.zipIdx_map_fst] at this
        exact hd3 x.1 (hpts.mem_iff.1 hx') x.1 hb rfl)
      refine ⟨hC.insertRange _ _ hv, ?_⟩
      refine (p1.map _).trans ?_
      rw [List.map_append, List.flatten_append, List.zipIdx_append]
      simp only [List.flatten_cons, List.flatten_nil, List.append_nil]
      rw [← hlen, Nat.zero_add]
      refine List.Perm.append ?_ p2
      refine (List.Perm.of_eq ?_).trans hp
      refine List.map_congr_left fun h hh => ?_
      exact Prod.ext (p3 h hh).1 (p3 h hh).2

/-- **C72, insertion only.** If points have only been inserted, in any number of calls and no position twice, the numbers of `get_finite_cells` refer to
the points in the order in which they were passed, without a call of `get_finite_vertices`. -/
theorem C72_inserted {C : Cgal V} (hC : Lawful C) (ht : Tags C) (v : V) (batches : List (List V)) (hd : batches.flatten.Nodup) {dt : Tds V}
    (h : applyAll C (empty v) (batches.map Op.insert) = .ok dt) : Describes batches.flatten (getFiniteCells dt) dt := by
  obtain ⟨hv, hp⟩ := inserted_tags hC ht v batches hd h
  unfold getFiniteCells Describes
  rw [List.forall₂_map_left_iff]
  refine List.forall₂_same.2 fun c hc => ?_
  rw [List.forall₂_map_left_iff]
  refine List.forall₂_same.2 fun x hx => ?_
  have hm := List.mem_map_of_mem (f := fun h => (dt.point h, dt.info h)) (hv.2 c hc x hx)
  have hm := hp.mem_iff.1 hm
  exact List.mem_zipIdx_iff_getElem?.1 hm

theorem toy_tags : Tags toy := by
  intro dt l hv _ _
  have hmax : ∀ (l : List ℕ) (m : ℕ), m ≤ l.foldl max m ∧ ∀ x ∈ l, x ≤ l.foldl max m := by
    intro l
    induction l with
    | nil => simp
    | cons a l ih =>
      intro m
      obtain ⟨h1, h2⟩ := ih (max m a)
      refine ⟨le_trans (le_max_left _ _) h1, fun x hx => ?_⟩
      rcases List.mem_cons.1 hx with rfl | hx
      · exact le_trans (le_max_right _ _) h1
      · exact h2 x hx
  refine ⟨(List.range l.length).map (· + ((dt.verts.foldl max 0) + 1)), List.Perm.refl _, List.Perm.of_eq ?_, ?_⟩
  · apply List.ext_getElem
    · simp
    · intro i h1 h2
      simp only [toy, List.getElem_map, List.getElem_range]
      have e : ¬ (i + (dt.verts.foldl max 0 + 1) < dt.verts.foldl max 0 + 1) := by omega
      rw [if_neg e, if_neg e, Nat.add_sub_cancel, List.getD_eq_getElem?_getD, List.getElem?_eq_getElem h2]
      rfl
  · intro h hh
    have := (hmax dt.verts 0).2 h hh
    simp only [toy]
    rw [if_pos (by omega), if_pos (by omega)]
    exact ⟨rfl, rfl⟩

/-- Two calls of `insert`: the hypotheses of `C72_inserted` are met and the numbers run on. -/
example : Lawful toy ∧ Tags toy ∧ ∃ dt, applyAll toy (empty 0) ([[10, 11], [12]].map Op.insert) = .ok dt ∧ getFiniteCells dt = [[0, 1, 2]] :=
  ⟨toy_lawful, toy_tags, _, rfl, by decide⟩

end SM.DtWrapper
