import Verif.Model.SliverDt
import Verif.Props.DtWrapper
import Verif.Props.SliverCall
import Verif.Props.Forces

/-!
# C111: the incremental triangulation of `sliver_removal` follows the points
-/

namespace SM.DtWrapper

variable {V : Type}

/-! ## What CGAL documents about `insert` and `move` -/

/-- The positions of the vertices in iteration order: what `get_finite_vertices` returns. -/
def positions (dt : Tds V) : List V := dt.verts.map dt.point

/-- CGAL's operations on positions. Inserting into an empty triangulation leaves one vertex at every position given. Moving a vertex to a
free position changes only its point; moving it onto another vertex deletes it. -/
structure Moves (C : Cgal V) : Prop where
  inserted : ∀ v l, (positions (C.insertRange (empty v) l)).Nodup ∧ ∀ x, x ∈ positions (C.insertRange (empty v) l) ↔ x ∈ l.map Prod.fst
  free : ∀ dt h x, Valid dt → (positions dt).Nodup → h ∈ dt.verts → (∀ g ∈ dt.verts, g ≠ h → dt.point g ≠ x) →
    (C.moveOne dt h x).verts = dt.verts ∧ (C.moveOne dt h x).point h = x ∧ ∀ g ∈ dt.verts, g ≠ h → (C.moveOne dt h x).point g = dt.point g
  taken : ∀ dt h x, Valid dt → (positions dt).Nodup → h ∈ dt.verts → (∃ g ∈ dt.verts, g ≠ h ∧ dt.point g = x) →
    (C.moveOne dt h x).verts = dt.verts.filter (fun g => decide (g ≠ h)) ∧ ∀ g ∈ dt.verts, g ≠ h → (C.moveOne dt h x).point g = dt.point g

/-! ## Specification -/

/-- `new` is the array `p` without some of its rows; a row is missing only if it has changed (with respect to `pold`) and was put where another vertex was at
that time (rows are moved one after the other); a row put on the old place of a later row is always missing. -/
def Follows (pold p new : List V) : Prop := ∃ kept : ℕ → Bool,
  new = ((List.range p.length).filter kept).filterMap (fun i => p[i]?) ∧
  (∀ i < p.length, kept i = false → p[i]? ≠ pold[i]? ∧ ((∃ j < i, p[j]? = p[i]?) ∨ ∃ j < p.length, i < j ∧ pold[j]? = p[i]?)) ∧
  ∀ i j, i < j → j < p.length → p[i]? ≠ pold[i]? → pold[j]? = p[i]? → kept i = false

/-! ## Proof -/

/-- The state after the first `m` rows have been treated. -/
structure Upto (n : ℕ) (h : ℕ → ℕ) (p pold : ℕ → V) (m : ℕ) (kept : ℕ → Bool) (dt : Tds V) : Prop where
  valid : Valid dt
  spread : (positions dt).Nodup
  verts : dt.verts = ((List.range n).filter fun i => decide (m ≤ i) || kept i).map h
  point : ∀ i < n, (m ≤ i ∨ kept i = true) → dt.point (h i) = if i < m then p i else pold i
  dropped : ∀ i < m, kept i = false → p i ≠ pold i ∧ ((∃ j < i, p j = p i) ∨ ∃ j < n, i < j ∧ pold j = p i)
  clash : ∀ i < m, ∀ j < n, i < j → p i ≠ pold i → pold j = p i → kept i = false

theorem Upto.mem {n : ℕ} {h : ℕ → ℕ} {p pold : ℕ → V} {m : ℕ} {kept : ℕ → Bool} {dt : Tds V} (u : Upto n h p pold m kept dt) {g : ℕ} :
    g ∈ dt.verts ↔ ∃ i < n, (m ≤ i ∨ kept i = true) ∧ h i = g := by
  rw [u.verts, List.mem_map]
  simp only [List.mem_filter, List.mem_range, Bool.or_eq_true, decide_eq_true_eq]
  constructor
  · rintro ⟨i, ⟨h1, h2⟩, h3⟩; exact ⟨i, h1, h2, h3⟩
  · rintro ⟨i, h1, h2, h3⟩; exact ⟨i, ⟨h1, h2⟩, h3⟩

theorem upto_step {C : Cgal V} (hC : Lawful C) (hM : Moves C) {n : ℕ} {h : ℕ → ℕ} (hinj : ∀ i < n, ∀ j < n, h i = h j → i = j) {p pold : ℕ → V}
    {m : ℕ} (hm : m < n) {kept : ℕ → Bool} {dt : Tds V} (u : Upto n h p pold m kept dt) (hne : p m ≠ pold m) :
    ∃ kept', move1 C dt (h m, p m) = .ok (C.moveOne dt (h m) (p m)) ∧ Upto n h p pold (m + 1) kept' (C.moveOne dt (h m) (p m)) := by
  have hmem : h m ∈ dt.verts := u.mem.2 ⟨m, hm, Or.inl le_rfl, rfl⟩
  have hv' := hC.moveOne dt (h m) (p m) u.valid hmem
  by_cases hc : ∃ g ∈ dt.verts, g ≠ h m ∧ dt.point g = p m
  · obtain ⟨hv, hpt⟩ := hM.taken dt (h m) (p m) u.valid u.spread hmem hc
    refine ⟨Function.update kept m false, by simp [move1, hmem], hv', ?_, ?_, ?_, ?_, ?_⟩
    · unfold positions
      rw [hv]
      have e : (dt.verts.filter fun g => decide (g ≠ h m)).map (C.moveOne dt (h m) (p m)).point =
          (dt.verts.filter fun g => decide (g ≠ h m)).map dt.point :=
        List.map_congr_left fun g hg => by
          rw [List.mem_filter] at hg
          exact hpt g hg.1 (by simpa using hg.2)
      rw [e]
      exact u.spread.sublist (List.Sublist.map _ List.filter_sublist)
    · rw [hv, u.verts, List.filter_map, List.filter_filter]
      congr 1
      refine List.filter_congr fun i hi => ?_
      have hi : i < n := List.mem_range.1 hi
      simp only [Function.comp, Function.update_apply]
      by_cases e : i = m
      · subst e; simp
      · have : h i ≠ h m := fun hh => e (hinj i hi m hm hh)
        simp only [ne_eq, this, not_false_eq_true, decide_true, Bool.true_and, if_neg e]
        congr 1
        simp only [decide_eq_decide]
        omega
    · intro i hi hk
      have e : i ≠ m := by
        rintro rfl
        rcases hk with hk | hk
        · omega
        · simp at hk
      have hk' : m ≤ i ∨ kept i = true := by
        rcases hk with hk | hk
        · left; omega
        · right; simpa [Function.update_apply, e] using hk
      rw [hpt (h i) (u.mem.2 ⟨i, hi, hk', rfl⟩) fun hh => e (hinj i hi m hm hh), u.point i hi hk']
      by_cases h1 : i < m
      · rw [if_pos h1, if_pos (by omega)]
      · rw [if_neg h1, if_neg (by omega)]
    · intro i hi hk
      by_cases e : i = m
      · subst e
        refine ⟨hne, ?_⟩
        obtain ⟨g, hg, hgne, hgp⟩ := hc
        obtain ⟨j, hj, hk', rfl⟩ := u.mem.1 hg
        rw [u.point j hj hk'] at hgp
        by_cases h1 : j < i
        · rw [if_pos h1] at hgp; exact Or.inl ⟨j, h1, hgp⟩
        · rw [if_neg h1] at hgp
          exact Or.inr ⟨j, hj, lt_of_le_of_ne (by omega) (fun hh => hgne (by rw [hh])), hgp⟩
      · exact u.dropped i (by omega) (by simpa [Function.update_apply, e] using hk)
    · intro i hi j hj hij h1 h2
      by_cases e : i = m
      · subst e; simp
      · simpa [Function.update_apply, e] using u.clash i (by omega) j hj hij h1 h2
  · have hc' : ∀ g ∈ dt.verts, g ≠ h m → dt.point g ≠ p m := fun g hg h1 h2 => hc ⟨g, hg, h1, h2⟩
    obtain ⟨hv, hpm, hpt⟩ := hM.free dt (h m) (p m) u.valid u.spread hmem hc'
    refine ⟨Function.update kept m true, by simp [move1, hmem], hv', ?_, ?_, ?_, ?_, ?_⟩
    · unfold positions
      rw [hv]
      have hn := u.spread
      unfold positions at hn
      refine (List.nodup_map_iff_inj_on u.valid.1).2 fun a ha b hb hab => ?_
      have inj := (List.nodup_map_iff_inj_on u.valid.1).1 hn
      by_cases ea : a = h m
      · by_cases eb : b = h m
        · rw [ea, eb]
        · rw [ea, hpm, hpt b hb eb] at hab
          exact absurd hab.symm (hc' b hb eb)
      · by_cases eb : b = h m
        · rw [eb, hpm, hpt a ha ea] at hab
          exact absurd hab (hc' a ha ea)
        · rw [hpt a ha ea, hpt b hb eb] at hab
          exact inj a ha b hb hab
    · rw [hv, u.verts]
      congr 1
      refine List.filter_congr fun i hi => ?_
      simp only [Function.update_apply]
      by_cases e : i = m
      · subst e; simp
      · rw [if_neg e]
        congr 1
        simp only [decide_eq_decide]
        omega
    · intro i hi hk
      by_cases e : i = m
      · subst e; rw [hpm, if_pos (by omega)]
      · have hk' : m ≤ i ∨ kept i = true := by
          rcases hk with hk | hk
          · left; omega
          · right; simpa [Function.update_apply, e] using hk
        rw [hpt (h i) (u.mem.2 ⟨i, hi, hk', rfl⟩) fun hh => e (hinj i hi m hm hh), u.point i hi hk']
        by_cases h1 : i < m
        · rw [if_pos h1, if_pos (by omega)]
        · rw [if_neg h1, if_neg (by omega)]
    · intro i hi hk
      by_cases e : i = m
      · subst e; simp at hk
      · exact u.dropped i (by omega) (by simpa [Function.update_apply, e] using hk)
    · intro i hi j hj hij h1 h2
      by_cases e : i = m
      · subst e
        refine absurd ?_ (hc' (h j) (u.mem.2 ⟨j, hj, Or.inl hij.le, rfl⟩) fun hh => ?_)
        · rw [u.point j hj (Or.inl hij.le), if_neg (by omega), h2]
        · have := hinj j hj i hm hh
          omega
      · simpa [Function.update_apply, e] using u.clash i (by omega) j hj hij h1 h2

theorem upto_skip {n : ℕ} {h : ℕ → ℕ} {p pold : ℕ → V} {m : ℕ} {kept : ℕ → Bool} {dt : Tds V} (u : Upto n h p pold m kept dt) (hne : p m = pold m) :
    Upto n h p pold (m + 1) (Function.update kept m true) dt := by
  refine ⟨u.valid, u.spread, ?_, ?_, ?_, ?_⟩
  · rw [u.verts]
    congr 1
    refine List.filter_congr fun i hi => ?_
    simp only [Function.update_apply]
    by_cases e : i = m
    · subst e; simp
    · rw [if_neg e]
      congr 1
      simp only [decide_eq_decide]
      omega
  · intro i hi hk
    by_cases e : i = m
    · subst e
      rw [u.point i hi (Or.inl le_rfl), if_neg (by omega), if_pos (by omega), hne]
    · rw [u.point i hi (by
        rcases hk with hk | hk
        · left; omega
        · right; simpa [Function.update_apply, e] using hk)]
      by_cases h1 : i < m
      · rw [if_pos h1, if_pos (by omega)]
      · rw [if_neg h1, if_neg (by omega)]
  · intro i hi hk
    by_cases e : i = m
    · subst e; simp at hk
    · exact u.dropped i (by omega) (by simpa [Function.update_apply, e] using hk)
  · intro i hi j hj hij h1 h2
    by_cases e : i = m
    · subst e; exact absurd hne h1
    · simpa [Function.update_apply, e] using u.clash i (by omega) j hj hij h1 h2

theorem upto_all {C : Cgal V} (hC : Lawful C) (hM : Moves C) {n : ℕ} {h : ℕ → ℕ} (hinj : ∀ i < n, ∀ j < n, h i = h j → i = j) {p pold : ℕ → V}
    {mv : ℕ → Bool} (hmv : ∀ i < n, mv i = true ↔ p i ≠ pold i) {dt : Tds V} (u : Upto n h p pold 0 (fun _ => true) dt) (m : ℕ) (hm : m ≤ n) :
    ∃ dt' kept, (((List.range m).filter mv).map fun i => (h i, p i)).foldlM (move1 C) dt = .ok dt' ∧ Upto n h p pold m kept dt' := by
  induction m with
  | zero => exact ⟨dt, _, rfl, u⟩
  | succ m ih =>
    obtain ⟨d, kept, h1, h2⟩ := ih (by omega)
    rw [List.range_succ, List.filter_append, List.map_append, List.foldlM_append, h1]
    by_cases e : mv m = true
    · obtain ⟨kept', h3, h4⟩ := upto_step hC hM hinj (show m < n by omega) h2 ((hmv m (by omega)).1 e)
      refine ⟨_, kept', ?_, h4⟩
      simp only [List.filter_cons, e, if_true, List.filter_nil, List.map_cons, List.map_nil, List.foldlM_cons, List.foldlM_nil, h3, bind, Except.bind, pure, Except.pure]
    · refine ⟨d, Function.update kept m true, ?_, upto_skip h2 ?_⟩
      · simp [e, bind, Except.bind, pure, Except.pure]
      · by_contra hc
        exact e ((hmv m (by omega)).2 hc)

/-- Moving the changed rows of an array, one after the other. -/
theorem move_follows {C : Cgal V} (hC : Lawful C) (hM : Moves C) {dt : Tds V} (hv : Valid dt) (hs : (positions dt).Nodup) {p : List V}
    (hl : p.length = dt.verts.length) {idx : List ℕ} (mv : ℕ → Bool) (hidx : idx = (List.range p.length).filter mv)
    (hmv : ∀ i < p.length, mv i = true ↔ p[i]? ≠ (positions dt)[i]?) {pos : List V} (hpos : Np.take p idx = .ok pos) :
    ∃ dt', move C dt idx pos = .ok dt' ∧ Valid dt' ∧ (positions dt').Nodup ∧ Follows (positions dt) p (positions dt') := by
  set n := p.length with hn
  let h : ℕ → ℕ := fun i => dt.verts.getD i 0
  let pf : ℕ → V := fun i => p.getD i (dt.point 0)
  let qf : ℕ → V := fun i => dt.point (h i)
  have hh : ∀ i < n, dt.verts[i]? = some (h i) := fun i hi => by
    simp only [h, List.getD_eq_getElem?_getD, List.getElem?_eq_getElem (show i < dt.verts.length by omega), Option.getD_some]
  have hp : ∀ i < n, p[i]? = some (pf i) := fun i hi => by
    simp only [pf, List.getD_eq_getElem?_getD, List.getElem?_eq_getElem (show i < p.length from hi), Option.getD_some]
  have hq : ∀ i < n, (positions dt)[i]? = some (qf i) := fun i hi => by
    simp only [positions, List.getElem?_map, hh i hi, Option.map_some, qf]
  have hinj : ∀ i < n, ∀ j < n, h i = h j → i = j := fun i hi j hj hij => by
    have h1 := hh i hi
    rw [hij, ← hh j hj] at h1
    exact (List.getElem?_inj (show i < dt.verts.length by omega) hv.1).1 h1
  have hverts : dt.verts = (List.range n).map h := by
    apply List.ext_getElem?
    intro i
    by_cases hi : i < n
    · rw [hh i hi, List.getElem?_map, List.getElem?_range hi, Option.map_some]
    · rw [List.getElem?_eq_none (by omega), List.getElem?_eq_none (by simp; omega)]
  have hmv' : ∀ i < n, mv i = true ↔ pf i ≠ qf i := fun i hi => by
    rw [hmv i hi, hp i hi, hq i hi, ne_eq, Option.some_inj]
  have u0 : Upto n h pf qf 0 (fun _ => true) dt := by
    refine ⟨hv, hs, ?_, fun i hi _ => by simp [qf], fun i hi => by omega, fun i hi => by omega⟩
    rw [List.filter_eq_self.2 (by simp)]
    exact hverts
  obtain ⟨dt', kept, hrun, u⟩ := upto_all hC hM hinj hmv' u0 n le_rfl
  have hlt : ∀ i ∈ idx, i < n := fun i hi => by
    rw [hidx, List.mem_filter, List.mem_range] at hi
    exact hi.1
  have e1 : idx.mapM (Np.item dt.verts) = .ok (idx.map h) := Np.mapM_ok fun i hi => by
    rw [Np.item, hh i (hlt i hi)]
  have e2 : pos = idx.map pf := by
    have : Np.take p idx = .ok (idx.map pf) := Np.mapM_ok fun i hi => by
      rw [Np.item, hp i (hlt i hi)]
    rw [this] at hpos
    exact (Except.ok.inj hpos).symm
  refine ⟨dt', ?_, u.valid, u.spread, kept, ?_, ?_, ?_⟩
  · unfold move
    rw [e1]
    simp only [bind, Except.bind, e2, List.length_map, lt_irrefl, if_false]
    rw [List.zip_map', hidx]
    exact hrun
  · unfold positions
    rw [u.verts, List.map_map]
    have : ((List.range n).filter fun i => decide (n ≤ i) || kept i) = (List.range n).filter kept := by
      refine List.filter_congr fun i hi => ?_
      have := List.mem_range.1 hi
      simp [show ¬ n ≤ i by omega]
    rw [this, ← List.filterMap_eq_map]
    refine List.filterMap_congr fun i hi => ?_
    rw [List.mem_filter, List.mem_range] at hi
    rw [hp i hi.1]
    simp only [Function.comp]
    rw [u.point i hi.1 (Or.inr hi.2), if_pos hi.1]
  · intro i hi hk
    obtain ⟨h1, h2⟩ := u.dropped i hi hk
    refine ⟨by rw [hp i hi, hq i hi]; simpa using h1, ?_⟩
    rcases h2 with ⟨j, hj, h2⟩ | ⟨j, hj, hij, h2⟩
    · exact Or.inl ⟨j, hj, by rw [hp i hi, hp j (by omega), h2]⟩
    · exact Or.inr ⟨j, hj, hij, by rw [hp i hi, hq j hj, h2]⟩
  · intro i j hij hj h1 h2
    rw [hp i (by omega), hq i (by omega)] at h1
    rw [hp i (by omega), hq j hj] at h2
    exact u.clash i (by omega) j hj hij (by simpa using h1) (by simpa using h2)

/-- Without clashes nothing is lost. -/
theorem Follows.exact {pold p new : List V} (hf : Follows pold p new) (hd : p.Nodup)
    (hc : ∀ i j : ℕ, i < j → j < p.length → p[i]? ≠ pold[i]? → p[i]? ≠ pold[j]?) : new = p := by
  obtain ⟨kept, h1, h2, -⟩ := hf
  have hk : ∀ i ∈ List.range p.length, kept i = true := by
    intro i hi
    have hi : i < p.length := List.mem_range.1 hi
    by_contra hn
    obtain ⟨h3, h4⟩ := h2 i hi (by simpa using hn)
    rcases h4 with ⟨j, hj, e⟩ | ⟨j, hj, hij, e⟩
    · have := (List.getElem?_inj (show j < p.length by omega) hd).1 e
      omega
    · exact hc i j hij hj h3 e.symm
  rw [h1, List.filter_eq_self.2 hk]
  apply List.ext_getElem?
  intro i
  have : (List.range p.length).filterMap (fun i => p[i]?) = p := by
    have : (List.range p.length).filterMap (fun i => p[i]?) = ((List.range p.length).map fun i => p[i]?).filterMap id := by
      rw [List.filterMap_map]; rfl
    rw [this, show ((List.range p.length).map fun i => p[i]?) = p.map some by
      apply List.ext_getElem?
      intro k
      by_cases hk : k < p.length
      · simp [hk]
      · simp [hk]]
    simp [List.filterMap_map]
  rw [this]

theorem Follows.mem {pold p new : List V} (hf : Follows pold p new) : ∀ x ∈ new, x ∈ p := by
  obtain ⟨kept, h1, -, -⟩ := hf
  intro x hx
  rw [h1, List.mem_filterMap] at hx
  obtain ⟨i, -, hi⟩ := hx
  exact List.mem_of_getElem? hi

end SM.DtWrapper

namespace SM.SliverDt

open SM.DtWrapper
open SM.Sliver (State Env Rest)

noncomputable section

variable {κ ρ : Type} [LinearOrder κ] [LinearOrder ρ]

/-- The invariant at the top of the loop: the triangulation is valid, has no two vertices in one place, and `pold` is its vertex array, which
has as many rows as the array of points. -/
structure Inv (points : List Pt) (L : Live) : Prop where
  valid : Valid L.dt
  spread : (positions L.dt).Nodup
  first : L.s.count = 0 → L.s.p = points ∧ ∀ x, x ∈ positions L.dt ↔ x ∈ points
  later : L.s.count ≠ 0 → L.pold = positions L.dt ∧ L.s.p.length = L.dt.verts.length

theorem empty_valid (v : Pt) : Valid (empty v) := ⟨List.nodup_nil, fun c hc => by simp [empty] at hc⟩

theorem inv_begin {C : Cgal Pt} (hC : Lawful C) (hM : Moves C) (v : Pt) (points : List Pt) : Inv points (begin C v points) := by
  obtain ⟨h1, h2⟩ := hM.inserted v (points.zipIdx (empty v).verts.length)
  refine ⟨hC.insertRange _ _ (empty_valid v), h1, fun _ => ⟨rfl, fun x => ?_⟩, fun h => absurd rfl h⟩
  rw [show (begin C v points).dt = C.insertRange (empty v) (points.zipIdx (empty v).verts.length) from rfl, h2, List.zipIdx_map_fst]

theorem dist_pos (a b : Pt) : Real.sqrt (∑ k, (a k - b k) ^ 2) > 0 ↔ a ≠ b := by
  rw [gt_iff_lt, lt_iff_le_and_ne, and_iff_right (Real.sqrt_nonneg _), ne_comm, ne_eq, Forces.sum_sq_eq_zero]

/-- What the triangulation holds after `sync`. -/
theorem sync_ok {C : Cgal Pt} (hC : Lawful C) (hM : Moves C) {points : List Pt} {L : Live} (hI : Inv points L) :
    ∃ D, sync C L.s.count L.dt L.s.p L.pold = .ok D ∧ Valid D ∧ (positions D).Nodup ∧
      (L.s.count = 0 → L.s.p = points ∧ ∀ x, x ∈ positions D ↔ x ∈ points) ∧
      (L.s.count ≠ 0 → Follows L.pold L.s.p (positions D)) := by
  by_cases hc : L.s.count = 0
  · refine ⟨L.dt, by simp [sync, hc, pure, Except.pure], hI.valid, hI.spread, fun _ => hI.first hc, fun h => absurd hc h⟩
  · obtain ⟨h1, h2⟩ := hI.later hc
    have hlen : L.s.p.length = L.pold.length := by rw [h1, positions, List.length_map, h2]
    set d := List.zipWith (fun a b : Pt => Real.sqrt (∑ k, (a k - b k) ^ 2)) L.s.p L.pold with hd
    have hdl : d.length = L.s.p.length := by simp [hd, hlen]
    have hdist : dist L.s.p L.pold = .ok d := by simp [dist, hlen, hd]
    obtain ⟨pos, hpos⟩ := Np.take_ok (a := L.s.p) (ix := positive d) (by
      intro i hi
      rw [positive, List.mem_filter, List.mem_range] at hi
      omega)
    obtain ⟨D, hD, hv, hs, hf⟩ := move_follows hC hM hI.valid hI.spread h2 (fun i => decide (d.getD i 0 > 0))
      (idx := positive d) (by rw [positive, hdl]) (by
        intro i hi
        rw [← h1]
        have hi' : i < L.pold.length := by omega
        have e : d.getD i 0 = Real.sqrt (∑ k, (L.s.p[i] k - L.pold[i] k) ^ 2) := by
          rw [List.getD_eq_getElem?_getD, List.getElem?_eq_getElem (by omega), Option.getD_some]
          simp only [hd, List.getElem_zipWith]
        rw [decide_eq_true_iff, e, dist_pos, List.getElem?_eq_getElem hi, List.getElem?_eq_getElem hi']
        simp) hpos
    refine ⟨D, ?_, hv, hs, fun h => absurd h hc, fun _ => by rw [h1]; exact hf⟩
    simp only [sync, Nat.pos_of_ne_zero hc, if_true, hdist, hpos, bind, Except.bind, hD]

theorem perturb_length {E : Env κ ρ} {st : ℝ} {p p' : List Pt} {t : List (List ℕ)} {bad : List ℕ}
    (h : Sliver.perturbAll E st p t bad = .ok p') : p'.length = p.length := by
  simp only [Sliver.perturbAll, bind, Except.bind, pure, Except.pure] at h
  split at h
  · simp at h
  split at h
  · rw [MeshLoop.improve_length h, Sliver.assign_length]
  · rw [← Except.ok.inj h, Sliver.assign_length]

theorem inv_step {C : Cgal Pt} (hC : Lawful C) (hM : Moves C) {points : List Pt} {E : Env κ ρ} {L L' : Live} (hI : Inv points L)
    (h : step C E L = .running L') : Inv points L' := by
  obtain ⟨D, hD, hv, hs, -, -⟩ := sync_ok hC hM hI
  unfold step at h
  simp only [hD] at h
  cases hst : Sliver.step { E with dt := fun _ _ => (getTopology D).1 } L.s with
  | done p t b => simp [hst] at h
  | raised e => simp [hst] at h
  | running s' =>
    simp only [hst, Outcome.running.injEq] at h
    subst h
    obtain ⟨t, bad, hp, -, -, hcount⟩ := Sliver.step_next hst
    refine ⟨hv, hs, fun hc => ?_, fun _ => ⟨rfl, ?_⟩⟩
    · simp only at hc; omega
    · have := perturb_length hp
      rw [this]
      simp [getTopology, getFiniteVertices]

theorem inv_run {C : Cgal Pt} (hC : Lawful C) (hM : Moves C) {points : List Pt} {E : Env κ ρ} {n : ℕ} {L L' : Live} (hI : Inv points L)
    (h : run C E n L = .running L') : Inv points L' := by
  induction n generalizing L with
  | zero => simp only [run, Outcome.running.injEq] at h; subst h; exact hI
  | succ n ih =>
    rw [run] at h
    cases hs : step C E L with
    | running L1 => simp only [hs] at h; exact ih (inv_step hC hM hI hs) h
    | done q u j => simp [hs] at h
    | raised e => simp [hs] at h

/-- **C111.** At the top of every pass after the first (`count > 0`) the call of `move` succeeds, no vertex handle being dead, and the vertex array obtained
next is the array of points, in the same order, but for points put where another vertex was (`Follows`); the cell table refers to this array. -/
theorem C111_pass {C : Cgal Pt} (hC : Lawful C) (hM : Moves C) (v : Pt) {points : List Pt} {E : Env κ ρ} {n : ℕ} {L : Live}
    (h : run C E n (begin C v points) = .running L) (hn : L.s.count ≠ 0) :
    ∃ D, sync C L.s.count L.dt L.s.p L.pold = .ok D ∧ Follows L.pold L.s.p (getTopology D).1.1 ∧ (getTopology D).1.1.Nodup ∧
      Describes (getTopology D).1.1 (getTopology D).1.2 D := by
  obtain ⟨D, h1, h2, h3, -, h5⟩ := sync_ok hC hM (inv_run hC hM (inv_begin hC hM v points) h)
  exact ⟨D, h1, h5 hn, h3, topology_describes h2⟩

/-- **C111 (nothing lost).** If no two points coincide and no moved point is put where a later one was, the vertex array is the array of
points, row by row. -/
theorem C111_exact {C : Cgal Pt} (hC : Lawful C) (hM : Moves C) (v : Pt) {points : List Pt} {E : Env κ ρ} {n : ℕ} {L : Live}
    (h : run C E n (begin C v points) = .running L) (hn : L.s.count ≠ 0) (hd : L.s.p.Nodup)
    (hc : ∀ i j : ℕ, i < j → j < L.s.p.length → L.s.p[i]? ≠ L.pold[i]? → L.s.p[i]? ≠ L.pold[j]?) :
    ∃ D, sync C L.s.count L.dt L.s.p L.pold = .ok D ∧ (getTopology D).1.1 = L.s.p := by
  obtain ⟨D, h1, h2, -, -⟩ := C111_pass hC hM v h hn
  exact ⟨D, h1, h2.exact hd hc⟩

/-- **C111 (first pass).** The first vertex array contains every given position once, in an order of CGAL's choice: a permutation of the points if they are distinct. -/
theorem C111_first {C : Cgal Pt} (hC : Lawful C) (hM : Moves C) (v : Pt) (points : List Pt) :
    ∃ D, sync C 0 (begin C v points).dt points [] = .ok D ∧ (getTopology D).1.1.Nodup ∧ (∀ x, x ∈ (getTopology D).1.1 ↔ x ∈ points) ∧
      (points.Nodup → (getTopology D).1.1.Perm points) ∧ Describes (getTopology D).1.1 (getTopology D).1.2 D := by
  obtain ⟨D, h1, h2, h3, h4, -⟩ := sync_ok hC hM (inv_begin hC hM v points)
  obtain ⟨-, h5⟩ := h4 rfl
  exact ⟨D, h1, h3, h5, fun hn => (List.perm_ext_iff_of_nodup h3 hn).2 h5, topology_describes h2⟩

/-! ## The loop as a run of the abstract model -/

/-- Forget the triangulation. -/
def forget : Outcome → Sliver.Outcome
  | .running L => .running L.s
  | .done p t b => .done p t b
  | .raised e => .raised e

theorem step_dt {E : Env κ ρ} {dt dt' : ℕ → List Pt → List Pt × List (List ℕ)} {s : State} (h : dt s.count s.p = dt' s.count s.p) :
    Sliver.step { E with dt := dt } s = Sliver.step { E with dt := dt' } s := by
  simp only [Sliver.step, Sliver.topology, h]
  rfl

theorem run_dt {E : Env κ ρ} {dt dt' : ℕ → List Pt → List Pt × List (List ℕ)} {n : ℕ} {s : State} (h : ∀ k, s.count ≤ k → ∀ p, dt k p = dt' k p) :
    Sliver.run { E with dt := dt } n s = Sliver.run { E with dt := dt' } n s := by
  induction n generalizing s with
  | zero => rfl
  | succ n ih =>
    rw [Sliver.run, Sliver.run, step_dt (h s.count le_rfl s.p)]
    cases hs : Sliver.step { E with dt := dt' } s with
    | running s' =>
      obtain ⟨-, -, -, -, -, hc⟩ := Sliver.step_next hs
      exact ih fun k hk => h k (by omega)
    | done p t b => rfl
    | raised e => rfl

theorem refines {C : Cgal Pt} (hC : Lawful C) (hM : Moves C) {points : List Pt} {E : Env κ ρ} {n : ℕ} {L : Live} (hI : Inv points L) :
    ∃ dt : ℕ → List Pt → List Pt × List (List ℕ), (∀ k s, ∀ x ∈ (dt k s).1, x ∈ s) ∧
      forget (run C E n L) = Sliver.run { E with dt := dt } n L.s := by
  classical
  induction n generalizing L with
  | zero => exact ⟨fun _ _ => ([], []), by simp, rfl⟩
  | succ n ih =>
    obtain ⟨D, hD, -, -, h4, h5⟩ := sync_ok hC hM hI
    have hsub : ∀ x ∈ (getTopology D).1.1, x ∈ L.s.p := by
      by_cases hc : L.s.count = 0
      · obtain ⟨e, h⟩ := h4 hc
        rw [e]
        exact fun x hx => (h x).1 hx
      · exact (h5 hc).mem
    cases hs : Sliver.step { E with dt := fun _ _ => (getTopology D).1 } L.s with
    | running s' =>
      have hstep : step C E L = .running ⟨s', (getTopology D).2, (getTopology D).1.1⟩ := by simp only [step, hD, hs]
      obtain ⟨dt, hk, hr⟩ := ih (inv_step hC hM hI hstep)
      obtain ⟨-, -, -, -, -, hcount⟩ := Sliver.step_next hs
      refine ⟨fun k p => if k = L.s.count then (if p = L.s.p then (getTopology D).1 else ([], [])) else dt k p, ?_, ?_⟩
      · intro k p x hx
        dsimp only at hx
        split at hx
        · split at hx
          · rename_i e; rw [e]; exact hsub x hx
          · simp at hx
        · exact hk k p x hx
      · rw [run, hstep, Sliver.run]
        rw [step_dt (dt' := fun _ _ => (getTopology D).1) (by simp), hs]
        simp only
        rw [hr]
        refine run_dt fun k hk' p => ?_
        have hk' : s'.count ≤ k := hk'
        rw [if_neg (by omega)]
    | done p t b =>
      have hstep : step C E L = .done p t b := by simp only [step, hD, hs]
      refine ⟨fun k p => if p = L.s.p then (getTopology D).1 else ([], []), ?_, ?_⟩
      · intro k p x hx
        dsimp only at hx
        split at hx
        · rename_i e; rw [e]; exact hsub x hx
        · simp at hx
      · rw [run, hstep, Sliver.run, step_dt (dt' := fun _ _ => (getTopology D).1) (by simp), hs]
        rfl
    | raised e =>
      have hstep : step C E L = .raised e := by simp only [step, hD, hs]
      refine ⟨fun k p => if p = L.s.p then (getTopology D).1 else ([], []), ?_, ?_⟩
      · intro k p x hx
        dsimp only at hx
        split at hx
        · rename_i e; rw [e]; exact hsub x hx
        · simp at hx
      · rw [run, hstep, Sliver.run, step_dt (dt' := fun _ _ => (getTopology D).1) (by simp), hs]
        rfl

/-- **C111 (refinement).** Every run with the incremental triangulation is a run of the loop model used for C59-C61, C93 and C94, for a triangulation oracle
that returns only the points it was given. -/
theorem C111_refines {C : Cgal Pt} (hC : Lawful C) (hM : Moves C) (v : Pt) (points : List Pt) (E : Env κ ρ) (n : ℕ) :
    ∃ dt : ℕ → List Pt → List Pt × List (List ℕ), (∀ k s, ∀ x ∈ (dt k s).1, x ∈ s) ∧
      forget (run C E n (begin C v points)) = Sliver.run { E with dt := dt } n (Sliver.start points) :=
  refines hC hM (inv_begin hC hM v points)

/-- **C111 (and C94).** With the default `gamma = 1` and `preserve=False`, every vertex returned by `sliver_removal` with its incremental
triangulation is one of the given points moved by at most `0.4 * h0 * (1.25^(max_iter - 1) - 1)`. -/
theorem C111_returned {C : Cgal Pt} (hC : Lawful C) (hM : Moves C) (v : Pt) {rank : ℕ} {boxEval : List ℝ → Pt → ℝ} {points : List Pt}
    {domain : Gen.DomainArg Pt} {edge : Gen.SizeArg Pt} {kw : Gen.Kwargs} {R : Rest κ ρ} (hT : MeshLoop.ToolsOk R.tools)
    (hunit : ∀ q, R.perturb q 0 ^ 2 + R.perturb q 1 ^ 2 + R.perturb q 2 ^ 2 ≤ 1) (hpres : R.preserve = false) (hgam : R.gamma = 1)
    {M : ℕ} (hM1 : 1 ≤ M) (hmax : Gen.maxIterOf kw = .ok (M : ℝ)) {n : ℕ} {p : List Pt} {t : List (List ℕ)} {b : Bool}
    (h : sliverRemoval C v rank boxEval points domain edge kw R n = .loop (.done p t b)) :
    ∃ h0 : ℝ, 0 ≤ h0 ∧ (∀ h, edge = .scalar h → h0 = h) ∧
      ∀ y ∈ p, ∃ x ∈ points, Sliver.dist3 x y ≤ 0.4 * h0 * ((5 / 4) ^ (M - 1) - 1) := by
  unfold sliverRemoval at h
  split at h
  · simp at h
  rename_i hr
  cases hS : Gen.sliverSetup boxEval 3 domain edge kw with
  | error e => simp [hS] at h
  | ok r =>
    obtain ⟨S, m⟩ := r
    simp only [hS, Result.loop.injEq] at h
    obtain ⟨dt, hk, hrun⟩ := C111_refines hC hM v points (Sliver.envOf R S m) n
    rw [h] at hrun
    refine Sliver.C94_returned (R := { R with dt := dt }) (rank := rank) (boxEval := boxEval) (domain := domain) hT hk hunit hpres hgam hM1 hmax
      (n := n) (p := p) (t := t) (b := b) ?_
    unfold Sliver.sliverRemoval
    rw [if_neg hr, hS]
    simp only
    rw [show Sliver.envOf { R with dt := dt } S m = { Sliver.envOf R S m with dt := dt } from rfl, ← hrun]
    rfl

/-- **C111 (a vertex is lost).** If a point is put on the old place of a later point, the triangulation loses a vertex, even if the later point has moved away
and all points are distinct (for example when two vertices exchange places). -/
theorem C111_lost {C : Cgal Pt} (hC : Lawful C) (hM : Moves C) (v : Pt) {points : List Pt} {E : Env κ ρ} {n : ℕ} {L : Live}
    (h : run C E n (begin C v points) = .running L) (hn : L.s.count ≠ 0) {i j : ℕ} (hij : i < j) (hj : j < L.s.p.length)
    (hi : L.s.p[i]? ≠ L.pold[i]?) (hp : L.s.p[i]? = L.pold[j]?) :
    ∃ D, sync C L.s.count L.dt L.s.p L.pold = .ok D ∧ (getTopology D).1.1.length < L.s.p.length := by
  obtain ⟨D, h1, ⟨kept, h2, -, h3⟩, -, -⟩ := C111_pass hC hM v h hn
  refine ⟨D, h1, ?_⟩
  rw [h2]
  have hk := h3 i j hij hj hi hp.symm
  have hlt : ((List.range L.s.p.length).filter kept).length < L.s.p.length := by
    have h4 := List.length_filter_lt_length_iff_exists (p := kept) (l := List.range L.s.p.length)
    rw [List.length_range] at h4
    exact h4.2 ⟨i, List.mem_range.2 (by omega), by simp [hk]⟩
  exact lt_of_le_of_lt (List.length_filterMap_le _ _) hlt

/-! ## A concrete triangulation -/

/-- Without repetitions. -/
def uniq (l : List Pt) : List Pt := @List.dedup Pt (Classical.decEq _) l

theorem uniq_nodup (l : List Pt) : (uniq l).Nodup := @List.nodup_dedup Pt (Classical.decEq _) l

theorem mem_uniq {l : List Pt} {x : Pt} : x ∈ uniq l ↔ x ∈ l := @List.mem_dedup Pt (Classical.decEq _) x l

theorem uniq_eq {l : List Pt} (h : l.Nodup) : uniq l = l := @List.Nodup.dedup Pt (Classical.decEq _) l h

open Classical in
/-- A CGAL without geometry: one cell of all vertices. Only insertion into an empty triangulation is implemented. -/
def toy : Cgal Pt where
  insertRange dt l := if dt.verts = [] then
    ⟨List.range (uniq (l.map Prod.fst)).length, fun i => (uniq (l.map Prod.fst)).getD i 0, id, [List.range (uniq (l.map Prod.fst)).length]⟩ else dt
  removeOne dt h := { dt with verts := dt.verts.filter (· ≠ h), cells := [dt.verts.filter (· ≠ h)] }
  moveOne dt h x := if ∃ g ∈ dt.verts, g ≠ h ∧ dt.point g = x then
    { dt with verts := dt.verts.filter (fun g => decide (g ≠ h)), cells := [dt.verts.filter (fun g => decide (g ≠ h))] }
    else { dt with point := fun g => if g = h then x else dt.point g }

theorem toy_lawful : Lawful toy where
  insertRange dt l hv := by
    simp only [toy]
    split
    · exact ⟨List.nodup_range, by simp⟩
    · exact hv
  removeOne dt h hv _ := ⟨hv.1.filter _, fun c hc x hx => by
    simp only [toy, List.mem_singleton] at hc
    subst hc
    exact hx⟩
  moveOne dt h x hv _ := by
    simp only [toy]
    split
    · exact ⟨hv.1.filter _, fun c hc x hx => by
        simp only [List.mem_singleton] at hc
        subst hc
        exact hx⟩
    · exact hv

theorem toy_insert (v : Pt) (l : List (Pt × ℕ)) : positions (toy.insertRange (empty v) l) = uniq (l.map Prod.fst) := by
  simp only [positions, toy, empty, if_true]
  apply List.ext_getElem
  · simp
  · intro i h1 h2
    simp only [List.getElem_map, List.getElem_range, List.getD_eq_getElem?_getD]
    rw [List.getElem?_eq_getElem h2, Option.getD_some]

theorem toy_moves : Moves toy where
  inserted v l := by
    rw [toy_insert]
    exact ⟨uniq_nodup _, fun x => mem_uniq⟩
  free dt h x hv hs hh hf := by
    have : ¬ ∃ g ∈ dt.verts, g ≠ h ∧ dt.point g = x := fun ⟨g, hg, h1, h2⟩ => hf g hg h1 h2
    simp only [toy, if_neg this]
    exact ⟨trivial, by simp, fun g _ hg => by simp [hg]⟩
  taken dt h x hv hs hh hf := by
    simp only [toy, if_pos hf]
    exact ⟨trivial, fun g _ _ => trivial⟩

open SM.Sliver (spikeEnv spikePts spike)

theorem spikePts_nodup {x : ℝ} (hx : 0 ≤ x) : (spikePts x).Nodup := by
  have ne : ∀ a b : Pt, ∀ k, a k ≠ b k → a ≠ b := fun a b k h e => h (by rw [e])
  have h01 : spike x 0 ≠ spike x 1 := ne _ _ 0 (by simp [spike]; linarith)
  have h02 : spike x 0 ≠ spike x 2 := ne _ _ 1 (by simp [spike])
  have h03 : spike x 0 ≠ spike x 3 := ne _ _ 2 (by simp [spike])
  have h12 : spike x 1 ≠ spike x 2 := ne _ _ 0 (by simp [spike])
  have h13 : spike x 1 ≠ spike x 3 := ne _ _ 0 (by simp [spike])
  have h23 : spike x 2 ≠ spike x 3 := ne _ _ 1 (by simp [spike])
  simp [spikePts, h01, h02, h03, h12, h13, h23]

theorem spike_begin : (begin toy 0 (spikePts 0)).dt = ⟨[0, 1, 2, 3], fun i => (spikePts 0).getD i 0, id, [[0, 1, 2, 3]]⟩ := by
  have h : uniq (((spikePts 0).zipIdx (empty (0 : Pt)).verts.length).map Prod.fst) = spikePts 0 := by
    rw [List.zipIdx_map_fst, uniq_eq (spikePts_nodup le_rfl)]
  simp only [begin, DtWrapper.insert, toy, h]
  rfl

/-- `spikeEnv` with another direction of the perturbation. -/
def towards (d : Pt) : Env (List ℝ) (List ℕ) := { spikeEnv 5 with perturb := fun _ => d }

/-- One pass: the first vertex has moved from the origin to a tenth of `d`. -/
theorem towards_run (d : Pt) : ∃ L, run toy (towards d) 1 (begin toy 0 (spikePts 0)) = .running L ∧ L.s.count = 1 ∧
    L.s.p = [(fun j => 0.1 * d j), spike 0 1, spike 0 2, spike 0 3] ∧ L.pold = spikePts 0 := by
  have hsync : sync toy 0 (begin toy 0 (spikePts 0)).dt (spikePts 0) [] = .ok (begin toy 0 (spikePts 0)).dt := rfl
  have htop : (getTopology (begin toy 0 (spikePts 0)).dt).1 = (spikePts 0, [[0, 1, 2, 3]]) := by
    rw [spike_begin]
    rfl
  have hq : Simplex.corners (spikePts 0) [0, 1, 2, 3] = .ok (spike 0) := Sliver.corners_ok rfl
  have hmv : Sliver.moveOf (towards d) 0.1 (spikePts 0) [[0, 1, 2, 3]] 0 = .ok (0, fun j => 0.1 * d j) := by
    simp only [Sliver.moveOf, Np.item, bind, Except.bind, pure, Except.pure, List.getElem?_cons_zero, hq]
    congr 2
    ext j
    fin_cases j <;> simp [spike, spikeEnv, towards]
  have hp : Sliver.perturbAll (towards d) 0.1 (spikePts 0) [[0, 1, 2, 3]] [0] = .ok [(fun j => 0.1 * d j), spike 0 1, spike 0 2, spike 0 3] := by
    simp only [Sliver.perturbAll, List.mapM_cons, List.mapM_nil, hmv, bind, Except.bind, pure, Except.pure]
    simp [towards, spikeEnv, Sliver.assign, spikePts]
  have hst : Sliver.step (towards d) (Sliver.start (spikePts 0)) = .running ⟨1, [(fun j => 0.1 * d j), spike 0 1, spike 0 2, spike 0 3], 0.1, some 1⟩ := by
    have ht : Sliver.topology (towards d) (Sliver.start (spikePts 0)) = .ok (spikePts 0, [[0, 1, 2, 3]], [0]) :=
      Sliver.spike_topology (m := 5) le_rfl rfl
    have ha : Sliver.adapt (towards d).gamma (Sliver.start (spikePts 0)).step [0].length (Sliver.start (spikePts 0)).oldBad = 0.1 := by
      simp [Sliver.adapt, towards, spikeEnv, Sliver.start]
    unfold Sliver.step
    rw [ht]
    simp only
    rw [if_neg (by norm_num [towards, spikeEnv, Sliver.start]), if_neg (by simp), ha, hp]
    rfl
  have hst' : Sliver.step { towards d with dt := fun _ _ => (getTopology (begin toy 0 (spikePts 0)).dt).1 } (Sliver.start (spikePts 0)) =
      .running ⟨1, [(fun j => 0.1 * d j), spike 0 1, spike 0 2, spike 0 3], 0.1, some 1⟩ := by
    rw [step_dt (dt' := (towards d).dt) (by rw [htop]; rfl)]
    exact hst
  have hrun : step toy (towards d) (begin toy 0 (spikePts 0)) =
      .running ⟨⟨1, [(fun j => 0.1 * d j), spike 0 1, spike 0 2, spike 0 3], 0.1, some 1⟩, (getTopology (begin toy 0 (spikePts 0)).dt).2,
        (getTopology (begin toy 0 (spikePts 0)).dt).1.1⟩ := by
    have e1 : (begin toy 0 (spikePts 0)).s = Sliver.start (spikePts 0) := rfl
    have e2 : (begin toy 0 (spikePts 0)).pold = [] := rfl
    unfold step
    rw [e1, e2, show (Sliver.start (spikePts 0)).count = 0 from rfl, show (Sliver.start (spikePts 0)).p = spikePts 0 from rfl, hsync]
    simp only [hst']
  exact ⟨⟨⟨1, [(fun j => 0.1 * d j), spike 0 1, spike 0 2, spike 0 3], 0.1, some 1⟩, (getTopology (begin toy 0 (spikePts 0)).dt).2,
        (getTopology (begin toy 0 (spikePts 0)).dt).1.1⟩, by rw [run, hrun]; rfl, rfl, rfl, by rw [htop]⟩

/-- A run whose first vertex has moved to a free place: the hypotheses of `C111_pass` and `C111_exact` are met. -/
example : Lawful toy ∧ Moves toy ∧ ∃ L, run toy (towards ![-1, 0, 0]) 1 (begin toy 0 (spikePts 0)) = .running L ∧ L.s.count ≠ 0 ∧ L.s.p.Nodup ∧
    L.s.p[0]? ≠ L.pold[0]? ∧ ∀ i j : ℕ, i < j → j < L.s.p.length → L.s.p[i]? ≠ L.pold[i]? → L.s.p[i]? ≠ L.pold[j]? := by
  obtain ⟨L, h1, h2, h3, h4⟩ := towards_run ![-1, 0, 0]
  have e : ([(fun j => 0.1 * (![-1, 0, 0] : Pt) j), spike 0 1, spike 0 2, spike 0 3] : List Pt) = spikePts 0.1 := by
    have : (fun j => 0.1 * (![-1, 0, 0] : Pt) j) = spike 0.1 0 := by
      ext j
      fin_cases j <;> simp [spike]
    rw [this]
    simp [spikePts, spike]
  rw [e] at h3
  refine ⟨toy_lawful, toy_moves, L, h1, by omega, ?_⟩
  rw [h3, h4]
  refine ⟨spikePts_nodup (by norm_num), ?_, ?_⟩
  · simp only [spikePts, List.getElem?_cons_zero, ne_eq, Option.some.injEq]
    intro h
    have := congrFun h 0
    norm_num [spike] at this
  · intro i j hij hj hi hp
    have hj : j < 4 := hj
    have h0 : i = 0 := by
      by_contra hc
      apply hi
      have : i = 1 ∨ i = 2 := by omega
      rcases this with rfl | rfl <;> simp [spikePts, spike]
    subst h0
    have h1 : (spikePts 0.1)[j]? = (spikePts 0)[j]? := by
      have : j = 1 ∨ j = 2 ∨ j = 3 := by omega
      rcases this with rfl | rfl | rfl <;> simp [spikePts, spike]
    rw [← h1] at hp
    have := (List.getElem?_inj (by simp [spikePts]) (spikePts_nodup (by norm_num))).1 hp
    omega

/-- A run whose first vertex has been put on the second one: the hypotheses of `C111_lost` are met. -/
example : ∃ L, run toy (towards ![10, 0, 0]) 1 (begin toy 0 (spikePts 0)) = .running L ∧ L.s.count ≠ 0 ∧ 1 < L.s.p.length ∧
    L.s.p[0]? ≠ L.pold[0]? ∧ L.s.p[0]? = L.pold[1]? := by
  obtain ⟨L, h1, h2, h3, h4⟩ := towards_run ![10, 0, 0]
  refine ⟨L, h1, by omega, ?_⟩
  rw [h3, h4]
  have e : (fun j => 0.1 * (![10, 0, 0] : Pt) j) = spike 0 1 := by
    ext j
    fin_cases j <;> norm_num [spike]
  refine ⟨by simp, ?_, by simp [e, spikePts]⟩
  simp only [e, spikePts, List.getElem?_cons_zero, ne_eq, Option.some.injEq]
  intro h
  have := congrFun h 0
  norm_num [spike] at this

open SM.Sliver (cornerPts corner exRest exCall)

theorem corner_topology : (getTopology (begin toy 0 cornerPts).dt).1 = (cornerPts, [[0, 1, 2, 3]]) := by
  have ne : ∀ a b : Pt, ∀ k, a k ≠ b k → a ≠ b := fun a b k h e => h (by rw [e])
  have hn : cornerPts.Nodup := by
    have h01 : corner 0 ≠ corner 1 := ne _ _ 0 (by simp [Sliver.corner_val])
    have h02 : corner 0 ≠ corner 2 := ne _ _ 1 (by simp [Sliver.corner_val])
    have h03 : corner 0 ≠ corner 3 := ne _ _ 2 (by simp [Sliver.corner_val])
    have h12 : corner 1 ≠ corner 2 := ne _ _ 0 (by simp [Sliver.corner_val])
    have h13 : corner 1 ≠ corner 3 := ne _ _ 0 (by simp [Sliver.corner_val])
    have h23 : corner 2 ≠ corner 3 := ne _ _ 1 (by simp [Sliver.corner_val])
    simp [cornerPts, h01, h02, h03, h12, h13, h23]
  have h : uniq ((cornerPts.zipIdx (empty (0 : Pt)).verts.length).map Prod.fst) = cornerPts := by
    rw [List.zipIdx_map_fst, uniq_eq hn]
  have : (begin toy 0 cornerPts).dt = ⟨[0, 1, 2, 3], fun i => cornerPts.getD i 0, id, [[0, 1, 2, 3]]⟩ := by
    simp only [begin, DtWrapper.insert, toy, h]
    rfl
  rw [this]
  rfl

/-- A complete call: the hypotheses of `C111_returned` are met. -/
example (dt : ℕ → List Pt → List Pt × List (List ℕ)) : MeshLoop.ToolsOk (exRest dt).tools ∧ (exRest dt).preserve = false ∧ (exRest dt).gamma = 1 ∧
    (∀ q, (exRest dt).perturb q 0 ^ 2 + (exRest dt).perturb q 1 ^ 2 + (exRest dt).perturb q 2 ^ 2 ≤ 1) ∧
    ∃ p t, sliverRemoval toy 0 0 (fun _ _ => 0) cornerPts (.geometry (fun _ => -1) [.flt 0, .flt 1, .flt 0, .flt 1, .flt 0, .flt 1] none) (.scalar 1) []
      (exRest dt) 1 = .loop (.done p t true) ∧ t ≠ [] := by
  refine ⟨⟨MeshLoop.realTools_ok.rk, MeshLoop.realTools_ok.vol, MeshLoop.realTools_ok.lint⟩, rfl, rfl, fun q => by simp [exRest], ?_⟩
  obtain ⟨p, t, h, ht⟩ := exCall (fun _ _ => (getTopology (begin toy 0 cornerPts).dt).1) corner_topology
  refine ⟨p, t, ?_, ht⟩
  unfold Sliver.sliverRemoval at h
  unfold sliverRemoval
  rw [if_neg (by omega)] at h ⊢
  split at h
  · simp at h
  rename_i S m hS
  simp only [hS]
  rw [Sliver.run] at h
  have hsync : sync toy 0 (begin toy 0 cornerPts).dt cornerPts [] = .ok (begin toy 0 cornerPts).dt := rfl
  cases hst : Sliver.step (Sliver.envOf (exRest fun _ _ => (getTopology (begin toy 0 cornerPts).dt).1) S m) (Sliver.start cornerPts) with
  | running s => simp [hst, Sliver.run] at h
  | raised e => simp [hst] at h
  | done p' t' b' =>
    simp only [hst, Sliver.Result.loop.injEq, Sliver.Outcome.done.injEq] at h
    obtain ⟨rfl, rfl, rfl⟩ := h
    have e1 : (begin toy 0 cornerPts).s = Sliver.start cornerPts := rfl
    have e2 : (begin toy 0 cornerPts).pold = [] := rfl
    have hstep : step toy (Sliver.envOf (exRest dt) S m) (begin toy 0 cornerPts) = .done p' t' true := by
      unfold step
      rw [e1, e2, show (Sliver.start cornerPts).count = 0 from rfl, show (Sliver.start cornerPts).p = cornerPts from rfl, hsync]
      have : Sliver.step { Sliver.envOf (exRest dt) S m with dt := fun _ _ => (getTopology (begin toy 0 cornerPts).dt).1 } (Sliver.start cornerPts) =
        .done p' t' true := hst
      simp only [this]
    rw [run, hstep]

end

end SM.SliverDt
