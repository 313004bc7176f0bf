import Verif.Model.Ghost
import Verif.Props.DtWrapper
import Verif.Props.WhereTo
import Verif.Props.MeshLoop
import Verif.Props.Adjacency
import Mathlib.Data.List.Perm.Basic

/-!
# C70: ghost vertices are removed after each iteration
-/

set_option linter.unusedSectionVars false

namespace SM.Ghost

open Np DtWrapper

variable {K : Type} [Field K] [LinearOrder K] {d : ℕ}

/-! ## Assumption about CGAL -/

/-- Triangulations that arise by insertions only. -/
inductive Inserted {V : Type} (C : Cgal V) : Tds V → Prop
  | empty (v : V) : Inserted C (empty v)
  | insert (dt : Tds V) (ps : List V) : Inserted C dt → Inserted C (insert C dt ps)
  | numbered (dt : Tds V) : Inserted C dt → Inserted C (getFiniteVertices dt).2

/-- Insertion into a triangulation from which nothing was removed adds vertices at the end of the vertex sequence, one for every position at which there is no
vertex yet, and moves none. -/
def Appends {V : Type} (C : Cgal V) : Prop :=
  ∀ dt, Inserted C dt → ∀ ps, ∃ new, (insert C dt ps).verts = dt.verts ++ new ∧ (∀ h ∈ dt.verts, (insert C dt ps).point h = dt.point h) ∧
    (new.map (insert C dt ps).point).Nodup ∧ ∀ x, x ∈ new.map (insert C dt ps).point ↔ x ∈ ps ∧ x ∉ dt.verts.map dt.point

/-! ## Reading the received rows -/

theorem groups_flatten (recv : List (List K)) (h : ∀ row ∈ recv, row.length = d) (hd : 1 ≤ d) :
    asPoints d recv = recv.map fun row => fun k : Fin d => row.getD k 0 := by
  unfold asPoints
  have hlen : recv.flatten.length = recv.length * d := by
    induction recv with
    | nil => simp
    | cons a l ih =>
      rw [List.flatten_cons, List.length_append, ih fun r hr => h r (List.mem_cons_of_mem _ hr), h a (by simp), List.length_cons]
      ring
  rw [hlen, Nat.mul_div_cancel _ (by omega)]
  clear hlen
  induction recv with
  | nil => rfl
  | cons a l ih =>
    have ha := h a (by simp)
    rw [List.length_cons, groups, List.map_cons, List.flatten_cons, List.drop_left' ha, ih fun r hr => h r (List.mem_cons_of_mem _ hr)]
    congr 1
    funext k
    have := k.2
    simp only [List.getD]
    rw [List.getElem?_append_left (by omega)]

/-! ## Deletion -/

theorem npDelete_take {α : Type} (a : List α) {n : ℕ} {idx : List ℕ} (h : ∀ i < a.length, i ∈ idx ↔ n ≤ i) : Topology.npDelete a idx = a.take n := by
  unfold Topology.npDelete
  have : ∀ (a : List α) (j : ℕ), (∀ i < j + a.length, j ≤ i → (i ∈ idx ↔ n ≤ i)) →
      ((a.zipIdx j).filter fun xi => !idx.contains xi.2).map Prod.fst = a.take (n - j) := by
    intro a
    induction a with
    | nil => simp
    | cons x a ih =>
      intro j hj
      have hh := hj j (by simp) (le_refl _)
      have ht := ih (j + 1) fun i hi hi' => hj i (by simp only [List.length_cons]; omega) (by omega)
      rw [List.zipIdx_cons, List.filter_cons]
      by_cases hnj : n ≤ j
      · rw [if_neg (by simp [hh.2 hnj]), ht]
        rw [show n - j = 0 by omega, show n - (j + 1) = 0 by omega]
        simp
      · have : j ∉ idx := fun hc => hnj (hh.1 hc)
        rw [if_pos (by simpa using this), List.map_cons, ht, show n - j = n - (j + 1) + 1 by omega, List.take_succ_cons]
  simpa using this a 0 fun i hi _ => h i (by simpa using hi)

/-- What the deletion does, for any number of received rows. -/
theorem dropGhosts_range {V : Type} (p : List V) {n k : ℕ} (hn : p.length = n) (hk : 1 ≤ k) : dropGhosts p (List.range n) k = p.take (n - k) := by
  unfold dropGhosts MeshLoop.lastSlice
  rw [if_neg (by omega), List.length_range]
  apply npDelete_take
  intro i hi
  rw [List.range_eq_range', List.drop_range', List.mem_range'_1]
  omega

theorem dropGhosts_zero {V : Type} (p : List V) {n : ℕ} (hn : p.length = n) : dropGhosts p (List.range n) 0 = [] := by
  unfold dropGhosts MeshLoop.lastSlice
  rw [if_pos rfl, npDelete_take (n := 0)]
  · simp
  · intro i hi
    simp; omega

/-! ## Absorbing the received points -/

theorem absorb_ok {C : Cgal (Fin d → K)} {sd : List K → (Fin d → K) → K} {extents : List (List K)} {rank : ℕ} {dt : Tds (Fin d → K)} {recv : List (List K)}
    {p : List (Fin d → K)} {t : List (List ℕ)} {inv : List ℕ} {ix : ℕ} (h : absorb C sd extents rank dt recv = .ok (p, t, inv, ix)) :
    p = (getFiniteVertices (insert C dt (asPoints d recv))).1 ∧ inv = List.range p.length ∧ ix = recv.length := by
  unfold absorb Topology.removeExternal at h
  simp only [bind, Except.bind, pure, Except.pure] at h
  split at h
  · simp at h
  split at h
  · simp at h
  rename_i x hx
  split at hx
  · simp at hx
  obtain rfl := Except.ok.inj hx
  simp only [Except.ok.injEq, Prod.mk.injEq] at h
  obtain ⟨rfl, -, rfl, rfl⟩ := h
  exact ⟨rfl, rfl, rfl⟩

/-- The vertices after insertion: the own vertices, then one for every new position. -/
theorem absorb_points {C : Cgal (Fin d → K)} (hC : Appends C) {sd : List K → (Fin d → K) → K} {extents : List (List K)} {rank : ℕ} {dt : Tds (Fin d → K)}
    (hdt : Inserted C dt) {recv : List (List K)} {p : List (Fin d → K)} {t : List (List ℕ)} {inv : List ℕ} {ix : ℕ}
    (h : absorb C sd extents rank dt recv = .ok (p, t, inv, ix)) :
    ∃ ghosts : List (Fin d → K), p = (getFiniteVertices dt).1 ++ ghosts ∧ ghosts.Nodup ∧
      ∀ x, x ∈ ghosts ↔ x ∈ asPoints d recv ∧ x ∉ (getFiniteVertices dt).1 := by
  obtain ⟨rfl, -, -⟩ := absorb_ok h
  obtain ⟨new, h1, h2, h3, h4⟩ := hC dt hdt (asPoints d recv)
  refine ⟨new.map (insert C dt (asPoints d recv)).point, ?_, h3, h4⟩
  simp only [getFiniteVertices]
  rw [h1, List.map_append]
  congr 1
  exact List.map_congr_left h2

theorem ghosts_length {ps own ghosts : List (Fin d → K)} (hn : ghosts.Nodup) (hg : ∀ x, x ∈ ghosts ↔ x ∈ ps ∧ x ∉ own) :
    ghosts.length ≤ ps.length ∧ (ghosts.length = ps.length ↔ ps.Nodup ∧ ∀ x ∈ ps, x ∉ own) := by
  classical
  have hsub : ghosts ⊆ ps := fun x hx => ((hg x).1 hx).1
  have hsp : ghosts.Subperm ps := List.subperm_of_subset hn hsub
  refine ⟨hsp.length_le, ⟨fun he => ?_, ?_⟩⟩
  · have hp : ghosts.Perm ps := hsp.perm_of_length_le (by omega)
    exact ⟨hp.nodup_iff.1 hn, fun x hx => ((hg x).1 (hp.mem_iff.2 hx)).2⟩
  · rintro ⟨h1, h2⟩
    apply List.Perm.length_eq
    rw [List.perm_ext_iff_of_nodup hn h1]
    intro x
    rw [hg]
    exact ⟨fun h => h.1, fun h => ⟨h, h2 x h⟩⟩

/-- **C70, exact.** `own` are the vertices before the exchange, `p` those after it, `q` the same vertices after the movement (any array with one entry for each). After the
deletion what is left are the moved own vertices, all of them and nothing else, if and only if the received points are pairwise different, none of them coincides with an own vertex,
and (the case that goes wrong otherwise) the exchange did return points. In general the last `recv_ix` entries of `q` are dropped, whatever they are. -/
theorem C70_iff_partial {C : Cgal (Fin d → K)} (hC : Appends C) {sd : List K → (Fin d → K) → K} {extents : List (List K)} {rank : ℕ} {dt : Tds (Fin d → K)}
    (hdt : Inserted C dt) {recv : List (List K)} (hd : 1 ≤ d) (hne : recv ≠ []) (hw : ∀ row ∈ recv, row.length = d) {p : List (Fin d → K)} {t : List (List ℕ)} {inv : List ℕ} {ix : ℕ}
    (h : absorb C sd extents rank dt recv = .ok (p, t, inv, ix)) {q : List (Fin d → K)} (hq : q.length = p.length) (hown : (getFiniteVertices dt).1 ≠ []) :
    p.take (getFiniteVertices dt).1.length = (getFiniteVertices dt).1 ∧ dropGhosts q inv ix = q.take (q.length - recv.length) ∧
    (dropGhosts q inv ix = q.take (getFiniteVertices dt).1.length ↔ recv.Nodup ∧ ∀ row ∈ recv, ∀ x ∈ (getFiniteVertices dt).1, row ≠ List.ofFn x) := by
  obtain ⟨-, rfl, rfl⟩ := absorb_ok h
  obtain ⟨ghosts, hp, hnd, hg⟩ := absorb_points hC hdt h
  have hpts : asPoints d recv = recv.map fun row => fun k : Fin d => row.getD k 0 := groups_flatten recv hw hd
  rw [hpts] at hg
  obtain ⟨hle, hiff⟩ := ghosts_length hnd hg
  have hpl : p.length = (getFiniteVertices dt).1.length + ghosts.length := by rw [hp, List.length_append]
  have h1 : 1 ≤ recv.length := by
    cases recv with
    | nil => exact absurd rfl hne
    | cons a l => simp
  have hlen0 : 1 ≤ (getFiniteVertices dt).1.length := by
    cases hgf : (getFiniteVertices dt).1 with
    | nil => exact absurd hgf hown
    | cons a l => simp
  rw [List.length_map] at hle hiff
  have hdrop := dropGhosts_range q hq h1
  refine ⟨by rw [hp, List.take_left' rfl], by rw [hdrop, hq], ?_⟩
  have hrow : ∀ row ∈ recv, List.ofFn (fun k : Fin d => row.getD k 0) = row := by
    intro row hr
    have hl := hw row hr
    apply List.ext_getElem (by simp [hl])
    intro i h1 h2
    simp [List.getElem?_eq_getElem h2]
  have hinj : (recv.map fun row => fun k : Fin d => row.getD k 0).Nodup ↔ recv.Nodup := by
    constructor
    · exact List.Nodup.of_map _
    · intro hn
      refine (List.nodup_map_iff_inj_on hn).2 fun a ha b hb hab => ?_
      rw [← hrow a ha, ← hrow b hb, hab]
  have hdis : (∀ x ∈ recv.map fun row => fun k : Fin d => row.getD k 0, x ∉ (getFiniteVertices dt).1) ↔
      ∀ row ∈ recv, ∀ x ∈ (getFiniteVertices dt).1, row ≠ List.ofFn x := by
    constructor
    · intro hx row hr x hxo he
      refine hx _ (List.mem_map_of_mem hr) ?_
      have : (fun k : Fin d => row.getD k 0) = x := by rw [he]; funext k; simp
      rwa [this]
    · intro hx x hxm hxo
      obtain ⟨row, hr, rfl⟩ := List.mem_map.1 hxm
      exact hx row hr _ hxo (hrow row hr).symm
  rw [← hinj, ← hdis, ← hiff, hdrop]
  constructor
  · intro he
    have := congrArg List.length he
    rw [List.length_take, List.length_take, hq] at this
    omega
  · intro he
    congr 1
    omega

/-- **C70 is false: nothing received.** If the rank has nothing to export, the exchange returns `np.array([[]])`, which inserts nothing but has length 1: one own vertex, the last
one, is deleted. -/
theorem C70_false_none {C : Cgal (Fin d → K)} (hC : Appends C) {sd : List K → (Fin d → K) → K} {extents : List (List K)} {rank : ℕ} {dt : Tds (Fin d → K)}
    (hdt : Inserted C dt) {p : List (Fin d → K)} {t : List (List ℕ)} {inv : List ℕ} {ix : ℕ}
    (h : absorb C sd extents rank dt [[]] = .ok (p, t, inv, ix)) {q : List (Fin d → K)} (hq : q.length = p.length) :
    p = (getFiniteVertices dt).1 ∧ dropGhosts q inv ix = q.dropLast := by
  obtain ⟨-, rfl, rfl⟩ := absorb_ok h
  obtain ⟨ghosts, hp, -, hg⟩ := absorb_points hC hdt h
  have h0 : asPoints d ([[]] : List (List K)) = [] := by simp [asPoints, groups]
  rw [h0] at hg
  have : ghosts = [] := List.eq_nil_iff_forall_not_mem.2 fun x hx => by simpa using (hg x).1 hx
  subst this
  rw [List.append_nil] at hp
  refine ⟨hp, ?_⟩
  rw [dropGhosts_range q hq (by simp), List.dropLast_eq_take, hq]
  rfl

/-- In particular the exchange does return that array when nothing is to be exported. -/
theorem exchange_none [IsStrictOrderedRing K] [FloorSemiring K] {rank size dim : ℕ} {E : List (List K)} (hE : Exchange.Packed dim E [] []) :
    Exchange.exchange rank size dim E = .ret [[]] := by
  rw [Exchange.exchange_packed hE]
  simp [Exchange.body, pure]

/-- **C70 (iteration).** The deletion in the loop is this one, applied to the moved vertices: a parallel iteration yields what the same iteration without the deletion would,
minus the last `recv_ix` entries. -/
theorem C70_loop_partial {κ ρ : Type} [LinearOrder κ] [LinearOrder ρ] {E : MeshLoop.Env d κ ρ} (hE : 1 < E.size) {p : List (Fin d → ℝ)} {t : List (List ℕ)}
    {ifix inv : List ℕ} {ix : ℕ} {q : List (Fin d → ℝ)} (h : MeshLoop.move E p t ifix inv ix = .ok q) :
    ∃ q', MeshLoop.move { E with size := 1 } p t ifix inv ix = .ok q' ∧ q'.length = p.length ∧ q = dropGhosts q' inv ix := by
  unfold MeshLoop.move at h ⊢
  simp only [bind, Except.bind, pure, Except.pure] at h ⊢
  cases hF : Forces.computeForces E.eps p t E.fh (Forces.L0multOf d) with
  | error e => rw [hF] at h; cases h
  | ok F =>
    rw [hF] at h
    simp only [gt_iff_lt, lt_irrefl, if_false, if_pos hE] at h ⊢
    have hlen : ∀ (ls : List ((Fin d → ℝ) → ℝ)) (idx : ℕ) (x : List (Fin d → ℝ)), (MeshLoop.projectAll E.deps E.h0 idx ls x).length = x.length := by
      intro ls
      induction ls with
      | nil => intro idx x; rfl
      | cons l ls ih => intro idx x; rw [MeshLoop.projectAll, ih]; exact (Project.C56_inside_unmoved l E.deps E.h0 idx x).1
    refine ⟨MeshLoop.projectAll E.deps E.h0 0 (E.fd :: E.subs) (MeshLoop.advance E.deltaT p (MeshLoop.zeroAt ifix F)), ?_, ?_, ?_⟩
    · split at h
      · split at h
        · simp [throw, throwThe, MonadExceptOf.throw] at h
        · split at h
          · simp_all
          · simp [throw, throwThe, MonadExceptOf.throw] at h
      · simp_all
    · rw [hlen]
      have := MeshLoop.computeForces_length hF
      simp [MeshLoop.advance, MeshLoop.zeroAt, this]
    · split at h
      · split at h
        · simp [throw, throwThe, MonadExceptOf.throw] at h
        · split at h
          · exact (Except.ok.inj h).symm
          · simp [throw, throwThe, MonadExceptOf.throw] at h
      · exact (Except.ok.inj h).symm

/-! ## A small model of CGAL's insertion -/

/-- No geometry: new positions get the next handles; the only cell is made of the first `m` vertices. -/
def toyIns {V : Type} [DecidableEq V] (m : ℕ) : Cgal V where
  insertRange dt l :=
    let n := dt.verts.length
    let new := (l.map Prod.fst).dedup.filter fun x => x ∉ dt.verts.map dt.point
    ⟨dt.verts ++ List.range' n new.length, fun h => if h < n then dt.point h else new.getD (h - n) (dt.point h), dt.info, [List.range m]⟩
  removeOne dt _ := dt
  moveOne dt _ _ := dt

theorem toyIns_verts {V : Type} [DecidableEq V] (m : ℕ) {dt : Tds V} (h : Inserted (toyIns m) dt) : dt.verts = List.range' 0 dt.verts.length := by
  induction h with
  | empty v => rfl
  | insert dt ps _ ih =>
    simp only [DtWrapper.insert, toyIns, List.length_append, List.length_range']
    rw [← List.range'_append_1, Nat.zero_add, ← ih]
  | numbered dt _ ih => exact ih

theorem toyIns_appends {V : Type} [DecidableEq V] (m : ℕ) : Appends (toyIns (V := V) m) := by
  intro dt hdt ps
  have hv := toyIns_verts m hdt
  have hlt : ∀ h ∈ dt.verts, h < dt.verts.length := fun h hh => by
    rw [hv, List.mem_range'_1] at hh; omega
  set new := ((ps.zipIdx dt.verts.length).map Prod.fst).dedup.filter fun x => x ∉ dt.verts.map dt.point with hnew
  have hmap : (List.range' dt.verts.length new.length).map (insert (toyIns m) dt ps).point = new := by
    apply List.ext_getElem (by simp)
    intro i h1 h2
    simp only [DtWrapper.insert, toyIns, List.getElem_map, List.getElem_range', one_mul]
    rw [if_neg (by omega), ← hnew, Nat.add_sub_cancel_left, List.getD, List.getElem?_eq_getElem h2]
    rfl
  refine ⟨List.range' dt.verts.length new.length, rfl, ?_, ?_, ?_⟩
  · intro h hh
    simp only [DtWrapper.insert, toyIns, if_pos (hlt h hh)]
  · rw [hmap]; exact (List.nodup_dedup _).filter _
  · intro x
    rw [hmap, hnew]
    simp [List.zipIdx_map_fst]

/-- Two received points, three own vertices: the hypotheses of `C70_iff_partial` hold, all own vertices remain. -/
example : let dt := insert (toyIns 3) (empty ![0, 0]) [![0, 0], ![1, 0], ![0, 1]]
    let recv : List (List ℚ) := [[2, 0], [2, 1]]
    ∃ p t inv ix, absorb (toyIns 3) (fun _ _ => (-1 : ℚ)) [[0, 0, 1, 1]] 0 dt recv = .ok (p, t, inv, ix) ∧
      p = [![0, 0], ![1, 0], ![0, 1], ![2, 0], ![2, 1]] ∧ dropGhosts p inv ix = [![0, 0], ![1, 0], ![0, 1]] := by
  refine ⟨_, _, _, _, rfl, ?_, ?_⟩ <;> decide +kernel

/-- **C70 is false: shared vertices.** A received point at the position of an own vertex (the blocks of neighbouring ranks share their common face) is not inserted again but counted:
an own vertex is deleted. -/
theorem C70_false_duplicate : ∃ (dt : Tds (Fin 2 → ℚ)) (recv : List (List ℚ)), Inserted (toyIns 3) dt ∧ Appends (toyIns (V := Fin 2 → ℚ) 3) ∧ recv = [[0, 1], [2, 1]] ∧
    (getFiniteVertices dt).1 = [![0, 0], ![1, 0], ![0, 1]] ∧
    ∃ p t inv ix, absorb (toyIns 3) (fun _ _ => (-1 : ℚ)) [[0, 0, 1, 1]] 0 dt recv = .ok (p, t, inv, ix) ∧ dropGhosts p inv ix = [![0, 0], ![1, 0]] := by
  refine ⟨insert (toyIns 3) (empty ![0, 0]) [![0, 0], ![1, 0], ![0, 1]], _, .insert _ _ (.empty _), toyIns_appends 3, rfl, ?_, _, _, _, _, rfl, ?_⟩ <;> decide +kernel

/-- Nothing received: the third of three own vertices is deleted. -/
example : let dt := insert (toyIns 3) (empty ![0, 0]) [![0, 0], ![1, 0], ![0, 1]]
    ∃ p t inv ix, absorb (toyIns 3) (fun _ _ => (-1 : ℚ)) [[0, 0, 1, 1]] 0 dt [[]] = .ok (p, t, inv, ix) ∧ dropGhosts p inv ix = [![0, 0], ![1, 0]] := by
  refine ⟨_, _, _, _, rfl, ?_⟩; decide +kernel

end SM.Ghost
