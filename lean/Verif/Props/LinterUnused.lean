import Verif.Props.Linter
import Verif.Props.Units
import Verif.Props.Generate
import Verif.Props.CleanupSmooth
import Verif.Props.FixTwice

/-!
# C126: the checks accept a mesh with unused vertices

`vertex_to_entities` numbers the vertices that occur (geometry/utils.py:123-126), `do_any_overlap` (769-776) looks vertices up by their own number. The two agree
if the unused vertices come last. Otherwise `do_any_overlap`, `linter` and, in 3-D, `generate_mesh` with `perform_checks` raise `IndexError`.
-/

namespace SM.Linter

open Np Topology FixMesh

/-- Vertex `v` belongs to an entity. -/
def Used (ents : List (List ℕ)) (v : ℕ) : Prop := ∃ r ∈ ents, v ∈ r

/-- The unused vertices come after all used ones. -/
def UnusedLast (ents : List (List ℕ)) : Prop := ∀ u v, u < v → Used ents v → Used ents u

theorem changes_length {m : ℕ} : ∀ (xs : List ℕ) (prev pos : ℕ), (prev :: xs).Pairwise (· ≤ ·) → (∀ x ∈ prev :: xs, x ≤ m) →
    (changes prev pos xs).length ≤ m - prev ∧ ∀ u, u ∉ prev :: xs → prev < u → (changes prev pos xs).length ≤ m - prev - 1 ∨ m < u
  | [], prev, pos, _, _ => by simp [changes]
  | x :: xs, prev, pos, hs, hm => by
    rw [List.pairwise_cons] at hs
    have hx : prev ≤ x := hs.1 x (by simp)
    have hxm : x ≤ m := hm x (by simp)
    unfold changes
    by_cases he : x = prev
    · subst he
      rw [if_pos rfl]
      have ih := changes_length xs x (pos + 1) hs.2 (fun y hy => hm y (by simp only [List.mem_cons] at hy ⊢; tauto))
      exact ⟨ih.1, fun u hu h => ih.2 u (fun h' => hu (by simp only [List.mem_cons] at h' ⊢; tauto)) h⟩
    · rw [if_neg he]
      have ih := changes_length xs x (pos + 1) hs.2 (fun y hy => hm y (List.mem_cons_of_mem _ hy))
      simp only [List.length_cons]
      refine ⟨by omega, fun u hu h => ?_⟩
      have hux : u ≠ x := fun e => hu (by simp [e])
      rcases lt_or_gt_of_ne hux with h1 | h1
      · left; omega
      · rcases ih.2 u (fun h' => hu (List.mem_cons_of_mem _ h')) h1 with h2 | h2
        · by_cases hmu : m < u
          · exact Or.inr hmu
          · left; omega
        · exact Or.inr h2

/-- With an unused vertex below the largest used one, the pointer array is too short for the latter. -/
theorem ptr_short {srt : List (ℕ × ℕ) → List (ℕ × ℕ)} (hsrt : IsArgsort srt) {ents : List (List ℕ)} {dim m u : ℕ} (hm : Used ents m)
    (hmax : ∀ v, Used ents v → v ≤ m) (hu : ¬ Used ents u) (hum : u < m) : (vertexToEntities srt ents dim).2[m + 1]? = none := by
  have hperm := hsrt.perm (incidences ents)
  have hs : ((srt (incidences ents)).map Prod.fst).Pairwise (· ≤ ·) := List.pairwise_map.2 (hsrt.sorted _)
  have hmem : ∀ w, w ∈ (srt (incidences ents)).map Prod.fst ↔ Used ents w := by
    intro w
    rw [List.mem_map]
    constructor
    · rintro ⟨⟨a, i⟩, h, rfl⟩
      obtain ⟨r, hr, hw⟩ := mem_incidences.1 (hperm.mem_iff.1 h)
      exact ⟨r, List.mem_of_getElem? hr, hw⟩
    · rintro ⟨r, hr, hw⟩
      obtain ⟨i, hi⟩ := List.mem_iff_getElem?.1 hr
      exact ⟨(w, i), hperm.mem_iff.2 (mem_incidences.2 ⟨r, hi, hw⟩), rfl⟩
  simp only [vertexToEntities]
  generalize ((srt (incidences ents)).map Prod.fst) = col at hmem hs
  rw [List.getElem?_eq_none_iff]
  match col, hmem, hs with
  | [], hmem, _ => exact absurd ((hmem m).2 hm) (by simp)
  | x :: xs, hmem, hs =>
    have hb := changes_length (m := m) xs x 1 hs fun y hy => hmax y ((hmem y).1 hy)
    have hux : u ∉ x :: xs := fun h => hu ((hmem u).1 h)
    have hxm : x ≤ m := hmax x ((hmem x).1 (by simp))
    have hne : u ≠ x := fun e => hux (by simp [e])
    simp only [changePoints, List.length_append, List.length_cons, List.length_nil]
    rcases lt_or_gt_of_ne hne with h | h
    · have := hb.1; omega
    · rcases hb.2 u hux h with h' | h' <;> omega

theorem exists_max {ents : List (List ℕ)} {v : ℕ} (hv : Used ents v) : ∃ m, Used ents m ∧ v ≤ m ∧ ∀ w, Used ents w → w ≤ m := by
  have hmem : ∀ w, w ∈ ents.flatten.toFinset ↔ Used ents w := by intro w; simp [Used]
  have hne : ents.flatten.toFinset.Nonempty := ⟨v, (hmem v).2 hv⟩
  exact ⟨ents.flatten.toFinset.max' hne, (hmem _).1 (Finset.max'_mem _ hne), Finset.le_max' _ _ ((hmem v).2 hv), fun w hw => Finset.le_max' _ _ ((hmem w).2 hw)⟩

/-! ### Every exception is an `IndexError` -/

/-- If an exception is raised, it is `IndexError`. -/
def OnlyIndex {α : Type} (x : Except String α) : Prop := ∀ e, x = .error e → e = "IndexError"

theorem onlyIndex_item {α : Type} (a : List α) (i : ℕ) : OnlyIndex (item a i) := by
  intro e h; unfold item at h; split at h <;> simp at h; exact h.symm

theorem onlyIndex_bind {α β : Type} {x : Except String α} {f : α → Except String β} (hx : OnlyIndex x) (hf : ∀ a, OnlyIndex (f a)) : OnlyIndex (x >>= f) := by
  intro e h
  cases x with
  | error e' => simp only [bind, Except.bind] at h; exact hx e (by simpa using h)
  | ok a => exact hf a e h

theorem onlyIndex_pure {α : Type} (a : α) : OnlyIndex (pure a : Except String α) := by intro e h; simp [pure, Except.pure] at h

theorem onlyIndex_mapM {α β : Type} {f : α → Except String β} (hf : ∀ a, OnlyIndex (f a)) : ∀ l : List α, OnlyIndex (l.mapM f)
  | [] => by simpa using onlyIndex_pure ([] : List β)
  | a :: l => by
    rw [List.mapM_cons]
    exact onlyIndex_bind (hf a) fun b => onlyIndex_bind (onlyIndex_mapM hf l) fun bs => onlyIndex_pure _

theorem onlyIndex_take {α : Type} (a : List α) (ix : List ℕ) : OnlyIndex (Np.take a ix) := onlyIndex_mapM (onlyIndex_item a) ix

theorem onlyIndex_entitiesOf (vp : List ℕ × List ℕ) (v : ℕ) : OnlyIndex (entitiesOf vp v) :=
  onlyIndex_bind (onlyIndex_item _ _) fun _ => onlyIndex_bind (onlyIndex_item _ _) fun _ => onlyIndex_pure _

theorem onlyIndex_overlap {P : Type} (inside : P → List P → Bool) (cent : List P → P) (srt : List (ℕ × ℕ) → List (ℕ × ℕ)) (p : List P) (ents : List (List ℕ))
    (dim : ℕ) : OnlyIndex (doAnyOverlap inside cent srt p ents dim) := by
  refine onlyIndex_bind (onlyIndex_mapM (fun r => onlyIndex_bind (onlyIndex_take _ _) fun _ => onlyIndex_pure _) _) fun cents =>
    onlyIndex_bind (onlyIndex_mapM (fun x => onlyIndex_bind (onlyIndex_bind (onlyIndex_mapM (onlyIndex_entitiesOf _) _) fun _ => onlyIndex_pure _) fun neis =>
      onlyIndex_bind (onlyIndex_mapM (fun ele => ?_) _) fun _ => onlyIndex_pure _) _) fun _ => onlyIndex_pure _
  unfold hit
  split
  · intro e h; simp at h
  · exact onlyIndex_bind (onlyIndex_item _ _) fun _ => onlyIndex_bind (onlyIndex_take _ _) fun _ => onlyIndex_pure _

section main
variable {P κ K ρ : Type} [LinearOrder κ] [LinearOrder ρ] [LT K] [DecidableLT K] [Zero K]

/-- **C126, negation (`do_any_overlap`).** If a vertex that no entity uses has a smaller number than a used one, `do_any_overlap` raises `IndexError`. -/
theorem C126_overlap_raises (inside : P → List P → Bool) (cent : List P → P) {srt : List (ℕ × ℕ) → List (ℕ × ℕ)} (hsrt : IsArgsort srt) {p : List P}
    {ents : List (List ℕ)} (hr : InRange p ents) (dim : ℕ) {u v : ℕ} (huv : u < v) (hv : Used ents v) (hu : ¬ Used ents u) :
    doAnyOverlap inside cent srt p ents dim = .error "IndexError" := by
  obtain ⟨m, hm, hvm, hmax⟩ := exists_max hv
  have hptr := ptr_short (dim := dim) hsrt hm hmax hu (by omega)
  cases h : doAnyOverlap inside cent srt p ents dim with
  | error e => rw [onlyIndex_overlap _ _ _ _ _ _ e h]
  | ok out =>
    exfalso
    simp only [doAnyOverlap, bind, Except.bind, pure, Except.pure] at h
    split at h
    · simp at h
    rename_i cents hc
    split at h
    · simp at h
    rename_i parts hp
    have hcf := (mapM_forall₂.1 hc).length_eq
    obtain ⟨r, hrm, hmr⟩ := hm
    obtain ⟨i, hi, hri⟩ := List.getElem_of_mem hrm
    have hx : ((r, cents[i]'(by omega)), i) ∈ (ents.zip cents).zipIdx :=
      List.mem_zipIdx_iff_getElem?.2 (List.getElem?_zip_eq_some.2 ⟨by rw [List.getElem?_eq_getElem hi, hri], by rw [List.getElem?_eq_getElem (by omega)]⟩)
    obtain ⟨l, -, hl⟩ := forall₂_left (mapM_forall₂.1 hp) _ hx
    simp only [hits, bind, Except.bind, pure, Except.pure] at hl
    split at hl
    · simp at hl
    rename_i neis hn
    simp only [oneRing, bind, Except.bind, pure, Except.pure] at hn
    split at hn
    · simp at hn
    rename_i ls hls
    obtain ⟨l', -, hl'⟩ := forall₂_left (mapM_forall₂.1 hls) m hmr
    simp only [entitiesOf, item, hptr, bind, Except.bind, pure, Except.pure] at hl'
    split at hl' <;> simp at hl'

/-- **C126 (`do_any_overlap`; partial).** It succeeds exactly on the meshes whose unused vertices come last, and then reports exactly the pairs `(i, j)` of
different entities sharing a vertex such that the centroid of `i` is inside `j`. -/
theorem C126_overlap_partial (inside : P → List P → Bool) (cent : List P → P) {srt : List (ℕ × ℕ) → List (ℕ × ℕ)} (hsrt : IsArgsort srt) {p : List P}
    {ents : List (List ℕ)} (hr : InRange p ents) {dim : ℕ} (hw : ∀ r ∈ ents, r.length = dim + 1) :
    ((∃ out, doAnyOverlap inside cent srt p ents dim = .ok out) ↔ UnusedLast ents) ∧
    ∀ out, doAnyOverlap inside cent srt p ents dim = .ok out → ∀ i j, (i, j) ∈ out ↔
      i ≠ j ∧ ∃ ri rj vi vj, ents[i]? = some ri ∧ ents[j]? = some rj ∧ (∃ v, v ∈ ri ∧ v ∈ rj) ∧
        ri.map (fun k => p[k]?) = vi.map some ∧ rj.map (fun k => p[k]?) = vj.map some ∧ inside (cent vi) vj = true := by
  have hlast : (∃ out, doAnyOverlap inside cent srt p ents dim = .ok out) → UnusedLast ents := by
    rintro ⟨out, h⟩ u v huv hv
    by_contra hu
    rw [C126_overlap_raises inside cent hsrt hr dim huv hv hu] at h
    simp at h
  have hok : UnusedLast ents → ∃ out, doAnyOverlap inside cent srt p ents dim = .ok out ∧ ∀ i j, (i, j) ∈ out ↔
      i ≠ j ∧ ∃ ri rj vi vj, ents[i]? = some ri ∧ ents[j]? = some rj ∧ (∃ v, v ∈ ri ∧ v ∈ rj) ∧
        ri.map (fun k => p[k]?) = vi.map some ∧ rj.map (fun k => p[k]?) = vj.map some ∧ inside (cent vi) vj = true := by
    intro hl
    have hn : ∃ n, n ≤ p.length ∧ ∀ v, v < n ↔ ∃ r ∈ ents, v ∈ r := by
      by_cases he : ∃ v, Used ents v
      · obtain ⟨v, hv⟩ := he
        obtain ⟨m, ⟨r, hrm, hmr⟩, -, hmax⟩ := exists_max hv
        refine ⟨m + 1, hr r hrm m hmr, fun w => ⟨fun h => ?_, fun h => Nat.lt_succ_of_le (hmax w h)⟩⟩
        rcases Nat.lt_succ_iff_lt_or_eq.1 h with h | rfl
        · exact hl w m h ⟨r, hrm, hmr⟩
        · exact ⟨r, hrm, hmr⟩
      · exact ⟨0, Nat.zero_le _, fun v => ⟨fun h => absurd h (Nat.not_lt_zero v), fun h => absurd ⟨v, h⟩ he⟩⟩
    obtain ⟨n, hnp, hocc⟩ := hn
    exact overlap_initial inside cent hsrt hw hnp hocc
  refine ⟨⟨hlast, fun h => (hok h).imp fun _ h => h.1⟩, fun out h => ?_⟩
  obtain ⟨out', h1, h2⟩ := hok (hlast ⟨out, h⟩)
  rw [h] at h1
  cases h1
  exact h2

theorem quals_ok (qual : List P → K) {p : List P} {ents : List (List ℕ)} (hr : InRange p ents) : ∃ q, quals qual p ents = .ok q ∧ q.length = ents.length := by
  obtain ⟨q, hq⟩ := mapM_exists (f := fun r => (do return qual (← Np.take p r) : Except String K)) (l := ents) (by
    intro r h
    obtain ⟨vs, hvs⟩ := take_ok (hr r h)
    exact ⟨qual vs, by simp only [hvs, bind, Except.bind, pure, Except.pure]⟩)
  exact ⟨q, hq, (mapM_forall₂.1 hq).length_eq.symm⟩

/-- **C126, negation (`linter`).** -/
theorem C126_linter_raises (inside : P → List P → Bool) (cent : List P → P) (qual vol : List P → K) (key key' : P → κ) (rk : List ℕ → ρ)
    {srt : List (ℕ × ℕ) → List (ℕ × ℕ)} (hsrt : IsArgsort srt) (width : ℕ) {p : List P} {ents : List (List ℕ)} (hr : InRange p ents) (dim : ℕ) (minQual : K)
    {u v : ℕ} (huv : u < v) (hv : Used ents v) (hu : ¬ Used ents u) :
    linter inside cent qual vol key key' rk srt width p ents dim minQual = .error "IndexError" := by
  obtain ⟨q, hq, -⟩ := quals_ok qual hr
  simp only [linter, hq, C126_overlap_raises inside cent hsrt hr dim huv hv hu, bind, Except.bind]

/-- **C126 (3-D; partial).** On a non-empty mesh without overlapping cells whose unused vertices come last, the linter does what `fix_mesh` does. -/
theorem C126_linter3_partial (inside : P → List P → Bool) (cent : List P → P) (qual vol : List P → K) (key key' : P → κ) {rk : List ℕ → ρ}
    (hrk : Function.Injective rk) {srt : List (ℕ × ℕ) → List (ℕ × ℕ)} (hsrt : IsArgsort srt) (width : ℕ) {p : List P} {ents : List (List ℕ)}
    (hr : InRange p ents) (hw : ∀ r ∈ ents, r.length = 4) (hne : ents ≠ []) (hl : UnusedLast ents)
    (hov : ∀ (i j : ℕ) (ri rj : List ℕ) (vi vj : List P), i ≠ j → ents[i]? = some ri → ents[j]? = some rj → (∃ v, v ∈ ri ∧ v ∈ rj) → ri.map (fun k => p[k]?) = vi.map some →
      rj.map (fun k => p[k]?) = vj.map some → inside (cent vi) vj = false) (minQual : K) :
    ∃ p' t' jx, FixMesh.fixMesh key rk vol p ents true true = .ok (p', t', jx) ∧
      linter inside cent qual vol key key' rk srt width p ents 3 minQual = .ok (p', t') := by
  obtain ⟨hiff, hspec⟩ := C126_overlap_partial inside cent hsrt hr (dim := 3) hw
  obtain ⟨out, hout⟩ := hiff.2 hl
  have hnil : out = [] := by
    rw [List.eq_nil_iff_forall_not_mem]
    rintro ⟨i, j⟩ hij
    obtain ⟨hne', ri, rj, vi, vj, h1, h2, h3, h4, h5, h6⟩ := (hspec out hout i j).1 hij
    rw [hov i j ri rj vi vj hne' h1 h2 h3 h4 h5] at h6
    simp at h6
  subst hnil
  obtain ⟨q, hq, -⟩ := quals_ok qual hr
  have hp : p ≠ [] := by
    rintro rfl
    obtain ⟨r, hr'⟩ := List.exists_mem_of_ne_nil _ hne
    have h4 := hw r hr'
    match r, h4 with
    | a :: _, _ => exact absurd (hr _ hr' a (by simp)) (by simp)
  obtain ⟨q', t', jx, hrun, hc⟩ := fixMesh_run key hrk vol hp hr true true
  obtain ⟨qs, hqs, hqsl⟩ := quals_ok qual (p := q') (ents := t') hc.1.inRange
  have ht' : t' ≠ [] := by
    obtain ⟨r, hr'⟩ := List.exists_mem_of_ne_nil _ hne
    obtain ⟨r', h', -⟩ := hc.1.bwd r hr'
    exact List.ne_nil_of_mem h'
  refine ⟨q', t', jx, hrun, ?_⟩
  have hdel : npDelete ents (uniqBy id ([] : List ℕ)) = ents := by simp [npDelete, uniqBy]
  have hqe : qs ≠ [] := by
    rintro rfl
    exact ht' (List.eq_nil_of_length_eq_zero hqsl.symm)
  simp only [linter, hq, hout, List.mapM_nil, hdel, hrun, bind, Except.bind, pure, Except.pure]
  simp [hqs, hqe]

end main

end SM.Linter

namespace SM.MeshLoop

open Np Topology FixMesh Linter

noncomputable section

variable {κ ρ : Type} [LinearOrder κ] [LinearOrder ρ]

/-- The centroid of cell `r` is inside the domain (by more than the tolerance), so the cell is kept. -/
def KeptCell {d : ℕ} (E : Env d κ ρ) (p : List (Fin d → ℝ)) (r : List ℕ) : Prop :=
  ∃ vs : List (Fin d → ℝ), r.map (fun i => p[i]?) = vs.map some ∧ E.fd (fun k => (vs.map fun v => v k).sum / ((d : ℝ) + 1)) < -E.geps

theorem topology_kept {d : ℕ} {E : Env d κ ρ} (hsize : E.size = 1) {s : State d} (hr : InRange (E.dt s.p).1 (E.dt s.p).2)
    (hfix : E.pfix = [] ∨ (E.dt s.p).1 ≠ []) : ∃ ix u, topology E s = .ok ((E.dt s.p).1, u, ix, [], 0) ∧
      (∀ r, r ∈ u ↔ r ∈ (E.dt s.p).2 ∧ KeptCell E (E.dt s.p).1 r) ∧ u.Sublist (E.dt s.p).2 := by
  obtain ⟨u, hu⟩ := removeOutside_ok (fd := E.fd) (g := E.geps) hr
  have hix : ∃ ix, E.pfix.mapM (closestNode (E.dt s.p).1) = .ok ix := by
    rcases hfix with h | h
    · exact ⟨[], by rw [h]; rfl⟩
    · refine mapM_exists fun f _ => ?_
      obtain ⟨j, hj, -⟩ := Laplace.closest_ok (List.length_pos_iff.2 h) f fun i : Fin (E.dt s.p).1.length => (E.dt s.p).1.get i
      exact ⟨j.1, hj⟩
  obtain ⟨ix, hix⟩ := hix
  have hns : ¬ (1 > 1) := by omega
  refine ⟨ix, u, by simp only [topology, hix, hsize, hns, if_false, bind, Except.bind, pure, Except.pure, hu], fun r => ?_, removeOutside_sublist hu⟩
  rw [removeOutside_spec hu r]
  simp only [KeptCell, take_spec]

/-- **C126, negation (`generate_mesh`).** A serial 3-D run with `perform_checks` whose last triangulation has a vertex that no kept cell uses, numbered below a
used one, raises `IndexError`. -/
theorem C126_run_raises {E : Env 3 κ ρ} {enc key2 : (Fin 3 → ℝ) → κ} {rk : List ℕ → ρ} {srt : List (ℕ × ℕ) → List (ℕ × ℕ)} (hsrt : IsArgsort srt) {ptol : ℝ}
    {solve : (n : ℕ) → Matrix (Fin n) (Fin n) ℝ → Matrix (Fin n) (Fin 3) ℝ → Matrix (Fin n) (Fin 3) ℝ}
    (htools : E.tools = Units.tools3 enc key2 rk srt ptol solve) (hsize : E.size = 1) (hrank : E.rank = 0) (hcheck : E.opts.performChecks = true)
    {s : State 3} (hlast : (s.count : ℝ) = E.maxIter - 1) (hr : InRange (E.dt s.p).1 (E.dt s.p).2) {u v : ℕ} (huv : u < v) {r : List ℕ}
    (hrt : r ∈ (E.dt s.p).2) (hvr : v ∈ r) (hkept : KeptCell E (E.dt s.p).1 r) (hu : ∀ r ∈ (E.dt s.p).2, u ∈ r → ¬ KeptCell E (E.dt s.p).1 r) :
    step E s = .raised "IndexError" := by
  have hne : (E.dt s.p).1 ≠ [] := by
    intro e
    have := hr r hrt v hvr
    rw [e] at this
    simp at this
  obtain ⟨ix, w, htop, hw, hwsub⟩ := topology_kept hsize hr (Or.inr hne)
  have hl := C126_linter_raises Linter.inside3 (Simplex.centroid · 3) Units.rowQual rowVol3 (keyOf enc ptol (E.dt s.p).1) key2 rk hsrt 3 (p := (E.dt s.p).1)
    (ents := w) (fun r' h' => hr r' ((hw r').1 h').1) 3 (0.10 : ℝ) huv ⟨r, (hw r).2 ⟨hrt, hkept⟩, hvr⟩
    (by rintro ⟨r', h', hur⟩; exact hu r' ((hw r').1 h').1 hur ((hw r').1 h').2)
  have hns : ¬ (1 > 1) := by omega
  have hfin : finish E (E.dt s.p).1 w = .error "IndexError" := by
    have ht : termination E.tools E.rank E.size false E.opts (E.dt s.p).1 w = .error "IndexError" := by
      unfold termination
      simp only [hsize, hrank, hns, decide_false, Bool.false_and, Bool.false_eq_true, if_false, bind, Except.bind, pure, Except.pure, hcheck, and_self, if_true,
        show ¬ ((3 : ℕ) = 2) by omega, and_false]
      rw [htools]
      exact hl
    simp only [finish, ht, bind, Except.bind]
  unfold step
  rw [htop]
  simp only [if_pos hlast, hfin]

/-- **C126 (3-D run; partial).** If the unused vertices of the last triangulation come last, at least one cell is kept and no kept cell contains the centroid of
another one it shares a vertex with, then the last pass with `perform_checks` ends as it does without. -/
theorem C126_run_partial {E : Env 3 κ ρ} {enc key2 : (Fin 3 → ℝ) → κ} {rk : List ℕ → ρ} (hrk : Function.Injective rk) {srt : List (ℕ × ℕ) → List (ℕ × ℕ)}
    (hsrt : IsArgsort srt) {ptol : ℝ} {solve : (n : ℕ) → Matrix (Fin n) (Fin n) ℝ → Matrix (Fin n) (Fin 3) ℝ → Matrix (Fin n) (Fin 3) ℝ}
    (htools : E.tools = Units.tools3 enc key2 rk srt ptol solve) (hsize : E.size = 1) (hrank : E.rank = 0) {s : State 3}
    (hlast : (s.count : ℝ) = E.maxIter - 1) (hr : InRange (E.dt s.p).1 (E.dt s.p).2) (hs : Simplices 4 (E.dt s.p).2) {r : List ℕ}
    (hrt : r ∈ (E.dt s.p).2) (hkept : KeptCell E (E.dt s.p).1 r)
    (hu : ∀ u v, u < v → (∃ r ∈ (E.dt s.p).2, v ∈ r ∧ KeptCell E (E.dt s.p).1 r) → ∃ r ∈ (E.dt s.p).2, u ∈ r ∧ KeptCell E (E.dt s.p).1 r)
    (hnd : (E.dt s.p).2.Nodup) (hov : ∀ ri ∈ (E.dt s.p).2, ∀ rj ∈ (E.dt s.p).2, KeptCell E (E.dt s.p).1 ri → KeptCell E (E.dt s.p).1 rj → ri ≠ rj → ∀ a b c e a' b' c' e' : Fin 3 → ℝ,
      ri.map (fun k => (E.dt s.p).1[k]?) = [some a, some b, some c, some e] → rj.map (fun k => (E.dt s.p).1[k]?) = [some a', some b', some c', some e'] →
      (1 / 4 : ℝ) • (a + b + c + e) ∉ interior (convexHull ℝ {a', b', c', e'})) :
    step { E with opts := { E.opts with performChecks := true } } s = step { E with opts := { E.opts with performChecks := false } } s := by
  have hfx : (E.dt s.p).1 ≠ [] := by
    intro e
    obtain ⟨h4, -⟩ := hs r hrt
    match r, h4 with
    | a :: l, _ => have := hr _ hrt a (by simp); rw [e] at this; simp at this
  obtain ⟨ix, w, htop, hw, hwsub⟩ := topology_kept hsize hr (Or.inr hfx)
  have hsub : ∀ r ∈ w, r ∈ (E.dt s.p).2 := fun r h => ((hw r).1 h).1
  have hwr : InRange (E.dt s.p).1 w := fun r h => hr r (hsub r h)
  have hwn : w.Nodup := hnd.sublist hwsub
  obtain ⟨p', t', jx, hfix, hlint⟩ := C126_linter3_partial Linter.inside3 (Simplex.centroid · 3) Units.rowQual rowVol3 (keyOf enc ptol (E.dt s.p).1) key2 hrk
    hsrt 3 (p := (E.dt s.p).1) (ents := w) hwr (fun r h => (hs r (hsub r h)).1)
    (List.ne_nil_of_mem ((hw r).2 ⟨hrt, hkept⟩))
    (by
      rintro u v huv ⟨r', h', hv⟩
      obtain ⟨r2, h2, h3, h4⟩ := hu u v huv ⟨r', hsub r' h', hv, ((hw r').1 h').2⟩
      exact ⟨r2, (hw r2).2 ⟨h2, h4⟩, h3⟩)
    (by
      intro i j ri rj vi vj hij h1 h2 _ h3 h4
      have hi := List.mem_of_getElem? h1
      have hj := List.mem_of_getElem? h2
      obtain ⟨a, b, c, e, rfl⟩ := pts4 (hs ri (hsub ri hi)).1 h3
      obtain ⟨a', b', c', e', rfl⟩ := pts4 (hs rj (hsub rj hj)).1 h4
      have hne : ri ≠ rj := by
        rintro rfl
        obtain ⟨hi', ei⟩ := List.getElem?_eq_some_iff.1 h1
        obtain ⟨hj', ej⟩ := List.getElem?_eq_some_iff.1 h2
        exact hij ((List.Nodup.getElem_inj_iff hwn).1 (ei.trans ej.symm))
      have h := hov ri (hsub ri hi) rj (hsub rj hj) ((hw ri).1 hi).2 ((hw rj).1 hj).2 hne a b c e a' b' c' e' h3 h4
      have hcent : Simplex.centroid [a, b, c, e] 3 = (1 / 4 : ℝ) • (a + b + c + e) := by
        ext k; simp [Simplex.centroid]; ring
      rw [Bool.eq_false_iff]
      intro hin
      simp only [hcent, Linter.inside3] at hin
      by_cases hind : AffineIndependent ℝ ![a', b', c', e']
      · exact h ((Simplex.C42_tetrahedron _ _ _ _ _ hind).1 hin)
      · rw [Simplex.C42_flat_tetrahedron _ _ _ _ _ hind] at hin; simp at hin) (0.10 : ℝ)
  have hns : ¬ (1 > 1) := by omega
  have hfx' : fixed E.tools (E.dt s.p).1 w = .ok (p', t') := by
    rw [htools]
    cases hp : (E.dt s.p).1 with
    | nil => exact absurd hp hfx
    | cons x0 ps =>
      rw [hp] at hfix
      have : fixMeshK enc rk rowVol3 ptol (x0 :: ps) w true true = .ok (p', t', jx) := hfix
      show (do
        let (p, t, _) ← fixMeshK enc rk rowVol3 ptol (x0 :: ps) w true true
        return (p, t) : Except String _) = _
      rw [this]; rfl
  have hl : E.tools.lint (E.dt s.p).1 w = .ok (p', t') := by rw [htools]; exact hlint
  have ht : ∀ b, termination E.tools E.rank E.size false { E.opts with performChecks := b } (E.dt s.p).1 w = .ok (p', t') := by
    intro b
    unfold termination
    simp only [hsize, hrank, hns, decide_false, Bool.false_and, Bool.false_eq_true, if_false, bind, Except.bind, pure, Except.pure, true_and,
      show ¬ ((3 : ℕ) = 2) by omega, and_false, if_true]
    cases b with
    | true => simpa using hl
    | false => simpa using hfx'
  have hfin : finish { E with opts := { E.opts with performChecks := true } } (E.dt s.p).1 w =
      finish { E with opts := { E.opts with performChecks := false } } (E.dt s.p).1 w := by
    unfold finish
    simp only [ht true, ht false]
  have htop' : ∀ b, topology { E with opts := { E.opts with performChecks := b } } s = .ok ((E.dt s.p).1, w, ix, [], 0) := fun _ => htop
  unfold step
  rw [htop' true, htop' false]
  simp only [if_pos hlast, hfin]

theorem onBoundary3_used {t : List (List ℕ)} {v : ℕ} (h : OnBoundary3 t v) : ∃ r ∈ t, v ∈ r := by
  obtain ⟨a, b, -, -, -, hw⟩ := h
  have h0 : 0 < shared3 t v a b := by omega
  rw [shared3, List.countP_pos_iff] at h0
  obtain ⟨r, hrt, hrv⟩ := h0
  simp at hrv
  exact ⟨r, hrt, hrv.1⟩

/-- The last pass of a 3-D run without checks raises nothing, if at least one cell is kept and nothing is merged. -/
theorem last_ok3 {E : Env 3 κ ρ} (henc : Function.Injective E.tools.enc) (hrk : Function.Injective E.tools.rk) (hpt : 0 < E.tools.ptol) (hsize : E.size = 1)
    (hrank : E.rank = 0) (hcheck : E.opts.performChecks = false) {s : State 3} (hlast : (s.count : ℝ) = E.maxIter - 1)
    (hr : InRange (E.dt s.p).1 (E.dt s.p).2) (hs : Simplices 4 (E.dt s.p).2) (hne : (E.dt s.p).1 ≠ []) (hap : Apart E.tools.ptol (E.dt s.p).1) :
    ∃ q t, step E s = .done q t (s.tri + 1) := by
  obtain ⟨ix, w, htop, hw, hwsub⟩ := topology_kept hsize hr (Or.inr hne)
  have hwr : InRange (E.dt s.p).1 w := fun r h => hr r (hwsub.subset h)
  have hws : Simplices 4 w := fun r h => hs r (hwsub.subset h)
  obtain ⟨p', t', hfx⟩ := fixed_succeeds hrk hne hwr
  obtain ⟨hsame, -, hnd', hin', -, -⟩ := fixed_same henc hrk hpt hap (fun _ h => h) hfx
  have hs' : Simplices 4 t' := simplices_same hap.1 hwr hws hsame.1
  have hns : ¬ (1 > 1) := by omega
  have ht : termination E.tools E.rank E.size false E.opts (E.dt s.p).1 w = .ok (p', t') := by
    unfold termination
    simp only [hsize, hrank, hns, decide_false, Bool.false_and, Bool.false_eq_true, if_false, bind, Except.bind, pure, Except.pure, true_and,
      show ¬ ((3 : ℕ) = 2) by omega, and_false, if_true, hcheck]
    exact hfx
  obtain ⟨bv, hbv, -, hm⟩ := C35_boundary_vertices3 hrk hs'
  have hb : ∀ i ∈ bv, i < p'.length := by
    intro i hi
    obtain ⟨r, hr', hir⟩ := onBoundary3_used ((hm i).1 hi)
    exact hin' r hr' i hir
  obtain ⟨q, hq, hl, -⟩ := Project.improveLoop_spec (fd := E.fd) (deps := E.deps) (bid := bv) 5 0 1 p' hb
  have himp : Project.improve E.tools.rk E.fd E.deps p' t' = .ok q := by simp only [Project.improve, hbv, bind, Except.bind, hq]
  obtain ⟨u, hu⟩ := removeOutside_ok (fd := E.fd) (g := E.h0 * 0.001) (p := q) (t := t') fun r hr' i hi => by rw [hl]; exact hin' r hr' i hi
  refine ⟨q, u, ?_⟩
  unfold step
  rw [htop]
  have ht0 := ht
  rw [hrank] at ht0
  simp only [if_pos hlast, finish, hrank, ht0, if_true, himp, hu, bind, Except.bind, pure, Except.pure]

end

end SM.MeshLoop

namespace SM.Generate

open MeshLoop FixMesh Topology Linter

noncomputable section

/-- The corners of a tetrahedron, and a point far below. -/
def wa : Fin 3 → ℝ := ![0, 0, 0]
def wb : Fin 3 → ℝ := ![1, 0, 0]
def wc : Fin 3 → ℝ := ![0, 1, 0]
def we : Fin 3 → ℝ := ![0, 0, 1]
def wf : Fin 3 → ℝ := ![0, 0, -5]

/-- The domain above the plane `z = -1/8`. -/
def wfd (x : Fin 3 → ℝ) : ℝ := -(x 2) - 1 / 8

def wtools : Tools 3 (List ℝ) (List ℕ) :=
  Units.tools3 (fun q => [q 0, q 1, q 2]) (fun q => [q 0, q 1, q 2]) id (fun l => l.insertionSort fun a b => a.1 ≤ b.1) (1 / 1000) fun _ _ b => b

/-- The call with the points `ps` and triangulation `cells`. -/
def wrest (ps : List (Fin 3 → ℝ)) (cells : List (List ℕ)) : Rest 3 (List ℝ) (List ℕ) :=
  ⟨none, some ps, [], 1, 0.3, 0.1, false, ⟨true, true, true⟩, fun _ => 0, wtools, fun p => (p, cells), 1 / 1000, 1 / 1000⟩

def wdomain : Gen.DomainArg (Fin 3 → ℝ) := .geometry wfd [.flt 0, .flt 1, .flt 0, .flt 1, .flt 0, .flt 1] none

def wsetup : Gen.Setup (Fin 3 → ℝ) := ⟨wfd, fun _ => 1, [0, 1, 0, 1, 0, 1], 1, none, true, (true, false)⟩

theorem wprepare (ps : List (Fin 3 → ℝ)) (hps : ps ≠ []) (cells : List (List ℕ)) :
    prepare (fun _ _ => 0) wdomain (.scalar 1) [("max_iter", .num (.int 1))] (wrest ps cells) = .ok (envOf (wrest ps cells) wsetup 1, ps) := by
  have hS : Gen.genSetup (P := Fin 3 → ℝ) (fun _ _ => 0) wdomain (.scalar 1) [("max_iter", .num (.int 1))] = .ok wsetup := by
    simp [wdomain, wsetup, Gen.genSetup, Gen.parseKwargs, Gen.knownNames, Gen.getOpt, Gen.defaults, Gen.asNum, Gen.Num.val, Gen.selectVerbosity, Gen.unpackDomain,
      Gen.unpackSizing, Gen.checkBbox, Gen.checkFloats, Gen.mergeBbox, Gen.Rebuild, bind, Except.bind, pure, Except.pure, List.lookup]
  have hm : Gen.maxIterOf [("max_iter", .num (.int 1))] = .ok 1 := by
    simp [Gen.maxIterOf, Gen.getOpt, Gen.asNum, Gen.Num.val, bind, Except.bind, pure, Except.pure]
  simp only [prepare, hS, initial, hm, bind, Except.bind, pure, Except.pure]
  simp [wsetup, wrest, hps]

/-- The order of points that works, and the one that does not, with the same triangulation. -/
def goodPts : List (Fin 3 → ℝ) := [wa, wb, wc, we, wf]
def badPts : List (Fin 3 → ℝ) := [wf, wa, wb, wc, we]
def goodCells : List (List ℕ) := [[0, 1, 2, 3], [4, 0, 1, 2]]
def badCells : List (List ℕ) := [[1, 2, 3, 4], [0, 1, 2, 3]]

theorem wa2 : wa 2 = 0 := rfl
theorem wb2 : wb 2 = 0 := rfl
theorem wc2 : wc 2 = 0 := rfl
theorem we2 : we 2 = 1 := rfl
theorem wf2 : wf 2 = -5 := rfl

theorem good_apart : MeshLoop.Apart (1 / 1000) goodPts := by
  have hab : wa ≠ wb := fun h => by have := congrFun h 0; simp [wa, wb] at this
  have hac : wa ≠ wc := fun h => by have := congrFun h 1; simp [wa, wc] at this
  have hae : wa ≠ we := fun h => by have := congrFun h 2; simp [wa, we] at this
  have haf : wa ≠ wf := fun h => by have := congrFun h 2; simp [wa, wf] at this
  have hbc : wb ≠ wc := fun h => by have := congrFun h 0; simp [wb, wc] at this
  have hbe : wb ≠ we := fun h => by have := congrFun h 0; simp [wb, we] at this
  have hbf : wb ≠ wf := fun h => by have := congrFun h 0; simp [wb, wf] at this
  have hce : wc ≠ we := fun h => by have := congrFun h 1; simp [wc, we] at this
  have hcf : wc ≠ wf := fun h => by have := congrFun h 1; simp [wc, wf] at this
  have hef : we ≠ wf := fun h => by have := congrFun h 2; simp [we, wf] at this; norm_num at this
  refine ⟨by simp [goodPts, *], 6, ?_, ?_⟩
  · intro x hx y hy k
    simp only [goodPts, List.mem_cons, List.not_mem_nil, or_false] at hx hy
    rcases hx with rfl | rfl | rfl | rfl | rfl <;> rcases hy with rfl | rfl | rfl | rfl | rfl <;> fin_cases k <;>
      simp [wa, wb, wc, we, wf] <;> norm_num [abs_le]
  · intro x hx y hy hne
    by_contra hcon
    push Not at hcon
    have h0 := hcon 0
    have h1 := hcon 1
    have h2 := hcon 2
    simp only [goodPts, List.mem_cons, List.not_mem_nil, or_false] at hx hy
    rcases hx with rfl | rfl | rfl | rfl | rfl <;> rcases hy with rfl | rfl | rfl | rfl | rfl <;> first | exact hne rfl | skip
    all_goals first | (norm_num [wa, wb, wc, we, wf, abs_le] at h0; done) | (norm_num [wa, wb, wc, we, wf, abs_le] at h1; done) | (simp only [wa2, wb2, wc2, we2, wf2, abs_le] at h2; norm_num at h2; done)

theorem kept_good (ps : List (Fin 3 → ℝ)) (cells : List (List ℕ)) {p : List (Fin 3 → ℝ)} {r : List ℕ} (h : r.map (fun i => p[i]?) = [some wa, some wb, some wc, some we]) :
    KeptCell (envOf (wrest ps cells) wsetup 1) p r :=
  ⟨[wa, wb, wc, we], by simp [h], by simp [envOf, wrest, wsetup, wfd, wa, wb, wc, we]; norm_num⟩

theorem kept_bad (ps : List (Fin 3 → ℝ)) (cells : List (List ℕ)) {p : List (Fin 3 → ℝ)} {r : List ℕ} (h : r.map (fun i => p[i]?) = [some wf, some wa, some wb, some wc]) :
    ¬ KeptCell (envOf (wrest ps cells) wsetup 1) p r := by
  rintro ⟨vs, hvs, hf⟩
  have e : vs = [wf, wa, wb, wc] := (List.map_injective_iff.2 (Option.some_injective _)) (by rw [← hvs, h]; rfl)
  subst e
  simp [envOf, wrest, wsetup, wfd, wa, wb, wc, wf] at hf
  norm_num at hf

/-- **C126, negation (order).** The same points, the same triangulation, 3-D with `perform_checks`: listed in one order the call returns a mesh, in the other it
raises `IndexError`. -/
theorem C126_order_false : goodPts.Perm badPts ∧ SameMesh (fun i => (i + 1) % 5) goodPts goodCells badPts badCells ∧
    (∃ q t, generateMesh (fun _ _ => 0) wdomain (.scalar 1) [("max_iter", .num (.int 1))] (wrest goodPts goodCells) 1 = .done q t 1) ∧
    generateMesh (fun _ _ => 0) wdomain (.scalar 1) [("max_iter", .num (.int 1))] (wrest badPts badCells) 1 = .raised "IndexError" := by
  have hp : goodPts.Perm badPts := List.perm_append_comm (l₁ := [wa, wb, wc, we]) (l₂ := [wf])
  refine ⟨hp, ⟨hp.symm, ?_, ?_, ?_⟩, ?_, ?_⟩
  · intro i hi
    have : i < 5 := hi
    interval_cases i <;> rfl
  · decide
  · decide
  · set E := envOf (wrest goodPts goodCells) wsetup 1 with hE
    have hr : InRange (E.dt goodPts).1 (E.dt goodPts).2 := by
      intro r hr i hi
      simp only [hE, envOf, wrest, goodCells, List.mem_cons, List.not_mem_nil, or_false] at hr
      rcases hr with rfl | rfl <;> simp [hE, envOf, wrest, goodPts] at hi ⊢ <;> omega
    have hsim : Simplices 4 (E.dt goodPts).2 := by
      intro r hr
      simp only [hE, envOf, wrest, goodCells, List.mem_cons, List.not_mem_nil, or_false] at hr
      rcases hr with rfl | rfl <;> simp
    have hk : ∀ r ∈ (E.dt goodPts).2, KeptCell E (E.dt goodPts).1 r → r = [0, 1, 2, 3] := by
      intro r hr h
      simp only [hE, envOf, wrest, goodCells, List.mem_cons, List.not_mem_nil, or_false] at hr
      rcases hr with rfl | rfl
      · rfl
      · exact absurd h (kept_bad _ _ (by rfl))
    have hk0 : KeptCell E (E.dt goodPts).1 [0, 1, 2, 3] := kept_good _ _ (by rfl)
    have hm0 : [0, 1, 2, 3] ∈ (E.dt goodPts).2 := by simp [hE, envOf, wrest, goodCells]
    have hsame := C126_run_partial (E := E) (fun _ _ h => h) isArgsort_insertionSort rfl rfl rfl (s := ⟨0, goodPts, 0⟩) (by simp [hE, envOf]) hr hsim
      hm0 hk0 (by
        rintro u v huv ⟨r, hr', hv, hkr⟩
        obtain rfl := hk r hr' hkr
        exact ⟨_, hm0, by simp at hv ⊢; omega, hk0⟩) (by simp [hE, envOf, wrest, goodCells]) (by
        intro ri hi rj hj ki kj hne
        exact absurd ((hk ri hi ki).trans (hk rj hj kj).symm) hne)
    obtain ⟨q, t, hst⟩ := last_ok3 (E := { E with opts := { E.opts with performChecks := false } }) (s := ⟨0, goodPts, 0⟩) (by
        intro x y h
        simp only [hE, envOf, wrest, wtools, Units.tools3, List.cons.injEq, and_true] at h
        ext i; fin_cases i
        exacts [h.1, h.2.1, h.2.2]) (fun _ _ h => h) (by simp [hE, envOf, wrest, wtools, Units.tools3]) rfl rfl rfl (by simp [hE, envOf]) hr hsim
      (by simp [hE, envOf, wrest, goodPts]) (by simpa [hE, envOf, wrest, wtools, Units.tools3] using good_apart)
    refine ⟨q, t, ?_⟩
    have h1 : step E ⟨0, goodPts, 0⟩ = .done q t 1 := by
      exact hsame.trans hst
    simp only [generateMesh, wprepare _ (by simp [goodPts] : goodPts ≠ []), run]
    rw [← hE, h1]
  · have hraise := C126_run_raises (E := envOf (wrest badPts badCells) wsetup 1) isArgsort_insertionSort rfl rfl rfl rfl (s := ⟨0, badPts, 0⟩)
      (by simp [envOf]) (u := 0) (v := 1) (by
        intro r hr i hi
        simp only [envOf, wrest, badCells, List.mem_cons, List.not_mem_nil, or_false] at hr
        rcases hr with rfl | rfl <;> simp [envOf, wrest, badPts] at hi ⊢ <;> omega) (by omega) (r := [1, 2, 3, 4]) (by simp [envOf, wrest, badCells]) (by simp)
      (kept_good _ _ (by rfl)) (by
        intro r hr h0
        simp only [envOf, wrest, badCells, List.mem_cons, List.not_mem_nil, or_false] at hr
        rcases hr with rfl | rfl
        · simp at h0
        · exact kept_bad _ _ (by rfl))
    simp only [generateMesh, wprepare _ (by simp [badPts] : badPts ≠ []), run, hraise]

end

end SM.Generate
