import Verif.Model.Native
import Verif.Props.Sdf
import Mathlib.Data.List.GetD
import Mathlib.Tactic.Ring
import Mathlib.Tactic.Linarith

/-!
# C88, C89: the compiled helpers on flat buffers
-/

set_option linter.unusedSectionVars false

namespace SM.Native

open SM.Np

variable {α β : Type}

/-! ### specification vocabulary -/

/-- The buffer of an `(N, d)` array in C order. -/
def flatPts {d : ℕ} (p : List (Fin d → α)) : List α := (p.map List.ofFn).flatten

/-- The buffer of an integer array in C order. -/
def flatCells (t : List (List ℕ)) : List ℤ := t.flatten.map fun (v : ℕ) => (v : ℤ)

/-- Every row has `w` entries, all of them numbers of the `N` vertices. -/
def Valid (w N : ℕ) (t : List (List ℕ)) : Prop := ∀ r ∈ t, r.length = w ∧ ∀ v ∈ r, v < N

/-! ### buffers -/

theorem rd_nat (b : List α) (i : ℕ) {x : α} (h : b[i]? = some x) : rd b (i : ℤ) = .ok x := by
  unfold rd
  rw [if_pos (Int.natCast_nonneg i)]
  simp [h]

theorem rd_none (b : List α) (i : ℕ) (h : b.length ≤ i) : rd b (i : ℤ) = .error oob := by
  unfold rd
  rw [if_pos (Int.natCast_nonneg i)]
  simp [h]

theorem wr_append (us : List α) (z x : α) (m : ℕ) :
    wr (us ++ List.replicate (m + 1) z) us.length x = .ok ((us ++ [x]) ++ List.replicate m z) := by
  unfold wr
  rw [if_pos (by simp), List.replicate_succ]
  simp

theorem memcpy_all (b : List α) {n : ℕ} (h : n = b.length) : memcpy n b = .ok b := by
  subst h; simp [memcpy]

theorem flatten_get {w : ℕ} : ∀ (t : List (List α)), (∀ r ∈ t, r.length = w) → ∀ (n : ℕ)
    (hn : n < t.length) (c : ℕ), c < w → t.flatten[n * w + c]? = t[n][c]?
  | [], _, n, hn, _, _ => by simp at hn
  | r :: t, h, 0, _, c, hc => by
    have hr := h r (by simp)
    simp only [List.flatten_cons, Nat.zero_mul, Nat.zero_add, List.getElem_cons_zero]
    rw [List.getElem?_append_left (by omega)]
  | r :: t, h, n + 1, hn, c, hc => by
    have hr := h r (by simp)
    have ih := flatten_get t (fun r' h' => h r' (by simp [h'])) n (by simpa using hn) c hc
    simp only [List.flatten_cons, List.getElem_cons_succ]
    rw [List.getElem?_append_right (by rw [hr, Nat.succ_mul]; omega), hr,
      show (n + 1) * w + c - w = n * w + c by rw [Nat.succ_mul]; omega]
    exact ih

theorem flatten_len {w : ℕ} (t : List (List α)) (h : ∀ r ∈ t, r.length = w) :
    t.flatten.length = t.length * w := by
  induction t with
  | nil => simp
  | cons r t ih =>
    rw [List.flatten_cons, List.length_append, h r (by simp), ih fun r' h' => h r' (by simp [h']),
      List.length_cons, Nat.succ_mul, Nat.add_comm]

theorem flatPts_len {d : ℕ} (p : List (Fin d → α)) : (flatPts p).length = p.length * d := by
  unfold flatPts
  rw [flatten_len (w := d) _ (by
    intro r hr; obtain ⟨q, -, rfl⟩ := List.mem_map.1 hr; simp), List.length_map]

theorem flatPts_get {d : ℕ} (p : List (Fin d → α)) (n : ℕ) (hn : n < p.length) (j : Fin d) :
    (flatPts p)[n * d + j]? = some (p[n] j) := by
  unfold flatPts
  rw [flatten_get (w := d) _ (by
    intro r hr; obtain ⟨q, -, rfl⟩ := List.mem_map.1 hr; simp) n (by simpa using hn) j j.2]
  simp

theorem flatCells_len {w N : ℕ} {t : List (List ℕ)} (hv : Valid w N t) :
    (flatCells t).length = t.length * w := by
  unfold flatCells
  rw [List.length_map, flatten_len _ fun r h => (hv r h).1]

theorem flatCells_get {w N : ℕ} {t : List (List ℕ)} (hv : Valid w N t) (n : ℕ) (hn : n < t.length)
    (c : ℕ) (hc : c < w) :
    ∃ hl : c < t[n].length, (flatCells t)[n * w + c]? = some ((t[n][c] : ℕ) : ℤ) := by
  have hl := (hv _ (List.getElem_mem hn)).1
  refine ⟨by omega, ?_⟩
  unfold flatCells
  rw [List.getElem?_map, flatten_get t (fun r h => (hv r h).1) n hn c hc,
    List.getElem?_eq_getElem (by omega)]
  rfl

/-! ### filling a result buffer -/

/-- A loop over a list whose every step appends `y b` to the part already written. -/
theorem fold_list {S : Type} (st : List α → ℕ → S) {body : S → β → Except String S} {y : β → List α}
    {L : ℕ} : ∀ (l : List β),
    (∀ b ∈ l, ∀ us m, body (st us (m + L)) b = .ok (st (us ++ y b) m)) →
    ∀ us m, l.foldlM body (st us (m + l.length * L)) = .ok (st (us ++ l.flatMap y) m)
  | [], _, us, m => by simp [pure, Except.pure]
  | b :: l, h, us, m => by
    have ih := fold_list st l (fun b' h' => h b' (by simp [h'])) (us ++ y b) m
    rw [List.foldlM_cons, List.length_cons, Nat.succ_mul, ← Nat.add_assoc, h b (by simp)]
    simp only [bind, Except.bind]
    rw [ih, List.flatMap_cons, List.append_assoc]

/-- A counting loop whose step `i` writes `y i` at position `off + i * L`. -/
theorem fold_fill {S : Type} (st : List α → ℕ → S) {body : S → ℕ → Except String S}
    {y : ℕ → List α} {off L : ℕ} : ∀ (n : ℕ), (∀ i < n, (y i).length = L) →
    (∀ i < n, ∀ us m, us.length = off + i * L →
      body (st us (m + L)) i = .ok (st (us ++ y i) m)) →
    ∀ us m, us.length = off →
      (List.range n).foldlM body (st us (m + n * L)) = .ok (st (us ++ (List.range n).flatMap y) m)
  | 0, _, _, us, m, _ => by simp [pure, Except.pure]
  | n + 1, hL, h, us, m, hus => by
    have ih := fold_fill st n (fun i hi => hL i (by omega)) (fun i hi => h i (by omega)) us (m + L) hus
    rw [List.range_succ, List.foldlM_append, Nat.succ_mul,
      show m + (n * L + L) = m + L + n * L by omega, ih]
    simp only [bind, Except.bind, List.foldlM_cons, List.foldlM_nil]
    have hlen : (us ++ (List.range n).flatMap y).length = off + n * L := by
      rw [List.length_append, hus, List.length_flatMap]
      congr 1
      have : (List.range n).map (fun i => (y i).length) = (List.range n).map fun _ => L :=
        List.map_congr_left fun i hi => hL i (by have := List.mem_range.1 hi; omega)
      rw [this]; simp
    rw [h n (by omega) _ m hlen, List.flatMap_append]
    simp [pure, Except.pure, List.append_assoc]

/-- A loop in which one step fails whatever the state fails. -/
theorem fold_error {S : Type} {body : S → β → Except String S} {l : List β} {b : β} (hb : b ∈ l)
    (h : ∀ s, ∃ e, body s b = .error e) (s : S) : ∃ e, l.foldlM body s = .error e := by
  induction l generalizing s with
  | nil => simp at hb
  | cons a l ih =>
    rw [List.foldlM_cons]
    simp only [bind, Except.bind]
    cases ha : body s a with
    | error e => exact ⟨e, rfl⟩
    | ok s' =>
      rcases List.mem_cons.1 hb with rfl | hb
      · obtain ⟨e, he⟩ := h s; rw [ha] at he; cases he
      · exact ih hb s'

theorem mapM_ok {f : ℕ → Except String β} {y : ℕ → β} : ∀ (l : List ℕ),
    (∀ i ∈ l, f i = .ok (y i)) → l.mapM f = .ok (l.map y)
  | [], _ => by simp [pure, Except.pure]
  | i :: l, h => by
    rw [List.mapM_cons, h i (by simp), mapM_ok l fun j hj => h j (by simp [hj])]
    simp [bind, Except.bind, pure, Except.pure]

/-! ### C88: gathering -/

theorem copyMesh_ok {w d N : ℕ} (hw : 0 < w) (hd : 0 < d) (p : List (Fin d → α))
    {t : List (List ℕ)} (hv : Valid w N t) :
    copyMesh w d (flatPts p) (flatCells t) = .ok (flatPts p, flatCells t) := by
  unfold copyMesh
  rw [memcpy_all _ (by rw [flatPts_len, Nat.mul_div_cancel _ hd]),
    memcpy_all _ (by rw [flatCells_len hv, Nat.mul_div_cancel _ hw])]
  rfl

theorem copyVertex_ok [Zero α] {d : ℕ} (p : List (Fin d → α)) {v : ℕ} (hv : v < p.length)
    (us : List α) (m : ℕ) :
    copyVertex d (flatPts p) (us ++ List.replicate (m + d) 0, us.length) (v : ℤ) =
      .ok ((us ++ List.ofFn p[v]) ++ List.replicate m 0, (us ++ List.ofFn p[v]).length) := by
  have key := fold_fill (α := α) (fun us m => (us ++ List.replicate m (0 : α), us.length))
    (body := fun s (j : ℕ) => (do
      let x ← rd (flatPts p) ((d : ℤ) * v + j)
      let tmp ← wr s.1 s.2 x
      return (tmp, s.2 + 1) : Except String (List α × ℕ)))
    (y := fun j => if h : j < d then [p[v] ⟨j, h⟩] else []) (off := us.length) (L := 1) d
    (by intro i hi; simp [hi])
    (by
      intro i hi us' m' _
      have e : (d : ℤ) * v + i = ((v * d + i : ℕ) : ℤ) := by push_cast; ring
      rw [e, rd_nat _ _ (flatPts_get p v hv ⟨i, hi⟩)]
      simp only [bind, Except.bind, pure, Except.pure]
      rw [wr_append]
      simp [hi]) us m rfl
  rw [Nat.mul_one] at key
  unfold copyVertex
  have hy : ((List.range d).flatMap fun j => if h : j < d then [p[v] ⟨j, h⟩] else []) =
      List.ofFn p[v] := by
    apply List.ext_getElem?
    intro k
    have e : ((List.range d).flatMap fun j => if h : j < d then [p[v] ⟨j, h⟩] else []) =
        (List.range d).pmap (fun j h => p[v] ⟨j, h⟩) (by simp) := by
      rw [List.flatMap_def, ← List.pmap_eq_map (p := fun j => j < d) (by simp)]
      have : ∀ (l : List ℕ) (h : ∀ j ∈ l, j < d),
          (l.pmap (fun j _ => if h : j < d then [p[v] ⟨j, h⟩] else []) h).flatten =
            l.pmap (fun j h => p[v] ⟨j, h⟩) h := by
        intro l h
        induction l with
        | nil => rfl
        | cons a l ih =>
          simp only [List.pmap_cons, List.flatten_cons, ih fun j hj => h j (by simp [hj])]
          simp [h a (by simp)]
      exact this _ _
    rw [e]
    simp only [List.getElem?_pmap]
    by_cases hk : k < d
    · simp [hk]
    · simp [hk]
  rw [hy] at key
  exact key

theorem gather_aux [Zero α] {w d : ℕ} (hw : 0 < w) (p : List (Fin d → α)) (t : List (List ℕ))
    (hv : Valid w p.length t) :
    gather w d (flatPts p) (flatCells t) =
      .ok (t.flatten.flatMap fun v => if h : v < p.length then List.ofFn p[v] else []) := by
  unfold gather
  rw [flatCells_len hv, Nat.mul_div_cancel _ hw]
  have hy : ∀ v, v < p.length → (if h : v < p.length then List.ofFn p[v] else ([] : List α)).length = d := by
    intro v h; simp [h]
  have cell : ∀ i < t.length, ∀ (us : List α) (m : ℕ), us.length = 0 + i * (w * d) →
      gatherCell w d (flatPts p) (flatCells t) (us ++ List.replicate (m + w * d) 0, us.length) i =
        .ok ((us ++ (t.getD i []).flatMap fun v => if h : v < p.length then List.ofFn p[v] else []) ++
          List.replicate m 0, (us ++ (t.getD i []).flatMap fun v =>
            if h : v < p.length then List.ofFn p[v] else []).length) := by
    intro i hi us m _
    have hr := hv _ (List.getElem_mem hi)
    have hget : t.getD i [] = t[i] := by simp [hi]
    unfold gatherCell
    rw [mapM_ok (y := fun c => ((t[i].getD c 0 : ℕ) : ℤ)) _ (by
      intro c hc
      have hc := List.mem_range.1 hc
      obtain ⟨hl, e⟩ := flatCells_get hv i hi c hc
      rw [rd_nat _ _ e]; simp [hl])]
    simp only [bind, Except.bind]
    have hrow : (List.range w).map (fun c => ((t[i].getD c 0 : ℕ) : ℤ)) =
        t[i].map fun (v : ℕ) => (v : ℤ) := by
      apply List.ext_getElem
      · simp [hr.1]
      · intro c h1 h2
        have hc : c < t[i].length := by simpa using h2
        simp [hc]
    rw [hrow, List.foldlM_map]
    have := fold_list (α := α) (fun us m => (us ++ List.replicate m (0 : α), us.length))
      (body := fun s (v : ℕ) => copyVertex d (flatPts p) s (v : ℤ))
      (y := fun v => if h : v < p.length then List.ofFn p[v] else []) (L := d) t[i]
      (by
        intro v hv' us m
        have h := hr.2 v hv'
        rw [copyVertex_ok p h]; simp [h]) us m
    rw [hr.1] at this
    rw [hget]
    exact this
  have := fold_fill (α := α) (fun us m => (us ++ List.replicate m (0 : α), us.length))
    (body := gatherCell w d (flatPts p) (flatCells t))
    (y := fun i => (t.getD i []).flatMap fun v => if h : v < p.length then List.ofFn p[v] else [])
    (off := 0) (L := w * d) t.length
    (by
      intro i hi
      have hr := hv _ (List.getElem_mem hi)
      rw [show t.getD i [] = t[i] by simp [hi], List.length_flatMap]
      have : t[i].map (fun v => (if h : v < p.length then List.ofFn p[v] else ([] : List α)).length) =
          t[i].map fun _ => d := List.map_congr_left fun v hv' => hy v (hr.2 v hv')
      rw [this]; simp [hr.1])
    cell [] 0 rfl
  simp only [List.nil_append, Nat.zero_add, List.length_nil] at this
  rw [Nat.mul_assoc, this]
  simp only [bind, Except.bind, pure, Except.pure, List.replicate_zero, List.append_nil]
  congr 1
  have e : (List.range t.length).map (fun i => t.getD i []) = t := by
    apply List.ext_getElem
    · simp
    · intro i h1 h2; simp [h2]
  conv_rhs => rw [← e]
  generalize (fun v => if h : v < p.length then List.ofFn p[v] else ([] : List α)) = f
  generalize List.range t.length = l
  induction l with
  | nil => simp
  | cons a l ih => simp only [List.flatMap_cons, List.map_cons, List.flatten_cons, List.flatMap_append, ih]

theorem flatPts_map {d : ℕ} {γ : Type} (l : List γ) (f : γ → Fin d → α) :
    flatPts (l.map f) = l.flatMap fun v => List.ofFn (f v) := by
  unfold flatPts
  rw [List.map_map, List.flatMap_def]; rfl

/-- **C88 (gathering).** On a valid mesh the loops of `remove_external_entities2/3` stay inside all
buffers and collect the coordinates of the vertices of every entity, one entity after another. -/
theorem C88_gather [Zero α] {w d : ℕ} (hw : 0 < w) (p : List (Fin d → α)) (t : List (List ℕ))
    (hv : Valid w p.length t) :
    gather w d (flatPts p) (flatCells t) = .ok (flatPts (t.flatten.map fun (v : ℕ) => p.getD v 0)) := by
  rw [gather_aux hw p t hv, flatPts_map]
  congr 1
  rw [List.flatMap_def, List.flatMap_def]
  congr 1
  apply List.map_congr_left
  intro v hm
  obtain ⟨r, hr, hvr⟩ := List.mem_flatten.1 hm
  have := (hv r hr).2 v hvr
  simp [this]

theorem flatPts_eq_flat {d : ℕ} (p : List (Sdf.Pt d)) : flatPts p = Sdf.flat p := by
  unfold flatPts Sdf.flat
  rw [List.flatMap_def]

/-- **C88 (2-D).** `remove_external_entities2` on a valid triangulation returns, for every entity and
every one of its vertices in order, the signed distance of the vertex to the rectangle. -/
theorem C88_remove_external2 (p : List (Sdf.Pt 2)) (t : List (List ℕ)) (hv : Valid 3 p.length t)
    (x1 x2 y1 y2 : ℝ) :
    removeExternal2 (flatPts p) (flatCells t) x1 x2 y1 y2 =
      .ok (t.flatten.map fun (v : ℕ) => Sdf.drectangle x1 x2 y1 y2 (p.getD v 0)) := by
  unfold removeExternal2
  rw [copyMesh_ok (by norm_num) (by norm_num) p hv]
  simp only [bind, Except.bind, pure, Except.pure]
  rw [C88_gather (by norm_num) p t hv]
  simp only [flatPts_eq_flat]
  rw [Sdf.C21_rectangle, List.map_map]
  rfl

/-- **C88 (3-D).** Likewise for tetrahedra and the block. -/
theorem C88_remove_external3 (p : List (Sdf.Pt 3)) (t : List (List ℕ)) (hv : Valid 4 p.length t)
    (x1 x2 y1 y2 z1 z2 : ℝ) :
    removeExternal3 (flatPts p) (flatCells t) x1 x2 y1 y2 z1 z2 =
      .ok (t.flatten.map fun (v : ℕ) => Sdf.dblock x1 x2 y1 y2 z1 z2 (p.getD v 0)) := by
  unfold removeExternal3
  rw [copyMesh_ok (by norm_num) (by norm_num) p hv]
  simp only [bind, Except.bind, pure, Except.pure]
  rw [C88_gather (by norm_num) p t hv]
  simp only [flatPts_eq_flat]
  rw [Sdf.C21_block, List.map_map]
  rfl

/-! ### dihedral angles -/

theorem vec3_ok (p : List (Fin 3 → α)) {v : ℕ} (hv : v < p.length) :
    vec3 (flatPts p) (v : ℤ) = .ok p[v] := by
  have g0 := flatPts_get p v hv 0
  have g1 := flatPts_get p v hv 1
  have g2 := flatPts_get p v hv 2
  unfold vec3
  rw [show ((v : ℤ) * 3 + 2) = ((v * 3 + 2 : ℕ) : ℤ) by push_cast; ring,
    show ((v : ℤ) * 3 + 1) = ((v * 3 + 1 : ℕ) : ℤ) by push_cast; ring,
    show ((v : ℤ) * 3) = ((v * 3 + 0 : ℕ) : ℤ) by push_cast; ring]
  rw [rd_nat _ _ (by simpa using g0), rd_nat _ _ (by simpa using g1), rd_nat _ _ (by simpa using g2)]
  simp only [bind, Except.bind, pure, Except.pure]
  congr 1
  ext j
  fin_cases j <;> rfl

/-- The six values of a cell with corner vertices `q 0 .. q 3`: edge `i` of the table against edge `5 - i`. -/
def cellValues {V : Type} (ang : (p0 p1 p2 p3 : V) → β) (q : ℕ → V) : List β :=
  [ang (q 2) (q 3) (q 0) (q 1), ang (q 1) (q 3) (q 0) (q 2), ang (q 1) (q 2) (q 0) (q 3),
   ang (q 0) (q 3) (q 1) (q 2), ang (q 0) (q 2) (q 1) (q 3), ang (q 0) (q 1) (q 2) (q 3)]

theorem angleStep_ok [Zero α] (z : β) (ang : (p0 p1 p2 p3 : Fin 3 → α) → β) (p : List (Fin 3 → α))
    (t : List (List ℕ)) (hv : Valid 4 p.length t) (c : ℕ) (hc : c < t.length) (i : ℕ) (hi : i < 6)
    (us : List β) (m : ℕ) (hus : us.length = c * 6 + i) :
    angleStep ang (flatPts p) (flatCells t) c (us ++ List.replicate (m + 1) z) i =
      .ok ((us ++ ((cellValues ang fun k => p.getD (t[c].getD k 0) 0)[i]?).toList) ++ List.replicate m z) := by
  have hr := hv _ (List.getElem_mem hc)
  have get : ∀ k, k < 4 → rd (flatCells t) ((4 * c + k : ℕ) : ℤ) = .ok ((t[c].getD k 0 : ℕ) : ℤ) := by
    intro k hk
    obtain ⟨hl, e⟩ := flatCells_get hv c hc k hk
    rw [Nat.mul_comm 4 c, rd_nat _ _ e]
    simp [hl]
  have pt : ∀ k, k < 4 → vec3 (flatPts p) ((t[c].getD k 0 : ℕ) : ℤ) = .ok (p.getD (t[c].getD k 0) 0) := by
    intro k hk
    have hk' : k < t[c].length := by omega
    have hm : t[c].getD k 0 < p.length := by
      rw [List.getD_eq_getElem _ _ hk']; exact hr.2 _ (List.getElem_mem hk')
    rw [vec3_ok p hm, List.getD_eq_getElem _ _ hm]
  unfold angleStep
  have hw : ∀ x, wr (us ++ List.replicate (m + 1) z) (c * 6 + i) x = .ok ((us ++ [x]) ++ List.replicate m z) := by
    intro x; rw [← hus, wr_append]
  simp only [hw]
  have hi' : i = 0 ∨ i = 1 ∨ i = 2 ∨ i = 3 ∨ i = 4 ∨ i = 5 := by omega
  rcases hi' with rfl | rfl | rfl | rfl | rfl | rfl <;>
  · simp only [Simplex.edges, List.getD_eq_getElem?_getD, List.getElem?_cons_zero, List.getElem?_cons_succ,
      Option.getD_some, Nat.reduceSub]
    simp only [get 0 (by norm_num), get 1 (by norm_num), get 2 (by norm_num), get 3 (by norm_num),
      bind, Except.bind, pt 0 (by norm_num), pt 1 (by norm_num), pt 2 (by norm_num), pt 3 (by norm_num)]
    rfl

/-- **C88 (dihedral angles).** On a valid tetrahedral mesh the C++ loop stays inside its buffers and
returns six values per cell, in the order of the cells. -/
theorem C88_dihedral [Zero α] (z : β) (ang : (p0 p1 p2 p3 : Fin 3 → α) → β) (p : List (Fin 3 → α))
    (t : List (List ℕ)) (hv : Valid 4 p.length t) :
    dihedral z ang (flatPts p) (flatCells t) =
      .ok (t.flatMap fun r => cellValues ang fun k => p.getD (r.getD k 0) 0) := by
  unfold dihedral
  rw [copyMesh_ok (by norm_num) (by norm_num) p hv]
  simp only [bind, Except.bind]
  rw [flatCells_len hv, Nat.mul_div_cancel _ (by norm_num)]
  have cell : ∀ c < t.length, ∀ (us : List β) (m : ℕ), us.length = 0 + c * 6 →
      (List.range 6).foldlM (angleStep ang (flatPts p) (flatCells t) c) (us ++ List.replicate (m + 6) z) =
        .ok ((us ++ cellValues ang fun k => p.getD ((t.getD c []).getD k 0) 0) ++ List.replicate m z) := by
    intro c hc us m hus
    have := fold_fill (α := β) (fun us m => us ++ List.replicate m z)
      (body := angleStep ang (flatPts p) (flatCells t) c)
      (y := fun i => ((cellValues ang fun k => p.getD (t[c].getD k 0) 0)[i]?).toList)
      (off := c * 6) (L := 1) 6
      (by
        intro i hi
        have hi' : i < (cellValues ang fun k => p.getD (t[c].getD k 0) 0).length := by simpa [cellValues] using hi
        rw [List.getElem?_eq_getElem hi']; rfl)
      (by
        intro i hi us m h
        exact angleStep_ok z ang p t hv c hc i hi us m (by omega)) us m (by omega)
    rw [show t.getD c [] = t[c] by simp [hc]]
    exact this
  have := fold_fill (α := β) (fun us m => us ++ List.replicate m z)
    (body := fun dh c => (List.range 6).foldlM (angleStep ang (flatPts p) (flatCells t) c) dh)
    (y := fun c => cellValues ang fun k => p.getD ((t.getD c []).getD k 0) 0)
    (off := 0) (L := 6) t.length (by intro i hi; rfl) cell [] 0 rfl
  simp only [List.nil_append, Nat.zero_add, List.replicate_zero, List.append_nil] at this
  rw [this]
  congr 1
  have e : (List.range t.length).map (fun i => t.getD i []) = t := by
    apply List.ext_getElem
    · simp
    · intro i h1 h2; simp [h2]
  conv_rhs => rw [← e]
  rw [List.flatMap_map]

/-- The angles used by `sliver_removal`, `Sliver.allAngles`, are those the buffers give. -/
theorem C88_dihedral_sliver (p : List (Fin 3 → ℝ)) (t : List (List ℕ)) (hv : Valid 4 p.length t) :
    dihedral none Sliver.angleOrNan (flatPts p) (flatCells t) = Sliver.allAngles p t := by
  rw [C88_dihedral none _ p t hv]
  have row : ∀ r ∈ t, Sliver.rowAngles p r =
      .ok (cellValues Sliver.angleOrNan fun k => p.getD (r.getD k 0) 0) := by
    intro r hr
    obtain ⟨hl, hm⟩ := hv r hr
    match r, hl with
    | [a, b, c, e], _ =>
      have ha := hm a (by simp)
      have hb := hm b (by simp)
      have hc := hm c (by simp)
      have he := hm e (by simp)
      simp only [Sliver.rowAngles, Simplex.corners, item, List.getElem?_cons_zero, List.getElem?_cons_succ,
        bind, Except.bind, List.getElem?_eq_getElem ha, List.getElem?_eq_getElem hb,
        List.getElem?_eq_getElem hc, List.getElem?_eq_getElem he, pure, Except.pure]
      simp only [cellValues, List.getD_cons_zero, List.getD_cons_succ, List.getD_eq_getElem _ _ ha,
        List.getD_eq_getElem _ _ hb, List.getD_eq_getElem _ _ hc, List.getD_eq_getElem _ _ he]
      rfl
  unfold Sliver.allAngles
  have : ∀ (l : List (List ℕ)), (∀ r ∈ l, r ∈ t) → l.mapM (Sliver.rowAngles p) =
      .ok (l.map fun r => cellValues Sliver.angleOrNan fun k => p.getD (r.getD k 0) 0) := by
    intro l
    induction l with
    | nil => intro _; rfl
    | cons r l ih =>
      intro h
      rw [List.mapM_cons, row r (h r (by simp)), ih fun r' h' => h r' (by simp [h'])]
      rfl
  rw [this t fun _ h => h]
  simp only [bind, Except.bind, pure, Except.pure, List.flatMap_def]

/-! ### the gradients -/

theorem load3_ok (p : List (Fin 3 → α)) (i : ℕ) (hi : i < p.length) : load3 (flatPts p) i = .ok p[i] := by
  have g0 := flatPts_get p i hi 0
  have g1 := flatPts_get p i hi 1
  have g2 := flatPts_get p i hi 2
  unfold load3
  rw [Nat.mul_comm 3 i]
  rw [rd_nat _ _ (by simpa using g0), rd_nat _ _ (by simpa using g1), rd_nat _ _ (by simpa using g2)]
  simp only [bind, Except.bind, pure, Except.pure]
  congr 1
  ext j
  fin_cases j <;> rfl

theorem store3_ok (z : α) (us : List α) (m i : ℕ) (v : Fin 3 → α) (h : us.length = i * 3) :
    store3 (us ++ List.replicate (m + 3) z) i v = .ok ((us ++ List.ofFn v) ++ List.replicate m z) := by
  unfold store3
  have h0 : 3 * i = us.length := by omega
  have h1 : 3 * i + 1 = (us ++ [v 0]).length := by simp; omega
  have h2 : 3 * i + 2 = (us ++ [v 0] ++ [v 1]).length := by simp; omega
  rw [h2, h1, h0, show m + 3 = m + 2 + 1 by omega, wr_append]
  simp only [bind, Except.bind]
  rw [show m + 2 = m + 1 + 1 by omega, wr_append]
  simp only []
  rw [wr_append]
  simp [List.ofFn_succ]

theorem map_zip_range {γ : Type} (f : ℕ → γ) (l : List γ) (h : ∀ i (hi : i < l.length), f i = l[i]) :
    (List.range l.length).map f = l := by
  apply List.ext_getElem
  · simp
  · intro i h1 h2; simp [h i h2]

/-- **C88 (volume gradient).** For point arrays of the same length the result is the array of the
gradients, row by row, and no access leaves a buffer. -/
theorem C88_volume_grad {K : Type} [Field K] (q : List ((Fin 3 → K) × (Fin 3 → K) × (Fin 3 → K))) :
    volumeGrad (flatPts (q.map (·.1))) (flatPts (q.map (·.2.1))) (flatPts (q.map (·.2.2))) =
      .ok (flatPts (q.map fun a => Simplex.volumeGrad a.1 a.2.1 a.2.2)) := by
  unfold volumeGrad
  have hn : (flatPts (q.map (·.1))).length / 3 = q.length := by
    rw [flatPts_len, List.length_map, Nat.mul_div_cancel _ (by norm_num)]
  simp only [hn]
  rw [memcpy_all _ (by rw [flatPts_len, List.length_map, Nat.mul_comm]),
    memcpy_all _ (by rw [flatPts_len, List.length_map, Nat.mul_comm]),
    memcpy_all _ (by rw [flatPts_len, List.length_map, Nat.mul_comm])]
  simp only [bind, Except.bind]
  have := fold_fill (α := K) (fun us m => us ++ List.replicate m 0)
    (body := fun g i => (do
      let a ← load3 (flatPts (q.map (·.1))) i
      let b ← load3 (flatPts (q.map (·.2.1))) i
      let c ← load3 (flatPts (q.map (·.2.2))) i
      store3 g i (Simplex.volumeGrad a b c)))
    (y := fun i => if h : i < q.length then List.ofFn (Simplex.volumeGrad q[i].1 q[i].2.1 q[i].2.2) else [])
    (off := 0) (L := 3) q.length
    (by intro i hi; simp [hi])
    (by
      intro i hi us m hus
      rw [load3_ok _ i (by simpa using hi), load3_ok _ i (by simpa using hi), load3_ok _ i (by simpa using hi)]
      simp only [bind, Except.bind, List.getElem_map]
      rw [store3_ok 0 us m i _ (by omega)]
      simp [hi]) [] 0 rfl
  simp only [List.nil_append, Nat.zero_add, List.replicate_zero, List.append_nil] at this
  rw [Nat.mul_comm 3 q.length]
  refine Eq.trans this ?_
  congr 1
  unfold flatPts
  rw [List.flatMap_def]
  congr 1
  have := map_zip_range
    (fun i => if h : i < q.length then List.ofFn (Simplex.volumeGrad q[i].1 q[i].2.1 q[i].2.2) else [])
    ((q.map fun a => Simplex.volumeGrad a.1 a.2.1 a.2.2).map List.ofFn)
    (by intro i hi; simp at hi; simp [hi])
  simpa using this

/-- **C88 (circumsphere gradient).** Likewise. -/
theorem C88_circum_grad {K : Type} [Field K]
    (q : List ((Fin 3 → K) × (Fin 3 → K) × (Fin 3 → K) × (Fin 3 → K))) :
    circumGrad (flatPts (q.map (·.1))) (flatPts (q.map (·.2.1))) (flatPts (q.map (·.2.2.1)))
        (flatPts (q.map (·.2.2.2))) =
      .ok (flatPts (q.map fun a => Simplex.circumGrad a.1 a.2.1 a.2.2.1 a.2.2.2)) := by
  unfold circumGrad
  have hn : (flatPts (q.map (·.1))).length / 3 = q.length := by
    rw [flatPts_len, List.length_map, Nat.mul_div_cancel _ (by norm_num)]
  simp only [hn]
  rw [memcpy_all _ (by rw [flatPts_len, List.length_map, Nat.mul_comm]),
    memcpy_all _ (by rw [flatPts_len, List.length_map, Nat.mul_comm]),
    memcpy_all _ (by rw [flatPts_len, List.length_map, Nat.mul_comm]),
    memcpy_all _ (by rw [flatPts_len, List.length_map, Nat.mul_comm])]
  simp only [bind, Except.bind]
  have := fold_fill (α := K) (fun us m => us ++ List.replicate m 0)
    (body := fun g i => (do
      let a ← load3 (flatPts (q.map (·.1))) i
      let b ← load3 (flatPts (q.map (·.2.1))) i
      let c ← load3 (flatPts (q.map (·.2.2.1))) i
      let e ← load3 (flatPts (q.map (·.2.2.2))) i
      store3 g i (Simplex.circumGrad a b c e)))
    (y := fun i => if h : i < q.length then
      List.ofFn (Simplex.circumGrad q[i].1 q[i].2.1 q[i].2.2.1 q[i].2.2.2) else [])
    (off := 0) (L := 3) q.length
    (by intro i hi; simp [hi])
    (by
      intro i hi us m hus
      rw [load3_ok _ i (by simpa using hi), load3_ok _ i (by simpa using hi), load3_ok _ i (by simpa using hi),
        load3_ok _ i (by simpa using hi)]
      simp only [bind, Except.bind, List.getElem_map]
      rw [store3_ok 0 us m i _ (by omega)]
      simp [hi]) [] 0 rfl
  simp only [List.nil_append, Nat.zero_add, List.replicate_zero, List.append_nil] at this
  refine Eq.trans this ?_
  congr 1
  unfold flatPts
  rw [List.flatMap_def]
  congr 1
  have := map_zip_range
    (fun i => if h : i < q.length then
      List.ofFn (Simplex.circumGrad q[i].1 q[i].2.1 q[i].2.2.1 q[i].2.2.2) else [])
    ((q.map fun a => Simplex.circumGrad a.1 a.2.1 a.2.2.1 a.2.2.2).map List.ofFn)
    (by intro i hi; simp at hi; simp [hi])
  simpa using this

/-! ### unique_edges -/

/-- **C88 (edges).** On the buffer of an `(N, 2)` array `unique_edges` sees exactly the `N` pairs. -/
theorem C88_unique_edges (e : List (ℕ × ℕ)) :
    uniqueEdges (e.flatMap fun a => [a.1, a.2]) = .ok (Topology.uniqueEdges e) := by
  unfold uniqueEdges
  rw [memcpy_all _ rfl]
  have hf : (e.flatMap fun a => [a.1, a.2]) = flatPts (e.map fun a => (![a.1, a.2] : Fin 2 → ℕ)) := by
    rw [flatPts_map]; simp [List.ofFn_succ]
  rw [hf]
  have hl : ((flatPts (e.map fun a => (![a.1, a.2] : Fin 2 → ℕ))).length + 1) / 2 = e.length := by
    rw [flatPts_len, List.length_map]; omega
  simp only [bind, Except.bind, hl]
  rw [mapM_ok (y := fun m => e.getD m (0, 0)) _ (by
    intro m hm
    have hm := List.mem_range.1 hm
    have hm' : m < (e.map fun a => (![a.1, a.2] : Fin 2 → ℕ)).length := by simpa using hm
    have g0 := flatPts_get _ m hm' 0
    have g1 := flatPts_get _ m hm' 1
    unfold readPair
    rw [Nat.mul_comm 2 m, rd_nat _ _ (by simpa using g0), rd_nat _ _ (by simpa using g1)]
    simp [hm, pure, Except.pure, bind, Except.bind])]
  rw [map_zip_range _ e (by intro i hi; simp [hi])]
  rfl

/-- A buffer of odd length is read one element past its end. -/
theorem C88_unique_edges_odd (b : List ℕ) (h : b.length % 2 = 1) : uniqueEdges b = .error oob := by
  unfold uniqueEdges
  rw [memcpy_all _ rfl]
  simp only [bind, Except.bind]
  have hl : (b.length + 1) / 2 = b.length / 2 + 1 := by omega
  rw [hl, List.range_succ, List.mapM_append]
  have : ∀ (l : List ℕ), (∀ m ∈ l, m < b.length / 2) → ∃ y, l.mapM (readPair b) = .ok y := by
    intro l hl'
    refine ⟨_, mapM_ok (y := fun m => (b.getD (2 * m) 0, b.getD (2 * m + 1) 0)) l ?_⟩
    intro m hm
    have := hl' m hm
    have h1 : 2 * m + 1 < b.length := by omega
    have h0 : 2 * m < b.length := by omega
    unfold readPair
    rw [rd_nat _ _ (List.getElem?_eq_getElem h0), rd_nat _ _ (List.getElem?_eq_getElem h1)]
    simp [h0, h1, pure, Except.pure, bind, Except.bind]
  obtain ⟨y, hy⟩ := this _ (fun m hm => List.mem_range.1 hm)
  rw [hy]
  have h0 : 2 * (b.length / 2) < b.length := by omega
  have hlast : readPair b (b.length / 2) = .error oob := by
    unfold readPair
    rw [rd_nat _ _ (List.getElem?_eq_getElem h0), rd_none _ _ (by omega)]
    rfl
  simp only [bind, Except.bind, List.mapM_cons, hlast]

/-! ### what is not checked -/

theorem copyVertex_oob {d : ℕ} (hd : 0 < d) (p : List (Fin d → α)) {v : ℕ} (hv : p.length ≤ v)
    (s : List α × ℕ) : ∃ e, copyVertex d (flatPts p) s (v : ℤ) = .error e := by
  unfold copyVertex
  refine fold_error (b := 0) (by simpa using hd) (fun s => ?_) s
  refine ⟨oob, ?_⟩
  rw [show ((d : ℤ) * v + (0 : ℕ)) = ((d * v : ℕ) : ℤ) by push_cast; ring,
    rd_none _ _ (by rw [flatPts_len, Nat.mul_comm]; exact Nat.mul_le_mul_left _ hv)]
  rfl

/-- **C88 (the buffers).** In this model a write succeeds only inside the buffer, changes that entry and nothing else, and a read
succeeds only inside the buffer: the results `.ok` above say that no access of these loops is out of bounds. -/
theorem C88_in_bounds (b : List α) : (∀ (i : ℕ) (v : α) (c : List α), wr b i v = .ok c →
      i < b.length ∧ c.length = b.length ∧ c[i]? = some v ∧ ∀ j, j ≠ i → c[j]? = b[j]?) ∧
    (∀ (i : ℕ) (v : α), i < b.length → ∃ c, wr b i v = .ok c) ∧
    ∀ (i : ℤ) (v : α), rd b i = .ok v ↔ 0 ≤ i ∧ b[i.toNat]? = some v := by
  refine ⟨fun i v c h => ?_, fun i v h => ⟨_, by unfold wr; rw [if_pos h]⟩, fun i v => ?_⟩
  · unfold wr at h
    split at h
    · rename_i hi
      injection h with h
      subst h
      exact ⟨hi, by simp, by simp [hi], fun j hj => by simp [List.getElem?_set, Ne.symm hj]⟩
    · simp at h
  · unfold rd
    split
    · cases h : b[i.toNat]? <;> simp_all
    · simp_all

/-- **C88 (unchecked).** A vertex number that is not a vertex makes `remove_external_entities` read
outside the buffer of the points: nothing checks the table. -/
theorem C88_unchecked [Zero α] {w d : ℕ} (hw : 0 < w) (hd : 0 < d) (p : List (Fin d → α))
    (t : List (List ℕ)) (hrect : ∀ r ∈ t, r.length = w) {r : List ℕ} (hr : r ∈ t) {v : ℕ}
    (hvr : v ∈ r) (hv : p.length ≤ v) : ∃ e, gather w d (flatPts p) (flatCells t) = .error e := by
  obtain ⟨N, hN⟩ : ∃ N, ∀ r ∈ t, ∀ v ∈ r, v < N := by
    refine ⟨t.flatten.sum + 1, fun r hr v hvr => ?_⟩
    have := List.single_le_sum (l := t.flatten) (by simp) v (List.mem_flatten.2 ⟨r, hr, hvr⟩)
    omega
  have hval : Valid w N t := fun r hr => ⟨hrect r hr, hN r hr⟩
  unfold gather
  rw [flatCells_len hval, Nat.mul_div_cancel _ hw]
  obtain ⟨i, hi, rfl⟩ := List.mem_iff_getElem.1 hr
  obtain ⟨e, he⟩ := fold_error (body := gatherCell w d (flatPts p) (flatCells t)) (b := i)
    (List.mem_range.2 hi) (fun s => by
      unfold gatherCell
      rw [mapM_ok (y := fun c => ((t[i].getD c 0 : ℕ) : ℤ)) _ (by
        intro c hc
        have hc := List.mem_range.1 hc
        obtain ⟨hl, e⟩ := flatCells_get hval i hi c hc
        rw [rd_nat _ _ e]; simp [hl])]
      simp only [bind, Except.bind]
      obtain ⟨c, hc, rfl⟩ := List.mem_iff_getElem.1 hvr
      refine fold_error (b := ((t[i][c] : ℕ) : ℤ)) ?_ (fun s => copyVertex_oob hd p hv s) s
      have := hrect _ hr
      exact List.mem_map.2 ⟨c, by simp; omega, by simp [hc]⟩)
    (List.replicate (t.length * w * d) 0, 0)
  exact ⟨e, by simp only [he, bind, Except.bind]⟩

/-! ### C89: delaunay2, delaunay3 -/

theorem faceTable_ok (w : ℕ) (faces : List (Fin w → ℕ)) : faceTable w faces = .ok (flatPts faces) := by
  unfold faceTable
  have step : ∀ (f : Fin w → ℕ) (off : ℕ) (us : List ℕ) (m : ℕ), us.length = off →
      (List.finRange w).foldlM (fun out (j : Fin w) => wr out (off + j) (f j))
        (us ++ List.replicate (m + w) 0) = .ok ((us ++ List.ofFn f) ++ List.replicate m 0) := by
    intro f off us m hus
    have gen : ∀ (n : ℕ) (hn : n ≤ w) (m : ℕ), ((List.finRange w).take n).foldlM
        (fun out (j : Fin w) => wr out (off + j) (f j)) (us ++ List.replicate (m + n) 0) =
          .ok ((us ++ (List.ofFn f).take n) ++ List.replicate m 0) := by
      intro n
      induction n with
      | zero => intro _ m; simp [pure, Except.pure]
      | succ n ih =>
        intro hn m
        have hlt : n < (List.finRange w).length := by simpa using hn
        have hlt' : n < (List.ofFn f).length := by simpa using hn
        rw [List.take_add_one, List.getElem?_eq_getElem hlt, Option.toList_some, List.foldlM_append,
          show m + (n + 1) = (m + 1) + n by omega, ih (by omega)]
        simp only [bind, Except.bind, List.foldlM_cons, List.foldlM_nil]
        have e : off + (((List.finRange w)[n] : Fin w) : ℕ) = (us ++ (List.ofFn f).take n).length := by
          simp; omega
        rw [e, wr_append, List.take_add_one, List.getElem?_eq_getElem hlt']
        simp [pure, Except.pure]
    have := gen w le_rfl m
    rwa [List.take_of_length_le (by simp), List.take_of_length_le (by simp)] at this
  have gen : ∀ (fs : List (Fin w → ℕ)) (k : ℕ) (us : List ℕ) (m : ℕ), us.length = k * w →
      (fs.zipIdx k).foldlM (fun out f =>
        (List.finRange w).foldlM (fun out (j : Fin w) => wr out (f.2 * w + j) (f.1 j)) out)
        (us ++ List.replicate (m + fs.length * w) 0) = .ok ((us ++ flatPts fs) ++ List.replicate m 0) := by
    intro fs
    induction fs with
    | nil => intro k us m _; simp [flatPts, pure, Except.pure]
    | cons f fs ih =>
      intro k us m hus
      rw [List.zipIdx_cons, List.foldlM_cons, List.length_cons, Nat.succ_mul, ← Nat.add_assoc,
        step f (k * w) us _ hus]
      simp only [bind, Except.bind]
      rw [ih (k + 1) _ m (by rw [List.length_append, List.length_ofFn, hus, Nat.succ_mul])]
      simp [flatPts]
  have := gen faces 0 [] 0 (by simp)
  simpa using this

theorem rows_flatPts {w : ℕ} (hw : 0 < w) (faces : List (Fin w → ℕ)) :
    rows w (flatPts faces) = faces.map List.ofFn := by
  unfold rows
  rw [flatPts_len, Nat.mul_div_cancel _ hw]
  apply List.ext_getElem
  · simp
  · intro n h1 h2
    have hn : n < faces.length := by simpa using h2
    simp only [List.getElem_map, List.getElem_range]
    apply List.ext_getElem?
    intro j
    rw [List.getElem?_take, List.getElem?_drop]
    by_cases hj : j < w
    · rw [if_pos hj, flatPts_get faces n hn ⟨j, hj⟩]; simp [hj]
    · rw [if_neg hj]; simp [hj]

theorem memcpy_ok (b : List α) {n : ℕ} (h : n ≤ b.length) : memcpy n b = .ok (b.take n) := by
  simp [memcpy, h]

theorem memcpy_oob (b : List α) {n : ℕ} (h : b.length < n) : memcpy n b = .error oob := by
  simp [memcpy, h]

theorem mapM_zip {γ : Type} {f : ℕ → Except String γ} : ∀ (l : List γ) (k : ℕ),
    (∀ i (hi : i < l.length), f (k + i) = .ok l[i]) → (List.range' k l.length).mapM f = .ok l
  | [], _, _ => by simp [pure, Except.pure]
  | a :: l, k, h => by
    have h0 := h 0 (by simp)
    have ih := mapM_zip (f := f) l (k + 1) fun i hi => by
      have := h (i + 1) (by simpa using hi)
      rw [show k + 1 + i = k + (i + 1) by omega, this]; rfl
    rw [List.length_cons, List.range'_succ, List.mapM_cons, ih]
    simp only [Nat.add_zero] at h0
    rw [h0]
    rfl

theorem points_ok {K : Type} (x y : List K) (h : x.length ≤ y.length) :
    (List.range x.length).mapM (pointAt x (y.take x.length)) = .ok (x.zip y) := by
  have hz : (x.zip y).length = x.length := by simp [h]
  have := mapM_zip (f := pointAt x (y.take x.length)) (x.zip y) 0 (by
    intro i hi
    have hx : i < x.length := by omega
    have hy : i < y.length := by omega
    rw [Nat.zero_add]
    unfold pointAt
    rw [rd_nat _ _ (List.getElem?_eq_getElem hx), rd_nat (x := y[i]) _ _ (by
      rw [List.getElem?_take, if_pos hx, List.getElem?_eq_getElem hy])]
    simp [bind, Except.bind, pure, Except.pure])
  rwa [hz, ← List.range_eq_range'] at this

theorem points3_ok {K : Type} (x y z : List K) (hy : x.length ≤ y.length) (hz : x.length ≤ z.length) :
    (List.range x.length).mapM (point3At x (y.take x.length) (z.take x.length)) =
      .ok (x.zip (y.zip z)) := by
  have hl : (x.zip (y.zip z)).length = x.length := by simp [hy, hz]
  have := mapM_zip (f := point3At x (y.take x.length) (z.take x.length)) (x.zip (y.zip z)) 0 (by
    intro i hi
    have h0 : i < x.length := by omega
    have h1 : i < y.length := by omega
    have h2 : i < z.length := by omega
    rw [Nat.zero_add]
    unfold point3At
    rw [rd_nat _ _ (List.getElem?_eq_getElem h0), rd_nat (x := y[i]) _ _ (by
      rw [List.getElem?_take, if_pos h0, List.getElem?_eq_getElem h1]), rd_nat (x := z[i]) _ _ (by
      rw [List.getElem?_take, if_pos h0, List.getElem?_eq_getElem h2])]
    simp [bind, Except.bind, pure, Except.pure])
  rwa [hl, ← List.range_eq_range'] at this

/-- **C89 (2-D).** Compiled with `NDEBUG`, `delaunay2(x, y)` returns one row per finite face of CGAL's
triangulation of the points `(x_i, y_i)`, with the three vertex numbers CGAL reports; excess entries of
`y` are ignored. -/
theorem C89_delaunay2_partial {K : Type} (tri : List (K × K) → List (Fin 3 → ℕ)) (x y : List K)
    (h : x.length ≤ y.length) :
    delaunay2 true tri x y = .ok ((tri (x.zip y)).map List.ofFn) := by
  unfold delaunay2
  rw [memcpy_all x rfl, memcpy_ok y h]
  simp only [bind, Except.bind, Bool.not_true, Bool.false_and, Bool.false_eq_true, if_false, pure, Except.pure]
  rw [points_ok x y h]
  simp only []
  rw [faceTable_ok]
  simp only []
  rw [rows_flatPts (by norm_num)]

/-- **C89 (3-D).** Likewise for `delaunay3(x, y, z)` and the four vertex numbers of the cells. -/
theorem C89_delaunay3_partial {K : Type} (tri : List (K × K × K) → List (Fin 4 → ℕ)) (x y z : List K)
    (hy : x.length ≤ y.length) (hz : x.length ≤ z.length) :
    delaunay3 true tri x y z = .ok ((tri (x.zip (y.zip z))).map List.ofFn) := by
  unfold delaunay3
  rw [memcpy_all x rfl, memcpy_ok y hy, memcpy_ok z hz]
  simp only [bind, Except.bind, Bool.not_true, Bool.false_and, Bool.false_eq_true, if_false, pure, Except.pure]
  rw [points3_ok x y z hy hz]
  simp only []
  rw [faceTable_ok]
  simp only []
  rw [rows_flatPts (by norm_num)]

/-- **C89 is false** of a build without `NDEBUG`: the assertion is inverted, so every call with arrays
of equal length aborts. -/
theorem C89_assert_false {K : Type} (tri : List (K × K) → List (Fin 3 → ℕ)) (x y : List K)
    (h : x.length ≤ y.length) : delaunay2 false tri x y = .error "assertion failed" := by
  unfold delaunay2
  rw [memcpy_all x rfl, memcpy_ok y h]
  simp [bind, Except.bind, h, throw, throwThe, MonadExceptOf.throw]

/-- Likewise in 3-D. -/
theorem C89_assert3_false {K : Type} (tri : List (K × K × K) → List (Fin 4 → ℕ)) (x y z : List K)
    (hy : x.length ≤ y.length) (hz : x.length ≤ z.length) :
    delaunay3 false tri x y z = .error "assertion failed" := by
  unfold delaunay3
  rw [memcpy_all x rfl, memcpy_ok y hy, memcpy_ok z hz]
  simp [bind, Except.bind, hy, hz, throw, throwThe, MonadExceptOf.throw]

/-- **C89 is false** of arrays of different length, with or without `NDEBUG`: a shorter `y` is read
past its end instead of being rejected. -/
theorem C89_short_false {K : Type} (ndebug : Bool) (tri : List (K × K) → List (Fin 3 → ℕ)) (x y : List K)
    (h : y.length < x.length) : delaunay2 ndebug tri x y = .error oob := by
  unfold delaunay2
  rw [memcpy_all x rfl, memcpy_oob y h]
  rfl

theorem C89_short3_false {K : Type} (ndebug : Bool) (tri : List (K × K × K) → List (Fin 4 → ℕ))
    (x y z : List K) (h : y.length < x.length ∨ z.length < x.length) :
    delaunay3 ndebug tri x y z = .error oob := by
  unfold delaunay3
  rw [memcpy_all x rfl]
  by_cases hy : y.length < x.length
  · rw [memcpy_oob y hy]; rfl
  · rw [memcpy_ok y (by omega), memcpy_oob z (by tauto)]; rfl

/-! ### the hypotheses are met -/

/-- Two triangles of the unit square. -/
example : Valid 3 4 [[0, 1, 2], [1, 3, 2]] := by simp [Valid]

example : gather 3 2 (flatPts [(![0, 0] : Fin 2 → ℤ), ![1, 0], ![0, 1]]) (flatCells [[0, 2, 1]]) =
    .ok [0, 0, 0, 1, 1, 0] := by decide +kernel

example : dihedral 0 (fun a b c e : Fin 3 → ℤ => a 0 + 10 * b 0 + 100 * c 0 + 1000 * e 0)
    (flatPts [(![1, 0, 0] : Fin 3 → ℤ), ![2, 0, 0], ![3, 0, 0], ![4, 0, 0]]) (flatCells [[0, 1, 2, 3]]) =
    .ok [2143, 3142, 4132, 3241, 4231, 4321] := by decide +kernel

example : volumeGrad [(0 : ℚ), 0, 0] [1, 0, 0] [0, 1, 0] = .ok [0, 0, 1 / 6] := by decide +kernel

example : uniqueEdges [3, 1, 1, 3, 0, 2] = .ok [(0, 2), (1, 3)] := by decide +kernel

example : uniqueEdges [3, 1, 1] = .error oob := by decide +kernel

example : delaunay2 true (fun _ : List (ℤ × ℤ) => [![0, 1, 2]]) [0, 1, 0] [0, 0, 1] = .ok [[0, 1, 2]] := by
  decide +kernel

example : gather 3 2 (flatPts [(![0, 0] : Fin 2 → ℤ), ![1, 0]]) (flatCells [[0, 2, 1]]) = .error oob := by
  decide +kernel

end SM.Native
