import Verif.Model.NanFl
import Verif.Props.Topology
import Verif.Props.FixMesh
import Verif.Lemmas.FixMesh
import Verif.Lemmas.Binary64
import Verif.Lemmas.Sqrt64
import Mathlib.Tactic.NormNum
import Mathlib.Tactic.Linarith

/-!
# C143: sizing functions that return NaN, infinity or only zeros
-/

namespace SM.NanFl

open Np Topology FixMesh

variable {α : Type} {d : ℕ} {O : Ops α}

/-! ### Specification -/

/-- What IEEE 754 says about NaN, infinities and zeros. `inf` are the two infinities, `pinf` is the positive one. -/
structure IEEE (O : Ops α) (inf pinf : α → Prop) : Prop where
  nan_add : ∀ a b, O.isNan a ∨ O.isNan b → O.isNan (O.add a b)
  nan_sub : ∀ a b, O.isNan a ∨ O.isNan b → O.isNan (O.sub a b)
  nan_mul : ∀ a b, O.isNan a ∨ O.isNan b → O.isNan (O.mul a b)
  nan_div : ∀ a b, O.isNan a ∨ O.isNan b → O.isNan (O.div a b)
  nan_neg : ∀ a, O.isNan a → O.isNan (O.neg a)
  nan_sqrt : ∀ a, O.isNan a → O.isNan (O.sqrt a)
  nan_pw : ∀ n a, n ≠ 0 → O.isNan a → O.isNan (O.pw n a)
  nan_root : ∀ n a, n ≠ 0 → O.isNan a → O.isNan (O.root n a)
  nan_total : ∀ l, (∃ a ∈ l, O.isNan a) → O.isNan (O.total l)
  nan_lt : ∀ a b, O.isNan a ∨ O.isNan b → O.lt a b = false
  zero_nan : ∀ a, O.isZero a → ¬ O.isNan a
  /- infinities -/
  inf_pw : ∀ n a, n ≠ 0 → inf a → inf (O.pw n a)
  inf_total : ∀ l, (∃ a ∈ l, inf a) → inf (O.total l) ∨ O.isNan (O.total l)
  inf_mul : ∀ a b, inf a → ¬ O.isZero b → inf (O.mul a b) ∨ O.isNan (O.mul a b)
  inf_mul_zero : ∀ a b, inf a → O.isZero b → O.isNan (O.mul a b)
  zero_mul_inf : ∀ a b, O.isZero a → inf b → O.isNan (O.mul a b)
  div_inf : ∀ a b, inf b → O.isZero (O.div a b) ∨ O.isNan (O.div a b)
  inf_root : ∀ n a, n ≠ 0 → inf a → inf (O.root n a) ∨ O.isNan (O.root n a)
  /- zeros -/
  zero_root : ∀ n a, n ≠ 0 → O.isZero a → O.isZero (O.root n a)
  zero_pw : ∀ n a, n ≠ 0 → O.isZero a → O.isZero (O.pw n a)
  zero_total : ∀ l, (∀ a ∈ l, O.isZero a) → O.isZero (O.total l)
  zero_mul : ∀ a b, O.isZero a → ¬ inf b → O.isZero (O.mul a b) ∨ O.isNan (O.mul a b)
  div_zero : ∀ a b, O.isZero b → inf (O.div a b) ∨ O.isNan (O.div a b)
  /- the positive infinity -/
  inf_sq : ∀ a, inf a → pinf (O.mul a a)
  pinf_add : ∀ a b, pinf a ∨ pinf b → pinf (O.add a b) ∨ O.isNan (O.add a b)
  pinf_sqrt : ∀ a, pinf a → pinf (O.sqrt a)
  pinf_lt : ∀ a b, pinf a → O.lt a b = false
  lt_pinf : ∀ a b, ¬ pinf a → ¬ O.isNan a → pinf b → O.lt a b

/-- Vertices `a` and `b` of a cell, their midpoint as computed, and the size wanted there. -/
def SizeAt (O : Ops α) (fh : (Fin d → α) → α) (p : List (Fin d → α)) (t : List (List ℕ)) (a b : ℕ) (h : α) : Prop :=
  a < b ∧ (∃ r ∈ t, a ∈ r ∧ b ∈ r) ∧ ∃ pa pb, p[a]? = some pa ∧ p[b]? = some pb ∧ h = fh fun k => O.div (O.add (pa k) (pb k)) O.two

/-- Cells of a 2-D or 3-D mesh: the vertices of each are different and exist. -/
def Cells (d : ℕ) (p : List (Fin d → α)) (t : List (List ℕ)) : Prop := (d = 2 ∨ d = 3) ∧ Simplices (d + 1) t ∧ InRange p t

/-! ### Sums with NaN -/

section
variable {inf pinf : α → Prop}

theorem fold_nan {β : Type} {f : α → β → α} (h1 : ∀ s x, O.isNan s → O.isNan (f s x)) {x : β} (h2 : ∀ s, O.isNan (f s x)) :
    ∀ {l : List β} (_ : x ∈ l) (s : α), O.isNan (l.foldl f s)
  | y :: l, hx, s => by
    have keep : ∀ (l : List β) s, O.isNan s → O.isNan (l.foldl f s) := by
      intro l
      induction l with
      | nil => exact fun s h => h
      | cons z l ih => exact fun s h => ih _ (h1 s z h)
    rcases List.mem_cons.1 hx with rfl | hx
    · exact keep l _ (h2 s)
    · exact fold_nan h1 h2 hx _

theorem coo_nan (hI : IEEE O inf pinf) {l : List (ℕ × ℕ × α)} {i j : ℕ} {v : α} (h : (i, j, v) ∈ l) (hv : O.isNan v) : O.isNan (cooEntry O l i j) := by
  refine fold_nan (f := O.add) (x := v) (fun s x hs => hI.nan_add _ _ (Or.inl hs)) (fun s => hI.nan_add _ _ (Or.inr hv)) ?_ _
  exact List.mem_map.2 ⟨(i, j, v), List.mem_filter.2 ⟨h, by simp⟩, rfl⟩

theorem sumSq_nan (hI : IEEE O inf pinf) {v : Fin d → α} {k : Fin d} (h : O.isNan (v k)) : O.isNan (sumSq O v) :=
  fold_nan (f := fun s k => O.add s (O.mul (v k) (v k))) (x := k) (fun s x hs => hI.nan_add _ _ (Or.inl hs)) (fun s => hI.nan_add _ _ (Or.inr (hI.nan_mul _ _ (Or.inl h)))) (List.mem_finRange k) _

theorem max_nan {x : α} (hx : O.isNan x) : ∀ {l : List α} {a : α}, x = a ∨ x ∈ l → O.isNan (l.foldl (maxNan O) a)
  | [], a, h => by simp only [List.not_mem_nil, or_false] at h; subst h; exact hx
  | b :: l, a, h => by
    rw [List.foldl_cons]
    have keep : ∀ (l : List α) s, O.isNan s → O.isNan (l.foldl (maxNan O) s) := by
      intro l
      induction l with
      | nil => exact fun s h => h
      | cons z l ih => exact fun s h => ih _ (by unfold maxNan; rw [if_pos h]; exact h)
    rcases h with rfl | h
    · exact keep l _ (by unfold maxNan; rw [if_pos hx]; exact hx)
    · rcases List.mem_cons.1 h with rfl | h
      · refine keep l _ ?_
        unfold maxNan
        by_cases ha : O.isNan a
        · rw [if_pos ha]; exact ha
        · rw [if_neg ha, if_pos hx]; exact hx
      · exact max_nan hx (Or.inr h)

/-! ### Forces -/

theorem bars (hc : Cells d p t) : ∃ es, getBars t (d + 1) = .ok es ∧ ∀ a b, (a, b) ∈ es ↔ a < b ∧ ∃ r ∈ t, a ∈ r ∧ b ∈ r := by
  obtain ⟨hd, hs, -⟩ := hc
  rcases hd with rfl | rfl
  · obtain ⟨es, h1, h2, -⟩ := C34_bars2 hs
    exact ⟨es, h1, h2⟩
  · obtain ⟨es, h1, h2, -⟩ := C34_bars3 hs
    exact ⟨es, h1, h2⟩

theorem mapM_all {β γ : Type} {f : β → Except String γ} : ∀ {l : List β}, (∀ x ∈ l, ∃ y, f x = .ok y) → ∃ ys, l.mapM f = .ok ys ∧ ∀ y, y ∈ ys ↔ ∃ x ∈ l, f x = .ok y
  | [], _ => ⟨[], rfl, by simp⟩
  | a :: l, h => by
    obtain ⟨y, hy⟩ := h a (by simp)
    obtain ⟨ys, hys, hm⟩ := mapM_all (l := l) fun x hx => h x (by simp [hx])
    refine ⟨y :: ys, by simp only [List.mapM_cons, hy, hys, bind, Except.bind, pure, Except.pure], fun z => ?_⟩
    rw [List.mem_cons, hm]
    constructor
    · rintro (rfl | ⟨x, hx, h⟩)
      · exact ⟨a, by simp, hy⟩
      · exact ⟨x, by simp [hx], h⟩
    · rintro ⟨x, hx, h'⟩
      rcases List.mem_cons.1 hx with hx | hx
      · subst hx
        exact Or.inl (Except.ok.inj (h'.symm.trans hy))
      · exact Or.inr ⟨x, hx, h'⟩

theorem barOf_ok {p : List (Fin d → α)} {a b : ℕ} {pa pb : Fin d → α} (ha : p[a]? = some pa) (hb : p[b]? = some pb) : barOf p (a, b) = .ok ((a, b), pa, pb) := by
  simp only [barOf, item_ok.2 ha, item_ok.2 hb, bind, Except.bind, pure, Except.pure]

/-- All about the forces: one row per vertex; a bar with a force that is NaN makes both ends NaN. -/
theorem forces (hI : IEEE O inf pinf) {p : List (Fin d → α)} {t : List (List ℕ)} (hc : Cells d p t) (eps : α) (fh : (Fin d → α) → α) (m : α) :
    ∃ F bs, computeForces O eps p t fh m = .ok F ∧ F.length = p.length ∧
      (∀ a b pa pb, (((a, b), pa, pb) : Bar α d) ∈ bs ↔ (a < b ∧ ∃ r ∈ t, a ∈ r ∧ b ∈ r) ∧ p[a]? = some pa ∧ p[b]? = some pb) ∧
      ∀ x ∈ bs, O.isNan (target O fh m (scale O eps fh bs) x) → ∀ i < p.length, (i = x.1.1 ∨ i = x.1.2) → ∃ f, F[i]? = some f ∧ ∀ k, O.isNan (f k) := by
  obtain ⟨es, hes, hmem⟩ := bars hc
  have hlt : ∀ a b, (a, b) ∈ es → a < p.length ∧ b < p.length := by
    intro a b h
    obtain ⟨-, r, hr, h1, h2⟩ := (hmem a b).1 h
    exact ⟨hc.2.2 r hr a h1, hc.2.2 r hr b h2⟩
  obtain ⟨bs, hbs, hm⟩ := mapM_all (f := barOf p) (l := es) fun ⟨a, b⟩ hab =>
    ⟨_, barOf_ok (List.getElem?_eq_getElem (hlt a b hab).1) (List.getElem?_eq_getElem (hlt a b hab).2)⟩
  refine ⟨_, bs, by simp only [computeForces, hes, hbs, bind, Except.bind, pure, Except.pure]; rfl, by simp [dense], ?_, ?_⟩
  · intro a b pa pb
    rw [hm]
    constructor
    · rintro ⟨⟨a', b'⟩, hab, h⟩
      rw [barOf_ok (List.getElem?_eq_getElem (hlt a' b' hab).1) (List.getElem?_eq_getElem (hlt a' b' hab).2)] at h
      simp only [Except.ok.injEq, Prod.mk.injEq] at h
      obtain ⟨⟨rfl, rfl⟩, rfl, rfl⟩ := h
      exact ⟨(hmem _ _).1 hab, List.getElem?_eq_getElem _, List.getElem?_eq_getElem _⟩
    · rintro ⟨h, ha, hb⟩
      exact ⟨(a, b), (hmem _ _).2 h, barOf_ok ha hb⟩
  · intro x hx hnan i hi hend
    refine ⟨_, by rw [dense, List.getElem?_map, List.getElem?_range hi]; rfl, fun k => ?_⟩
    have hF : O.isNan (barForce O eps fh m (scale O eps fh bs) x) := by
      have h1 : O.isNan (O.sub (target O fh m (scale O eps fh bs) x) (barLen O eps x)) := hI.nan_sub _ _ (Or.inl hnan)
      simp only [barForce]
      rw [hI.nan_lt _ _ (Or.inl h1)]
      simpa using h1
    have hv : O.isNan (forceVec O eps fh m (scale O eps fh bs) x k) := hI.nan_mul _ _ (Or.inl (hI.nan_div _ _ (Or.inl hF)))
    rcases hend with rfl | rfl
    · exact coo_nan hI (List.mem_flatMap.2 ⟨x, hx, List.mem_append_left _ (List.mem_map.2 ⟨k, List.mem_finRange k, rfl⟩)⟩) hv
    · exact coo_nan hI (List.mem_flatMap.2 ⟨x, hx, List.mem_append_right _ (List.mem_map.2 ⟨k, List.mem_finRange k, rfl⟩)⟩) (hI.nan_neg _ hv)

theorem zeroAt_get {ifix : List ℕ} {F : List (Fin d → α)} {i : ℕ} {f : Fin d → α} (h : F[i]? = some f) (hi : i ∉ ifix) : (zeroAt O ifix F)[i]? = some f := by
  simp [zeroAt, h, hi]

theorem largest_nan (hI : IEEE O inf pinf) {F : List (Fin d → α)} {i : ℕ} {f : Fin d → α} (h : F[i]? = some f) {k : Fin d} (hk : O.isNan (f k)) :
    ∃ m, largest O F = .ok m ∧ O.isNan m := by
  have hm : O.sqrt (sumSq O f) ∈ F.map fun f => O.sqrt (sumSq O f) := List.mem_map.2 ⟨f, List.mem_of_getElem? h, rfl⟩
  have hn : O.isNan (O.sqrt (sumSq O f)) := hI.nan_sqrt _ (sumSq_nan hI hk)
  unfold largest
  revert hm
  cases F.map fun f => O.sqrt (sumSq O f) with
  | nil => simp
  | cons x l => exact fun hm => ⟨_, rfl, max_nan hn (List.mem_cons.1 hm)⟩

/-- A vertex that is not held and feels a force that is NaN ends the pass. -/
theorem stops (hI : IEEE O inf pinf) {R : Run α d} (hR : R.rank = 0) {p : List (Fin d → α)} {t : List (List ℕ)} {ifix : List ℕ} {F : List (Fin d → α)}
    (hF : computeForces O R.eps p t R.fh R.L0mult = .ok F) {i : ℕ} (hi : i ∉ ifix) {f : Fin d → α} (hf : F[i]? = some f) {k : Fin d} (hk : O.isNan (f k)) :
    pass O R p t ifix = .error "AssertionError: max movement indicates there's a convergence problem" := by
  obtain ⟨m, hm, hn⟩ := largest_nan hI (zeroAt_get (O := O) hf hi) hk
  simp only [pass, hF, bind, Except.bind, hR, if_true, hm, hI.nan_lt _ _ (Or.inl (hI.nan_mul R.deltaT m (Or.inr hn))), Bool.false_eq_true, if_false]

/-! ### C143 -/

/-- **C143 (NaN).** If the sizing function returns NaN at the midpoint of one bar, the pass ends with the assertion, unless every vertex of every cell is held in place. -/
theorem C143_nan (hI : IEEE O inf pinf) {R : Run α d} (hR : R.rank = 0) {p : List (Fin d → α)} {t : List (List ℕ)} (hc : Cells d p t) {a b : ℕ} {h : α}
    (hs : SizeAt O R.fh p t a b h) (hnan : O.isNan h) {ifix : List ℕ} {r : List ℕ} {i : ℕ} (hr : r ∈ t) (hir : i ∈ r) (hi : i ∉ ifix) :
    pass O R p t ifix = .error "AssertionError: max movement indicates there's a convergence problem" := by
  have hd : d ≠ 0 := by rcases hc.1 with h | h <;> omega
  obtain ⟨F, bs, hF, hlen, hbs, hn⟩ := forces hI hc R.eps R.fh R.L0mult
  obtain ⟨hab, hrab, pa, pb, hpa, hpb, rfl⟩ := hs
  have hx := (hbs a b pa pb).2 ⟨⟨hab, hrab⟩, hpa, hpb⟩
  have hsc : O.isNan (scale O R.eps R.fh bs) :=
    hI.nan_root _ _ hd (hI.nan_div _ _ (Or.inr (hI.nan_total _ ⟨_, List.mem_map.2 ⟨_, hx, rfl⟩, hI.nan_pw _ _ hd hnan⟩)))
  have hil := hc.2.2 r hr i hir
  -- another vertex of the cell
  obtain ⟨j, hj, hij⟩ : ∃ j ∈ r, j ≠ i := by
    obtain ⟨hl, hnd⟩ := hc.2.1 r hr
    by_contra hcon
    push Not at hcon
    have h0 := hcon r[0] (List.getElem_mem (by omega))
    have h1 := hcon r[1] (List.getElem_mem (by omega))
    have := (List.nodup_iff_injective_getElem.1 hnd) (a₁ := ⟨0, by omega⟩) (a₂ := ⟨1, by omega⟩) (h0.trans h1.symm)
    simp at this
  have hjl := hc.2.2 r hr j hj
  have key : ∃ f, F[i]? = some f ∧ ∀ k, O.isNan (f k) := by
    rcases Nat.lt_or_gt_of_ne hij with hlt | hlt
    · exact hn _ ((hbs j i p[j] p[i]).2 ⟨⟨hlt, r, hr, hj, hir⟩, List.getElem?_eq_getElem _, List.getElem?_eq_getElem _⟩) (hI.nan_mul _ _ (Or.inr hsc)) i hil (Or.inr rfl)
    · exact hn _ ((hbs i j p[i] p[j]).2 ⟨⟨hlt, r, hr, hir, hj⟩, List.getElem?_eq_getElem _, List.getElem?_eq_getElem _⟩) (hI.nan_mul _ _ (Or.inr hsc)) i hil (Or.inl rfl)
  obtain ⟨f, hf, hk⟩ := key
  exact stops hI hR hF hi hf (hk ⟨0, by omega⟩)

/-- **C143 (infinity).** If the sizing function returns an infinity at the midpoint of a bar and one of its end points is not held, the pass ends with the assertion. -/
theorem C143_infinite (hI : IEEE O inf pinf) {R : Run α d} (hR : R.rank = 0) (hm : ¬ O.isZero R.L0mult) {p : List (Fin d → α)} {t : List (List ℕ)} (hc : Cells d p t) {a b : ℕ} {h : α}
    (hs : SizeAt O R.fh p t a b h) (hinf : inf h) {ifix : List ℕ} (hi : a ∉ ifix ∨ b ∉ ifix) :
    pass O R p t ifix = .error "AssertionError: max movement indicates there's a convergence problem" := by
  have hd : d ≠ 0 := by rcases hc.1 with h | h <;> omega
  obtain ⟨F, bs, hF, hlen, hbs, hn⟩ := forces hI hc R.eps R.fh R.L0mult
  obtain ⟨hab, hrab, pa, pb, hpa, hpb, rfl⟩ := hs
  have hx := (hbs a b pa pb).2 ⟨⟨hab, hrab⟩, hpa, hpb⟩
  have hsc : O.isZero (scale O R.eps R.fh bs) ∨ O.isNan (scale O R.eps R.fh bs) := by
    have h1 := hI.inf_total (bs.map fun x => O.pw d (hEdge O R.fh x)) ⟨_, List.mem_map.2 ⟨_, hx, rfl⟩, hI.inf_pw _ _ hd hinf⟩
    have h2 : O.isZero (O.div (O.total (bs.map fun x => O.pw d (barLen O R.eps x))) (O.total (bs.map fun x => O.pw d (hEdge O R.fh x)))) ∨
        O.isNan (O.div (O.total (bs.map fun x => O.pw d (barLen O R.eps x))) (O.total (bs.map fun x => O.pw d (hEdge O R.fh x)))) :=
      h1.elim (fun h => hI.div_inf _ _ h) fun h => Or.inr (hI.nan_div _ _ (Or.inr h))
    exact h2.imp (hI.zero_root _ _ hd) (hI.nan_root _ _ hd)
  have ht : O.isNan (target O R.fh R.L0mult (scale O R.eps R.fh bs) ((a, b), pa, pb)) := by
    rcases hsc with hz | hz
    · rcases hI.inf_mul _ _ hinf hm with h | h
      · exact hI.inf_mul_zero _ _ h hz
      · exact hI.nan_mul _ _ (Or.inl h)
    · exact hI.nan_mul _ _ (Or.inr hz)
  rcases hi with hi | hi
  · obtain ⟨f, hf, hk⟩ := hn _ hx ht a (List.getElem?_eq_some_iff.1 hpa).1 (Or.inl rfl)
    exact stops hI hR hF hi hf (hk ⟨0, by omega⟩)
  · obtain ⟨f, hf, hk⟩ := hn _ hx ht b (List.getElem?_eq_some_iff.1 hpb).1 (Or.inr rfl)
    exact stops hI hR hF hi hf (hk ⟨0, by omega⟩)

/-- **C143 (zeros).** If the sizing function is zero at the midpoints of all bars, the pass ends with the assertion, unless every vertex of every cell is held in place. -/
theorem C143_zeros (hI : IEEE O inf pinf) {R : Run α d} (hR : R.rank = 0) (hm : ¬ inf R.L0mult) {p : List (Fin d → α)} {t : List (List ℕ)} (hc : Cells d p t)
    (hz : ∀ a b h, SizeAt O R.fh p t a b h → O.isZero h) {ifix : List ℕ} {a b : ℕ} {h : α} (hs : SizeAt O R.fh p t a b h) (hi : a ∉ ifix ∨ b ∉ ifix) :
    pass O R p t ifix = .error "AssertionError: max movement indicates there's a convergence problem" := by
  have hd : d ≠ 0 := by rcases hc.1 with h | h <;> omega
  obtain ⟨F, bs, hF, hlen, hbs, hn⟩ := forces hI hc R.eps R.fh R.L0mult
  have hsc : inf (scale O R.eps R.fh bs) ∨ O.isNan (scale O R.eps R.fh bs) := by
    have h1 : O.isZero (O.total (bs.map fun x => O.pw d (hEdge O R.fh x))) := by
      refine hI.zero_total _ fun y hy => ?_
      obtain ⟨⟨⟨a', b'⟩, pa', pb'⟩, hx', rfl⟩ := List.mem_map.1 hy
      obtain ⟨⟨h1, h2⟩, h3, h4⟩ := (hbs a' b' pa' pb').1 hx'
      exact hI.zero_pw _ _ hd (hz a' b' _ ⟨h1, h2, pa', pb', h3, h4, rfl⟩)
    rcases hI.div_zero (O.total (bs.map fun x => O.pw d (barLen O R.eps x))) _ h1 with h | h
    · exact hI.inf_root _ _ hd h
    · exact Or.inr (hI.nan_root _ _ hd h)
  have h0 := hz a b h hs
  obtain ⟨hab, hrab, pa, pb, hpa, hpb, rfl⟩ := hs
  have hx := (hbs a b pa pb).2 ⟨⟨hab, hrab⟩, hpa, hpb⟩
  have ht : O.isNan (target O R.fh R.L0mult (scale O R.eps R.fh bs) ((a, b), pa, pb)) := by
    rcases hsc with hz' | hz'
    · rcases hI.zero_mul _ _ h0 hm with h | h
      · exact hI.zero_mul_inf _ _ h hz'
      · exact hI.nan_mul _ _ (Or.inl h)
    · exact hI.nan_mul _ _ (Or.inr hz')
  rcases hi with hi | hi
  · obtain ⟨f, hf, hk⟩ := hn _ hx ht a (List.getElem?_eq_some_iff.1 hpa).1 (Or.inl rfl)
    exact stops hI hR hF hi hf (hk ⟨0, by omega⟩)
  · obtain ⟨f, hf, hk⟩ := hn _ hx ht b (List.getElem?_eq_some_iff.1 hpb).1 (Or.inr rfl)
    exact stops hI hR hF hi hf (hk ⟨0, by omega⟩)

/-! ### Passes that go on -/

theorem fold_pinf (hI : IEEE O inf pinf) {v : Fin d → α} : ∀ {l : List (Fin d)} {s : α}, pinf s ∨ O.isNan s ∨ (∃ k ∈ l, pinf (O.mul (v k) (v k)) ∨ O.isNan (O.mul (v k) (v k))) →
    pinf (l.foldl (fun s k => O.add s (O.mul (v k) (v k))) s) ∨ O.isNan (l.foldl (fun s k => O.add s (O.mul (v k) (v k))) s)
  | [], s, h => by
    rcases h with h | h | ⟨k, hk, -⟩
    · exact Or.inl h
    · exact Or.inr h
    · simp at hk
  | j :: l, s, h => by
    rw [List.foldl_cons]
    apply fold_pinf hI
    rcases h with h | h | ⟨k, hk, h⟩
    · exact (hI.pinf_add _ _ (Or.inl h)).imp id Or.inl
    · exact Or.inr (Or.inl (hI.nan_add _ _ (Or.inl h)))
    · rcases List.mem_cons.1 hk with rfl | hk
      · rcases h with h | h
        · exact (hI.pinf_add _ _ (Or.inr h)).imp id Or.inl
        · exact Or.inr (Or.inl (hI.nan_add _ _ (Or.inr h)))
      · exact Or.inr (Or.inr ⟨k, hk, h⟩)

theorem max_pinf (hI : IEEE O inf pinf) {x : α} (hx : pinf x ∨ O.isNan x) : ∀ {l : List α} {a : α}, x ∈ l ∨ pinf a ∨ O.isNan a →
    pinf (l.foldl (maxNan O) a) ∨ O.isNan (l.foldl (maxNan O) a)
  | [], a, h => by simpa using h
  | b :: l, a, h => by
    rw [List.foldl_cons]
    by_cases hxl : x ∈ l
    · exact max_pinf hI hx (Or.inl hxl)
    · refine max_pinf hI hx (Or.inr ?_)
      unfold maxNan
      by_cases ha : O.isNan a
      · rw [if_pos ha]; exact Or.inr ha
      rw [if_neg ha]
      by_cases hb : O.isNan b
      · rw [if_pos hb]; exact Or.inr hb
      rw [if_neg hb]
      by_cases hpa : pinf a
      · rw [hI.pinf_lt _ _ hpa]
        exact Or.inl (by simpa using hpa)
      · have hpb : pinf b := by
          rcases h with h | h | h
          · rcases List.mem_cons.1 h with rfl | h
            · exact hx.resolve_right hb
            · exact absurd h hxl
          · exact absurd h hpa
          · exact absurd h ha
        rw [hI.lt_pinf _ _ hpa ha hpb]
        exact Or.inl (by simpa using hpb)

theorem largest_bad (hI : IEEE O inf pinf) {F : List (Fin d → α)} {i : ℕ} {f : Fin d → α} (h : F[i]? = some f) {k : Fin d} (hk : inf (f k) ∨ O.isNan (f k)) {m : α}
    (hm : largest O F = .ok m) : pinf m ∨ O.isNan m := by
  have hmem : O.sqrt (sumSq O f) ∈ F.map fun f => O.sqrt (sumSq O f) := List.mem_map.2 ⟨f, List.mem_of_getElem? h, rfl⟩
  have hs : pinf (O.sqrt (sumSq O f)) ∨ O.isNan (O.sqrt (sumSq O f)) := by
    have h1 : pinf (sumSq O f) ∨ O.isNan (sumSq O f) :=
      fold_pinf hI (Or.inr (Or.inr ⟨k, List.mem_finRange k, hk.imp (hI.inf_sq _) fun h => hI.nan_mul _ _ (Or.inl h)⟩))
    exact h1.imp (hI.pinf_sqrt _) (hI.nan_sqrt _)
  unfold largest at hm
  revert hmem hm
  cases F.map fun f => O.sqrt (sumSq O f) with
  | nil => simp
  | cons x l =>
    intro hm hmem
    have hm := Except.ok.inj hm
    subst hm
    rcases List.mem_cons.1 hmem with h | h
    · exact max_pinf hI hs (Or.inr (h ▸ hs))
    · exact max_pinf hI hs (Or.inl h)

/-- **C143 (a pass that goes on).** If the pass on the first process ends normally, the force applied to each vertex is a number: neither NaN nor infinite. `deltaT` is positive and finite. -/
theorem C143_finite (hI : IEEE O inf pinf) {R : Run α d} (hR : R.rank = 0) (hdt : ∀ m, pinf m → pinf (O.mul R.deltaT m)) {p : List (Fin d → α)} {t : List (List ℕ)} (hc : Cells d p t)
    {ifix : List ℕ} {q : List (Fin d → α)} (h : pass O R p t ifix = .ok q) :
    ∃ F, computeForces O R.eps p t R.fh R.L0mult = .ok F ∧ F.length = p.length ∧ ∀ i f, F[i]? = some f → i ∉ ifix → ∀ k, ¬ O.isNan (f k) ∧ ¬ inf (f k) := by
  obtain ⟨F, bs, hF, hlen, -, -⟩ := forces hI hc R.eps R.fh R.L0mult
  refine ⟨F, hF, hlen, fun i f hf hi k => ?_⟩
  by_contra hcon
  have hbad : inf (f k) ∨ O.isNan (f k) := by tauto
  simp only [pass, hF, bind, Except.bind, hR, if_true] at h
  cases hm : largest O (zeroAt O ifix F) with
  | error e => simp [hm] at h
  | ok m =>
    rw [hm] at h
    have h2 := largest_bad hI (zeroAt_get (O := O) hf hi) hbad hm
    have h3 : O.lt (O.mul R.deltaT m) R.bound = false :=
      h2.elim (fun h => hI.pinf_lt _ _ (hdt _ h)) fun h => hI.nan_lt _ _ (Or.inl (hI.nan_mul _ _ (Or.inr h)))
    simp [h3] at h

/-- **C143 is false of the other processes of a parallel run.** A process with a rank other than 0 goes on: if the sizing function returns NaN at the midpoint of a bar, every coordinate of every
vertex of a cell that is not held becomes NaN (level-set functions are NaN, or not positive, at points whose coordinates are NaN), and no exception is raised. -/
theorem C143_other_ranks (hI : IEEE O inf pinf) {R : Run α d} (hR : R.rank ≠ 0) (hlev : ∀ l ∈ R.levels, ∀ x, (∀ k, O.isNan (x k)) → O.lt O.zero (l x) = false)
    {p : List (Fin d → α)} {t : List (List ℕ)} (hc : Cells d p t) {a b : ℕ} {h : α}
    (hs : SizeAt O R.fh p t a b h) (hnan : O.isNan h) {ifix : List ℕ} :
    ∃ q, pass O R p t ifix = .ok (R.dropGhosts q) ∧ q.length = p.length ∧ ∀ i, i ∉ ifix → (i = a ∨ i = b) → ∃ x, q[i]? = some x ∧ ∀ k, O.isNan (x k) := by
  have hd : d ≠ 0 := by rcases hc.1 with h | h <;> omega
  obtain ⟨F, bs, hF, hlen, hbs, hn⟩ := forces hI hc R.eps R.fh R.L0mult
  obtain ⟨hab, hrab, pa, pb, hpa, hpb, rfl⟩ := hs
  have hx := (hbs a b pa pb).2 ⟨⟨hab, hrab⟩, hpa, hpb⟩
  have hsc : O.isNan (scale O R.eps R.fh bs) :=
    hI.nan_root _ _ hd (hI.nan_div _ _ (Or.inr (hI.nan_total _ ⟨_, List.mem_map.2 ⟨_, hx, rfl⟩, hI.nan_pw _ _ hd hnan⟩)))
  refine ⟨(advance O R.deltaT p (zeroAt O ifix F)).map (projectAll O R.deps R.near 0 R.levels), by simp only [pass, hF, bind, Except.bind, if_neg hR, pure, Except.pure],
    by simp [advance, zeroAt, hlen], fun i hi hend => ?_⟩
  have hil : i < p.length := by
    rcases hend with rfl | rfl
    · exact (List.getElem?_eq_some_iff.1 hpa).1
    · exact (List.getElem?_eq_some_iff.1 hpb).1
  obtain ⟨f, hf, hk⟩ := hn _ hx (hI.nan_mul _ _ (Or.inr hsc)) i hil hend
  refine ⟨_, by rw [List.getElem?_map, advance, List.getElem?_zipWith, List.getElem?_eq_getElem hil, zeroAt_get (O := O) hf hi]; rfl, ?_⟩
  have hz : ∀ k, O.isNan (O.add (p[i] k) (O.mul R.deltaT (f k))) := fun k => hI.nan_add _ _ (Or.inr (hI.nan_mul _ _ (Or.inr (hk k))))
  have hproj : ∀ (ls : List ((Fin d → α) → α)) idx x, (∀ l ∈ ls, ∀ x, (∀ k, O.isNan (x k)) → O.lt O.zero (l x) = false) → (∀ k, O.isNan (x k)) →
      projectAll O R.deps R.near idx ls x = x := by
    intro ls
    induction ls with
    | nil => intros; rfl
    | cons l ls ih =>
      intro idx x h1 h2
      have e : projectPoint O R.deps R.near idx l x = x := by simp [projectPoint, h1 l (by simp) x h2]
      rw [projectAll, e]
      exact ih _ _ (fun l hl => h1 l (by simp [hl])) h2
  intro k
  rw [hproj _ _ _ hlev hz]
  exact hz k

end

/-! ### Concrete case: double precision with overflow, without underflow and signs of zeros -/

/-- A number, an infinity or NaN. -/
inductive Double
  | nan
  | infty (neg : Bool)
  | num (x : ℚ)
  deriving DecidableEq

namespace Double

/-- Rounding with overflow. -/
def rounded (x : ℚ) : Double := if |Fl.binary64 x| < 2 ^ 1024 then num (Fl.binary64 x) else infty (decide (x < 0))

def sign (x : ℚ) : Bool := decide (x < 0)

def add : Double → Double → Double
  | num x, num y => rounded (x + y)
  | num _, infty s => infty s
  | infty s, num _ => infty s
  | infty s, infty s' => if s = s' then infty s else nan
  | _, _ => nan

def neg : Double → Double
  | num x => num (-x)
  | infty s => infty (!s)
  | nan => nan

def mul : Double → Double → Double
  | num x, num y => rounded (x * y)
  | num x, infty s => if x = 0 then nan else infty (xor (sign x) s)
  | infty s, num x => if x = 0 then nan else infty (xor (sign x) s)
  | infty s, infty s' => infty (xor s s')
  | _, _ => nan

def div : Double → Double → Double
  | num x, num y => if y = 0 then (if x = 0 then nan else infty (sign x)) else rounded (x / y)
  | num _, infty _ => num 0
  | infty s, num y => infty (xor s (sign y))
  | _, _ => nan

/-- A root of a number, rounded: `r` computes it for positive numbers. The root of an infinity is infinite or NaN. -/
def rootOf (r : ℚ → ℚ) : Double → Double
  | num x => if x = 0 then num 0 else if x < 0 then nan else num (r x)
  | infty false => infty false
  | _ => nan

def pow (n : ℕ) (x : Double) : Double := (List.replicate (n - 1) x).foldl mul x

def lt : Double → Double → Bool
  | num x, num y => decide (x < y)
  | num _, infty s => !s
  | infty s, num _ => s
  | infty s, infty s' => s && !s'
  | _, _ => false

/-- The operations; `r3` is the cube root. -/
def ops (r3 : ℚ → ℚ) : Ops Double where
  zero := num 0
  two := num 2
  add := add
  sub a b := add a (neg b)
  mul := mul
  div := div
  neg := neg
  sqrt := rootOf Fl.sqrt64
  pw := pow
  root n := rootOf (if n = 2 then Fl.sqrt64 else r3)
  total l := l.foldl add (num 0)
  lt := lt
  isZero a := decide (a = num 0)
  isNan a := decide (a = nan)

theorem rounded_zero : rounded 0 = num 0 := by
  rw [rounded, Fl.binary64_zero]
  norm_num

theorem fold_bad {f : Double → Double → Double} (hf : ∀ a b, (a = nan ∨ ∃ s, a = infty s) ∨ (b = nan ∨ ∃ s, b = infty s) → f a b = nan ∨ ∃ s, f a b = infty s) :
    ∀ {l : List Double} {s : Double}, (s = nan ∨ ∃ t, s = infty t) ∨ (∃ a ∈ l, a = nan ∨ ∃ t, a = infty t) → l.foldl f s = nan ∨ ∃ t, l.foldl f s = infty t
  | [], s, h => by simpa using h
  | b :: l, s, h => by
    rw [List.foldl_cons]
    apply fold_bad hf
    rcases h with h | ⟨a, ha, h⟩
    · exact Or.inl (hf _ _ (Or.inl h))
    · rcases List.mem_cons.1 ha with rfl | ha
      · exact Or.inl (hf _ _ (Or.inr h))
      · exact Or.inr ⟨a, ha, h⟩

theorem fold_nan {f : Double → Double → Double} (hf : ∀ a b, a = nan ∨ b = nan → f a b = nan) :
    ∀ {l : List Double} {s : Double}, s = nan ∨ nan ∈ l → l.foldl f s = nan
  | [], s, h => by simpa using h
  | b :: l, s, h => by
    rw [List.foldl_cons]
    apply fold_nan hf
    rcases h with h | h
    · exact Or.inl (hf _ _ (Or.inl h))
    · rcases List.mem_cons.1 h with h | h
      · exact Or.inl (hf _ _ (Or.inr h.symm))
      · exact Or.inr h

theorem fold_const {f : Double → Double → Double} (Q : Double → Prop) (hf : ∀ a b, Q a → Q b → Q (f a b)) : ∀ {l : List Double} {s : Double}, Q s → (∀ a ∈ l, Q a) → Q (l.foldl f s)
  | [], s, h, _ => h
  | b :: l, s, h, hl => by
    rw [List.foldl_cons]
    exact fold_const Q hf (hf _ _ h (hl b (by simp))) fun a ha => hl a (by simp [ha])

theorem ieee (r3 : ℚ → ℚ) : IEEE (ops r3) (fun a => ∃ s, a = infty s) (fun a => a = infty false) where
  nan_add a b h := by rcases a with _ | s | x <;> rcases b with _ | s' | y <;> simp_all [ops, add]
  nan_sub a b h := by rcases a with _ | s | x <;> rcases b with _ | s' | y <;> simp_all [ops, add, neg]
  nan_mul a b h := by rcases a with _ | s | x <;> rcases b with _ | s' | y <;> simp_all [ops, mul]
  nan_div a b h := by rcases a with _ | s | x <;> rcases b with _ | s' | y <;> simp_all [ops, div]
  nan_neg a h := by rcases a with _ | s | x <;> simp_all [ops, neg]
  nan_sqrt a h := by rcases a with _ | s | x <;> simp_all [ops, rootOf]
  nan_pw n a _ h := by
    have h : a = nan := by simpa [ops] using h
    simp only [ops, pow, decide_eq_true_eq]
    exact fold_nan (fun a b h => by rcases a with _ | s | x <;> rcases b with _ | s' | y <;> simp_all [mul]) (Or.inl h)
  nan_root n a _ h := by rcases a with _ | s | x <;> simp_all [ops, rootOf]
  nan_total l h := by
    obtain ⟨a, ha, h⟩ := h
    have h : a = nan := by simpa [ops] using h
    simp only [ops, decide_eq_true_eq]
    exact fold_nan (fun a b h => by rcases a with _ | s | x <;> rcases b with _ | s' | y <;> simp_all [add]) (Or.inr (h ▸ ha))
  nan_lt a b h := by rcases a with _ | s | x <;> rcases b with _ | s' | y <;> simp_all [ops, lt]
  zero_nan a h := by rcases a with _ | s | x <;> simp_all [ops]
  inf_pw n a _ h := by
    simp only [ops, pow]
    refine fold_const (fun a => ∃ s, a = infty s) ?_ h fun b hb => (List.eq_of_mem_replicate hb) ▸ h
    rintro _ _ ⟨s, rfl⟩ ⟨s', rfl⟩
    exact ⟨_, rfl⟩
  inf_total l h := by
    obtain ⟨a, ha, h⟩ := h
    simp only [ops, decide_eq_true_eq]
    refine (fold_bad ?_ (Or.inr ⟨a, ha, Or.inr h⟩)).symm
    intro a b h
    rcases a with _ | s | x <;> rcases b with _ | s' | y <;> simp_all [add]
    by_cases e : s = s' <;> simp [e]
  inf_mul a b h hb := by
    obtain ⟨s, rfl⟩ := h
    rcases b with _ | s' | y <;> simp_all [ops, mul]
  inf_mul_zero a b h hb := by
    obtain ⟨s, rfl⟩ := h
    rcases b with _ | s' | y <;> simp_all [ops, mul]
  zero_mul_inf a b ha h := by
    obtain ⟨s, rfl⟩ := h
    rcases a with _ | s' | y <;> simp_all [ops, mul]
  div_inf a b h := by
    obtain ⟨s, rfl⟩ := h
    rcases a with _ | s' | y <;> simp_all [ops, div]
  inf_root n a _ h := by
    obtain ⟨s, rfl⟩ := h
    cases s <;> simp [ops, rootOf]
  zero_root n a _ h := by
    have h : a = num 0 := by simpa [ops] using h
    subst h
    simp [ops, rootOf]
  zero_pw n a _ h := by
    have h : a = num 0 := by simpa [ops] using h
    simp only [ops, pow, decide_eq_true_eq]
    refine fold_const (fun a => a = num 0) ?_ h fun b hb => (List.eq_of_mem_replicate hb).trans h
    rintro _ _ rfl rfl
    simp [mul, rounded_zero]
  zero_total l h := by
    simp only [ops, decide_eq_true_eq] at h ⊢
    refine fold_const (fun a => a = num 0) ?_ rfl h
    rintro _ _ rfl rfl
    simp [add, rounded_zero]
  zero_mul a b ha hb := by
    have h : a = num 0 := by simpa [ops] using ha
    subst h
    rcases b with _ | s' | y
    · simp [ops, mul]
    · exact absurd ⟨_, rfl⟩ hb
    · simp [ops, mul, rounded_zero]
  div_zero a b h := by
    have h : b = num 0 := by simpa [ops] using h
    subst h
    rcases a with _ | s' | y
    · simp [ops, div]
    · simp [ops, div]
    · by_cases h : y = 0 <;> simp [ops, div, h]
  inf_sq a h := by
    obtain ⟨s, rfl⟩ := h
    cases s <;> rfl
  pinf_add a b h := by
    rcases a with _ | s | x <;> rcases b with _ | s' | y <;> simp_all [ops, add]
    by_cases e : s = s'
    · subst e; simpa using h
    · simp [e]
  pinf_sqrt a h := by subst h; rfl
  pinf_lt a b h := by subst h; rcases b with _ | s' | y <;> simp [ops, lt]
  lt_pinf a b h1 h2 h3 := by
    subst h3
    rcases a with _ | s | x <;> simp_all [ops, lt]

end Double

/-- A triangle in the half-plane left of x = 5; the sizes are 1 above the x axis and `bad` on it. -/
def exampleRun (rank : ℕ) (bad : Double) : Run Double 2 where
  rank := rank
  eps := .num (1 / 4503599627370496)
  fh x := if x 1 = .num 0 then bad else .num 1
  L0mult := .num (6 / 5)
  deltaT := .num (3 / 10)
  levels := [fun x => (Double.ops id).sub (x 0) (.num 5)]
  deps := .num (1 / 100000000)
  near := .num (1 / 2)
  bound := .num 1000
  dropGhosts := id

def exampleP : List (Fin 2 → Double) := [![.num 0, .num 0], ![.num 1, .num 0], ![.num 0, .num 1]]

/-- The hypotheses of the theorems are met: a mesh, a bar whose size is bad (NaN, infinite), a vertex that is not held; a level-set function. -/
example (bad : Double) : Cells 2 exampleP [[0, 1, 2]] ∧ SizeAt (Double.ops id) (exampleRun 0 bad).fh exampleP [[0, 1, 2]] 0 1 bad ∧
    (¬ (Double.ops id).isZero (exampleRun 0 bad).L0mult) ∧ (¬ ∃ s, (exampleRun 0 bad).L0mult = Double.infty s) ∧
    (∀ m, m = Double.infty false → (Double.ops id).mul (exampleRun 0 bad).deltaT m = Double.infty false) ∧
    (∀ l ∈ (exampleRun 1 bad).levels, ∀ x, (∀ k, (Double.ops id).isNan (x k)) → (Double.ops id).lt (Double.ops id).zero (l x) = false) := by
  refine ⟨⟨Or.inl rfl, ?_, ?_⟩, ⟨by decide, ⟨[0, 1, 2], by simp, by simp, by simp⟩, _, _, rfl, rfl, ?_⟩, by simp [Double.ops, exampleRun], by simp [exampleRun], ?_, ?_⟩
  · intro r hr
    rw [List.mem_singleton] at hr
    subst hr
    decide
  · unfold InRange exampleP
    decide
  · have h : (Double.ops id).div ((Double.ops id).add (.num 0) (.num 0)) (Double.ops id).two = .num 0 := by decide +kernel
    simp only [exampleRun, Matrix.cons_val_zero, Matrix.cons_val_one, h, if_true]
  · rintro m rfl
    simp [Double.ops, Double.mul, exampleRun, Double.sign]
    norm_num
  · intro l hl x hx
    simp only [exampleRun, List.mem_singleton] at hl
    subst hl
    have h0 : x 0 = .nan := by simpa [Double.ops] using hx 0
    simp [Double.ops, h0, Double.add, Double.lt]

/-- With sizes that are numbers the pass goes on, with NaN it does not. -/
example : ((pass (Double.ops id) (exampleRun 0 (.num 1)) exampleP [[0, 1, 2]] [0]).toOption.isSome = true) ∧
    (pass (Double.ops id) (exampleRun 0 .nan) exampleP [[0, 1, 2]] [0]).toOption.isSome = false := by
  decide +kernel

end SM.NanFl
