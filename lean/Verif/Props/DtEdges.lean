import Verif.Model.DtEdges
import Verif.Props.DtWrapper
import Mathlib.Data.Sym.Sym2
import Mathlib.Data.List.Nodup

/-!
# C110: `get_edges` reports every edge of the requested cells exactly once
-/

namespace SM.DtEdges

open SM.DtWrapper

variable {V : Type}

/-! ## Specification -/

/-- `{a, b}` is an edge of a row `k` of the cell table `t` with `mask[k] = 1`. -/
def EdgeOf (t : List (List ℕ)) (mask : List ℤ) (a b : ℕ) : Prop :=
  ∃ (k : ℕ) (row : List ℕ), mask[k]? = some 1 ∧ t[k]? = some row ∧ a ∈ row ∧ b ∈ row ∧ a ≠ b

/-- The rows `es`, read as unordered pairs, are the edges of the requested cells, each exactly once. -/
def Lists (t : List (List ℕ)) (mask : List ℤ) (es : List (ℕ × ℕ)) : Prop :=
  (es.map fun e => s(e.1, e.2)).Nodup ∧ ∀ a b, s(a, b) ∈ es.map (fun e => s(e.1, e.2)) ↔ EdgeOf t mask a b

/-- What CGAL guarantees in 2-D: three different vertices per face, and `neighbor(i)` is the one other face that has the two vertices
opposite to `vertex(i)` (an infinite face if there is no finite one). -/
structure Planar (T : Complex V) : Prop where
  cells : T.cells = T.handle.map fun f => (List.range 3).map (T.vertex f)
  nodup : T.handle.Nodup
  distinct : ∀ f ∈ T.handle, ((List.range 3).map (T.vertex f)).Nodup
  nei : ∀ f ∈ T.handle, ∀ i < 3, ∀ g ∈ T.handle,
    (T.nei f i = g ↔ g ≠ f ∧ ∀ j < 3, j ≠ i → T.vertex f j ∈ (List.range 3).map (T.vertex g))

/-- What CGAL guarantees in 3-D: four different vertices per cell, and the turn around an edge meets all cells that have its two vertices. -/
structure Spatial (T : Complex V) : Prop where
  cells : T.cells = T.handle.map fun f => (List.range 4).map (T.vertex f)
  nodup : T.handle.Nodup
  distinct : ∀ f ∈ T.handle, ((List.range 4).map (T.vertex f)).Nodup
  around : ∀ f ∈ T.handle, ∀ i < 4, ∀ j < 4, i ≠ j → ∀ g ∈ T.handle,
    (g ∈ T.around f i j ↔ T.vertex f i ∈ (List.range 4).map (T.vertex g) ∧ T.vertex f j ∈ (List.range 4).map (T.vertex g))

/-! ## Each edge once -/

theorem once {ι α : Type} {S S' : List ℕ} (hp : S'.Perm S) (hS : S.Nodup) {I : List ι} (hI : I.Nodup) {E : ℕ → ι → α}
    (hE : ∀ f ∈ S, ∀ i ∈ I, ∀ j ∈ I, E f i = E f j → i = j) (rep : ℕ → ι → Bool)
    (hrep : ∀ f ∈ S, ∀ i ∈ I, (rep f i = true ↔ ∀ g ∈ S, g < f → ∀ j ∈ I, E g j ≠ E f i)) :
    (S'.flatMap fun f => I.filterMap fun i => if rep f i then some (E f i) else none).Nodup ∧
    ∀ e, e ∈ (S'.flatMap fun f => I.filterMap fun i => if rep f i then some (E f i) else none) ↔ ∃ f ∈ S, ∃ i ∈ I, E f i = e := by
  have hmem : ∀ f e, e ∈ (I.filterMap fun i => if rep f i then some (E f i) else none) ↔ ∃ i ∈ I, rep f i = true ∧ E f i = e := by
    intro f e
    rw [List.mem_filterMap]
    constructor
    · rintro ⟨i, hi, h⟩
      split at h
      · rename_i hr
        exact ⟨i, hi, hr, Option.some.inj h⟩
      · cases h
    · rintro ⟨i, hi, hr, rfl⟩
      exact ⟨i, hi, by rw [if_pos hr]⟩
  constructor
  · rw [List.nodup_flatMap]
    constructor
    · intro f hf
      have hf' := hp.mem_iff.1 hf
      have e : (I.filterMap fun i => if rep f i then some (E f i) else none) = (I.filter (rep f)).map (E f) := by
        clear hI hE hrep hmem
        induction I with
        | nil => rfl
        | cons a l ih =>
          by_cases h : rep f a = true
          · rw [List.filterMap_cons_some (by rw [if_pos h]), List.filter_cons_of_pos h, List.map_cons, ih]
          · rw [List.filterMap_cons_none (by rw [if_neg h]), List.filter_cons_of_neg h, ih]
      rw [e]
      refine List.Nodup.map_on ?_ (hI.filter _)
      intro i hi j hj h
      exact hE f hf' i (List.mem_of_mem_filter hi) j (List.mem_of_mem_filter hj) h
    · have : S'.Nodup := hp.nodup_iff.2 hS
      refine List.Pairwise.imp_of_mem ?_ this
      intro f g hf hg hne e h1 h2
      obtain ⟨i, hi, r1, e1⟩ := (hmem f e).1 h1
      obtain ⟨j, hj, r2, e2⟩ := (hmem g e).1 h2
      have hf' := hp.mem_iff.1 hf
      have hg' := hp.mem_iff.1 hg
      rcases Nat.lt_or_gt_of_ne hne with h | h
      · exact (hrep g hg' j hj).1 r2 f hf' h i hi (e1.trans e2.symm)
      · exact (hrep f hf' i hi).1 r1 g hg' h j hj (e2.trans e1.symm)
  · intro e
    rw [List.mem_flatMap]
    constructor
    · rintro ⟨f, hf, h⟩
      obtain ⟨i, hi, -, e1⟩ := (hmem f e).1 h
      exact ⟨f, hp.mem_iff.1 hf, i, hi, e1⟩
    · rintro ⟨f, hf, i, hi, rfl⟩
      have key : ∀ n, ∀ f ∈ S, f = n → ∀ i ∈ I, ∃ g ∈ S, ∃ j ∈ I, rep g j = true ∧ E g j = E f i := by
        intro n
        induction n using Nat.strong_induction_on with
        | _ n ih =>
          rintro f hf rfl i hi
          by_cases hr : rep f i = true
          · exact ⟨f, hf, i, hi, hr, rfl⟩
          · have := mt (hrep f hf i hi).2 hr
            push Not at this
            obtain ⟨g, hg, hlt, j, hj, e⟩ := this
            obtain ⟨g', hg', j', hj', r, e'⟩ := ih g hlt g hg rfl j hj
            exact ⟨g', hg', j', hj', r, e'.trans e⟩
      obtain ⟨g, hg, j, hj, r, e⟩ := key f f hf rfl i hi
      exact ⟨g, hp.mem_iff.2 hg, (hmem g _).2 ⟨j, hj, r, e⟩⟩

/-! ## The requested cells -/

theorem select_ok {hs : List ℕ} {mask : List ℤ} (hl : hs.length ≤ mask.length) : ∃ s, select hs mask = .ok s ∧ s.Sublist hs ∧
    ∀ f, f ∈ s ↔ ∃ k : ℕ, hs[k]? = some f ∧ mask[k]? = some 1 := by
  induction hs generalizing mask with
  | nil => exact ⟨[], by cases mask <;> rfl, List.Sublist.refl _, fun f => by simp⟩
  | cons h hs ih =>
    cases mask with
    | nil => simp at hl
    | cons m ms =>
      obtain ⟨r, hr, hsub, hm⟩ := ih (mask := ms) (by simpa using hl)
      by_cases h1 : m = 1
      · refine ⟨h :: r, by simp [select, hr, h1, bind, Except.bind], hsub.cons₂ h, fun f => ?_⟩
        rw [List.mem_cons, hm]
        constructor
        · rintro (rfl | ⟨k, a, b⟩)
          · exact ⟨0, rfl, by rw [h1]; rfl⟩
          · exact ⟨k + 1, a, b⟩
        · rintro ⟨k, a, b⟩
          cases k with
          | zero => left; exact (Option.some.inj a).symm
          | succ k => right; exact ⟨k, a, b⟩
      · refine ⟨r, by simp [select, hr, h1, bind, Except.bind], hsub.cons h, fun f => ?_⟩
        rw [hm]
        constructor
        · rintro ⟨k, a, b⟩
          exact ⟨k + 1, a, b⟩
        · rintro ⟨k, a, b⟩
          cases k with
          | zero => exact absurd (Option.some.inj b) h1
          | succ k => exact ⟨k, a, b⟩

theorem select_short {hs : List ℕ} {mask : List ℤ} (hl : mask.length < hs.length) :
    select hs mask = .error "undefined behaviour: argument too short" := by
  induction hs generalizing mask with
  | nil => simp at hl
  | cons h hs ih =>
    cases mask with
    | nil => rfl
    | cons m ms => simp [select, ih (mask := ms) (by simpa using hl), bind, Except.bind]

/-! ## Both dimensions -/

theorem lists_of {ι : Type} {n : ℕ} {I : List ι} {pr : ι → ℕ × ℕ} (hI : I.Nodup)
    (h1 : ∀ i ∈ I, (pr i).1 < n ∧ (pr i).2 < n ∧ (pr i).1 ≠ (pr i).2)
    (h2 : ∀ p < n, ∀ q < n, p ≠ q → ∃ i ∈ I, s((pr i).1, (pr i).2) = s(p, q))
    (h3 : ∀ i ∈ I, ∀ j ∈ I, s((pr i).1, (pr i).2) = s((pr j).1, (pr j).2) → i = j)
    {T : Complex V} (hc : T.cells = T.handle.map fun f => (List.range n).map (T.vertex f)) (hn : T.handle.Nodup)
    (hd : ∀ f ∈ T.handle, ((List.range n).map (T.vertex f)).Nodup) (hv : Valid T.toTds)
    (hinj : ∀ x ∈ T.verts, ∀ y ∈ T.verts, T.info x = T.info y → x = y)
    {mask : List ℤ} {s : List ℕ} (hsub : s.Sublist T.handle) (hs : ∀ f, f ∈ s ↔ ∃ k : ℕ, T.handle[k]? = some f ∧ mask[k]? = some 1)
    {s' : List ℕ} (hp : s'.Perm s) {rep : ℕ → ι → Bool}
    (hrep : ∀ f ∈ s, ∀ i ∈ I, (rep f i = true ↔ ∀ g ∈ s, g < f →
      ¬ (T.vertex f (pr i).1 ∈ (List.range n).map (T.vertex g) ∧ T.vertex f (pr i).2 ∈ (List.range n).map (T.vertex g)))) :
    Lists (getFiniteCells T.toTds) mask (s'.flatMap fun f => I.filterMap fun i =>
      if rep f i then some (T.info (T.vertex f (pr i).1), T.info (T.vertex f (pr i).2)) else none) := by
  have hmemv : ∀ f ∈ s, ∀ i < n, T.vertex f i ∈ T.verts := by
    intro f hf i hi
    refine hv.2 ((List.range n).map (T.vertex f)) ?_ _ (List.mem_map_of_mem (List.mem_range.2 hi))
    rw [hc]
    exact List.mem_map_of_mem (f := fun f => (List.range n).map (T.vertex f)) (hsub.subset hf)
  have hvi : ∀ f ∈ s, ∀ i < n, ∀ j < n, T.vertex f i = T.vertex f j → i = j := by
    intro f hf i hi j hj h
    exact List.inj_on_of_nodup_map (hd f (hsub.subset hf)) (List.mem_range.2 hi) (List.mem_range.2 hj) h
  have key : ∀ f ∈ s, ∀ i ∈ I, ∀ g ∈ s, ∀ j ∈ I,
      s(T.info (T.vertex g (pr j).1), T.info (T.vertex g (pr j).2)) = s(T.info (T.vertex f (pr i).1), T.info (T.vertex f (pr i).2)) ↔
      s(T.vertex g (pr j).1, T.vertex g (pr j).2) = s(T.vertex f (pr i).1, T.vertex f (pr i).2) := by
    intro f hf i hi g hg j hj
    constructor
    · intro h
      obtain ⟨a1, a2, -⟩ := h1 i hi
      obtain ⟨b1, b2, -⟩ := h1 j hj
      rw [Sym2.eq_iff] at h ⊢
      rcases h with ⟨e1, e2⟩ | ⟨e1, e2⟩
      · exact Or.inl ⟨hinj _ (hmemv g hg _ b1) _ (hmemv f hf _ a1) e1, hinj _ (hmemv g hg _ b2) _ (hmemv f hf _ a2) e2⟩
      · exact Or.inr ⟨hinj _ (hmemv g hg _ b1) _ (hmemv f hf _ a2) e1, hinj _ (hmemv g hg _ b2) _ (hmemv f hf _ a1) e2⟩
    · intro h
      have := congrArg (Sym2.map T.info) h
      simpa using this
  have emap : ((s'.flatMap fun f => I.filterMap fun i =>
      if rep f i then some (T.info (T.vertex f (pr i).1), T.info (T.vertex f (pr i).2)) else none).map fun e => s(e.1, e.2)) =
      s'.flatMap fun f => I.filterMap fun i =>
      if rep f i then some s(T.info (T.vertex f (pr i).1), T.info (T.vertex f (pr i).2)) else none := by
    rw [List.map_flatMap]
    congr 1
    funext f
    rw [List.map_filterMap]
    congr 1
    funext i
    split <;> rfl
  obtain ⟨o1, o2⟩ := once (E := fun f i => s(T.info (T.vertex f (pr i).1), T.info (T.vertex f (pr i).2))) hp (hn.sublist hsub) hI
    (by
      intro f hf i hi j hj h
      rw [key f hf j hj f hf i hi] at h
      obtain ⟨a1, a2, -⟩ := h1 i hi
      obtain ⟨b1, b2, -⟩ := h1 j hj
      apply h3 i hi j hj
      rw [Sym2.eq_iff] at h ⊢
      rcases h with ⟨e1, e2⟩ | ⟨e1, e2⟩
      · exact Or.inl ⟨hvi f hf _ a1 _ b1 e1, hvi f hf _ a2 _ b2 e2⟩
      · exact Or.inr ⟨hvi f hf _ a1 _ b2 e1, hvi f hf _ a2 _ b1 e2⟩) rep
    (by
      intro f hf i hi
      rw [hrep f hf i hi]
      obtain ⟨a1, a2, a3⟩ := h1 i hi
      constructor
      · intro h g hg hlt j hj e
        rw [key f hf i hi g hg j hj] at e
        obtain ⟨b1, b2, -⟩ := h1 j hj
        apply h g hg hlt
        rw [Sym2.eq_iff] at e
        rcases e with ⟨e1, e2⟩ | ⟨e1, e2⟩
        · rw [← e1, ← e2]
          exact ⟨List.mem_map_of_mem (List.mem_range.2 b1), List.mem_map_of_mem (List.mem_range.2 b2)⟩
        · rw [← e1, ← e2]
          exact ⟨List.mem_map_of_mem (List.mem_range.2 b2), List.mem_map_of_mem (List.mem_range.2 b1)⟩
      · rintro h g hg hlt ⟨m1, m2⟩
        obtain ⟨p, hp', e1⟩ := List.mem_map.1 m1
        obtain ⟨q, hq', e2⟩ := List.mem_map.1 m2
        rw [List.mem_range] at hp' hq'
        have hpq : p ≠ q := by
          rintro rfl
          exact a3 (hvi f hf _ a1 _ a2 (e1.symm.trans e2))
        obtain ⟨j, hj, e⟩ := h2 p hp' q hq' hpq
        apply h g hg hlt j hj
        rw [key f hf i hi g hg j hj, ← e1, ← e2]
        have := congrArg (Sym2.map (T.vertex g)) e
        simpa using this)
  refine ⟨by rw [emap]; exact o1, fun a b => ?_⟩
  rw [emap, o2]
  unfold EdgeOf getFiniteCells
  constructor
  · rintro ⟨f, hf, i, hi, e⟩
    obtain ⟨a1, a2, a3⟩ := h1 i hi
    obtain ⟨k, hk, hm⟩ := (hs f).1 hf
    have hne : T.info (T.vertex f (pr i).1) ≠ T.info (T.vertex f (pr i).2) := fun h =>
      a3 (hvi f hf _ a1 _ a2 (hinj _ (hmemv f hf _ a1) _ (hmemv f hf _ a2) h))
    refine ⟨k, ((List.range n).map (T.vertex f)).map T.info, hm, ?_, ?_⟩
    · rw [hc, List.getElem?_map, List.getElem?_map, hk]
      rfl
    · have m1 : T.info (T.vertex f (pr i).1) ∈ ((List.range n).map (T.vertex f)).map T.info :=
        List.mem_map_of_mem (List.mem_map_of_mem (List.mem_range.2 a1))
      have m2 : T.info (T.vertex f (pr i).2) ∈ ((List.range n).map (T.vertex f)).map T.info :=
        List.mem_map_of_mem (List.mem_map_of_mem (List.mem_range.2 a2))
      rw [Sym2.eq_iff] at e
      rcases e with ⟨rfl, rfl⟩ | ⟨rfl, rfl⟩
      · exact ⟨m1, m2, hne⟩
      · exact ⟨m2, m1, hne.symm⟩
  · rintro ⟨k, row, hm, hk, ha, hb, hab⟩
    rw [hc, List.getElem?_map, List.getElem?_map] at hk
    cases hh : T.handle[k]? with
    | none => rw [hh] at hk; cases hk
    | some f =>
      rw [hh] at hk
      obtain rfl := Option.some.inj hk
      have hf : f ∈ s := (hs f).2 ⟨k, hh, hm⟩
      obtain ⟨x, hx, rfl⟩ := List.mem_map.1 ha
      obtain ⟨y, hy, rfl⟩ := List.mem_map.1 hb
      obtain ⟨p, hp', rfl⟩ := List.mem_map.1 hx
      obtain ⟨q, hq', rfl⟩ := List.mem_map.1 hy
      rw [List.mem_range] at hp' hq'
      obtain ⟨i, hi, e⟩ := h2 p hp' q hq' (fun h => hab (by rw [h]))
      refine ⟨f, hf, i, hi, ?_⟩
      have := congrArg (Sym2.map (fun v => T.info (T.vertex f v))) e
      simpa using this

/-- **C110 (2-D).** For every set of requested faces and every iteration order of the hash set, `get_edges` returns the edges of the
requested faces (in the numbers of `get_finite_cells`), each once. -/
theorem C110_edges2 {T : Complex V} (hT : Planar T) (hv : Valid T.toTds) (hinj : ∀ x ∈ T.verts, ∀ y ∈ T.verts, T.info x = T.info y → x = y)
    {order : List ℕ → List ℕ} (ho : ∀ s, (order s).Perm s) {mask : List ℤ} (hl : T.handle.length ≤ mask.length) :
    ∃ es, getEdges2 T order mask = .ok es ∧ Lists (getFiniteCells T.toTds) mask es := by
  obtain ⟨s, hs, hsub, hmem⟩ := select_ok hl
  refine ⟨_, by unfold getEdges2; rw [hs]; rfl, ?_⟩
  have := lists_of (n := 3) (I := List.range 3) (pr := fun i => ((i + 2) % 3, (i + 1) % 3)) (mask := mask) List.nodup_range (by decide) (by decide)
    (by decide) hT.cells hT.nodup hT.distinct hv hinj hsub hmem (ho s) (rep := fun f i => !decide (f > T.nei f i ∧ T.nei f i ∈ s)) (by
      intro f hf i hi
      rw [List.mem_range] at hi
      have hother : ∀ g, (T.vertex f ((i + 2) % 3) ∈ (List.range 3).map (T.vertex g) ∧ T.vertex f ((i + 1) % 3) ∈ (List.range 3).map (T.vertex g)) ↔
          ∀ j < 3, j ≠ i → T.vertex f j ∈ (List.range 3).map (T.vertex g) := by
        intro g
        constructor
        · rintro ⟨e1, e2⟩ j hj hji
          have : j = (i + 2) % 3 ∨ j = (i + 1) % 3 := by omega
          rcases this with rfl | rfl
          · exact e1
          · exact e2
        · intro h
          exact ⟨h _ (by omega) (by omega), h _ (by omega) (by omega)⟩
      change (!decide (f > T.nei f i ∧ T.nei f i ∈ s)) = true ↔ _
      rw [Bool.not_eq_true', decide_eq_false_iff_not]
      constructor
      · intro h g hg hlt hc
        have := (hT.nei f (hsub.subset hf) i hi g (hsub.subset hg)).2 ⟨by omega, (hother g).1 hc⟩
        rw [this] at h
        exact h ⟨hlt, hg⟩
      · rintro h ⟨hlt, hg⟩
        have := (hT.nei f (hsub.subset hf) i hi _ (hsub.subset hg)).1 rfl
        exact h _ hg hlt ((hother _).2 this.2))
  have e : (fun f => (List.range 3).filterMap fun i => if f > T.nei f i ∧ T.nei f i ∈ s then none
      else some (T.info (T.vertex f ((i + 2) % 3)), T.info (T.vertex f ((i + 1) % 3)))) =
      fun f => (List.range 3).filterMap fun i => if (!decide (f > T.nei f i ∧ T.nei f i ∈ s)) = true
      then some (T.info (T.vertex f ((i + 2) % 3)), T.info (T.vertex f ((i + 1) % 3))) else none := by
    funext f
    congr 1
    funext i
    by_cases hh : f > T.nei f i ∧ T.nei f i ∈ s
    · rw [if_pos hh, if_neg (by simpa using hh)]
    · rw [if_neg hh, if_pos (by rw [Bool.not_eq_true', decide_eq_false_iff_not]; exact hh)]
  change Lists _ _ (List.flatMap (fun f => (List.range 3).filterMap fun i => if f > T.nei f i ∧ T.nei f i ∈ s then none
      else some (T.info (T.vertex f ((i + 2) % 3)), T.info (T.vertex f ((i + 1) % 3)))) (order s))
  rw [e]
  exact this

theorem smallest_iff (s : List ℕ) (c : ℕ) (l : List ℕ) : smallest s c l = true ↔ ∀ g ∈ s, g < c → g ∉ l := by
  induction l with
  | nil => simp [smallest]
  | cons a l ih =>
    unfold smallest
    split
    · rename_i h
      simp only [Bool.false_eq_true, false_iff]
      intro hh
      exact hh a h.2 h.1 (by simp)
    · rename_i h
      rw [ih]
      constructor
      · intro hh g hg hlt hm
        rcases List.mem_cons.1 hm with rfl | hm
        · exact h ⟨hlt, hg⟩
        · exact hh g hg hlt hm
      · intro hh g hg hlt hm
        exact hh g hg hlt (List.mem_cons_of_mem _ hm)

/-- **C110 (3-D).** The same for tetrahedra. -/
theorem C110_edges3 {T : Complex V} (hT : Spatial T) (hv : Valid T.toTds) (hinj : ∀ x ∈ T.verts, ∀ y ∈ T.verts, T.info x = T.info y → x = y)
    {order : List ℕ → List ℕ} (ho : ∀ s, (order s).Perm s) {mask : List ℤ} (hl : T.handle.length ≤ mask.length) :
    ∃ es, getEdges3 T order mask = .ok es ∧ Lists (getFiniteCells T.toTds) mask es := by
  obtain ⟨s, hs, hsub, hmem⟩ := select_ok hl
  refine ⟨_, by unfold getEdges3; rw [hs]; rfl, ?_⟩
  have hidx : ∀ ij ∈ indices, ij.1 < 4 ∧ ij.2 < 4 ∧ ij.1 ≠ ij.2 := by decide
  refine lists_of (n := 4) (I := indices) (pr := id) (mask := mask) (by decide) hidx (by decide)
    (by decide) hT.cells hT.nodup hT.distinct hv hinj hsub hmem (ho s) (rep := fun c ij => smallest s c (T.around c ij.1 ij.2)) ?_
  intro f hf ij hij
  obtain ⟨a1, a2, a3⟩ := hidx ij hij
  rw [smallest_iff]
  constructor
  · intro h g hg hlt hc
    exact h g hg hlt ((hT.around f (hsub.subset hf) _ a1 _ a2 a3 g (hsub.subset hg)).2 hc)
  · intro h g hg hlt hc
    exact h g hg hlt ((hT.around f (hsub.subset hf) _ a1 _ a2 a3 g (hsub.subset hg)).1 hc)

theorem refresh_inj {T : Complex V} (hv : Valid T.toTds) :
    ∀ x ∈ (refresh T).verts, ∀ y ∈ (refresh T).verts, (refresh T).info x = (refresh T).info y → x = y := by
  intro x hx y hy h
  obtain ⟨hj, e1⟩ := info_spec hv hx
  obtain ⟨hj', e2⟩ := info_spec hv hy
  have h' : (getFiniteVertices T.toTds).2.info x = (getFiniteVertices T.toTds).2.info y := h
  rw [← e1, ← e2]
  congr 1

/-- **C110 (as called).** After `get_finite_vertices` the edges refer to the returned vertex array and cell table, whatever happened to
the triangulation before. -/
theorem C110_current {T : Complex V} (hv : Valid T.toTds) {order : List ℕ → List ℕ} (ho : ∀ s, (order s).Perm s) {mask : List ℤ}
    (hl : T.handle.length ≤ mask.length) :
    (Planar T → ∃ es, getEdges2 (refresh T) order mask = .ok es ∧ Lists (getTopology T.toTds).1.2 mask es) ∧
    (Spatial T → ∃ es, getEdges3 (refresh T) order mask = .ok es ∧ Lists (getTopology T.toTds).1.2 mask es) :=
  ⟨fun h => C110_edges2 (T := refresh T) ⟨h.cells, h.nodup, h.distinct, h.nei⟩ hv (refresh_inj hv) ho hl,
    fun h => C110_edges3 (T := refresh T) ⟨h.cells, h.nodup, h.distinct, h.around⟩ hv (refresh_inj hv) ho hl⟩

/-- **C110 (too short an argument).** With fewer entries than cells the argument is read past its end. -/
theorem C110_short {T : Complex V} (order : List ℕ → List ℕ) {mask : List ℤ} (hl : mask.length < T.handle.length) :
    getEdges2 T order mask = .error "undefined behaviour: argument too short" ∧
    getEdges3 T order mask = .error "undefined behaviour: argument too short" := by
  unfold getEdges2 getEdges3
  rw [select_short hl]
  exact ⟨rfl, rfl⟩
/-! ## Examples -/

/-- Two triangles that share an edge, at addresses 70 and 40; infinite faces at 1, 2, 3, 4. -/
def exampleFaces : Complex Unit where
  verts := [0, 1, 2, 3]
  point _ := ()
  info := id
  cells := [[0, 1, 2], [1, 3, 2]]
  handle := [70, 40]
  vertex f i := if f = 70 then [0, 1, 2].getD i 0 else [1, 3, 2].getD i 0
  nei f i := if f = 70 then [40, 1, 2].getD i 0 else [3, 70, 4].getD i 0
  around _ _ _ := []

example : Planar exampleFaces ∧ Valid exampleFaces.toTds ∧ (∀ x ∈ exampleFaces.verts, ∀ y ∈ exampleFaces.verts, exampleFaces.info x = exampleFaces.info y → x = y) ∧
    getEdges2 exampleFaces id [1, 1] = .ok [(0, 2), (1, 0), (2, 3), (1, 2), (3, 1)] ∧
    getEdges2 exampleFaces id [1, 0] = .ok [(2, 1), (0, 2), (1, 0)] := by
  refine ⟨⟨by decide, by decide, by decide, by decide⟩, ⟨by decide, by decide⟩, by decide, by decide, by decide⟩

/-- Two tetrahedra that share a facet, at addresses 70 and 40. -/
def exampleCells : Complex Unit where
  verts := [0, 1, 2, 3, 4]
  point _ := ()
  info := id
  cells := [[0, 1, 2, 3], [1, 2, 3, 4]]
  handle := [70, 40]
  vertex f i := if f = 70 then [0, 1, 2, 3].getD i 0 else [1, 2, 3, 4].getD i 0
  nei _ _ := 0
  around f i j := if f = 70 then (if i = 0 ∨ j = 0 then [70, 1] else [70, 40, 2]) else (if i = 3 ∨ j = 3 then [40, 3] else [40, 70, 2])

example : Spatial exampleCells ∧ Valid exampleCells.toTds ∧ (∀ x ∈ exampleCells.verts, ∀ y ∈ exampleCells.verts, exampleCells.info x = exampleCells.info y → x = y) ∧
    getEdges3 exampleCells id [1, 1] = .ok [(0, 1), (2, 0), (0, 3), (1, 2), (2, 3), (3, 1), (1, 4), (2, 4), (3, 4)] := by
  refine ⟨⟨by decide, by decide, by decide, by decide⟩, ⟨by decide, by decide⟩, by decide, by decide⟩

end SM.DtEdges
