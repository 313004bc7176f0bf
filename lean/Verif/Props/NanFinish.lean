import Verif.Model.NanFinish
import Verif.Props.NanFl

/-!
# C145: coordinates of the returned mesh that are not numbers
-/

namespace SM.NanFinish

open Np NanFl FixMesh

variable {α : Type} {d : ℕ} {O : Ops α} {inf pinf : α → Prop}

/-! ### Specification -/

/-- A point with a coordinate that is NaN. -/
def HasNan (O : Ops α) (x : Fin d → α) : Prop := ∃ k, O.isNan (x k)

/-- The level-set function is NaN at points with a coordinate that is NaN. -/
def Strict (O : Ops α) (fl : (Fin d → α) → α) : Prop := ∀ x, HasNan O x → O.isNan (fl x)

/-! ### Proof -/

theorem corrected_nan (hI : IEEE O inf pinf) {fl : (Fin d → α) → α} {deps alpha : α} {x : Fin d → α} (h : O.isNan (fl x)) (k : Fin d) : O.isNan (corrected O fl deps alpha x k) :=
  hI.nan_sub _ _ (Or.inr (hI.nan_mul _ _ (Or.inr (hI.nan_div _ _ (Or.inl (hI.nan_mul _ _ (Or.inl h)))))))

theorem corrected_keep (hI : IEEE O inf pinf) {fl : (Fin d → α) → α} {deps alpha : α} {x : Fin d → α} {k : Fin d} (h : O.isNan (x k)) : O.isNan (corrected O fl deps alpha x k) :=
  hI.nan_sub _ _ (Or.inl h)

theorem sweep_get {fl : (Fin d → α) → α} {deps alpha : α} {bid : List ℕ} {p : List (Fin d → α)} {i : ℕ} {x : Fin d → α} (h : p[i]? = some x) :
    (sweep O fl deps alpha bid p)[i]? = some (if i ∈ bid then corrected O fl deps alpha x else x) := by
  simp [sweep, h]

theorem sweep_length {fl : (Fin d → α) → α} {deps alpha : α} {bid : List ℕ} {p : List (Fin d → α)} : (sweep O fl deps alpha bid p).length = p.length := by simp [sweep]

/-- Something that every sweep keeps holds after the loop. -/
theorem loop_keep {fl : (Fin d → α) → α} {deps : α} {num : ℕ → α} {bid : List ℕ} {Q : List (Fin d → α) → Prop} (h : ∀ p alpha, Q p → Q (sweep O fl deps alpha bid p)) :
    ∀ (its : List ℕ) (s : List (Fin d → α) × α), Q s.1 → Q (its.foldl (fun s it => (sweep O fl deps s.2 bid s.1, O.div s.2 (num (it + 1)))) s).1
  | [], _, hs => hs
  | it :: its, s, hs => loop_keep h its _ (h s.1 s.2 hs)

theorem improve_length {fl : (Fin d → α) → α} {deps : α} {num : ℕ → α} {bid : List ℕ} {p : List (Fin d → α)} : (improve O fl deps num bid p).length = p.length :=
  loop_keep (Q := fun q => q.length = p.length) (fun q a hq => sweep_length.trans hq) _ (p, num 1) rfl

theorem improve_same {fl : (Fin d → α) → α} {deps : α} {num : ℕ → α} {bid : List ℕ} {p : List (Fin d → α)} {i : ℕ} (hi : i ∉ bid) : (improve O fl deps num bid p)[i]? = p[i]? := by
  refine loop_keep (Q := fun q => q[i]? = p[i]?) (fun q a hq => ?_) _ (p, num 1) rfl
  cases hx : q[i]? with
  | none =>
    rw [← hq, hx, List.getElem?_eq_none_iff, sweep_length]
    exact List.getElem?_eq_none_iff.1 hx
  | some x => rw [sweep_get hx, if_neg hi, ← hx, hq]

theorem improve_nan (hI : IEEE O inf pinf) {fl : (Fin d → α) → α} {deps : α} {num : ℕ → α} {bid : List ℕ} {p : List (Fin d → α)} {i : ℕ} {x : Fin d → α} (hx : p[i]? = some x) (hi : i ∈ bid)
    (h : O.isNan (fl x)) : ∃ y, (improve O fl deps num bid p)[i]? = some y ∧ ∀ k, O.isNan (y k) := by
  have h0 : ∃ y, (sweep O fl deps (num 1) bid p)[i]? = some y ∧ ∀ k, O.isNan (y k) :=
    ⟨_, sweep_get hx, fun k => by rw [if_pos hi]; exact corrected_nan hI h k⟩
  refine loop_keep (Q := fun q => ∃ y, q[i]? = some y ∧ ∀ k, O.isNan (y k)) (fun q a hq => ?_) [1, 2, 3, 4] (sweep O fl deps (num 1) bid p, O.div (num 1) (num 1)) h0
  obtain ⟨y, hy, hk⟩ := hq
  exact ⟨_, sweep_get hy, fun k => by rw [if_pos hi]; exact corrected_keep hI (hk k)⟩

theorem centroid_nan (hI : IEEE O inf pinf) {num : ℕ → α} {vs : List (Fin d → α)} {v : Fin d → α} (hv : v ∈ vs) (h : HasNan O v) : HasNan O (centroid O num vs) := by
  obtain ⟨k, hk⟩ := h
  refine ⟨k, hI.nan_div _ _ (Or.inl ?_)⟩
  exact fold_nan (f := O.add) (x := v k) (fun s x hs => hI.nan_add _ _ (Or.inl hs)) (fun s => hI.nan_add _ _ (Or.inr hk)) (List.mem_map.2 ⟨v, hv, rfl⟩) _

theorem take_all {p : List (Fin d → α)} {r : List ℕ} (h : ∀ i ∈ r, i < p.length) : ∃ vs, take p r = .ok vs ∧ ∀ i ∈ r, ∀ x, p[i]? = some x → x ∈ vs := by
  obtain ⟨vs, h1, h2⟩ := mapM_all (f := item p) (l := r) fun i hi => ⟨_, item_ok.2 (List.getElem?_eq_getElem (h i hi))⟩
  exact ⟨vs, h1, fun i hi x hx => (h2 x).2 ⟨i, hi, item_ok.2 hx⟩⟩

/-- The cells returned are those whose centroid is inside. -/
theorem keepInside_run {fl : (Fin d → α) → α} {num : ℕ → α} {geps : α} {p : List (Fin d → α)} {t : List (List ℕ)} (hr : InRange p t) :
    ∃ t', keepInside O fl num geps p t = .ok t' ∧ ∀ r, r ∈ t' ↔ r ∈ t ∧ ∃ vs, take p r = .ok vs ∧ O.lt (fl (centroid O num vs)) (O.neg geps) := by
  obtain ⟨rows, h1, h2⟩ := mapM_all (l := t) (f := fun r => do
    let vs ← take p r
    return (r, O.lt (fl (centroid O num vs)) (O.neg geps))) fun r h => by
      obtain ⟨vs, hvs, -⟩ := take_all (hr r h)
      exact ⟨_, by simp only [hvs, bind, Except.bind]; rfl⟩
  refine ⟨_, by rw [keepInside, h1]; rfl, fun r => ?_⟩
  constructor
  · intro h
    obtain ⟨⟨r', b⟩, hx, rfl⟩ := List.mem_map.1 h
    obtain ⟨hx, hb⟩ := List.mem_filter.1 hx
    obtain ⟨r'', hr'', he⟩ := (h2 _).1 hx
    obtain ⟨vs, hvs, -⟩ := take_all (hr r'' hr'')
    simp only [hvs, bind, Except.bind, pure, Except.pure, Except.ok.injEq, Prod.mk.injEq] at he
    obtain ⟨rfl, he⟩ := he
    exact ⟨hr'', vs, hvs, he.trans hb⟩
  · rintro ⟨hr', vs, hvs, hb⟩
    exact List.mem_map.2 ⟨(r, true), List.mem_filter.2 ⟨(h2 _).2 ⟨r, hr', by simp only [hvs, bind, Except.bind, pure, Except.pure, hb]⟩, rfl⟩, rfl⟩

/-! ### C145 -/

/-- **C145 (cells; partial).** No returned cell has a vertex with a coordinate that is NaN; cells are only removed, vertices neither added nor removed, and only boundary vertices are moved. -/
theorem C145_cells_partial (hI : IEEE O inf pinf) {fl : (Fin d → α) → α} (hs : Strict O fl) (deps geps : α) (num : ℕ → α) (bid : List ℕ) {p : List (Fin d → α)} {t : List (List ℕ)} (hr : InRange p t) :
    ∃ p' t', finish O fl deps geps num bid p t = .ok (p', t') ∧ p'.length = p.length ∧ (∀ i, i ∉ bid → p'[i]? = p[i]?) ∧ (∀ r ∈ t', r ∈ t) ∧
      ∀ r ∈ t', ∀ i ∈ r, ∀ x, p'[i]? = some x → ¬ HasNan O x := by
  have hr' : InRange (improve O fl deps num bid p) t := fun r h i hi => by rw [improve_length]; exact hr r h i hi
  obtain ⟨t', h1, h2⟩ := keepInside_run (O := O) (fl := fl) (num := num) (geps := geps) hr'
  refine ⟨_, t', by simp only [finish, h1, bind, Except.bind]; rfl, improve_length, fun i hi => improve_same hi, fun r h => ((h2 r).1 h).1, fun r h i hi x hx hn => ?_⟩
  obtain ⟨hrt, vs, hvs, hlt⟩ := (h2 r).1 h
  obtain ⟨vs', hvs', hmem⟩ := take_all (hr' r hrt)
  rw [hvs] at hvs'
  cases hvs'
  rw [hI.nan_lt _ _ (Or.inl (hs _ (centroid_nan hI (hmem i hi x hx) hn)))] at hlt
  exact absurd hlt (by decide)

/-- **C145 (what becomes NaN).** A boundary vertex where the level-set function is NaN is returned with all its coordinates NaN, and no returned cell has it, although before it lay in cells. -/
theorem C145_vertex (hI : IEEE O inf pinf) (hd : d ≠ 0) {fl : (Fin d → α) → α} (hs : Strict O fl) (deps geps : α) (num : ℕ → α) {bid : List ℕ} {p : List (Fin d → α)} {t : List (List ℕ)}
    (hr : InRange p t) {i : ℕ} {x : Fin d → α} (hx : p[i]? = some x) (hi : i ∈ bid) (hnan : O.isNan (fl x)) :
    ∃ p' t', finish O fl deps geps num bid p t = .ok (p', t') ∧ (∃ y, p'[i]? = some y ∧ ∀ k, O.isNan (y k)) ∧ ∀ r ∈ t', i ∉ r := by
  obtain ⟨p', t', h, -, -, -, h2⟩ := C145_cells_partial hI hs deps geps num bid hr
  have hp : p' = improve O fl deps num bid p := by
    simp only [finish, bind, Except.bind] at h
    split at h
    · simp at h
    · simp only [pure, Except.pure, Except.ok.injEq, Prod.mk.injEq] at h
      exact h.1.symm
  obtain ⟨y, hy, hk⟩ := improve_nan (deps := deps) (num := num) hI hx hi hnan
  exact ⟨p', t', h, ⟨y, hp ▸ hy, hk⟩, fun r hrt hir => h2 r hrt i hir y (hp ▸ hy) ⟨⟨0, by omega⟩, hk _⟩⟩

/-! ### A mesh with a vertex that is not a number -/

/-- Two triangles. -/
def exP : List (Fin 2 → Double) := [![.num 0, .num 0], ![.num 1, .num 0], ![.num 0, .num 1], ![.num 1, .num 1]]

def exT : List (List ℕ) := [[0, 1, 2], [1, 3, 2]]

/-- A level-set function that is -1 left of x + y = 2, and on it, where it divides 0 by 0, NaN. -/
def exFl (x : Fin 2 → Double) : Double :=
  let s := ((Double.ops id).add ((Double.ops id).add (x 0) (x 1)) (.num (-2)))
  (Double.ops id).sub ((Double.ops id).div s s) (.num 2)

/-- **C145 is false of the code.** The last step returns a vertex whose coordinates are NaN, without an exception: the level-set function is a number at the other three vertices. One of two triangles is
left. -/
theorem C145_nan_returned : InRange exP exT ∧ Strict (Double.ops id) exFl ∧ (∀ x ∈ exP.take 3, ¬ (Double.ops id).isNan (exFl x)) ∧
    ∃ p' t' x, finish (Double.ops id) exFl (.num (1 / 1024)) (.num (1 / 1024)) (fun n => .num n) [0, 1, 2, 3] exP exT = .ok (p', t') ∧ p'[3]? = some x ∧ (∀ k, x k = .nan) ∧ t' = [[0, 1, 2]] := by
  have hr : InRange exP exT := by unfold InRange exP exT; decide
  have hs : Strict (Double.ops id) exFl := by
    rintro x ⟨k, hk⟩
    have hI := Double.ieee id
    have h : (Double.ops id).isNan ((Double.ops id).add (x 0) (x 1)) := hI.nan_add _ _ (by fin_cases k; exacts [Or.inl hk, Or.inr hk])
    exact hI.nan_sub _ _ (Or.inl (hI.nan_div _ _ (Or.inl (hI.nan_add _ _ (Or.inl h)))))
  refine ⟨hr, hs, by decide +kernel, ?_⟩
  obtain ⟨p', t', h, ⟨x, hx, hk⟩, -⟩ := C145_vertex (Double.ieee id) two_ne_zero hs (.num (1 / 1024)) (.num (1 / 1024)) (fun n => .num n) hr (i := 3) rfl
    (bid := [0, 1, 2, 3]) (by simp) (by decide +kernel)
  refine ⟨p', t', x, h, hx, fun k => by simpa [Double.ops] using hk k, ?_⟩
  have ht : (finish (Double.ops id) exFl (.num (1 / 1024)) (.num (1 / 1024)) (fun n => .num n) [0, 1, 2, 3] exP exT).map Prod.snd = .ok [[0, 1, 2]] := by decide +kernel
  rw [h] at ht
  exact Except.ok.inj ht

end SM.NanFinish
