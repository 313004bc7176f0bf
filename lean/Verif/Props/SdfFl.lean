import Verif.Model.SdfFl
import Verif.Lemmas.Binary64
import Mathlib.Tactic.Linarith
import Mathlib.Tactic.NormNum
import Mathlib.Tactic.Positivity
import Mathlib.Tactic.Ring
import Mathlib.Tactic.FinCases
import Mathlib.Algebra.Order.Ring.Abs

/-!
# C107: inside and outside are exact in floating-point arithmetic
-/

namespace SM.SdfFl

variable {K : Type} [Field K] [LinearOrder K]

/-! ## Specification -/

/-- What is asked of the rounding: it keeps the order, is symmetric, and no difference other than 0 is rounded to 0. -/
structure Rounding (rnd : K → K) : Prop where
  mono : Monotone rnd
  odd : ∀ x, rnd (-x) = -rnd x
  ne_zero : ∀ x, rnd x = 0 → x = 0

/-- Relative error of one operation. -/
def Accurate (rnd : K → K) (u : K) : Prop := ∀ x, |rnd x - x| ≤ u * |x|

/-- Lower corner, upper corner and shift of a box. -/
def Prim.lo : {d : ℕ} → Prim K d → Fin d → K
  | _, .rect x1 _ y1 _ _ => ![x1, y1]
  | _, .cube x1 _ y1 _ z1 _ _ => ![x1, y1, z1]
/-- Upper corner. -/
def Prim.hi : {d : ℕ} → Prim K d → Fin d → K
  | _, .rect _ x2 _ y2 _ => ![x2, y2]
  | _, .cube _ x2 _ y2 _ z2 _ => ![x2, y2, z2]
/-- Shift, if one was given. -/
def Prim.shift : {d : ℕ} → Prim K d → Option (Fin d → K)
  | _, .rect _ _ _ _ t => t
  | _, .cube _ _ _ _ _ _ t => t
/-- Shift in direction `i`. -/
def Prim.by {d : ℕ} (b : Prim K d) (i : Fin d) : K := (b.shift.getD fun _ => 0) i

/-- The point lies in the open, translated box. -/
def Prim.Interior {d : ℕ} (b : Prim K d) (p : Fin d → K) : Prop := 
  ∀ i, b.lo i + b.by i < p i ∧ p i < b.hi i + b.by i
/-- The point lies in the closed, translated box. -/
def Prim.Closed {d : ℕ} (b : Prim K d) (p : Fin d → K) : Prop := 
  ∀ i, b.lo i + b.by i ≤ p i ∧ p i ≤ b.hi i + b.by i

mutual
/-- The point is strictly inside the combination of sets. -/
def Geo.Interior {d : ℕ} (p : Fin d → K) : Geo K d → Prop
  | .prim b => b.Interior p
  | .union o os => o.Interior p ∨ ∃ a, ∃ _ : a ∈ os, a.Interior p
  | .inter o os => o.Interior p ∧ ∀ a, ∀ _ : a ∈ os, a.Interior p
  | .diff o os => o.Interior p ∧ ∀ a, ∀ _ : a ∈ os, ¬a.Closed p
/-- The point is inside the combination of sets or on its boundary. -/
def Geo.Closed {d : ℕ} (p : Fin d → K) : Geo K d → Prop
  | .prim b => b.Closed p
  | .union o os => o.Closed p ∨ ∃ a, ∃ _ : a ∈ os, a.Closed p
  | .inter o os => o.Closed p ∧ ∀ a, ∀ _ : a ∈ os, a.Closed p
  | .diff o os => o.Closed p ∧ ∀ a, ∀ _ : a ∈ os, ¬a.Interior p
end

/-- Every box of the geometry satisfies `P`. -/
def Geo.AllPrims {d : ℕ} (P : Prim K d → Prop) : Geo K d → Prop
  | .prim b => P b
  | .union o os => o.AllPrims P ∧ ∀ a, ∀ _ : a ∈ os, a.AllPrims P
  | .inter o os => o.AllPrims P ∧ ∀ a, ∀ _ : a ∈ os, a.AllPrims P
  | .diff o os => o.AllPrims P ∧ ∀ a, ∀ _ : a ∈ os, a.AllPrims P

/-- No box was given a translation. -/
def Untranslated {d : ℕ} (b : Prim K d) : Prop := b.shift = none

/-- All coordinates of the box and its shift are at most `B` in absolute value. -/
def Within {d : ℕ} (B : K) (b : Prim K d) : Prop :=
  (∀ i, |b.lo i| ≤ B ∧ |b.hi i| ≤ B) ∧ ∀ t, b.shift = some t → ∀ i, |t i| ≤ B

/-! ## Proofs -/

theorem evals_eq (rnd : K → K) {d : ℕ} (p : Fin d → K) (os : List (Geo K d)) :
    evals rnd p os = os.map (Geo.eval rnd p) := by
  induction os with
  | nil => rfl
  | cons o os ih => simp [evals, ih]

/-- Induction over geometries. -/
theorem Geo.ind {d : ℕ} {M : Geo K d → Prop} (hp : ∀ b, M (.prim b))
    (hu : ∀ o os, M o → (∀ a ∈ os, M a) → M (.union o os))
    (hi : ∀ o os, M o → (∀ a ∈ os, M a) → M (.inter o os))
    (hd : ∀ o os, M o → (∀ a ∈ os, M a) → M (.diff o os)) : ∀ g, M g
  | .prim b => hp b
  | .union o os => hu o os (Geo.ind hp hu hi hd o) fun a _ => Geo.ind hp hu hi hd a
  | .inter o os => hi o os (Geo.ind hp hu hi hd o) fun a _ => Geo.ind hp hu hi hd a
  | .diff o os => hd o os (Geo.ind hp hu hi hd o) fun a _ => Geo.ind hp hu hi hd a

variable [IsStrictOrderedRing K]

theorem Rounding.zero {rnd : K → K} (h : Rounding rnd) : rnd 0 = 0 := by
  have := h.odd 0
  rw [neg_zero] at this
  linarith

theorem Rounding.pos {rnd : K → K} (h : Rounding rnd) {x : K} : 0 < rnd x ↔ 0 < x := by
  constructor
  · intro hx
    by_contra hc
    have := h.mono (not_lt.1 hc)
    rw [h.zero] at this
    exact absurd hx (not_lt.2 this)
  · intro hx
    have h1 := h.mono hx.le
    rw [h.zero] at h1
    exact lt_of_le_of_ne h1 fun e => hx.ne' (h.ne_zero x e.symm)

theorem Rounding.neg {rnd : K → K} (h : Rounding rnd) {x : K} : rnd x < 0 ↔ x < 0 := by
  have := h.pos (x := -x)
  rw [h.odd] at this
  simpa using this

theorem Rounding.foldl_min {rnd : K → K} (h : Rounding rnd) (l : List K) (a : K) :
    (l.map rnd).foldl min (rnd a) = rnd (l.foldl min a) := by
  induction l generalizing a with
  | nil => rfl
  | cons b l ih => simp only [List.map_cons, List.foldl_cons, ← h.mono.map_min, ih]

theorem Rounding.foldl_max {rnd : K → K} (h : Rounding rnd) (l : List K) (a : K) :
    (l.map rnd).foldl max (rnd a) = rnd (l.foldl max a) := by
  induction l generalizing a with
  | nil => rfl
  | cons b l ih => simp only [List.map_cons, List.foldl_cons, ← h.mono.map_max, ih]

/-- The box without its shift. -/
def Prim.bare : {d : ℕ} → Prim K d → Prim K d
  | _, .rect x1 x2 y1 y2 _ => .rect x1 x2 y1 y2 none
  | _, .cube x1 x2 y1 y2 z1 z2 _ => .cube x1 x2 y1 y2 z1 z2 none

theorem Prim.eval_rnd {rnd : K → K} (h : Rounding rnd) {d : ℕ} (b : Prim K d) (p : Fin d → K) :
    b.eval rnd p = rnd (b.bare.eval id (translateBack rnd b.shift p)) := by
  cases b <;> cases ‹Option _› <;>
    simp only [Prim.eval, Prim.bare, Prim.shift, translateBack, drectangle, dblock, id, h.odd, h.mono.map_min]

theorem Prim.eval_id {d : ℕ} (b : Prim K d) (p : Fin d → K) :
    b.eval id p = b.bare.eval id (translateBack id b.shift p) := by
  cases b <;> cases ‹Option _› <;>
    simp only [Prim.eval, Prim.bare, Prim.shift, translateBack, drectangle, dblock, id]

theorem Prim.exact {d : ℕ} (b : Prim K d) (p : Fin d → K) :
    (b.eval id p < 0 ↔ b.Interior p) ∧ (b.eval id p ≤ 0 ↔ b.Closed p) := by
  cases b <;> cases ‹Option _› <;>
    simp only [Prim.eval, Prim.Interior, Prim.Closed, Prim.by, Prim.shift, Prim.lo, Prim.hi, translateBack, drectangle, dblock, id,
      Left.neg_neg_iff, Left.neg_nonpos_iff, lt_min_iff, le_min_iff, Fin.forall_fin_two, Fin.forall_fin_succ, Fin.forall_fin_zero,
      Option.getD_none, Option.getD_some, Matrix.cons_val_zero, Matrix.cons_val_one, Matrix.cons_val_succ, Fin.succ_zero_eq_one, Fin.succ_one_eq_two,
      IsEmpty.forall_iff, and_true] <;>
    constructor <;> constructor <;> (simp only [and_imp]; intros; (repeat' apply And.intro) <;> linarith)

theorem foldl_min_lt (l : List K) (a c : K) : l.foldl min a < c ↔ a < c ∨ ∃ b ∈ l, b < c := by
  induction l generalizing a with
  | nil => simp
  | cons b l ih => simp [ih, min_lt_iff, or_assoc]

theorem foldl_min_le (l : List K) (a c : K) : l.foldl min a ≤ c ↔ a ≤ c ∨ ∃ b ∈ l, b ≤ c := by
  induction l generalizing a with
  | nil => simp
  | cons b l ih => simp [ih, min_le_iff, or_assoc]

theorem foldl_max_lt (l : List K) (a c : K) : l.foldl max a < c ↔ a < c ∧ ∀ b ∈ l, b < c := by
  induction l generalizing a with
  | nil => simp
  | cons b l ih => simp [ih, max_lt_iff, and_assoc]

theorem foldl_max_le (l : List K) (a c : K) : l.foldl max a ≤ c ↔ a ≤ c ∧ ∀ b ∈ l, b ≤ c := by
  induction l generalizing a with
  | nil => simp
  | cons b l ih => simp [ih, max_le_iff, and_assoc]

/-- Exact arithmetic: the sign of `eval` says which points belong to the geometry. -/
theorem exact_classification {d : ℕ} (p : Fin d → K) (g : Geo K d) :
    (g.eval id p < 0 ↔ g.Interior p) ∧ (g.eval id p ≤ 0 ↔ g.Closed p) := by
  induction g using Geo.ind with
  | hp b => simpa [Geo.eval, Geo.Interior, Geo.Closed] using b.exact p
  | hu o os ho hos =>
    simp only [Geo.eval, Geo.Interior, Geo.Closed, evals_eq, foldl_min_lt, foldl_min_le, ho.1, ho.2, List.mem_map, exists_exists_and_eq_and]
    constructor <;> refine or_congr Iff.rfl (exists_congr fun a => ?_)
    · exact ⟨fun h => ⟨h.1, (hos a h.1).1.1 h.2⟩, fun ⟨h, h2⟩ => ⟨h, (hos a h).1.2 h2⟩⟩
    · exact ⟨fun h => ⟨h.1, (hos a h.1).2.1 h.2⟩, fun ⟨h, h2⟩ => ⟨h, (hos a h).2.2 h2⟩⟩
  | hi o os ho hos =>
    simp only [Geo.eval, Geo.Interior, Geo.Closed, evals_eq, foldl_max_lt, foldl_max_le, ho.1, ho.2, List.mem_map, forall_exists_index, and_imp,
      forall_apply_eq_imp_iff₂]
    constructor <;> refine and_congr Iff.rfl (forall_congr' fun a => forall_congr' fun h => ?_)
    · exact (hos a h).1
    · exact (hos a h).2
  | hd o os ho hos =>
    simp only [Geo.eval, Geo.Interior, Geo.Closed, evals_eq, foldl_max_lt, foldl_max_le, ho.1, ho.2, List.mem_map, forall_exists_index, and_imp,
      forall_apply_eq_imp_iff₂, Left.neg_neg_iff, Left.neg_nonpos_iff]
    constructor <;> refine and_congr Iff.rfl (forall_congr' fun a => forall_congr' fun h => ?_)
    · rw [← (hos a h).2, not_le]
    · rw [← (hos a h).1, not_lt]

/-- **C107a.** For boxes that were not translated, and every combination of them by set operations of smoothness 0, the computed
value is the exact value rounded once. -/
theorem C107_correctly_rounded {rnd : K → K} (h : Rounding rnd) {d : ℕ} (p : Fin d → K) (g : Geo K d) (hg : g.AllPrims Untranslated) :
    g.eval rnd p = rnd (g.eval id p) := by
  induction g using Geo.ind with
  | hp b =>
    have hb : b.shift = none := by simpa only [Geo.AllPrims, Untranslated] using hg
    simp only [Geo.eval]
    rw [b.eval_rnd h, b.eval_id, hb]
    rfl
  | hu o os ho hos =>
    simp only [Geo.AllPrims] at hg
    simp only [Geo.eval, evals_eq, ho hg.1]
    rw [← h.foldl_min, List.map_map]
    congr 1
    exact List.map_congr_left fun a ha => hos a ha (hg.2 a ha)
  | hi o os ho hos =>
    simp only [Geo.AllPrims] at hg
    simp only [Geo.eval, evals_eq, ho hg.1]
    rw [← h.foldl_max, List.map_map]
    congr 1
    exact List.map_congr_left fun a ha => hos a ha (hg.2 a ha)
  | hd o os ho hos =>
    simp only [Geo.AllPrims] at hg
    simp only [Geo.eval, evals_eq, ho hg.1]
    rw [← h.foldl_max, List.map_map, List.map_map, List.map_map]
    congr 1
    refine List.map_congr_left fun a ha => ?_
    simp only [Function.comp_apply, hos a ha (hg.2 a ha), h.odd]

/-- **C107b.** The computed value is negative exactly strictly inside, zero exactly on the boundary and positive exactly outside:
no point, however close to the boundary, is put on the wrong side by rounding errors. -/
theorem C107_classification {rnd : K → K} (h : Rounding rnd) {d : ℕ} (p : Fin d → K) (g : Geo K d) (hg : g.AllPrims Untranslated) :
    (g.eval rnd p < 0 ↔ g.Interior p) ∧ (g.eval rnd p = 0 ↔ g.Closed p ∧ ¬g.Interior p) ∧ (0 < g.eval rnd p ↔ ¬g.Closed p) := by
  have e := exact_classification p g
  rw [C107_correctly_rounded h p g hg, h.neg, h.pos, ← e.1, ← e.2, not_le, not_lt]
  refine ⟨Iff.rfl, ⟨fun h0 => ?_, fun hh => ?_⟩, Iff.rfl⟩
  · have := h.ne_zero _ h0
    rw [this]
    exact ⟨le_rfl, le_rfl⟩
  · rw [le_antisymm hh.1 hh.2, h.zero]

/-- **C107c.** The relative error of the computed distance is that of one operation. -/
theorem C107_error {rnd : K → K} (h : Rounding rnd) {u : K} (ha : Accurate rnd u) {d : ℕ} (p : Fin d → K) (g : Geo K d)
    (hg : g.AllPrims Untranslated) : |g.eval rnd p - g.eval id p| ≤ u * |g.eval id p| := by
  rw [C107_correctly_rounded h p g hg]
  exact ha _

theorem Prim.bare_le {d : ℕ} (b : Prim K d) (q : Fin d → K) (c : K) :
    b.bare.eval id q ≤ c ↔ ∀ i, b.lo i - q i ≤ c ∧ q i - b.hi i ≤ c := by
  cases b <;>
    simp only [Prim.eval, Prim.bare, Prim.lo, Prim.hi, translateBack, drectangle, dblock, id, neg_le, le_min_iff,
      Fin.forall_fin_succ, Matrix.cons_val_zero, Matrix.cons_val_succ, Fin.succ_zero_eq_one, Fin.succ_one_eq_two, IsEmpty.forall_iff, and_true] <;>
    constructor <;> (simp only [and_imp]; intros; (repeat' apply And.intro) <;> linarith)

theorem Prim.bare_close {d : ℕ} (b : Prim K d) {q r : Fin d → K} {e : K} (h : ∀ i, |q i - r i| ≤ e) :
    |b.bare.eval id q - b.bare.eval id r| ≤ e := by
  have h1 : b.bare.eval id q ≤ b.bare.eval id r + e := by
    rw [Prim.bare_le]
    intro i
    have := (b.bare_le r _).1 le_rfl i
    have := abs_le.1 (h i)
    constructor <;> linarith
  have h2 : b.bare.eval id r ≤ b.bare.eval id q + e := by
    rw [Prim.bare_le]
    intro i
    have := (b.bare_le q _).1 le_rfl i
    have := abs_le.1 (h i)
    constructor <;> linarith
  rw [abs_le]
  constructor <;> linarith

omit [Field K] [LinearOrder K] [IsStrictOrderedRing K] in
theorem Prim.index {d : ℕ} (b : Prim K d) : Nonempty (Fin d) := by cases b <;> exact ⟨0⟩

theorem Prim.bare_bound {d : ℕ} (b : Prim K d) {q : Fin d → K} {B Q : K} (hb : ∀ i, |b.lo i| ≤ B ∧ |b.hi i| ≤ B) (hq : ∀ i, |q i| ≤ Q) :
    |b.bare.eval id q| ≤ B + Q := by
  rw [abs_le]
  constructor
  · obtain ⟨i⟩ := b.index
    have h1 := ((b.bare_le q _).1 le_rfl i).1
    have h2 := abs_le.1 (hb i).1
    have h3 := abs_le.1 (hq i)
    linarith
  · rw [Prim.bare_le]
    intro i
    have h2 := abs_le.1 (hb i).1
    have h4 := abs_le.1 (hb i).2
    have h3 := abs_le.1 (hq i)
    constructor <;> linarith

theorem foldl_min_close {α : Type} {f g : α → K} {e : K} (os : List α) (h : ∀ a ∈ os, |f a - g a| ≤ e) {x y : K} (hxy : |x - y| ≤ e) :
    |(os.map f).foldl min x - (os.map g).foldl min y| ≤ e := by
  induction os generalizing x y with
  | nil => exact hxy
  | cons a os ih =>
    simp only [List.map_cons, List.foldl_cons]
    refine ih (fun b hb => h b (List.mem_cons_of_mem _ hb)) ?_
    exact (abs_min_sub_min_le_max _ _ _ _).trans (max_le hxy (h a List.mem_cons_self))

theorem foldl_max_close {α : Type} {f g : α → K} {e : K} (os : List α) (h : ∀ a ∈ os, |f a - g a| ≤ e) {x y : K} (hxy : |x - y| ≤ e) :
    |(os.map f).foldl max x - (os.map g).foldl max y| ≤ e := by
  induction os generalizing x y with
  | nil => exact hxy
  | cons a os ih =>
    simp only [List.map_cons, List.foldl_cons]
    refine ih (fun b hb => h b (List.mem_cons_of_mem _ hb)) ?_
    exact (abs_max_sub_max_le_max _ _ _ _).trans (max_le hxy (h a List.mem_cons_self))

theorem Prim.translated_error {rnd : K → K} (h : Rounding rnd) {u B : K} (hu0 : 0 ≤ u) (hu : u ≤ 1 / 2) (ha : Accurate rnd u) {d : ℕ}
    (p : Fin d → K) (b : Prim K d) (hp : ∀ i, |p i| ≤ B) (hb : Within B b) : |b.eval rnd p - b.eval id p| ≤ 6 * u * B := by
  obtain ⟨i0⟩ := b.index
  have hB : 0 ≤ B := (abs_nonneg _).trans (hp i0)
  rw [b.eval_rnd h, b.eval_id]
  set q := translateBack rnd b.shift p with hqd
  set r := translateBack id b.shift p with hrd
  have hr : ∀ i, |r i| ≤ 2 * B := by
    intro i
    have h1 := abs_le.1 (hp i)
    cases hs : b.shift with
    | none =>
      rw [hrd, hs]
      simp only [translateBack, abs_le]
      constructor <;> linarith
    | some t =>
      have h2 := abs_le.1 (hb.2 t hs i)
      rw [hrd, hs]
      simp only [translateBack, id, abs_le]
      constructor <;> linarith
  have hqr : ∀ i, |q i - r i| ≤ u * (2 * B) := by
    intro i
    have h2 := hr i
    have h3 : |q i - r i| ≤ u * |r i| := by
      cases hs : b.shift with
      | none =>
        rw [hqd, hrd, hs]
        simp only [translateBack, sub_self, abs_zero]
        positivity
      | some t =>
        rw [hqd, hrd, hs]
        exact ha _
    exact h3.trans (mul_le_mul_of_nonneg_left h2 hu0)
  have hq : ∀ i, |q i| ≤ (1 + u) * (2 * B) := by
    intro i
    have h1 := abs_le.1 (hqr i)
    have h2 := abs_le.1 (hr i)
    rw [abs_le]
    constructor <;> linarith
  have e1 := b.bare_close hqr
  have e2 := ha (b.bare.eval id q)
  have e3 := mul_le_mul_of_nonneg_left (b.bare_bound hb.1 hq) hu0
  have e4 : |rnd (b.bare.eval id q) - b.bare.eval id r| ≤
      |rnd (b.bare.eval id q) - b.bare.eval id q| + |b.bare.eval id q - b.bare.eval id r| := abs_sub_le _ _ _
  have e5 : u * (u * B) ≤ u * (1 / 2 * B) := mul_le_mul_of_nonneg_left (mul_le_mul_of_nonneg_right hu hB) hu0
  nlinarith

/-- **C107d.** With translated boxes the error is at most six units of rounding of the largest coordinate involved. -/
theorem C107_translated {rnd : K → K} (h : Rounding rnd) {u B : K} (hu0 : 0 ≤ u) (hu : u ≤ 1 / 2) (ha : Accurate rnd u) {d : ℕ}
    (p : Fin d → K) (hp : ∀ i, |p i| ≤ B) (g : Geo K d) (hg : g.AllPrims (Within B)) :
    |g.eval rnd p - g.eval id p| ≤ 6 * u * B := by
  induction g using Geo.ind with
  | hp b => exact b.translated_error h hu0 hu ha p hp (by simpa only [Geo.AllPrims] using hg)
  | hu o os ho hos =>
    simp only [Geo.AllPrims] at hg
    simp only [Geo.eval, evals_eq]
    exact foldl_min_close os (fun a ha => hos a ha (hg.2 a ha)) (ho hg.1)
  | hi o os ho hos =>
    simp only [Geo.AllPrims] at hg
    simp only [Geo.eval, evals_eq]
    exact foldl_max_close os (fun a ha => hos a ha (hg.2 a ha)) (ho hg.1)
  | hd o os ho hos =>
    simp only [Geo.AllPrims] at hg
    simp only [Geo.eval, evals_eq, List.map_map]
    refine foldl_max_close os (fun a ha => ?_) (ho hg.1)
    rw [Function.comp_apply, Function.comp_apply, neg_sub_neg, abs_sub_comm]
    exact hos a ha (hg.2 a ha)

/-- **C107e.** A point farther from the boundary than that is on the right side. -/
theorem C107_translated_classification {rnd : K → K} (h : Rounding rnd) {u B : K} (hu0 : 0 ≤ u) (hu : u ≤ 1 / 2) (ha : Accurate rnd u)
    {d : ℕ} (p : Fin d → K) (hp : ∀ i, |p i| ≤ B) (g : Geo K d) (hg : g.AllPrims (Within B)) (hfar : 6 * u * B < |g.eval id p|) :
    (g.eval rnd p < 0 ↔ g.Interior p) ∧ (0 < g.eval rnd p ↔ ¬g.Closed p) := by
  have e := exact_classification p g
  have h1 := abs_le.1 (C107_translated h hu0 hu ha p hp g hg)
  rw [← e.1, ← e.2, not_le]
  rcases lt_abs.1 hfar with h2 | h2
  · exact ⟨⟨fun _ => by linarith, fun _ => by linarith⟩, ⟨fun _ => by linarith, fun _ => by linarith⟩⟩
  · exact ⟨⟨fun _ => by linarith, fun _ => by linarith⟩, ⟨fun _ => by linarith, fun _ => by linarith⟩⟩

/-! ## binary64 -/

theorem binary64_odd (q : ℚ) : SM.Fl.binary64 (-q) = -SM.Fl.binary64 q := by
  unfold SM.Fl.binary64
  rcases lt_trichotomy q 0 with h | rfl | h
  · rw [if_pos (by linarith), if_neg (by linarith), neg_neg]
  · simp [SM.Fl.pos53_zero]
  · rw [if_neg (by linarith), if_pos (by linarith), neg_neg]

/-- **C107f.** Rounding to 53 bits (binary64 without overflow; sums of binary64 numbers do not underflow) is such a rounding,
with relative error `2^-53`. -/
theorem C107_binary64 : Rounding SM.Fl.binary64 ∧ Accurate SM.Fl.binary64 (1 / 9007199254740992) := by
  refine ⟨⟨SM.Fl.binary64_mono, binary64_odd, fun x hx => ?_⟩, fun x => SM.Fl.binary64_error x⟩
  by_contra hne
  rcases lt_or_gt_of_ne hne with h | h
  · have e : SM.Fl.binary64 x = -SM.Fl.pos53 (-x) := if_neg (not_le.2 h)
    have := SM.Fl.pos53_pos (q := -x) (by linarith)
    linarith
  · have e : SM.Fl.binary64 x = SM.Fl.pos53 x := if_pos h.le
    have := SM.Fl.pos53_pos h
    linarith

/-- The unit square with corner `(1, 0)`, moved back by 1. -/
def moved : Geo ℚ 2 := .prim (.rect 1 2 0 1 (some ![-1, 0]))

/-- **C107g.** With a translation a point that is outside can be reported on the boundary: `Rectangle((1, 2, 0, 1), translate=[-1, 0])`
is the unit square, the point `(-2^-60, 1/2)` is outside. -/
theorem C107_translated_boundary : ¬moved.Closed ![-1 / 2 ^ 60, 1 / 2] ∧ moved.eval SM.Fl.binary64 ![-1 / 2 ^ 60, 1 / 2] = 0 := by
  refine ⟨?_, ?_⟩
  · rw [← (exact_classification _ _).2]
    decide +kernel
  · decide +kernel

/-! ## The exact model is the model of the other claims -/

open SM.Domain in
/-- The domain object of `Model/Domain.lean` built from a box. -/
noncomputable def Prim.obj : {d : ℕ} → Prim ℝ d → Obj d
  | _, .rect x1 x2 y1 y2 t => mkRectangle ⟨![x1, y1], ![x2, y2]⟩ ⟨.two 0, none, t⟩
  | _, .cube x1 x2 y1 y2 z1 z2 t => mkCube ⟨![x1, y1, z1], ![x2, y2, z2]⟩ ⟨.three 0 0 0, none, t⟩

open SM.Domain in
mutual
/-- The domain object of `Model/Domain.lean` built from a geometry. -/
noncomputable def Geo.obj {d : ℕ} : Geo ℝ d → Obj d
  | .prim b => b.obj
  | .union o os => mkUnion 0 o.obj (objs os)
  | .inter o os => mkIntersection 0 o.obj (objs os)
  | .diff o os => mkDifference 0 o.obj (objs os)
/-- The operands. -/
noncomputable def objs {d : ℕ} : List (Geo ℝ d) → List (Obj d)
  | [] => []
  | o :: os => o.obj :: objs os
end

theorem objs_eq {d : ℕ} (os : List (Geo ℝ d)) : objs os = os.map Geo.obj := by
  induction os with
  | nil => rfl
  | cons o os ih => simp [objs, ih]

/-- **C107h.** Without rounding, on real numbers, the model used here is the model of the signed distance functions used in the other
claims. -/
theorem C107_model {d : ℕ} (p : Fin d → ℝ) (g : Geo ℝ d) : g.eval id p = g.obj.eval p := by
  induction g using Geo.ind with
  | hp b =>
    cases b <;> cases ‹Option _› <;>
      simp [Geo.eval, Geo.obj, Prim.obj, Prim.eval, SM.Domain.mkRectangle, SM.Domain.mkCube, SM.Domain.manipulate, SM.Domain.Rot.back,
        translateBack, drectangle, dblock, SM.Sdf.drectangle, SM.Sdf.dblock]
  | hu o os ho hos =>
    simp only [Geo.eval, Geo.obj, evals_eq, objs_eq, SM.Domain.mkUnion, SM.Sdf.unionEval, if_true, List.map_map, ho]
    congr 1
    exact List.map_congr_left hos
  | hi o os ho hos =>
    simp only [Geo.eval, Geo.obj, evals_eq, objs_eq, SM.Domain.mkIntersection, SM.Sdf.interEval, if_true, List.map_map, ho]
    congr 1
    exact List.map_congr_left hos
  | hd o os ho hos =>
    simp only [Geo.eval, Geo.obj, evals_eq, objs_eq, SM.Domain.mkDifference, SM.Sdf.diffEval, if_true, List.map_map, ho]
    congr 1
    refine List.map_congr_left fun a ha => ?_
    simp only [Function.comp_apply, hos a ha]

/-! ## Examples -/

/-- An L-shaped domain: a square without its upper right quarter, together with a bar. -/
def lshape : Geo ℚ 2 :=
  .union (.diff (.prim (.rect 0 2 0 2 none)) [.prim (.rect 1 2 1 2 none)]) [.prim (.rect 2 3 0 (1 / 10) none)]

example : lshape.AllPrims Untranslated := by
  simp [lshape, Geo.AllPrims, Untranslated, Prim.shift]

/-- A point `2^-200` inside and one `2^-200` outside are told apart. -/
example : lshape.eval SM.Fl.binary64 ![1 / 2 ^ 200, 1] < 0 ∧ 0 < lshape.eval SM.Fl.binary64 ![-1 / 2 ^ 200, 1] := by
  decide +kernel

example : lshape.eval SM.Fl.binary64 ![1 / 2, 1] = -1 / 2 := by decide +kernel

example : moved.AllPrims (Within 2) := by
  simp [moved, Geo.AllPrims, Within, Prim.shift, Prim.lo, Prim.hi, Fin.forall_fin_two]

end SM.SdfFl
