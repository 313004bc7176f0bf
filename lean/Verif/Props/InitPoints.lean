import Verif.Model.InitPoints
import Verif.Lemmas.FixMesh
import Mathlib.Tactic.Linarith
import Mathlib.Tactic.Positivity
import Mathlib.Tactic.FieldSimp
import Mathlib.Tactic.Ring
import Mathlib.Tactic.FinCases
import Mathlib.Tactic.NormNum

/-!
# Initial points: C59, C60
-/

namespace SM.Init

open Np FixMesh

noncomputable section

/-! ## Specification of C60 -/

/-- Two grid points belong to the same grid line in the direction of axis `a`. Rows of different parity are
staggered by half a spacing, so off axis 0 a line is given by the coordinate on axis 0. -/
def SameLine {d : ℕ} [NeZero d] (a : Fin d) (q q' : Fin d → ℝ) : Prop := a = 0 ∨ q 0 = q' 0

/-- The grids `G r` of the ranks tile the direction `a` of the domain, which reaches from `lo` to `hi`. -/
structure Tiles {d : ℕ} [NeZero d] (a : Fin d) (lo hi h : ℝ) (size : ℕ) (G : ℕ → List (Fin d → ℝ)) : Prop where
  /-- different ranks have no point in common -/
  disjoint : ∀ r < size, ∀ s < size, r ≠ s → ∀ q ∈ G r, q ∉ G s
  /-- along every line the points of a lower rank come first -/
  ordered : ∀ r < size, ∀ s < size, r < s → ∀ q ∈ G r, ∀ q' ∈ G s, SameLine a q q' → q a < q' a
  /-- within a rank the points of a line follow each other at distance `h` -/
  spacing : ∀ r < size, ∀ q ∈ G r, (∃ q' ∈ G r, SameLine a q q' ∧ q' a = q a + h) ∨ ∀ q' ∈ G r, SameLine a q q' → q' a ≤ q a
  /-- the last point of a rank on a line and the first of the next rank are less than `2 * h` apart -/
  gap : ∀ r, r + 1 < size → ∀ q ∈ G r, ∀ q' ∈ G (r + 1), SameLine a q q' →
    (∀ x ∈ G r, SameLine a q x → x a ≤ q a) → (∀ x ∈ G (r + 1), SameLine a q' x → q' a ≤ x a) →
    0 < q' a - q a ∧ q' a - q a < 2 * h ∧ (r = 0 → q' a - q a = h)
  /-- rank 0 starts at the lower end -/
  low : ∃ q ∈ G 0, q a = lo
  /-- the last rank passes the upper end -/
  high : ∃ q ∈ G (size - 1), hi ≤ q a ∧ q a < hi + h
  /-- every position on the axis is closer than `h` to a grid point -/
  cover : ∀ x, lo ≤ x → x ≤ hi → ∃ r < size, ∃ q ∈ G r, |x - q a| < h

/-! ## Grids of one axis -/

theorem gridVals_mem {s h : ℝ} {n : ℕ} {x : ℝ} : x ∈ gridVals s h n ↔ ∃ i < n, x = s + i * h := by
  simp [gridVals, eq_comm]

theorem gridVals_get {s h : ℝ} {n i : ℕ} {x : ℝ} : (gridVals s h n)[i]? = some x ↔ i < n ∧ x = s + i * h := by
  simp only [gridVals, List.getElem?_map, Option.map_eq_some_iff]
  constructor
  · rintro ⟨j, hj, rfl⟩
    obtain ⟨hi, rfl⟩ := List.getElem?_eq_some_iff.1 hj
    simp at hi ⊢
    exact hi
  · rintro ⟨hi, rfl⟩
    exact ⟨i, by simp [hi], rfl⟩

/-- Number of entries of a grid that ends at `stop` (exclusive). -/
theorem count_spec {s e h : ℝ} (hh : 0 < h) (hse : s < e) :
    ∃ n : ℕ, gridCount s e h = n ∧ 0 < n ∧ s + ((n : ℝ) - 1) * h < e ∧ e ≤ s + n * h := by
  have hpos : 0 < (e - s) / h := div_pos (by linarith) hh
  have hc : 0 < gridCount s e h := Int.ceil_pos.2 hpos
  obtain ⟨n, hn⟩ := Int.eq_ofNat_of_zero_le hc.le
  refine ⟨n, hn, by omega, ?_, ?_⟩
  · have := Int.ceil_lt_add_one ((e - s) / h)
    have h2 : (gridCount s e h : ℝ) < (e - s) / h + 1 := this
    rw [hn] at h2
    push_cast at h2
    have h3 : (n : ℝ) - 1 < (e - s) / h := by linarith
    rw [lt_div_iff₀ hh] at h3
    linarith
  · have h2 : (e - s) / h ≤ (gridCount s e h : ℝ) := Int.le_ceil _
    rw [hn] at h2
    push_cast at h2
    rw [div_le_iff₀ hh] at h2
    linarith

theorem mgridAxis_ok {h : ℝ} (hh : 0 < h) {b : ℝ × ℝ} (hb : b.1 < b.2 + h) :
    ∃ n : ℕ, 0 < n ∧ mgridAxis h b = .ok (gridVals b.1 h n) ∧ b.1 + ((n : ℝ) - 1) * h < b.2 + h ∧
      b.2 ≤ b.1 + ((n : ℝ) - 1) * h ∧ gridCount b.1 (b.2 + h) h = n := by
  obtain ⟨n, hn, h0, h1, h2⟩ := count_spec hh hb
  refine ⟨n, h0, ?_, h1, by linarith, hn⟩
  rw [mgridAxis, if_neg hh.ne', if_neg (by rw [hn]; omega), hn, Int.toNat_natCast]

theorem arange_ok {s e h : ℝ} (hh : 0 < h) (hse : s < e) :
    ∃ n : ℕ, 0 < n ∧ arange s e h = .ok (gridVals s h n) ∧ s + ((n : ℝ) - 1) * h < e ∧ e ≤ s + n * h := by
  obtain ⟨n, hn, h0, h1, h2⟩ := count_spec hh hse
  refine ⟨n, h0, ?_, h1, h2⟩
  rw [arange, if_neg hh.ne', hn, Int.toNat_natCast]

theorem gridVals_last {s h : ℝ} {n : ℕ} (hn : 0 < n) : (gridVals s h n).getLast? = some (s + ((n : ℝ) - 1) * h) := by
  obtain ⟨m, rfl⟩ : ∃ m, n = m + 1 := ⟨n - 1, by omega⟩
  simp [gridVals, List.range_succ]

/-! ## The local limits -/

/-- First coordinate of rank `r` and number of coordinates: the facts needed. -/
structure Local (h : ℝ) (b : ℝ × ℝ) (size r : ℕ) (S : ℝ) : Prop where
  lims : localLims h b size r = .ok (S, lims b size (r + 1))
  zero : r = 0 → S = b.1
  pos : r ≠ 0 → Init.lims b size r + h ≤ S ∧ S < Init.lims b size r + 2 * h
  /-- one step after the last coordinate of the previous limits -/
  prev : r ≠ 0 → ∃ n : ℕ, 0 < n ∧ S = Init.lims b size (r - 1) + n * h ∧
    gridCount (Init.lims b size (r - 1)) (Init.lims b size r + h) h = n

theorem lims_succ (b : ℝ × ℝ) (size k : ℕ) : lims b size (k + 1) = lims b size k + (b.2 - b.1) / size := by
  simp only [lims]; push_cast; ring

theorem lims_last (b : ℝ × ℝ) {size : ℕ} (hs : 0 < size) : lims b size size = b.2 := by
  have : (size : ℝ) ≠ 0 := by exact_mod_cast hs.ne'
  simp only [lims]; field_simp; ring

theorem local_exists {h : ℝ} (hh : 0 < h) {b : ℝ × ℝ} {size : ℕ} (hs : 0 < size) (hb : b.1 ≤ b.2) (r : ℕ) :
    ∃ S, Local h b size r S := by
  have hw : 0 ≤ (b.2 - b.1) / size := div_nonneg (by linarith) (by positivity)
  rcases r with - | r
  · refine ⟨b.1, ?_, fun _ => rfl, fun h => absurd rfl h, fun h => absurd rfl h⟩
    simp [localLims, lims]
  · have hlt : lims b size r < lims b size (r + 1) + h := by rw [lims_succ]; linarith
    obtain ⟨n, hn, hrun, h1, h2⟩ := arange_ok hh hlt
    refine ⟨lims b size r + ((n : ℝ) - 1) * h + h, ?_, by simp, fun _ => ⟨?_, ?_⟩, fun _ => ⟨n, hn, ?_, ?_⟩⟩
    · simp only [localLims, Nat.add_one_ne_zero, if_false, Nat.add_sub_cancel, hrun, bind, Except.bind, gridVals_last hn]
      rfl
    · linarith
    · linarith
    · rw [Nat.add_sub_cancel]; ring
    · rw [Nat.add_sub_cancel]
      obtain ⟨m, hm, -, h3, h4⟩ := count_spec hh hlt
      rw [hm]
      rw [arange, if_neg hh.ne', hm, Int.toNat_natCast] at hrun
      have := congrArg (fun e : Except String (List ℝ) => match e with | .ok l => l.length | .error _ => 0) hrun
      simpa [gridVals] using this

/-- With blocks at least `h` wide, rank `r` has a grid on the split axis, from `S` on, ending in
`[lims (r+1), lims (r+1) + h)`. -/
theorem local_grid {h : ℝ} (hh : 0 < h) {b : ℝ × ℝ} {size r : ℕ} (hw : h ≤ (b.2 - b.1) / size) {S : ℝ}
    (hS : Local h b size r S) :
    ∃ n : ℕ, 0 < n ∧ mgridAxis h (S, lims b size (r + 1)) = .ok (gridVals S h n) ∧
      S + ((n : ℝ) - 1) * h < lims b size (r + 1) + h ∧ lims b size (r + 1) ≤ S + ((n : ℝ) - 1) * h ∧
      gridCount S (lims b size (r + 1) + h) h = n := by
  apply mgridAxis_ok hh
  simp only
  rcases Nat.eq_zero_or_pos r with rfl | hr
  · rw [hS.zero rfl, lims_succ]
    simp only [lims, Nat.cast_zero, zero_mul, add_zero]
    linarith
  · have := (hS.pos hr.ne').2
    rw [lims_succ]
    linarith

/-! ## Points of a staggered grid -/

theorem mem_staggered2 {h : ℝ} {xs ys : List ℝ} {q : Fin 2 → ℝ} :
    q ∈ staggered2 h xs ys ↔ ∃ i, xs[i]? = some (q 0) ∧ q 1 - shift h i ∈ ys := by
  simp only [staggered2, List.mem_flatMap, List.mem_map, Prod.exists, List.mem_zipIdx_iff_getElem?]
  constructor
  · rintro ⟨x, i, hx, y, hy, rfl⟩
    exact ⟨i, by simpa using hx, by simpa using hy⟩
  · rintro ⟨i, hx, hy⟩
    refine ⟨q 0, i, hx, _, hy, ?_⟩
    funext k
    fin_cases k <;> simp

theorem mem_staggered3 {h : ℝ} {xs ys zs : List ℝ} {q : Fin 3 → ℝ} :
    q ∈ staggered3 h xs ys zs ↔ ∃ i, xs[i]? = some (q 0) ∧ q 1 - shift h i ∈ ys ∧ q 2 - shift h i ∈ zs := by
  simp only [staggered3, List.mem_flatMap, List.mem_map, Prod.exists, List.mem_zipIdx_iff_getElem?]
  constructor
  · rintro ⟨x, i, hx, y, hy, z, hz, rfl⟩
    exact ⟨i, by simpa using hx, by simpa using hy, by simpa using hz⟩
  · rintro ⟨i, hx, hy, hz⟩
    refine ⟨q 0, i, hx, _, hy, _, hz, ?_⟩
    funext k
    fin_cases k <;> simp

/-- A list of points is the staggered grid with starting coordinates `s` and `n` coordinates per axis. -/
def IsGrid {d : ℕ} [NeZero d] (h : ℝ) (s : Fin d → ℝ) (n : Fin d → ℕ) (G : List (Fin d → ℝ)) : Prop :=
  ∀ q, q ∈ G ↔ ∃ j : Fin d → ℕ, (∀ k, j k < n k) ∧ ∀ k, q k = s k + j k * h + if k = 0 then 0 else shift h (j 0)

theorem isGrid2 {h : ℝ} (s : Fin 2 → ℝ) (n : Fin 2 → ℕ) :
    IsGrid h s n (staggered2 h (gridVals (s 0) h (n 0)) (gridVals (s 1) h (n 1))) := by
  intro q
  rw [mem_staggered2]
  simp only [gridVals_get, gridVals_mem]
  constructor
  · rintro ⟨i, ⟨hi, h0⟩, j, hj, h1⟩
    refine ⟨![i, j], ?_, ?_⟩
    · intro k; fin_cases k <;> simpa
    · intro k; fin_cases k
      · simpa using h0
      · simp; linarith
  · rintro ⟨j, hj, hq⟩
    refine ⟨j 0, ⟨hj 0, by simpa using hq 0⟩, j 1, hj 1, ?_⟩
    have := hq 1
    simp at this
    linarith

theorem isGrid3 {h : ℝ} (s : Fin 3 → ℝ) (n : Fin 3 → ℕ) :
    IsGrid h s n (staggered3 h (gridVals (s 0) h (n 0)) (gridVals (s 1) h (n 1)) (gridVals (s 2) h (n 2))) := by
  intro q
  rw [mem_staggered3]
  simp only [gridVals_get, gridVals_mem]
  constructor
  · rintro ⟨i, ⟨hi, h0⟩, ⟨j, hj, h1⟩, l, hl, h2⟩
    refine ⟨![i, j, l], ?_, ?_⟩
    · intro k; fin_cases k <;> simpa
    · intro k; fin_cases k
      · simpa using h0
      · simp; linarith
      · simp; linarith
  · rintro ⟨j, hj, hq⟩
    have a1 := hq 1
    have a2 := hq 2
    simp at a1 a2
    exact ⟨j 0, ⟨hj 0, by simpa using hq 0⟩, ⟨j 1, hj 1, by linarith⟩, j 2, hj 2, by linarith⟩

/-! ## C60 -/

/-- Abstract form: grids that differ only on axis `a`, where they start at `S r`, one step after the last coordinate of
the nominal grid of the previous block. -/
theorem tiles_of {d : ℕ} [NeZero d] {h : ℝ} (hh : 0 < h) {size : ℕ} (hs : 0 < size) {b : ℝ × ℝ}
    (hw : h ≤ (b.2 - b.1) / size) (a : Fin d) {S : ℕ → ℝ} (hS : ∀ r, Local h b size r (S r)) {N : ℕ → ℕ}
    (hN : ∀ r, 0 < N r ∧ S r + ((N r : ℝ) - 1) * h < lims b size (r + 1) + h ∧ lims b size (r + 1) ≤ S r + ((N r : ℝ) - 1) * h ∧
      gridCount (S r) (lims b size (r + 1) + h) h = N r)
    {s : ℕ → Fin d → ℝ} {n : ℕ → Fin d → ℕ} (hsa : ∀ r, s r a = S r) (hna : ∀ r, n r a = N r)
    (hso : ∀ r r' k, k ≠ a → s r k = s r' k) (hno : ∀ r r' k, k ≠ a → n r k = n r' k) (hn0 : ∀ r k, 0 < n r k)
    {G : ℕ → List (Fin d → ℝ)} (hG : ∀ r < size, IsGrid h (s r) (n r) (G r)) :
    Tiles a b.1 b.2 h size G := by
  -- order of the blocks
  have hmono : ∀ r r', r ≤ r' → lims b size r ≤ lims b size r' := by
    intro r r' hr
    induction r' with
    | zero => rw [Nat.le_zero.1 hr]
    | succ r' ih =>
      rcases Nat.lt_or_ge r (r' + 1) with hlt | hge
      · rw [lims_succ]; linarith [ih (by omega)]
      · rw [show r = r' + 1 by omega]
  have hcoord : ∀ r r', r < r' → S r + ((N r : ℝ) - 1) * h < S r' := by
    intro r r' hr
    have h1 := (hN r).2.1
    have h2 := ((hS r').pos (by omega)).1
    have h3 := hmono (r + 1) r' (by omega)
    linarith
  -- a point on the axis
  have hax : ∀ r < size, ∀ q ∈ G r, ∃ j : Fin d → ℕ, (∀ k, j k < n r k) ∧ (q a = S r + j a * h + if a = 0 then 0 else shift h (j 0)) ∧
      q 0 = s r 0 + j 0 * h ∧ ∀ k, q k = s r k + j k * h + if k = 0 then 0 else shift h (j 0) := by
    intro r hr q hq
    obtain ⟨j, hj, hjq⟩ := (hG r hr q).1 hq
    refine ⟨j, hj, ?_, ?_, hjq⟩
    · rw [← hsa r]; exact hjq a
    · simpa using hjq 0
  have hrow : ∀ {r r' : ℕ} {i i' : ℕ} {q q' : Fin d → ℝ}, SameLine a q q' → q 0 = s r 0 + i * h → q' 0 = s r' 0 + i' * h →
      a ≠ 0 → i = i' := by
    intro r r' i i' q q' hl h1 h2 ha
    rcases hl with h0 | h0
    · exact absurd h0 ha
    · rw [h1, h2, hso r r' 0 (Ne.symm ha)] at h0
      have : (i : ℝ) * h = i' * h := by linarith
      have := mul_right_cancel₀ hh.ne' this
      exact_mod_cast this
  have hbound : ∀ (r i : ℕ), i < N r → (i : ℝ) * h ≤ ((N r : ℝ) - 1) * h := by
    intro r i hi
    have : (i : ℝ) + 1 ≤ N r := by exact_mod_cast hi
    exact mul_le_mul_of_nonneg_right (by linarith) hh.le
  have hordered : ∀ r < size, ∀ r' < size, r < r' → ∀ q ∈ G r, ∀ q' ∈ G r', SameLine a q q' → q a < q' a := by
    intro r hr r' hr' hlt q hq q' hq' hl
    obtain ⟨j, hj, hja, hj0, -⟩ := hax r hr q hq
    obtain ⟨j', hj', hja', hj0', -⟩ := hax r' hr' q' hq'
    have h1 := hbound r (j a) (by rw [← hna]; exact hj a)
    have h2 := hcoord r r' hlt
    have h3 : (0 : ℝ) ≤ j' a * h := by positivity
    rw [hja, hja']
    by_cases ha : a = 0
    · simp only [ha, if_true] at *; linarith
    · rw [hrow hl hj0 hj0' ha]; simp only [ha, if_false]; linarith
  -- constructing points
  have hmk : ∀ r < size, ∀ i < N r, ∀ q ∈ G r, ∃ q' ∈ G r, SameLine a q q' ∧
      (∀ j : Fin d → ℕ, (∀ k, j k < n r k) → (∀ k, q k = s r k + j k * h + if k = 0 then 0 else shift h (j 0)) →
        q' a = q a + ((i : ℝ) - j a) * h) := by
    intro r hr i hi q hq
    obtain ⟨j, hj, hja, hj0, hjq⟩ := hax r hr q hq
    refine ⟨fun k => s r k + (Function.update j a i k : ℕ) * h + if k = 0 then 0 else shift h (Function.update j a i 0), ?_, ?_, ?_⟩
    · rw [hG r hr]
      refine ⟨Function.update j a i, ?_, fun k => rfl⟩
      intro k
      by_cases hk : k = a
      · subst hk; simpa [hna] using hi
      · simpa [hk] using hj k
    · by_cases ha : a = 0
      · exact Or.inl ha
      · right
        have : (0 : Fin d) ≠ a := Ne.symm ha
        simp [this, hj0]
    · intro j' hj' hjq'
      have e1 := hjq' a
      have e2 := hjq' 0
      simp only [if_true, add_zero] at e2
      have e0 : j' 0 = j 0 := by
        have : (j' 0 : ℝ) * h = j 0 * h := by linarith
        exact_mod_cast mul_right_cancel₀ hh.ne' this
      rw [e1]
      by_cases ha : a = 0
      · subst ha; simp; ring
      · have : (0 : Fin d) ≠ a := Ne.symm ha
        simp [ha, this, e0]; ring
  have hex : ∀ r < size, ∀ i < N r, ∃ q ∈ G r, q a = S r + i * h := by
    intro r hr i hi
    refine ⟨fun k => s r k + (Function.update (fun _ => 0) a i k : ℕ) * h + if k = 0 then 0 else shift h (Function.update (fun _ => 0) a i 0), ?_, ?_⟩
    · rw [hG r hr]
      refine ⟨Function.update (fun _ => 0) a i, ?_, fun k => rfl⟩
      intro k
      by_cases hk : k = a
      · subst hk; simpa [hna] using hi
      · simpa [hk] using hn0 r k
    · by_cases ha : a = 0
      · subst ha; simp [hsa]
      · have : (0 : Fin d) ≠ a := Ne.symm ha
        simp [ha, this, hsa, shift]
  -- extremes of a line
  have hmax : ∀ r < size, ∀ q ∈ G r, (∀ x ∈ G r, SameLine a q x → x a ≤ q a) → ∃ i : ℕ, q 0 = s r 0 + i * h ∧
      q a = S r + ((N r : ℝ) - 1) * h + if a = 0 then 0 else shift h i := by
    intro r hr q hq hm
    obtain ⟨j, hj, hja, hj0, hjq⟩ := hax r hr q hq
    obtain ⟨q', hq', hl, hval⟩ := hmk r hr (N r - 1) (by have := (hN r).1; omega) q hq
    have h1 := hm q' hq' hl
    rw [hval j hj hjq] at h1
    have hc : ((N r - 1 : ℕ) : ℝ) = (N r : ℝ) - 1 := by
      rw [Nat.cast_sub (hN r).1]; simp
    rw [hc] at h1
    have h2 := hbound r (j a) (by rw [← hna]; exact hj a)
    have h3 : (j a : ℝ) * h = ((N r : ℝ) - 1) * h := by linarith
    exact ⟨j 0, hj0, by rw [hja, h3]⟩
  have hmin : ∀ r < size, ∀ q ∈ G r, (∀ x ∈ G r, SameLine a q x → q a ≤ x a) → ∃ i : ℕ, q 0 = s r 0 + i * h ∧
      q a = S r + if a = 0 then 0 else shift h i := by
    intro r hr q hq hm
    obtain ⟨j, hj, hja, hj0, hjq⟩ := hax r hr q hq
    obtain ⟨q', hq', hl, hval⟩ := hmk r hr 0 (hN r).1 q hq
    have h1 := hm q' hq' hl
    rw [hval j hj hjq] at h1
    have h2 : (0 : ℝ) ≤ j a * h := by positivity
    have h3 : (j a : ℝ) * h = 0 := by push_cast at h1; linarith
    exact ⟨j 0, hj0, by rw [hja, h3, add_zero]⟩
  have hgapS : ∀ r, S (r + 1) - (S r + ((N r : ℝ) - 1) * h) < 2 * h := by
    intro r
    have h1 := ((hS (r + 1)).pos (by omega)).2
    have h2 := (hN r).2.2.1
    linarith
  refine ⟨?_, hordered, ?_, ?_, ?_, ?_, ?_⟩
  · intro r hr r' hr' hne q hq hq'
    rcases Nat.lt_or_gt_of_ne hne with hlt | hlt
    · exact absurd (hordered r hr r' hr' hlt q hq q hq' (Or.inr rfl)) (lt_irrefl _)
    · exact absurd (hordered r' hr' r hr hlt q hq' q hq (Or.inr rfl)) (lt_irrefl _)
  · intro r hr q hq
    obtain ⟨j, hj, hja, hj0, hjq⟩ := hax r hr q hq
    by_cases hlast : j a + 1 < N r
    · left
      obtain ⟨q', hq', hl, hval⟩ := hmk r hr (j a + 1) hlast q hq
      refine ⟨q', hq', hl, ?_⟩
      rw [hval j hj hjq]; push_cast; ring
    · right
      intro q' hq' hl
      obtain ⟨j', hj', hja', hj0', -⟩ := hax r hr q' hq'
      have : j' a ≤ j a := by have := hj' a; rw [hna] at this; omega
      have h1 : (j' a : ℝ) * h ≤ j a * h := mul_le_mul_of_nonneg_right (by exact_mod_cast this) hh.le
      rw [hja, hja']
      by_cases ha : a = 0
      · simp only [ha, if_true] at *; linarith
      · rw [hrow hl hj0 hj0' ha]; simp only [ha, if_false]; linarith
  · intro r hr q hq q' hq' hl hm hm'
    refine ⟨by linarith [hordered r (by omega) (r + 1) hr (by omega) q hq q' hq' hl], ?_, ?_⟩
    · obtain ⟨i, hi0, hia⟩ := hmax r (by omega) q hq hm
      obtain ⟨i', hi0', hia'⟩ := hmin (r + 1) hr q' hq' hm'
      have := hgapS r
      rw [hia, hia']
      by_cases ha : a = 0
      · simp only [ha, if_true] at *; linarith
      · rw [hrow hl hi0 hi0' ha]; simp only [ha, if_false]; linarith
    · rintro rfl
      obtain ⟨i, hi0, hia⟩ := hmax 0 (by omega) q hq hm
      obtain ⟨i', hi0', hia'⟩ := hmin 1 hr q' hq' hm'
      obtain ⟨m, hm0, hm1, hm2⟩ := (hS 1).prev (by omega)
      have hz : lims b size 0 = S 0 := by rw [(hS 0).zero rfl]; simp [lims]
      have hNm : (N 0 : ℤ) = m := by
        rw [← (hN 0).2.2.2, ← hm2, Nat.sub_self, hz]
      have hNm' : (N 0 : ℝ) = m := by exact_mod_cast hNm
      have key : S 1 - (S 0 + ((N 0 : ℝ) - 1) * h) = h := by
        rw [hm1, Nat.sub_self, hz, hNm']; ring
      rw [hia, hia']
      by_cases ha : a = 0
      · simp only [ha, if_true] at *; linarith
      · rw [hrow hl hi0 hi0' ha]; simp only [ha, if_false]; linarith
  · obtain ⟨q, hq, he⟩ := hex 0 hs 0 (hN 0).1
    exact ⟨q, hq, by rw [he, (hS 0).zero rfl]; simp⟩
  · obtain ⟨q, hq, he⟩ := hex (size - 1) (by omega) (N (size - 1) - 1) (by have := (hN (size - 1)).1; omega)
    have hc : ((N (size - 1) - 1 : ℕ) : ℝ) = (N (size - 1) : ℝ) - 1 := by
      rw [Nat.cast_sub (hN _).1]; simp
    have h1 := (hN (size - 1)).2.1
    have h2 := (hN (size - 1)).2.2.1
    rw [Nat.sub_add_cancel hs, lims_last b hs] at h1 h2
    exact ⟨q, hq, by rw [he, hc]; exact h2, by rw [he, hc]; exact h1⟩
  · -- cover
    -- within one rank
    have hwithin : ∀ r < size, ∀ x, S r ≤ x → x ≤ S r + ((N r : ℝ) - 1) * h → ∃ q ∈ G r, |x - q a| < h := by
      intro r hr x h1 h2
      have hk : 0 ≤ (x - S r) / h := div_nonneg (by linarith) hh.le
      have f1 := Nat.floor_le hk
      have f2 := Nat.lt_floor_add_one ((x - S r) / h)
      rw [le_div_iff₀ hh] at f1
      rw [div_lt_iff₀ hh] at f2
      have hlt : ⌊(x - S r) / h⌋₊ < N r := by
        have : (⌊(x - S r) / h⌋₊ : ℝ) * h ≤ ((N r : ℝ) - 1) * h := by linarith
        have := le_of_mul_le_mul_right this hh
        have : (⌊(x - S r) / h⌋₊ : ℝ) < N r := by linarith
        exact_mod_cast this
      obtain ⟨q, hq, he⟩ := hex r hr _ hlt
      refine ⟨q, hq, ?_⟩
      rw [he, abs_lt]
      constructor <;> nlinarith
    have hmain : ∀ r < size, ∀ x, b.1 ≤ x → x ≤ S r + ((N r : ℝ) - 1) * h → ∃ r' < size, ∃ q ∈ G r', |x - q a| < h := by
      intro r
      induction r with
      | zero =>
        intro hr x h1 h2
        exact ⟨0, hr, hwithin 0 hr x (by rw [(hS 0).zero rfl]; exact h1) h2⟩
      | succ r ih =>
        intro hr x h1 h2
        by_cases hc : S (r + 1) ≤ x
        · exact ⟨r + 1, hr, hwithin (r + 1) hr x hc h2⟩
        · by_cases hc' : x ≤ S r + ((N r : ℝ) - 1) * h
          · exact ih (by omega) x h1 hc'
          · have hg := hgapS r
            push Not at hc hc'
            by_cases hmid : x - (S r + ((N r : ℝ) - 1) * h) < h
            · obtain ⟨q, hq, he⟩ := hex r (by omega) (N r - 1) (by have := (hN r).1; omega)
              have hcst : ((N r - 1 : ℕ) : ℝ) = (N r : ℝ) - 1 := by rw [Nat.cast_sub (hN r).1]; simp
              rw [hcst] at he
              exact ⟨r, by omega, q, hq, by rw [he, abs_lt]; constructor <;> linarith⟩
            · obtain ⟨q, hq, he⟩ := hex (r + 1) hr 0 (hN (r + 1)).1
              push Not at hmid
              refine ⟨r + 1, hr, q, hq, ?_⟩
              rw [he, abs_lt]; push_cast; constructor <;> linarith
    intro x h1 h2
    refine hmain (size - 1) (by omega) x h1 ?_
    have h3 := (hN (size - 1)).2.2.1
    rw [Nat.sub_add_cancel hs, lims_last b hs] at h3
    linarith

/-- **C60 (2-D).** For every box, number of ranks, split axis and spacing `h` such that the blocks are at least `h` wide,
every rank makes its grid, and the grids tile the domain along the split axis. -/
theorem C60_rectangle {h : ℝ} (hh : 0 < h) {size : ℕ} (hs : 0 < size) (box : Fin 2 → ℝ × ℝ)
    (hbox : ∀ k, (box k).1 ≤ (box k).2) (a : Fin 2) (hw : h ≤ ((box a).2 - (box a).1) / size) :
    ∃ G : ℕ → List (Fin 2 → ℝ), (∀ r < size, makeInitPoints h 2 size r a [box 0, box 1] = .ok (G r)) ∧
      Tiles a (box a).1 (box a).2 h size G := by
  choose S hS using fun r => local_exists hh hs (hbox a) r
  choose N hN0 hNrun hN1 hN2 hN3 using fun r => local_grid hh hw (hS r)
  choose M hM0 hMrun hM1 hM2 hM3 using fun k => mgridAxis_ok hh (b := box k) (by linarith [hbox k])
  refine ⟨fun r => staggered2 h (gridVals (if 0 = a then S r else (box 0).1) h (if 0 = a then N r else M 0))
    (gridVals (if 1 = a then S r else (box 1).1) h (if 1 = a then N r else M 1)), ?_, ?_⟩
  · intro r _
    have e := (hS r).lims
    fin_cases a <;>
    · simp only [makeInitPoints, localBox, bind, Except.bind, pure, Except.pure, createStaggeredGrid]
      simp at e hNrun ⊢
      simp [e, hNrun, hMrun, createStaggeredGrid, bind, Except.bind, pure, Except.pure]
  · refine tiles_of hh hs hw a hS (N := N) (fun r => ⟨hN0 r, hN1 r, hN2 r, hN3 r⟩)
      (s := fun r k => if k = a then S r else (box k).1) (n := fun r k => if k = a then N r else M k)
      (by simp) (by simp) (fun r r' k hk => by simp [hk]) (fun r r' k hk => by simp [hk]) ?_ ?_
    · intro r k
      by_cases hk : k = a
      · simpa [hk] using hN0 r
      · simpa [hk] using hM0 k
    · intro r _
      exact isGrid2 _ _

/-- **C60 (3-D).** -/
theorem C60_cuboid {h : ℝ} (hh : 0 < h) {size : ℕ} (hs : 0 < size) (box : Fin 3 → ℝ × ℝ)
    (hbox : ∀ k, (box k).1 ≤ (box k).2) (a : Fin 3) (hw : h ≤ ((box a).2 - (box a).1) / size) :
    ∃ G : ℕ → List (Fin 3 → ℝ), (∀ r < size, makeInitPoints h 3 size r a [box 0, box 1, box 2] = .ok (G r)) ∧
      Tiles a (box a).1 (box a).2 h size G := by
  choose S hS using fun r => local_exists hh hs (hbox a) r
  choose N hN0 hNrun hN1 hN2 hN3 using fun r => local_grid hh hw (hS r)
  choose M hM0 hMrun hM1 hM2 hM3 using fun k => mgridAxis_ok hh (b := box k) (by linarith [hbox k])
  refine ⟨fun r => staggered3 h (gridVals (if 0 = a then S r else (box 0).1) h (if 0 = a then N r else M 0))
    (gridVals (if 1 = a then S r else (box 1).1) h (if 1 = a then N r else M 1))
    (gridVals (if 2 = a then S r else (box 2).1) h (if 2 = a then N r else M 2)), ?_, ?_⟩
  · intro r _
    have e := (hS r).lims
    fin_cases a <;>
    · simp only [makeInitPoints, localBox, bind, Except.bind, pure, Except.pure, createStaggeredGrid]
      simp at e hNrun ⊢
      simp [e, hNrun, hMrun, createStaggeredGrid, bind, Except.bind, pure, Except.pure]
  · refine tiles_of hh hs hw a hS (N := N) (fun r => ⟨hN0 r, hN1 r, hN2 r, hN3 r⟩)
      (s := fun r k => if k = a then S r else (box k).1) (n := fun r k => if k = a then N r else M k)
      (by simp) (by simp) (fun r r' k hk => by simp [hk]) (fun r r' k hk => by simp [hk]) ?_ ?_
    · intro r k
      by_cases hk : k = a
      · simpa [hk] using hN0 r
      · simpa [hk] using hM0 k
    · intro r _
      exact isGrid3 _ _

/-- The hypotheses of `C60_rectangle` and `C60_cuboid` hold for the unit square, three ranks, `h0 = 1/10`, axis 1. -/
example : (0 : ℝ) < 1 / 10 ∧ 0 < 3 ∧ (∀ k : Fin 2, ((fun _ => (0, 1)) k : ℝ × ℝ).1 ≤ ((fun _ => (0, 1)) k : ℝ × ℝ).2) ∧
    (1 / 10 : ℝ) ≤ (((0 : ℝ), (1 : ℝ)).2 - ((0 : ℝ), (1 : ℝ)).1) / (3 : ℕ) := by
  refine ⟨by norm_num, by norm_num, fun k => by simp, by norm_num⟩

/-- **C60 (the parallel call, 2-D).** The candidate points `generate_mesh` starts from on the `size > 1` ranks of a parallel call are those
tiling grids, whether or not the sizing function is local to the rank. -/
theorem C60_ranks2 {h : ℝ} (hh : 0 < h) {size : ℕ} (hs : 1 < size) (box : Fin 2 → ℝ × ℝ)
    (hbox : ∀ k, (box k).1 ≤ (box k).2) (a : Fin 2) (hw : h ≤ ((box a).2 - (box a).1) / size) (lsf : Bool) :
    ∃ G : ℕ → List (Fin 2 → ℝ), (∀ r < size, rawPoints h 2 size r a [box 0, box 1] lsf = .ok (G r)) ∧
      Tiles a (box a).1 (box a).2 h size G := by
  obtain ⟨G, h1, h2⟩ := C60_rectangle hh (by omega) box hbox a hw
  exact ⟨G, fun r hr => by rw [← h1 r hr]; cases lsf <;> simp [rawPoints, hs], h2⟩

/-- **C60 (the parallel call, 3-D).** -/
theorem C60_ranks3 {h : ℝ} (hh : 0 < h) {size : ℕ} (hs : 1 < size) (box : Fin 3 → ℝ × ℝ)
    (hbox : ∀ k, (box k).1 ≤ (box k).2) (a : Fin 3) (hw : h ≤ ((box a).2 - (box a).1) / size) (lsf : Bool) :
    ∃ G : ℕ → List (Fin 3 → ℝ), (∀ r < size, rawPoints h 3 size r a [box 0, box 1, box 2] lsf = .ok (G r)) ∧
      Tiles a (box a).1 (box a).2 h size G := by
  obtain ⟨G, h1, h2⟩ := C60_cuboid hh (by omega) box hbox a hw
  exact ⟨G, fun r hr => by rw [← h1 r hr]; cases lsf <;> simp [rawPoints, hs], h2⟩

/-- The condition on the width of the blocks is needed: with blocks narrower than `h` a rank can be left without any
points (here rank 1 of 4 on the unit square with `h0 = 3/4`). -/
theorem C60_narrow_empty : makeInitPoints (3 / 4) 2 4 1 0 [(0, 1), (0, 1)] = .ok [] := by
  have c1 : gridCount 0 (1 / 4 + 3 / 4) (3 / 4) = 2 := by
    rw [gridCount, Int.ceil_eq_iff]; norm_num
  have c2 : gridCount (3 / 4 + 3 / 4) (1 / 2 + 3 / 4) (3 / 4) = 0 := by
    rw [gridCount, Int.ceil_eq_iff]; norm_num
  have hl : localLims (3 / 4) (0, 1) 4 1 = .ok (3 / 4 + 3 / 4, 1 / 2) := by
    have e0 : lims ((0 : ℝ), (1 : ℝ)) 4 0 = 0 := by simp [lims]
    have e1 : lims ((0 : ℝ), (1 : ℝ)) 4 1 = 1 / 4 := by simp [lims]
    have e2 : lims ((0 : ℝ), (1 : ℝ)) 4 2 = 1 / 2 := by norm_num [lims]
    have hl : (gridVals 0 (3 / 4) (Int.toNat 2)).getLast? = some (3 / 4) := by
      rw [show Int.toNat 2 = 2 from rfl, gridVals_last (by norm_num)]; norm_num
    simp only [localLims, Nat.one_ne_zero, if_false, Nat.sub_self, e0, e1, arange, c1]
    norm_num [bind, Except.bind, pure, Except.pure, e2, hl]
  have ha : mgridAxis (3 / 4) (3 / 4 + 3 / 4, 1 / 2) = .ok [] := by
    simp only [mgridAxis, c2]
    norm_num [gridVals]
  obtain ⟨n, -, hn, -⟩ := mgridAxis_ok (h := 3 / 4) (by norm_num) (b := (0, 1)) (by norm_num)
  simp only [makeInitPoints, localBox, if_true, hl, bind, Except.bind, pure, Except.pure, Nat.add_one_ne_zero, if_false,
    createStaggeredGrid, ha, hn]
  simp [staggered2]

/-- If the split axis is not below the dimension nothing is split: every rank generates the whole grid. -/
theorem C60_axis_out_of_range {h : ℝ} {size rank axis : ℕ} (bx by' : ℝ × ℝ) (ha : 2 ≤ axis) :
    makeInitPoints h 2 size rank axis [bx, by'] = createStaggeredGrid h 2 [bx, by'] := by
  have h0 : 0 ≠ axis := by omega
  have h1 : 0 + 1 ≠ axis := by omega
  simp [makeInitPoints, localBox, h0, h1, bind, Except.bind, pure, Except.pure]

/-! ## C59 -/

/-- `kept` consists of the entries of `cand` whose number satisfies `P`, in order. -/
def Selects {α : Type} (cand kept : List α) (P : ℕ → α → Prop) : Prop :=
  ∃ ix : List ℕ, ix.Pairwise (· < ·) ∧ List.Forall₂ (fun i x => cand[i]? = some x) ix kept ∧
    ∀ (i : ℕ) (x : α), cand[i]? = some x → (i ∈ ix ↔ P i x)

theorem minOf_ok {l : List ℝ} {m : ℝ} : minOf l = .ok m ↔ m ∈ l ∧ ∀ x ∈ l, m ≤ x := by
  cases l with
  | nil => simp [minOf]
  | cons a l =>
    have key : ∀ (l : List ℝ) (a : ℝ), (l.foldl min a = a ∨ l.foldl min a ∈ l) ∧ l.foldl min a ≤ a ∧ ∀ x ∈ l, l.foldl min a ≤ x := by
      intro l
      induction l with
      | nil => intro a; simp
      | cons b l ih =>
        intro a
        obtain ⟨h1, h2, h3⟩ := ih (min a b)
        simp only [List.foldl_cons, List.mem_cons, forall_eq_or_imp]
        refine ⟨?_, h2.trans (min_le_left _ _), h2.trans (min_le_right _ _), h3⟩
        rcases h1 with h1 | h1
        · rcases min_choice a b with h | h <;> rw [h] at h1 ⊢ <;> simp [h1]
        · exact Or.inr (Or.inr h1)
    obtain ⟨h1, h2, h3⟩ := key l a
    simp only [minOf, Except.ok.injEq, List.mem_cons, forall_eq_or_imp]
    constructor
    · rintro rfl; exact ⟨h1, h2, h3⟩
    · rintro ⟨hm, hma, hml⟩
      apply le_antisymm
      · rcases hm with rfl | hm
        · exact h2
        · exact h3 m hm
      · rcases h1 with h | h
        · rw [h]; exact hma
        · exact hml _ h

theorem selects_filter {α : Type} (l : List α) (P : ℕ → α → Prop) [∀ i x, Decidable (P i x)] :
    Selects l ((l.zipIdx.filter fun xi => decide (P xi.2 xi.1)).map Prod.fst) P := by
  refine ⟨(l.zipIdx.filter fun xi => decide (P xi.2 xi.1)).map Prod.snd, ?_, ?_, ?_⟩
  · refine List.Pairwise.sublist (List.Sublist.map _ List.filter_sublist) ?_
    rw [List.zipIdx_map_snd]
    exact List.pairwise_lt_range'
  · rw [List.forall₂_map_left_iff, List.forall₂_map_right_iff, List.forall₂_same]
    intro xi hxi
    rw [List.mem_filter] at hxi
    exact List.mem_zipIdx_iff_getElem?.1 hxi.1
  · intro i x hx
    simp only [List.mem_map, List.mem_filter, Prod.exists, List.mem_zipIdx_iff_getElem?, decide_eq_true_eq]
    constructor
    · rintro ⟨y, j, ⟨hy, hP⟩, rfl⟩
      rw [hx] at hy; cases hy; exact hP
    · intro hP
      exact ⟨x, i, ⟨hx, hP⟩, rfl⟩

theorem selects_all {α : Type} {cand kept : List α} {P : ℕ → α → Prop} (h : Selects cand kept P)
    (hall : ∀ (i : ℕ) x, cand[i]? = some x → P i x) : kept = cand := by
  obtain ⟨ix, hs, hf, hi⟩ := h
  have hix : ix = List.range cand.length := by
    apply List.Pairwise.eq_of_mem_iff (r := (· < ·)) hs List.pairwise_lt_range
    intro i
    rw [List.mem_range]
    constructor
    · intro hm
      obtain ⟨x, -, hx⟩ := forall₂_left hf _ hm
      exact (List.getElem?_eq_some_iff.1 hx).1
    · intro hl
      have : cand[i]? = some cand[i] := List.getElem?_eq_getElem hl
      exact (hi i _ this).2 (hall i _ this)
  subst hix
  apply List.ext_getElem
  · rw [← hf.length_eq, List.length_range]
  · intro i h1 h2
    have hl : i < (List.range cand.length).length := by simpa using h2
    have := List.Forall₂.get hf hl h1
    simp only [List.get_eq_getElem, List.getElem_range, List.getElem?_eq_getElem h2, Option.some.injEq] at this
    exact this.symm

variable {d : ℕ}

/-- The rejection test in the documented form. -/
def Keep (I : Input d) (r0m : ℝ) (r : ℕ) (i : ℕ) (x : Fin d → ℝ) : Prop := I.rand i < (r0m / I.fh r x) ^ d

theorem reject_selects (I : Input d) (m : ℝ) (r : ℕ) (ps : List (Fin d → ℝ)) :
    ∃ kept, rankPoints I m ps r = I.pfix ++ kept ∧ Selects ps kept (Keep I m r) := by
  classical
  refine ⟨_, rfl, ?_⟩
  have h := selects_filter ps (Keep I m r)
  have e : reject I.rand m (I.fh r) ps = (ps.zipIdx.filter fun xi => decide (Keep I m r xi.2 xi.1)).map Prod.fst := by
    unfold reject
    congr 1
    apply List.filter_congr
    intro xi _
    simp [Keep, div_pow]
  rw [e]; exact h

/-- What the documentation says about the points of one rank: `raw` are the points of the regular grid, `r0m` the size
used as reference. -/
structure Sampled (I : Input d) (r0m : ℝ) (r : ℕ) (raw p : List (Fin d → ℝ)) : Prop where
  /-- candidates are the grid points inside the enlarged domain; each is kept according to its random number -/
  kept : ∃ cand kept, (∀ x, x ∈ cand ↔ x ∈ raw ∧ I.fd x < I.geps) ∧ cand.Sublist raw ∧ Selects cand kept (Keep I r0m r) ∧
    p = I.pfix ++ kept

theorem sampled_of {I : Input d} {size r : ℕ} {ps : List (Fin d → ℝ)} (h : candidates I size r = .ok ps) (m : ℝ) :
    ∃ raw, rawPoints I.h0 d size r I.axis I.bbox I.lsf = .ok raw ∧ Sampled I m r raw (rankPoints I m ps r) ∧
      (∀ x, x ∈ ps ↔ x ∈ raw ∧ I.fd x < I.geps) := by
  simp only [candidates, bind, Except.bind, pure, Except.pure] at h
  split at h
  · simp at h
  rename_i raw hraw
  simp only [Except.ok.injEq] at h
  subst h
  obtain ⟨kept, hk, hsel⟩ := reject_selects I m r (inside I.fd I.geps raw)
  refine ⟨raw, hraw, ⟨⟨inside I.fd I.geps raw, kept, ?_, List.filter_sublist, hsel, hk⟩⟩, ?_⟩ <;>
    simp [inside]

theorem localR0m_ok {b : Bool} {h0 : ℝ} {l : List ℝ} {m : ℝ} (h : localR0m b h0 l = .ok m) :
    ∃ m0, m0 ∈ l ∧ (∀ x ∈ l, m0 ≤ x) ∧ (b = false → m = m0) ∧
      (b = true → m = if 1.1 * h0 < m0 then 1.1 * h0 else h0) := by
  simp only [localR0m, bind, Except.bind, pure, Except.pure] at h
  split at h
  · simp at h
  rename_i m0 hm0
  simp only [Except.ok.injEq] at h
  obtain ⟨h1, h2⟩ := minOf_ok.1 hm0
  refine ⟨m0, h1, h2, ?_, ?_⟩
  · rintro rfl; simpa using h.symm
  · rintro rfl; simpa using h.symm

/-- **C59 (one process).** The points are the fixed points followed by the grid points inside the enlarged domain that
pass the rejection test, with the smallest size over all candidates as reference (default), or `1.1 * h0` if
that is below it and `h0` otherwise (option `r0m_is_h0`). -/
theorem C59_serial {I : Input d} {p : List (Fin d → ℝ)} (h : serialPoints I = .ok p) :
    ∃ raw r0m m0, rawPoints I.h0 d 1 0 I.axis I.bbox I.lsf = .ok raw ∧ Sampled I r0m 0 raw p ∧
      (∃ x ∈ raw, I.fd x < I.geps ∧ I.fh 0 x = m0) ∧ (∀ x ∈ raw, I.fd x < I.geps → m0 ≤ I.fh 0 x) ∧
      (I.r0mIsH0 = false → r0m = m0) ∧ (I.r0mIsH0 = true → r0m = if 1.1 * I.h0 < m0 then 1.1 * I.h0 else I.h0) := by
  simp only [serialPoints, bind, Except.bind, pure, Except.pure] at h
  split at h
  · simp at h
  rename_i ps hps
  split at h
  · simp at h
  rename_i m hm
  simp only [Except.ok.injEq] at h
  subst h
  obtain ⟨raw, hraw, hsam, hmem⟩ := sampled_of hps m
  obtain ⟨m0, h1, h2, h3, h4⟩ := localR0m_ok hm
  refine ⟨raw, m, m0, hraw, hsam, ?_, ?_, h3, h4⟩
  · obtain ⟨x, hx, he⟩ := List.mem_map.1 h1
    exact ⟨x, ((hmem x).1 hx).1, ((hmem x).1 hx).2, he⟩
  · intro x hx hf
    exact h2 _ (List.mem_map.2 ⟨x, (hmem x).2 ⟨hx, hf⟩, rfl⟩)

/-- **C59 (one process, default).** Candidates of minimal size are always kept; for a constant size every
candidate is kept. -/
theorem C59_minimal_kept {I : Input d} {p : List (Fin d → ℝ)} (h : serialPoints I = .ok p) (hdef : I.r0mIsH0 = false)
    (hrand : ∀ i, I.rand i < 1) (hpos : ∀ x, 0 < I.fh 0 x) :
    ∃ raw, rawPoints I.h0 d 1 0 I.axis I.bbox I.lsf = .ok raw ∧
      (∀ x ∈ raw, I.fd x < I.geps → (∀ y ∈ raw, I.fd y < I.geps → I.fh 0 x ≤ I.fh 0 y) → x ∈ p) ∧
      ((∃ c, ∀ x, I.fh 0 x = c) → ∃ cand, (∀ x, x ∈ cand ↔ x ∈ raw ∧ I.fd x < I.geps) ∧ cand.Sublist raw ∧ p = I.pfix ++ cand) := by
  obtain ⟨raw, r0m, m0, hraw, ⟨cand, kept, hmem, hsub, hsel, hp⟩, ⟨x0, hx0, hf0, he0⟩, hmin, hr, -⟩ := C59_serial h
  have hr := hr hdef
  subst hr
  have hone : ∀ x i, I.fh 0 x = r0m → Keep I r0m 0 i x := by
    intro x i hx
    rw [Keep, hx, div_self (by rw [← hx]; exact (hpos x).ne'), one_pow]
    exact hrand i
  refine ⟨raw, hraw, ?_, ?_⟩
  · intro x hx hf hm
    have hxm : I.fh 0 x = r0m := le_antisymm (by rw [← he0]; exact hm x0 hx0 hf0) (hmin x hx hf)
    obtain ⟨i, hi⟩ := List.mem_iff_getElem?.1 ((hmem x).2 ⟨hx, hf⟩)
    obtain ⟨ix, -, hf2, hiff⟩ := hsel
    have := (hiff i x hi).2 (hone x i hxm)
    obtain ⟨y, hy, hy2⟩ := forall₂_left hf2 _ this
    rw [hi] at hy2; cases hy2
    rw [hp]; exact List.mem_append_right _ hy
  · rintro ⟨c, hc⟩
    refine ⟨cand, hmem, hsub, ?_⟩
    rw [hp, selects_all hsel]
    intro i x _
    exact hone x i (by rw [hc, ← he0, hc])

/-- **C59 (several processes).** All ranks use the same reference size, by default the smallest size over
the candidates of all ranks. -/
theorem C59_parallel {I : Input d} {size : ℕ} {ps : List (List (Fin d → ℝ))} (h : parallelPoints I size = .ok ps) :
    ∃ r0m, ps.length = size ∧
      (∀ (r : ℕ) p, ps[r]? = some p → ∃ raw, rawPoints I.h0 d size r I.axis I.bbox I.lsf = .ok raw ∧ Sampled I r0m r raw p ∧
        (I.r0mIsH0 = false → ∀ x ∈ raw, I.fd x < I.geps → r0m ≤ I.fh r x)) ∧
      (I.r0mIsH0 = false → ∃ r < size, ∃ raw, rawPoints I.h0 d size r I.axis I.bbox I.lsf = .ok raw ∧
        ∃ x ∈ raw, I.fd x < I.geps ∧ I.fh r x = r0m) ∧
      (I.r0mIsH0 = true → r0m = I.h0 ∨ r0m = 1.1 * I.h0) := by
  simp only [parallelPoints, bind, Except.bind, pure, Except.pure] at h
  split at h
  · simp at h
  rename_i cs hcs
  split at h
  · simp at h
  rename_i ms hms
  split at h
  · simp at h
  rename_i m hm
  simp only [Except.ok.injEq] at h
  subst h
  have hc := mapM_forall₂.1 hcs
  have hmm := mapM_forall₂.1 hms
  have hlen : cs.length = size := by rw [← hc.length_eq, List.length_range]
  obtain ⟨hm1, hm2⟩ := minOf_ok.1 hm
  have hcand : ∀ (r : ℕ) c, cs[r]? = some c → candidates I size r = .ok c := by
    intro r c hr
    obtain ⟨hl, rfl⟩ := List.getElem?_eq_some_iff.1 hr
    have := List.Forall₂.get hc (by simpa [hlen] using hl) hl
    simpa using this
  have hr0 : ∀ (r : ℕ) c, cs[r]? = some c → ∃ m', rankR0m I c r = .ok m' ∧ m' ∈ ms := by
    intro r c hr
    obtain ⟨m', h1, h2⟩ := forall₂_left hmm _ (show (c, r) ∈ cs.zipIdx from List.mem_zipIdx_iff_getElem?.2 hr)
    exact ⟨m', h2, h1⟩
  refine ⟨m, by simp [hlen], ?_, ?_, ?_⟩
  · intro r p hp
    simp only [List.getElem?_map, List.getElem?_zipIdx, Option.map_map, Option.map_eq_some_iff] at hp
    obtain ⟨c, hcr, rfl⟩ := hp
    simp only [Function.comp, Nat.zero_add]
    obtain ⟨raw, hraw, hsam, hmem⟩ := sampled_of (hcand r c hcr) m
    refine ⟨raw, hraw, hsam, ?_⟩
    intro hdef x hx hf
    obtain ⟨m', hm', hmem'⟩ := hr0 r c hcr
    obtain ⟨m0, h1, h2, h3, -⟩ := localR0m_ok hm'
    calc m ≤ m' := hm2 m' hmem'
      _ = m0 := h3 hdef
      _ ≤ I.fh r x := h2 _ (List.mem_map.2 ⟨x, (hmem x).2 ⟨hx, hf⟩, rfl⟩)
  · intro hdef
    obtain ⟨⟨c, r⟩, hcr, hcm⟩ := forall₂_right hmm _ hm1
    have hcr' := List.mem_zipIdx_iff_getElem?.1 hcr
    simp only at hcr' hcm
    obtain ⟨m0, h1, -, h3, -⟩ := localR0m_ok hcm
    obtain ⟨raw, hraw, -, hmem⟩ := sampled_of (hcand r c hcr') m
    obtain ⟨x, hx, he⟩ := List.mem_map.1 h1
    refine ⟨r, by rw [← hlen]; exact (List.getElem?_eq_some_iff.1 hcr').1, raw, hraw, x, ((hmem x).1 hx).1, ((hmem x).1 hx).2, ?_⟩
    rw [he, h3 hdef]
  · intro hopt
    obtain ⟨⟨c, r⟩, hcr, hcm⟩ := forall₂_right hmm _ hm1
    obtain ⟨m0, -, -, -, h4⟩ := localR0m_ok hcm
    rw [h4 hopt]
    split
    · exact Or.inr rfl
    · exact Or.inl rfl

/-- No candidate inside: an exception, not an empty mesh. -/
theorem C59_none_inside {I : Input d} (raw : List (Fin d → ℝ))
    (hraw : rawPoints I.h0 d 1 0 I.axis I.bbox I.lsf = .ok raw) (h : ∀ x ∈ raw, I.geps ≤ I.fd x) :
    ∃ e, serialPoints I = .error e := by
  have : inside I.fd I.geps raw = [] := by
    rw [inside, List.filter_eq_nil_iff]
    intro x hx
    simpa using h x hx
  exact ⟨_, by simp [serialPoints, candidates, hraw, this, rankR0m, localR0m, minOf, bind, Except.bind, pure, Except.pure]; rfl⟩

/-- A concrete run meets the hypotheses of `C59_serial`, `C59_minimal_kept`: the unit square with `h0 = 1/2`. -/
example : ∃ p, serialPoints (d := 2)
    ⟨1 / 2, 1 / 20, [(0, 1), (0, 1)], fun x => max (x 0 - 1) (x 1 - 1), fun _ _ => 1 / 2, [], 1, true, false, fun _ => 1 / 2⟩ = .ok p := by
  obtain ⟨n, hn, hrun, -⟩ := mgridAxis_ok (h := 1 / 2) (by norm_num) (b := (0, 1)) (by norm_num)
  have hraw : createStaggeredGrid (1 / 2) 2 [(0, 1), (0, 1)] = .ok (staggered2 (1 / 2) (gridVals 0 (1 / 2) n) (gridVals 0 (1 / 2) n)) := by
    simp only [createStaggeredGrid, hrun, bind, Except.bind, pure, Except.pure]
  set raw := staggered2 (1 / 2) (gridVals 0 (1 / 2) n) (gridVals 0 (1 / 2) n) with hr
  have hmem : (![0, 0] : Fin 2 → ℝ) ∈ inside (fun x : Fin 2 → ℝ => max (x 0 - 1) (x 1 - 1)) (1 / 20) raw := by
    rw [inside, List.mem_filter]
    refine ⟨?_, by norm_num⟩
    rw [hr, mem_staggered2]
    refine ⟨0, ?_, ?_⟩
    · rw [gridVals_get]; exact ⟨hn, by simp⟩
    · rw [gridVals_mem]; exact ⟨0, hn, by simp [shift]⟩
  obtain ⟨m, hm⟩ : ∃ m, minOf ((inside (fun x : Fin 2 → ℝ => max (x 0 - 1) (x 1 - 1)) (1 / 20) raw).map fun _ => (1 / 2 : ℝ)) = .ok m := by
    cases hl : inside (fun x : Fin 2 → ℝ => max (x 0 - 1) (x 1 - 1)) (1 / 20) raw with
    | nil => rw [hl] at hmem; simp at hmem
    | cons a l => exact ⟨_, rfl⟩
  simp only [serialPoints, candidates, rawPoints, gt_iff_lt, lt_irrefl, decide_false, Bool.false_and, Bool.not_true, if_false,
    Bool.false_eq_true, hraw, bind, Except.bind, pure, Except.pure, rankR0m, localR0m, hm]
  exact ⟨_, rfl⟩

/-- A concrete run with two processes meets the hypothesis of `C59_parallel`. -/
example : ∃ ps, parallelPoints (d := 2)
    ⟨1 / 10, 1 / 20, [(0, 1), (0, 1)], fun _ => -1, fun _ _ => 1 / 10, [], 1, true, false, fun _ => 1 / 2⟩ 2 = .ok ps := by
  obtain ⟨G, hG, hT⟩ := C60_rectangle (h := 1 / 10) (by norm_num) (size := 2) (by norm_num) (fun _ => (0, 1)) (by simp) 1 (by norm_num)
  have hin : ∀ l : List (Fin 2 → ℝ), inside (fun _ => (-1 : ℝ)) (1 / 20) l = l := by
    intro l; rw [inside, List.filter_eq_self]; intro x _; norm_num
  have hmin : ∀ l : List (Fin 2 → ℝ), (∃ q, q ∈ l) → ∃ m, minOf (l.map fun _ => (1 / 10 : ℝ)) = .ok m := by
    intro l hl
    cases l with
    | nil => simp at hl
    | cons a l => exact ⟨_, rfl⟩
  obtain ⟨q0, hq0, -⟩ := hT.low
  obtain ⟨q1, hq1, -⟩ := hT.high
  obtain ⟨m0, hm0⟩ := hmin (G 0) ⟨q0, hq0⟩
  obtain ⟨m1, hm1⟩ := hmin (G 1) ⟨q1, hq1⟩
  have g0 := hG 0 (by norm_num)
  have g1 := hG 1 (by norm_num)
  rw [show ((1 : Fin 2) : ℕ) = 1 from rfl] at g0 g1
  simp only [parallelPoints, candidates, rawPoints, List.range_succ, List.range_zero, List.nil_append, List.cons_append, List.mapM_cons,
    List.mapM_nil, g0, g1, hin, bind, Except.bind, pure, Except.pure, rankR0m, localR0m, hm0, hm1, List.zipIdx_cons, List.zipIdx_nil,
    Nat.one_lt_ofNat, gt_iff_lt, decide_true, Bool.true_and, if_true]
  simp only [minOf]
  exact ⟨_, rfl⟩

/-! ## Extents -/

/-- **C60 (extents).** Every point of a rank lies in the extent announced for the rank, with a margin of
`5 * h0` on the split axis; all ranks get the list of all extents. -/
theorem C60_extents {h0 : ℝ} {axis : ℕ} {ps : List (List (Fin d → ℝ))}
    {ex : List ((Fin d → ℝ) × (Fin d → ℝ))} (h : formExtents h0 axis ps = .ok ex) :
    List.Forall₂ (fun p e => ∀ x ∈ p, ∀ k : Fin d,
      e.1 k + (if (k : ℕ) = axis then 5 * h0 else 0) ≤ x k ∧ x k ≤ e.2 k - if (k : ℕ) = axis then 5 * h0 else 0) ps ex := by
  refine (mapM_forall₂.1 h).imp ?_
  intro p e he x hx k
  unfold extentOf at he
  split at he
  · simp at he
  split at he
  · simp at he
  simp only [Except.ok.injEq] at he
  subst he
  simp only
  have hxm : x k ∈ p.map fun x => x k := List.mem_map.2 ⟨x, hx, rfl⟩
  constructor
  · cases hc : columnMin p k with
    | error e => 
      simp only [columnMin] at hc
      cases hp : p.map fun x => x k with
      | nil => rw [hp] at hxm; simp at hxm
      | cons a l => rw [hp] at hc; simp [minOf] at hc
    | ok m =>
      have := (minOf_ok.1 hc).2 _ hxm
      simp only
      linarith
  · cases hp : p.map fun x => x k with
    | nil => rw [hp] at hxm; simp at hxm
    | cons a l =>
      have key : ∀ (l : List ℝ) (a y : ℝ), y = a ∨ y ∈ l → y ≤ l.foldl max a := by
        intro l
        induction l with
        | nil => intro a y hy; simp at hy; simp [hy]
        | cons b l ih =>
          intro a y hy
          rw [List.foldl_cons]
          rcases hy with rfl | hy
          · exact (le_max_left _ _).trans (ih _ _ (Or.inl rfl))
          · rcases List.mem_cons.1 hy with rfl | hy
            · exact (le_max_right _ _).trans (ih _ _ (Or.inl rfl))
            · exact ih _ _ (Or.inr hy)
      rw [hp] at hxm
      have := key l a (x k) (List.mem_cons.1 hxm)
      simp only [columnMax, hp]
      linarith

theorem foldl_max_mem : ∀ (l : List ℝ) (a : ℝ), l.foldl max a = a ∨ l.foldl max a ∈ l
  | [], a => .inl rfl
  | b :: l, a => by
    rw [List.foldl_cons]
    rcases foldl_max_mem l (max a b) with h | h
    · rcases max_choice a b with e | e
      · rw [e] at h ⊢; exact .inl h
      · rw [e] at h ⊢; exact .inr (by rw [h]; simp)
    · exact .inr (List.mem_cons_of_mem _ h)

/-- **C60 (extents, sharp).** The extent announced for a rank is no larger than that: both ends are attained, for every coordinate, by a point of the rank. -/
theorem C60_extents_sharp {h0 : ℝ} {axis : ℕ} {ps : List (List (Fin d → ℝ))}
    {ex : List ((Fin d → ℝ) × (Fin d → ℝ))} (h : formExtents h0 axis ps = .ok ex) :
    List.Forall₂ (fun p e => ∀ k : Fin d, (∃ x ∈ p, x k = e.1 k + if (k : ℕ) = axis then 5 * h0 else 0) ∧
      ∃ x ∈ p, x k = e.2 k - if (k : ℕ) = axis then 5 * h0 else 0) ps ex := by
  refine (mapM_forall₂.1 h).imp ?_
  intro p e he k
  unfold extentOf at he
  split at he
  · simp at he
  split at he
  · simp at he
  simp only [Except.ok.injEq] at he
  subst he
  simp only
  cases p with
  | nil => simp at *
  | cons a l =>
    constructor
    · cases hc : columnMin (a :: l) k with
      | error e => simp [columnMin, minOf] at hc
      | ok m =>
        obtain ⟨x, hx, hxm⟩ := List.mem_map.1 (minOf_ok.1 hc).1
        exact ⟨x, hx, by simp only; linarith⟩
    · have : (l.map fun x => x k).foldl max (a k) ∈ (a :: l).map fun x => x k := by
        rw [List.map_cons]
        rcases foldl_max_mem (l.map fun x => x k) (a k) with h | h
        · rw [h]; simp
        · exact List.mem_cons_of_mem _ h
      obtain ⟨x, hx, hxm⟩ := List.mem_map.1 this
      exact ⟨x, hx, by simp only [columnMax, List.map_cons]; linarith⟩

end

end SM.Init
