import Verif.Model.Blocker
import Verif.Lemmas.Sizing
import Verif.Props.Distribute
import Mathlib.Data.Fin.VecNotation
import Mathlib.Data.Rat.Defs
import Mathlib.Tactic.FinCases
import Mathlib.Algebra.Order.Field.Rat

/-!
# C65, C66: the decomposition of user-supplied points

The specification is in terms of points and lists only: `Tight b e` says that the list `e` (minima, then maxima) is the
bounding box of the points `b`.
-/

set_option linter.unusedSectionVars false

namespace SM.Blocker

open FixMesh

variable {K : Type} [Field K] [LinearOrder K] [IsStrictOrderedRing K] {d : ℕ}

/-! ## Specification -/

/-- `e` lists the minima and then the maxima of the coordinates of the points `b`. -/
def Tight (b : List (Fin d → K)) (e : List K) : Prop :=
  e.length = 2 * d ∧ ∀ i : Fin d,
    (∃ lo, e[(i : ℕ)]? = some lo ∧ (∀ q ∈ b, lo ≤ q i) ∧ ∃ q ∈ b, q i = lo) ∧
    (∃ hi, e[d + (i : ℕ)]? = some hi ∧ (∀ q ∈ b, q i ≤ hi) ∧ ∃ q ∈ b, q i = hi)

/-! ## Minima and maxima -/

theorem colMax_spec (p0 : Fin d → K) (ps : List (Fin d → K)) (i : Fin d) :
    (∀ q ∈ p0 :: ps, q i ≤ colMax p0 ps i) ∧ ∃ q ∈ p0 :: ps, q i = colMax p0 ps i := by
  constructor
  · intro q hq
    rcases List.mem_cons.1 hq with rfl | hq
    · exact Sizing.foldl_max_ge (fun q : Fin d → K => q i) ps _
    · exact Sizing.foldl_max_mem_le (fun q : Fin d → K => q i) _ hq
  · rcases Sizing.foldl_max_attained (fun q : Fin d → K => q i) ps (p0 i) with h | ⟨a, ha, h⟩
    · exact ⟨p0, by simp, h.symm⟩
    · exact ⟨a, by simp [ha], h.symm⟩

theorem max_neg_neg' (a b : K) : max (-a) (-b) = -(min a b) := by
  rcases le_total a b with h | h
  · rw [min_eq_left h, max_eq_left (neg_le_neg h)]
  · rw [min_eq_right h, max_eq_right (neg_le_neg h)]

theorem colMin_spec (p0 : Fin d → K) (ps : List (Fin d → K)) (i : Fin d) :
    (∀ q ∈ p0 :: ps, colMin p0 ps i ≤ q i) ∧ ∃ q ∈ p0 :: ps, q i = colMin p0 ps i := by
  have h : colMin p0 ps i = - ps.foldl (fun m q => max m (-(q i))) (-(p0 i)) := by
    unfold colMin
    generalize p0 i = x
    induction ps generalizing x with
    | nil => simp
    | cons a ps ih => rw [List.foldl_cons, List.foldl_cons, ih, show max (-x) (-(a i)) = -(min x (a i)) from max_neg_neg' x (a i)]
  rw [h]
  constructor
  · intro q hq
    rw [neg_le]
    rcases List.mem_cons.1 hq with rfl | hq
    · exact Sizing.foldl_max_ge (fun q : Fin d → K => -(q i)) ps _
    · exact Sizing.foldl_max_mem_le (fun q : Fin d → K => -(q i)) _ hq
  · rcases Sizing.foldl_max_attained (fun q : Fin d → K => -(q i)) ps (-(p0 i)) with h | ⟨a, ha, h⟩
    · exact ⟨p0, by simp, by rw [h, neg_neg]⟩
    · exact ⟨a, by simp [ha], by rw [h, neg_neg]⟩

theorem tight_extentOf {b : List (Fin d → K)} (hb : b ≠ []) : Tight b (extentOf b) := by
  match b, hb with
  | b0 :: bs, _ =>
    refine ⟨by simp [extentOf, extent]; omega, fun i => ⟨⟨colMin b0 bs i, ?_, colMin_spec b0 bs i⟩, ⟨colMax b0 bs i, ?_, colMax_spec b0 bs i⟩⟩⟩
    · simp [extentOf, extent, List.getElem?_append_left]
    · simp [extentOf, extent]

/-! ## Running -/

/-- When `blocker` returns, and what. -/
theorem blocker_ok {eps : K} {points : List (Fin d → K)} {n axis : ℕ} {r} :
    blocker eps points n axis = .ok r ↔ ∃ p0 ps c, points = p0 :: ps ∧ (d = 2 ∨ d = 3) ∧ 0 < n ∧ 2 * n ≤ points.length ∧
      cuts d axis n = some c ∧ r = (blocksOf eps p0 ps c, (blocksOf eps p0 ps c).map extentOf) := by
  unfold blocker
  by_cases hd : d < 2 ∨ d > 3
  · rw [if_pos hd]
    constructor
    · simp
    · rintro ⟨_, _, _, _, h, _⟩; omega
  rw [if_neg hd]
  by_cases hn : n = 0
  · rw [if_pos hn]
    constructor
    · simp
    · rintro ⟨_, _, _, _, _, h, _⟩; omega
  rw [if_neg hn]
  have hdiv : points.length / n > 1 ↔ 2 * n ≤ points.length := by
    rw [gt_iff_lt, Nat.lt_iff_add_one_le, Nat.le_div_iff_mul_le (by omega)]
  by_cases hl : points.length / n > 1
  · rw [if_neg (not_not.2 hl)]
    rw [hdiv] at hl
    match points, hl with
    | [], hl => simp at hl; omega
    | p0 :: ps, hl =>
      simp only []
      cases hc : cuts d axis n with
      | none => simp
      | some c =>
        simp only [Except.ok.injEq]
        constructor
        · rintro rfl; exact ⟨p0, ps, c, rfl, by omega, by omega, hl, rfl, rfl⟩
        · rintro ⟨_, _, _, h, _, _, _, h2, h3⟩
          simp only [List.cons.injEq, Option.some.injEq] at h h2
          obtain ⟨rfl, rfl⟩ := h
          subst h2
          exact h3.symm
  · rw [if_pos hl]
    constructor
    · simp
    · rintro ⟨_, _, _, _, _, _, h, _⟩; exact absurd (hdiv.2 h) hl

/-- **C65, acceptance.** `blocker` returns iff the dimension is 2 or 3, there is at least one block and at least two points per
block, and the axis is a coordinate direction; otherwise it raises. -/
theorem C65_accepts (eps : K) (points : List (Fin d → K)) (n axis : ℕ) :
    (∃ r, blocker eps points n axis = .ok r) ↔ (d = 2 ∨ d = 3) ∧ 0 < n ∧ 2 * n ≤ points.length ∧ axis < d := by
  have hcut : (d = 2 ∨ d = 3) → ((∃ c, cuts d axis n = some c) ↔ axis < d) := by
    intro hd
    unfold cuts
    rcases hd with rfl | rfl
    · by_cases h0 : axis = 0
      · simp [h0]
      · by_cases h1 : axis = 1
        · simp [h1]
        · simp [h0, h1]; omega
    · by_cases h0 : axis = 0
      · simp [h0]
      · by_cases h1 : axis = 1
        · simp [h1]
        · by_cases h2 : axis = 2
          · simp [h2]
          · simp [h0, h1, h2]; omega
  constructor
  · rintro ⟨r, h⟩
    obtain ⟨p0, ps, c, _, hd, hn, hl, hc, _⟩ := blocker_ok.1 h
    exact ⟨hd, hn, hl, (hcut hd).1 ⟨c, hc⟩⟩
  · rintro ⟨hd, hn, hl, ha⟩
    obtain ⟨c, hc⟩ := (hcut hd).2 ha
    match points, hl with
    | [], hl => simp at hl; omega
    | p0 :: ps, hl => exact ⟨_, blocker_ok.2 ⟨p0, ps, c, rfl, hd, hn, hl, hc, rfl⟩⟩

/-- **C65, blocks.** Every block is nonempty and consists of input points in input order. -/
theorem C65_blocks {eps : K} {points : List (Fin d → K)} {n axis : ℕ} {blocks ext} (h : blocker eps points n axis = .ok (blocks, ext)) :
    ∀ b ∈ blocks, b ≠ [] ∧ b.Sublist points := by
  obtain ⟨p0, ps, c, rfl, _, _, _, _, hr⟩ := blocker_ok.1 h
  obtain ⟨rfl, rfl⟩ := Prod.mk.inj hr
  intro b hb
  simp only [blocksOf, List.mem_filter, List.mem_map, decide_eq_true_eq] at hb
  obtain ⟨⟨low, _, rfl⟩, hb⟩ := hb
  exact ⟨hb, List.filter_sublist⟩

/-- **C65, extents.** There is one extent per block, and it is the bounding box of that block. -/
theorem C65_extents {eps : K} {points : List (Fin d → K)} {n axis : ℕ} {blocks ext} (h : blocker eps points n axis = .ok (blocks, ext)) :
    List.Forall₂ Tight blocks ext := by
  have hb := C65_blocks h
  obtain ⟨p0, ps, c, rfl, _, _, _, _, hr⟩ := blocker_ok.1 h
  obtain ⟨rfl, rfl⟩ := Prod.mk.inj hr
  rw [List.forall₂_map_right_iff]
  exact List.forall₂_same.2 fun b hm => tight_extentOf (hb b hm).1

/-! ## Covering -/

/-- `n` slabs of width `w` cover `[lo, lo + n w]`. -/
theorem exists_slab {lo x w : K} {n : ℕ} (hn : 0 < n) (h1 : lo ≤ x) (h2 : x ≤ lo + n * w) :
    ∃ i < n, lo + (i : K) * w ≤ x ∧ x ≤ lo + (i : K) * w + w := by
  induction n with
  | zero => omega
  | succ n ih =>
    by_cases h : lo + (n : K) * w ≤ x
    · exact ⟨n, by omega, h, by push_cast at h2; linarith⟩
    · push Not at h
      rcases Nat.eq_zero_or_pos n with rfl | hn'
      · simp at h; linarith
      · obtain ⟨i, hi, hx⟩ := ih hn' h.le
        exact ⟨i, by omega, hx⟩

theorem lows_cover {lo hi x : K} {n : ℕ} (hn : 0 < n) (h1 : lo ≤ x) (h2 : x ≤ hi) :
    ∃ l ∈ lows lo hi n, l ≤ x ∧ x ≤ l + (hi - lo) / (n : K) := by
  have hn' : (n : K) ≠ 0 := Nat.cast_ne_zero.2 hn.ne'
  obtain ⟨i, hi', hx⟩ := exists_slab (w := (hi - lo) / (n : K)) hn h1 (by field_simp; linarith)
  exact ⟨_, List.mem_map.2 ⟨i, List.mem_range.2 hi', rfl⟩, hx⟩

theorem lows_one (lo hi : K) : lows lo hi 1 = [lo] := by simp [lows, List.range_succ]

theorem lows_length (lo hi : K) (n : ℕ) : (lows lo hi n).length = n := by simp [lows]

theorem lows_succ (lo hi : K) (n : ℕ) : ∃ rest, lows lo hi (n + 1) = lo :: rest := by
  refine ⟨(lows lo hi (n + 1)).tail, ?_⟩
  simp [lows, List.range_succ_eq_map]

/-- A point lies within the limits. -/
theorem lim_spec {eps : K} (heps : 0 ≤ eps) {p0 : Fin d → K} {ps : List (Fin d → K)} {q : Fin d → K} (hq : q ∈ p0 :: ps) {i : ℕ} (hi : i < d) :
    (lim eps p0 ps i).1 ≤ q ⟨i, hi⟩ ∧ q ⟨i, hi⟩ ≤ (lim eps p0 ps i).2 := by
  simp only [lim, hi, dif_pos]
  have h1 := (colMin_spec p0 ps ⟨i, hi⟩).1 q hq
  have h2 := (colMax_spec p0 ps ⟨i, hi⟩).1 q hq
  constructor <;> linarith

/-- If one of the first `m` candidates contains `q`, then so does one of the first `m` blocks that remain. -/
theorem mem_of_prefix {α β : Type} (f : α → List β) {A B : List α} {a : α} (ha : a ∈ A) {q : β} (hq : q ∈ f a) :
    ∃ r < A.length, ∃ b, (((A ++ B).map f).filter fun b => decide (b.length ≠ 0))[r]? = some b ∧ q ∈ b := by
  have hne : f a ∈ (A.map f).filter fun b => decide (b.length ≠ 0) := by
    rw [List.mem_filter]
    refine ⟨List.mem_map_of_mem ha, ?_⟩
    cases h : f a with
    | nil => rw [h] at hq; simp at hq
    | cons => simp
  obtain ⟨r, hr, he⟩ := List.getElem_of_mem hne
  have hlen : ((A.map f).filter fun b => decide (b.length ≠ 0)).length ≤ A.length :=
    (List.length_filter_le _ _).trans (by simp)
  refine ⟨r, by omega, f a, ?_, hq⟩
  rw [List.map_append, List.filter_append, List.getElem?_append_left hr, List.getElem?_eq_getElem hr, he]

/-- The candidate corners start with `n` corners whose blocks cover all points. -/
theorem corners_cover {eps : K} (heps : 0 ≤ eps) {p0 : Fin d → K} {ps : List (Fin d → K)} {n axis : ℕ} (hd : d = 2 ∨ d = 3) (hn : 0 < n) {c}
    (hc : cuts d axis n = some c) :
    let lx := lim eps p0 ps 0
    let ly := lim eps p0 ps 1
    let lz := lim eps p0 ps 2
    let w := [(lx.2 - lx.1) / (c.1.2 : K), (ly.2 - ly.1) / (c.2.1.2 : K), (lz.2 - lz.1) / (c.2.2.2 : K)]
    ∃ A B, corners d (lows lx.1 lx.2 c.1.1) (lows ly.1 ly.2 c.2.1.1) (lows lz.1 lz.2 c.2.2.1) = A ++ B ∧ A.length = n ∧
      ∀ q ∈ p0 :: ps, ∃ low ∈ A, inBlock low w q = true := by
  intro lx ly lz w
  have hx : ∀ q ∈ p0 :: ps, ∀ h : 0 < d, lx.1 ≤ q ⟨0, h⟩ ∧ q ⟨0, h⟩ ≤ lx.2 := fun q hq h => lim_spec heps hq h
  have hy : ∀ q ∈ p0 :: ps, ∀ h : 1 < d, ly.1 ≤ q ⟨1, h⟩ ∧ q ⟨1, h⟩ ≤ ly.2 := fun q hq h => lim_spec heps hq h
  have hz : ∀ q ∈ p0 :: ps, ∀ h : 2 < d, lz.1 ≤ q ⟨2, h⟩ ∧ q ⟨2, h⟩ ≤ lz.2 := fun q hq h => lim_spec heps hq h
  unfold cuts at hc
  by_cases h0 : axis = 0
  · rw [if_pos h0] at hc
    obtain rfl := Option.some.inj hc
    refine ⟨_, [], (List.append_nil _).symm, ?_, ?_⟩
    · rcases hd with rfl | rfl <;> simp [corners, lows_one, lows_length]
    · intro q hq
      rcases hd with rfl | rfl
      · have hx := hx q hq (by omega)
        obtain ⟨l, hl, hy⟩ := lows_cover hn (hy q hq (by omega)).1 (hy q hq (by omega)).2
        refine ⟨[lx.1, l], ?_, ?_⟩
        · simpa [corners, lows_one] using hl
        · simp only [inBlock, decide_eq_true_eq, Fin.forall_fin_two, w]
          refine ⟨⟨hx.1, ?_⟩, hy⟩
          simpa using hx.2
      · have hx := hx q hq (by omega)
        have hz := hz q hq (by omega)
        obtain ⟨l, hl, hy⟩ := lows_cover hn (hy q hq (by omega)).1 (hy q hq (by omega)).2
        refine ⟨[lx.1, l, lz.1], ?_, ?_⟩
        · simpa [corners, lows_one] using hl
        · simp only [inBlock, decide_eq_true_eq, w]
          intro i
          fin_cases i
          · exact ⟨hx.1, by simpa using hx.2⟩
          · exact hy
          · exact ⟨hz.1, by simpa using hz.2⟩
  · rw [if_neg h0] at hc
    by_cases h1 : axis = 1
    · rw [if_pos h1] at hc
      obtain rfl := Option.some.inj hc
      refine ⟨_, [], (List.append_nil _).symm, ?_, ?_⟩
      · rcases hd with rfl | rfl <;> simp [corners, lows_one, lows_length]
      · intro q hq
        rcases hd with rfl | rfl
        · have hy := hy q hq (by omega)
          obtain ⟨l, hl, hx⟩ := lows_cover hn (hx q hq (by omega)).1 (hx q hq (by omega)).2
          refine ⟨[l, ly.1], ?_, ?_⟩
          · simpa [corners, lows_one] using hl
          · simp only [inBlock, decide_eq_true_eq, Fin.forall_fin_two, w]
            refine ⟨hx, ⟨hy.1, ?_⟩⟩
            simpa using hy.2
        · have hy := hy q hq (by omega)
          have hz := hz q hq (by omega)
          obtain ⟨l, hl, hx⟩ := lows_cover hn (hx q hq (by omega)).1 (hx q hq (by omega)).2
          refine ⟨[l, ly.1, lz.1], ?_, ?_⟩
          · simpa [corners, lows_one] using hl
          · simp only [inBlock, decide_eq_true_eq, w]
            intro i
            fin_cases i
            · exact hx
            · exact ⟨hy.1, by simpa using hy.2⟩
            · exact ⟨hz.1, by simpa using hz.2⟩
    · rw [if_neg h1] at hc
      by_cases h2 : axis = 2 ∧ d = 3
      · rw [if_pos h2] at hc
        obtain rfl := Option.some.inj hc
        obtain ⟨_, rfl⟩ := h2
        obtain ⟨m, rfl⟩ : ∃ m, n = m + 1 := ⟨n - 1, by omega⟩
        obtain ⟨rest, hr⟩ := lows_succ ly.1 ly.2 m
        refine ⟨(lows lz.1 lz.2 (m + 1)).map fun z => [lx.1, ly.1, z],
          rest.flatMap fun y => (lows lz.1 lz.2 (m + 1)).map fun z => [lx.1, y, z], ?_, ?_, ?_⟩
        · simp only [corners, hr, lows_one, if_true, List.flatMap_cons, List.flatMap_nil, List.append_nil]
        · simp [lows_length]
        · intro q hq
          have hx := hx q hq (by omega)
          have hy := hy q hq (by omega)
          obtain ⟨l, hl, hz⟩ := lows_cover hn (hz q hq (by omega)).1 (hz q hq (by omega)).2
          refine ⟨[lx.1, ly.1, l], List.mem_map.2 ⟨l, hl, rfl⟩, ?_⟩
          simp only [inBlock, decide_eq_true_eq, w]
          intro i
          fin_cases i
          · exact ⟨hx.1, by simpa using hx.2⟩
          · exact ⟨hy.1, by simpa using hy.2⟩
          · exact hz
      · rw [if_neg h2] at hc
        cases hc

/-- **C65, covering.** Every input point is in one of the first `n` blocks. -/
theorem C65_covers {eps : K} (heps : 0 ≤ eps) {points : List (Fin d → K)} {n axis : ℕ} {blocks ext}
    (h : blocker eps points n axis = .ok (blocks, ext)) {q : Fin d → K} (hq : q ∈ points) :
    ∃ r < n, ∃ b, blocks[r]? = some b ∧ q ∈ b := by
  obtain ⟨p0, ps, c, rfl, hd, hn, _, hc, hr⟩ := blocker_ok.1 h
  obtain ⟨rfl, rfl⟩ := Prod.mk.inj hr
  obtain ⟨A, B, hAB, hA, hcov⟩ := corners_cover (ps := ps) (p0 := p0) heps hd hn hc
  obtain ⟨low, hlow, hin⟩ := hcov q hq
  have := mem_of_prefix (B := B) (fun low => (p0 :: ps).filter (inBlock low _)) hlow (q := q) (List.mem_filter.2 ⟨hq, hin⟩)
  rw [hA] at this
  obtain ⟨r, hr, b, hb, hqb⟩ := this
  refine ⟨r, hr, b, ?_, hqb⟩
  rw [← hb, blocksOf, hAB]
  congr 1
  apply List.filter_congr
  intro b _
  simp [List.length_eq_zero_iff]

/-- **C65, number of blocks.** Cutting along `x` or `y` gives at most `n` blocks. -/
theorem C65_count {eps : K} {points : List (Fin d → K)} {n axis : ℕ} {blocks ext}
    (h : blocker eps points n axis = .ok (blocks, ext)) (ha : axis < 2) : blocks.length ≤ n := by
  obtain ⟨p0, ps, c, rfl, hd, hn, _, hc, hr⟩ := blocker_ok.1 h
  obtain ⟨rfl, rfl⟩ := Prod.mk.inj hr
  unfold blocksOf
  refine (List.length_filter_le _ _).trans ?_
  rw [List.length_map]
  unfold cuts at hc
  have : axis = 0 ∨ axis = 1 := by omega
  rcases this with rfl | rfl
  · obtain rfl := Option.some.inj hc
    rcases hd with rfl | rfl <;> simp [corners, lows_one, lows_length]
  · obtain rfl := Option.some.inj hc
    rcases hd with rfl | rfl <;> simp [corners, lows_one, lows_length]

/-- Blocks overlap on their common faces: the middle point is in both. -/
theorem C65_shared : ∃ points : List (Fin 2 → ℚ), ∃ blocks ext, blocker 0 points 2 0 = .ok (blocks, ext) ∧
    points = [![0, 0], ![0, 1], ![1, 1], ![0, 2]] ∧ blocks = [[![0, 0], ![0, 1], ![1, 1]], [![0, 1], ![1, 1], ![0, 2]]] :=
  ⟨_, _, _, rfl, rfl, by decide +kernel⟩

/-- Empty blocks are dropped: fewer blocks than asked for. -/
theorem C65_dropped : ∃ points : List (Fin 2 → ℚ), ∃ blocks ext, blocker 0 points 3 0 = .ok (blocks, ext) ∧ blocks.length = 2 :=
  ⟨[![0, 0], ![1, 0], ![2, 0], ![0, 9], ![1, 9], ![2, 9]], _, _, rfl, by decide +kernel⟩

/-! ## C66: user points -/

theorem userPoints_eq {eps : K} {points : List (Fin d → K)} {P axis : ℕ} (hP : 1 < P) {blocks ext}
    (h : blocker eps points P axis = .ok (blocks, ext)) (r : ℕ) :
    userPoints eps points axis P r = Distribute.localizePoints P r (if r = 0 then blocks else []) (if r = 0 then some ext else none) := by
  unfold userPoints
  rw [if_pos hP, h]
  by_cases hr : r = 0
  · subst hr; rfl
  · simp only [if_neg hr]

/-- **C66, user points.** With `P ≥ 2` ranks, if the decomposition is accepted and has at least `P` blocks, all ranks complete
under every schedule and buffering behaviour; rank `r` has the points of block `r`, every rank has the same extents, and every
user point is held by at least one rank. -/
theorem C66_user_points {eps : K} (heps : 0 ≤ eps) {points : List (Fin d → K)} {P axis : ℕ} (hP : 2 ≤ P) {blocks ext}
    (h : blocker eps points P axis = .ok (blocks, ext)) (hlen : P ≤ blocks.length) :
    ∃ mine : ℕ → List (Fin d → K), Mpi.Completes P (userPoints eps points axis P) (fun r => (mine r, some ext)) ∧
      (∀ r < P, blocks[r]? = some (mine r)) ∧ (∀ q ∈ points, ∃ r < P, q ∈ mine r) ∧ ∀ r < P, (mine r).Sublist points := by
  have hb : ∀ r < P, blocks[r]? = some (blocks.getD r []) := fun r hr => by
    simp [List.getD, List.getElem?_eq_getElem (show r < blocks.length by omega)]
  refine ⟨fun r => blocks.getD r [], ?_, hb, ?_, ?_⟩
  · have := Distribute.C66_localize P blocks ext (fun r => if r = 0 then blocks else []) (fun r => if r = 0 then some ext else none) hP hlen rfl rfl
    rwa [← funext fun r => userPoints_eq (by omega) h r] at this
  · intro q hq
    obtain ⟨r, hr, b, hbr, hqb⟩ := C65_covers heps h hq
    refine ⟨r, hr, ?_⟩
    rw [hb r hr] at hbr
    obtain rfl := Option.some.inj hbr
    exact hqb
  · intro r hr
    exact (C65_blocks h _ (List.mem_of_getElem? (hb r hr))).2

/-- Four points on two ranks. -/
example : ∃ points : List (Fin 2 → ℚ), ∃ blocks ext, blocker 0 points 2 0 = .ok (blocks, ext) ∧ 2 ≤ blocks.length :=
  ⟨[![0, 0], ![0, 1], ![1, 1], ![0, 2]], _, _, rfl, by decide +kernel⟩

/-- **C66, empty block**: these six points are accepted for three ranks, but rank 2 never returns, under any
schedule. -/
theorem C66_empty_block_hangs : ∃ points : List (Fin 2 → ℚ), (∃ b, blocker 0 points 3 0 = .ok b) ∧
    ∀ {n : ℕ} {s}, Mpi.Run 3 false n (Mpi.init fun r => userPoints 0 points 0 3 r) s → ∀ y, (s 2).proc ≠ .ret y := by
  obtain ⟨points, blocks, ext, h, hl⟩ := C65_dropped
  refine ⟨points, ⟨_, h⟩, ?_⟩
  intro n s hrun y
  refine Distribute.C66_too_few (P := 3) (blocks := blocks) (bl := fun r => if r = 0 then blocks else []) (ex := fun r => if r = 0 then some ext else none) (r := 2) (by omega)
    (by omega) (by omega) rfl ?_ y (n := n)
  rwa [funext fun r => userPoints_eq (by norm_num) h r] at hrun

end SM.Blocker
