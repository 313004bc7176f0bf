import Verif.Model.NanInit
import Verif.Props.NanFl

/-!
# C144: what one bad size does to the first points
-/

namespace SM.NanInit

open NanFl

variable {α : Type} {d : ℕ} {O : Ops α} {inf pinf : α → Prop}

/-! ### Specification -/

/-- What IEEE 754 says about comparisons with zeros and quotients of zeros. -/
structure Zeros (O : Ops α) : Prop where
  zero_div : ∀ a b, O.isZero a → O.isZero (O.div a b) ∨ O.isNan (O.div a b)
  trichotomy : ∀ a b, O.isZero a → ¬ O.isZero b → ¬ O.isNan b → O.lt a b ∨ O.lt b O.zero
  zero_neg : ∀ a b, O.isZero a → O.lt b a → O.lt b O.zero

/-- Candidate `x` with random number `u` is a grid point inside the domain. -/
def Inside (O : Ops α) (geps : α) (fd : (Fin d → α) → α) (cand : List ((Fin d → α) × α)) (x : Fin d → α) (u : α) : Prop := (x, u) ∈ cand ∧ O.lt (fd x) geps

/-- What the run does with these first points: it stops if there are none. -/
def goesOnWith (p : List (Fin d → α)) : Except String (List (Fin d → α)) :=
  match p with
  | [] => .error "AssertionError: No vertices to mesh with!"
  | x :: l => .ok (x :: l)

/-! ### Proof -/

theorem min_keep {Q : α → Prop} (hQ : ∀ a b, Q a → Q (minNan O a b)) : ∀ {l : List α} {a : α}, Q a → Q (l.foldl (minNan O) a)
  | [], _, h => h
  | b :: l, a, h => min_keep hQ (l := l) (hQ a b h)

theorem min_mem {l : List α} {a : α} : l.foldl (minNan O) a = a ∨ l.foldl (minNan O) a ∈ l := by
  induction l generalizing a with
  | nil => exact Or.inl rfl
  | cons b l ih =>
    rw [List.foldl_cons]
    have hb : minNan O a b = a ∨ minNan O a b = b := by
      unfold minNan
      split
      · exact Or.inl rfl
      · split
        · exact Or.inr rfl
        · split
          · exact Or.inr rfl
          · exact Or.inl rfl
    rcases ih (a := minNan O a b) with h | h
    · rw [h]
      rcases hb with h | h
      · exact Or.inl h
      · exact Or.inr (by rw [h]; simp)
    · exact Or.inr (List.mem_cons_of_mem _ h)

theorem min_nan {x : α} (hx : O.isNan x) : ∀ {l : List α} {a : α}, x = a ∨ x ∈ l → O.isNan (l.foldl (minNan O) a)
  | [], a, h => by simp only [List.not_mem_nil, or_false] at h; subst h; exact hx
  | b :: l, a, h => by
    have keep : ∀ a b, O.isNan a → O.isNan (minNan O a b) := fun a b h => by unfold minNan; rw [if_pos h]; exact h
    rw [List.foldl_cons]
    rcases h with rfl | h
    · exact min_keep keep (keep _ _ hx)
    · rcases List.mem_cons.1 h with rfl | h
      · refine min_keep keep ?_
        unfold minNan
        by_cases ha : O.isNan a
        · rw [if_pos ha]; exact ha
        · rw [if_neg ha, if_pos hx]; exact hx
      · exact min_nan hx (Or.inr h)

/-- The smallest of numbers of which one is zero and none is negative is zero, or NaN. -/
theorem min_zero (hI : IEEE O inf pinf) (hZ : Zeros O) {x : α} (hx : O.isZero x) : ∀ {l : List α} {a : α}, x = a ∨ x ∈ l → O.lt a O.zero = false → (∀ y ∈ l, O.lt y O.zero = false) →
    O.isZero (l.foldl (minNan O) a) ∨ O.isNan (l.foldl (minNan O) a)
  | [], a, h, _, _ => by simp only [List.not_mem_nil, or_false] at h; subst h; exact Or.inl hx
  | b :: l, a, h, ha0, hl => by
    rw [List.foldl_cons]
    have hb0 := hl b (by simp)
    by_cases han : O.isNan a
    · refine Or.inr (min_nan (O := O) (x := minNan O a b) ?_ (Or.inl rfl))
      unfold minNan; rw [if_pos han]; exact han
    by_cases hbn : O.isNan b
    · refine Or.inr (min_nan (O := O) (x := minNan O a b) ?_ (Or.inl rfl))
      unfold minNan; rw [if_neg han, if_pos hbn]; exact hbn
    have hm0 : O.lt (minNan O a b) O.zero = false := by
      unfold minNan; rw [if_neg han, if_neg hbn]; split <;> assumption
    by_cases hxl : x ∈ l
    · exact min_zero hI hZ hx (Or.inr hxl) hm0 fun y hy => hl y (by simp [hy])
    -- the zero is one of the two
    have hz : O.isZero (minNan O a b) := by
      unfold minNan
      rw [if_neg han, if_neg hbn]
      rcases h with rfl | h
      · -- `a` is zero
        by_cases hlt : O.lt b x
        · have := hZ.zero_neg _ _ hx hlt
          simp [hb0] at this
        · rw [if_neg hlt]; exact hx
      · have hxb : x = b := (List.mem_cons.1 h).resolve_right hxl
        subst hxb
        by_cases hza : O.isZero a
        · split <;> assumption
        · rcases hZ.trichotomy _ _ hx hza han with h | h
          · rw [if_pos h]; exact hx
          · simp [ha0] at h
    have := min_zero hI hZ (x := minNan O a b) hz (l := l) (a := minNan O a b) (Or.inl rfl) hm0 fun y hy => hl y (by simp [hy])
    exact this

theorem start_eq {geps h0 h1 : α} {isH0 : Bool} {fd fh : (Fin d → α) → α} {pfix : List (Fin d → α)} {cand : List ((Fin d → α) × α)} {p : List (Fin d → α)}
    (h : initial O geps h0 h1 isH0 fd fh pfix cand = .ok p) : start O geps h0 h1 isH0 fd fh pfix cand = goesOnWith p := by
  simp only [start, h, bind, Except.bind]
  cases p <;> simp [goesOnWith, pure, Except.pure]

theorem smallest_ok {l : List α} (h : l ≠ []) : ∃ a l', l = a :: l' ∧ smallest O l = .ok (l'.foldl (minNan O) a) := by
  cases l with
  | nil => exact absurd rfl h
  | cons a l => exact ⟨a, l, rfl, rfl⟩

/-- If no candidate passes, the fixed points are left. -/
theorem only_fixed {geps h0 h1 m : α} {isH0 : Bool} {fd fh : (Fin d → α) → α} {pfix : List (Fin d → α)} {cand : List ((Fin d → α) × α)}
    (hm : referenceSize O isH0 h0 h1 ((cand.filter fun x => O.lt (fd x.1) geps).map fun x => fh x.1) = .ok m)
    (h : ∀ x u, (x, u) ∈ cand → O.lt (fd x) geps → O.lt u (O.div (O.pw d m) (O.pw d (fh x))) = false) :
    initial O geps h0 h1 isH0 fd fh pfix cand = .ok pfix := by
  simp only [initial, hm, bind, Except.bind, pure, Except.pure]
  have : (cand.filter fun x => O.lt (fd x.1) geps).filter (fun x => O.lt x.2 (O.div (O.pw d m) (O.pw d (fh x.1)))) = [] := by
    rw [List.filter_eq_nil_iff]
    rintro ⟨x, u⟩ hx
    rw [List.mem_filter] at hx
    simpa using h x u hx.1 hx.2
  rw [this, List.map_nil, List.append_nil]

/-! ### C144 -/

/-- **C144 (NaN).** Default options. If the size is NaN at one grid point inside the domain, all grid points are discarded: the run goes on with the fixed points alone. -/
theorem C144_nan (hI : IEEE O inf pinf) (hd : d ≠ 0) {geps h0 h1 : α} {fd fh : (Fin d → α) → α} {pfix : List (Fin d → α)} {cand : List ((Fin d → α) × α)} {x : Fin d → α} {u : α}
    (hx : Inside O geps fd cand x u) (hnan : O.isNan (fh x)) : start O geps h0 h1 false fd fh pfix cand = goesOnWith pfix := by
  have hmem : (x, u) ∈ cand.filter fun x => O.lt (fd x.1) geps := List.mem_filter.2 hx
  obtain ⟨a, l, hl, hs⟩ := smallest_ok (O := O) (l := (cand.filter fun x => O.lt (fd x.1) geps).map fun x => fh x.1) fun h => by
    rw [List.map_eq_nil_iff] at h
    simp [h] at hmem
  have hx' : fh x ∈ a :: l := hl ▸ List.mem_map.2 ⟨_, hmem, rfl⟩
  refine start_eq (only_fixed (m := l.foldl (minNan O) a) (by simp only [referenceSize, hs, bind, Except.bind]; rfl) fun y v _ _ => ?_)
  exact hI.nan_lt _ _ (Or.inr (hI.nan_div _ _ (Or.inl (hI.nan_pw _ _ hd (min_nan hnan (List.mem_cons.1 hx'))))))

/-- **C144 (zero).** Default options. If the size is zero at one grid point inside the domain and negative at none, all grid points are discarded. -/
theorem C144_zero (hI : IEEE O inf pinf) (hZ : Zeros O) (hd : d ≠ 0) {geps h0 h1 : α} {fd fh : (Fin d → α) → α} {pfix : List (Fin d → α)} {cand : List ((Fin d → α) × α)} {x : Fin d → α} {u : α}
    (hx : Inside O geps fd cand x u) (hzero : O.isZero (fh x)) (hneg : ∀ y v, Inside O geps fd cand y v → O.lt (fh y) O.zero = false) (hu : ∀ y v, (y, v) ∈ cand → O.lt v O.zero = false) :
    start O geps h0 h1 false fd fh pfix cand = goesOnWith pfix := by
  have hmem : (x, u) ∈ cand.filter fun x => O.lt (fd x.1) geps := List.mem_filter.2 hx
  obtain ⟨a, l, hl, hs⟩ := smallest_ok (O := O) (l := (cand.filter fun x => O.lt (fd x.1) geps).map fun x => fh x.1) fun h => by
    rw [List.map_eq_nil_iff] at h
    simp [h] at hmem
  have hx' : fh x ∈ a :: l := hl ▸ List.mem_map.2 ⟨_, hmem, rfl⟩
  have hall : ∀ y ∈ a :: l, O.lt y O.zero = false := by
    intro y hy
    rw [← hl] at hy
    obtain ⟨⟨z, v⟩, hz, rfl⟩ := List.mem_map.1 hy
    exact hneg z v (List.mem_filter.1 hz)
  have hm := min_zero hI hZ hzero (List.mem_cons.1 hx') (hall a (by simp)) fun y hy => hall y (by simp [hy])
  refine start_eq (only_fixed (m := l.foldl (minNan O) a) (by simp only [referenceSize, hs, bind, Except.bind]; rfl) fun y v hy _ => ?_)
  rcases hm with hm | hm
  · rcases hZ.zero_div _ (O.pw d (fh y)) (hI.zero_pw d _ hd hm) with h | h
    · cases hc : O.lt v (O.div (O.pw d (l.foldl (minNan O) a)) (O.pw d (fh y)))
      · rfl
      · have := hZ.zero_neg _ _ h hc
        rw [hu y v hy] at this
        exact absurd this (by decide)
    · exact hI.nan_lt _ _ (Or.inr h)
  · exact hI.nan_lt _ _ (Or.inr (hI.nan_div _ _ (Or.inl (hI.nan_pw _ _ hd hm))))

/-- **C144 (what is kept; partial).** If the run goes on with a grid point, default options, no size at a grid point inside the domain is NaN, and none is zero if none is negative. -/
theorem C144_kept_partial (hI : IEEE O inf pinf) (hZ : Zeros O) (hd : d ≠ 0) {geps h0 h1 : α} {fd fh : (Fin d → α) → α} {pfix : List (Fin d → α)} {cand : List ((Fin d → α) × α)}
    (hu : ∀ y v, (y, v) ∈ cand → O.lt v O.zero = false) {p : List (Fin d → α)} (h : start O geps h0 h1 false fd fh pfix cand = .ok p) (hp : p ≠ pfix) {x : Fin d → α} {u : α}
    (hx : Inside O geps fd cand x u) : ¬ O.isNan (fh x) ∧ ((∀ y v, Inside O geps fd cand y v → O.lt (fh y) O.zero = false) → ¬ O.isZero (fh x)) := by
  have key : start O geps h0 h1 false fd fh pfix cand = goesOnWith pfix → False := by
    intro h'
    rw [h] at h'
    cases pfix with
    | nil => simp [goesOnWith] at h'
    | cons a l => exact hp (Except.ok.inj h')
  exact ⟨fun hn => key (C144_nan hI hd hx hn), fun hneg hz => key (C144_zero hI hZ hd hx hz hneg hu)⟩

/-- **C144 (option `r0m_is_h0`).** With this option a NaN size discards only the grid point where it is: another one is kept if its random number is below `(h0 / size)^dim`. -/
theorem C144_option (hI : IEEE O inf pinf) (hd : d ≠ 0) {geps h0 h1 : α} {fd fh : (Fin d → α) → α} {pfix : List (Fin d → α)} {cand : List ((Fin d → α) × α)} {x : Fin d → α} {u : α}
    (hx : Inside O geps fd cand x u) (hnan : O.isNan (fh x)) :
    ∃ p, initial O geps h0 h1 true fd fh pfix cand = .ok (pfix ++ p) ∧ start O geps h0 h1 true fd fh pfix cand = goesOnWith (pfix ++ p) ∧
      ∀ y, y ∈ p ↔ ∃ v, Inside O geps fd cand y v ∧ (¬ O.isNan (fh y)) ∧ O.lt v (O.div (O.pw d h0) (O.pw d (fh y))) := by
  have hmem : (x, u) ∈ cand.filter fun x => O.lt (fd x.1) geps := List.mem_filter.2 hx
  obtain ⟨a, l, hl, hs⟩ := smallest_ok (O := O) (l := (cand.filter fun x => O.lt (fd x.1) geps).map fun x => fh x.1) fun h => by
    rw [List.map_eq_nil_iff] at h
    simp [h] at hmem
  have hx' : fh x ∈ a :: l := hl ▸ List.mem_map.2 ⟨_, hmem, rfl⟩
  have hr : referenceSize O true h0 h1 ((cand.filter fun x => O.lt (fd x.1) geps).map fun x => fh x.1) = .ok h0 := by
    simp only [referenceSize, hs, bind, Except.bind, if_true, hI.nan_lt h1 _ (Or.inr (min_nan hnan (List.mem_cons.1 hx'))), Bool.false_eq_true, if_false]
    rfl
  have hi : initial O geps h0 h1 true fd fh pfix cand =
      .ok (pfix ++ ((cand.filter fun x => O.lt (fd x.1) geps).filter fun x => O.lt x.2 (O.div (O.pw d h0) (O.pw d (fh x.1)))).map Prod.fst) := by
    simp only [initial, hr, bind, Except.bind, pure, Except.pure]
  refine ⟨_, hi, start_eq hi, fun y => ?_⟩
  simp only [List.mem_map, List.mem_filter, Prod.exists, exists_and_right, exists_eq_right]
  constructor
  · rintro ⟨v, h1, h2⟩
    refine ⟨v, h1, fun hn => ?_, h2⟩
    rw [hI.nan_lt _ _ (Or.inr (hI.nan_div _ _ (Or.inr (hI.nan_pw _ _ hd hn))))] at h2
    exact absurd h2 (by decide)
  · rintro ⟨v, h1, -, h2⟩
    exact ⟨v, h1, h2⟩

/-- **C144 (domain).** A grid point where the level-set function is NaN is discarded, with both settings of the option: the result is that without it. -/
theorem C144_domain (hI : IEEE O inf pinf) {geps h0 h1 : α} {isH0 : Bool} {fd fh : (Fin d → α) → α} {pfix : List (Fin d → α)} {cand cand' : List ((Fin d → α) × α)} {x : Fin d → α} {u : α}
    (hnan : O.isNan (fd x)) : start O geps h0 h1 isH0 fd fh pfix (cand ++ (x, u) :: cand') = start O geps h0 h1 isH0 fd fh pfix (cand ++ cand') := by
  have : (cand ++ (x, u) :: cand').filter (fun x => O.lt (fd x.1) geps) = (cand ++ cand').filter fun x => O.lt (fd x.1) geps := by
    simp [List.filter_append, hI.nan_lt _ _ (Or.inl hnan)]
  simp only [start, initial, this]

theorem zeros (r3 : ℚ → ℚ) : Zeros (Double.ops r3) where
  zero_div a b h := by
    have h : a = .num 0 := by simpa [Double.ops] using h
    subst h
    rcases b with _ | s | y
    · simp [Double.ops, Double.div]
    · simp [Double.ops, Double.div]
    · by_cases hy : y = 0 <;> simp [Double.ops, Double.div, hy, Double.rounded_zero]
  trichotomy a b ha hb hn := by
    have ha : a = .num 0 := by simpa [Double.ops] using ha
    subst ha
    rcases b with _ | s | y
    · simp [Double.ops] at hn
    · cases s <;> simp [Double.ops, Double.lt]
    · have : y ≠ 0 := by simpa [Double.ops] using hb
      rcases lt_or_gt_of_ne this with h | h
      · exact Or.inr (by simpa [Double.ops, Double.lt] using h)
      · exact Or.inl (by simpa [Double.ops, Double.lt] using h)
  zero_neg a b ha h := by
    have ha : a = .num 0 := by simpa [Double.ops] using ha
    subst ha
    exact h

/-- Corners of a square. -/
def corners : List (Fin 2 → Double) := [![.num 0, .num 0], ![.num 2, .num 0], ![.num 0, .num 2], ![.num 2, .num 2]]

/-- Its grid points, with random numbers. -/
def grid : List ((Fin 2 → Double) × Double) :=
  [(![.num 0, .num 0], .num 0), (![.num 1, .num 0], .num (1 / 2)), (![.num 2, .num 0], .num (1 / 4)), (![.num 0, .num 1], .num 0), (![.num 1, .num 1], .num (1 / 8)),
    (![.num 2, .num 1], .num (3 / 4)), (![.num 0, .num 2], .num (1 / 2)), (![.num 1, .num 2], .num (1 / 4)), (![.num 2, .num 2], .num (7 / 8))]

/-- The size is 1, but NaN at one point. -/
def holed : (Fin 2 → Double) → Double := fun x => if x 0 = .num 1 ∧ x 1 = .num 1 then .nan else .num 1

/-- **C144 is false of the code.** A size that is NaN at the middle of a square whose corners are fixed: the run goes on with the corners alone, without an exception. With sizes 1 everywhere all nine grid
points are kept. -/
theorem C144_silent (geps h0 h1 : Double) (fd : (Fin 2 → Double) → Double) (hin : ∀ x u, (x, u) ∈ grid → Double.lt (fd x) geps) :
    start (Double.ops id) geps h0 h1 false fd holed corners grid = .ok corners ∧
      start (Double.ops id) geps h0 h1 false fd (fun _ => .num 1) corners grid = .ok (corners ++ grid.map Prod.fst) := by
  have hf : grid.filter (fun x => (Double.ops id).lt (fd x.1) geps) = grid := List.filter_eq_self.2 fun ⟨x, u⟩ h => hin x u h
  constructor
  · refine (C144_nan (Double.ieee id) two_ne_zero (x := ![.num 1, .num 1]) (u := .num (1 / 8)) ⟨by simp [grid], hin _ (.num (1 / 8)) (by simp [grid])⟩ ?_).trans rfl
    decide +kernel
  · have h1 : smallest (Double.ops id) (grid.map fun _ => Double.num 1) = .ok (.num 1) := by decide +kernel
    have h2 : (grid.filter fun x => (Double.ops id).lt x.2 ((Double.ops id).div ((Double.ops id).pw 2 (.num 1)) ((Double.ops id).pw 2 (.num 1)))) = grid := by
      rw [List.filter_eq_self]
      decide +kernel
    refine (start_eq (p := corners ++ grid.map Prod.fst) ?_).trans rfl
    simp only [initial, hf, referenceSize, h1, bind, Except.bind, Bool.false_eq_true, if_false, pure, Except.pure, h2]

/-- The hypotheses of the theorems are met in double precision. -/
example : Inside (Double.ops id) (.num (1 / 10)) (fun _ => .num 0) grid ![.num 1, .num 1] (.num (1 / 8)) ∧ ((Double.ops id).isNan (holed ![.num 1, .num 1]) = true) ∧
    (∀ y v, (y, v) ∈ grid → (Double.ops id).lt v (Double.ops id).zero = false) := by
  refine ⟨⟨by simp [grid], by decide +kernel⟩, by decide +kernel, fun y v h => ?_⟩
  simp only [grid, List.mem_cons, Prod.mk.injEq, List.not_mem_nil, or_false] at h
  rcases h with ⟨-, rfl⟩ | ⟨-, rfl⟩ | ⟨-, rfl⟩ | ⟨-, rfl⟩ | ⟨-, rfl⟩ | ⟨-, rfl⟩ | ⟨-, rfl⟩ | ⟨-, rfl⟩ | ⟨-, rfl⟩ <;> decide +kernel

end SM.NanInit
