import Verif.Model.Interp
import Verif.Props.Sizing
import Mathlib.Tactic.FieldSimp
import Mathlib.Tactic.LinearCombination

/-!
# C16, C19, C71: interpolation of the size grid
-/

set_option linter.unusedSectionVars false

namespace SM.Interp

open Sizing (Out Bbox Style buildPad padCells)

variable {K : Type*} [Field K] [LinearOrder K] [IsStrictOrderedRing K]

/-! ### specification vocabulary -/

/-- A usable grid vector: at least two nodes, strictly increasing. -/
def Axis.Good (a : Axis K) : Prop := 2 ≤ a.n ∧ ∀ i j, i < j → a.node i < a.node j

/-- `is` are the lower corners of a cell of the grid containing the point `xs`. -/
def InCell : List (Axis K) → List ℕ → List K → Prop
  | [], [], [] => True
  | a :: as, i :: is, x :: xs => i + 1 < a.n ∧ a.node i ≤ x ∧ x ≤ a.node (i + 1) ∧ InCell as is xs
  | _, _, _ => False

/-- `js` is a corner of the cell with lower corner `is`. -/
def Corner : List ℕ → List ℕ → Prop
  | [], [] => True
  | i :: is, j :: js => (j = i ∨ j = i + 1) ∧ Corner is js
  | _, _ => False

/-- `js` is a node of the grid. -/
def IsNode : List (Axis K) → List ℕ → Prop
  | [], [] => True
  | a :: as, j :: js => j < a.n ∧ IsNode as js
  | _, _ => False

/-! ### lemmas -/

theorem search_spec {node : ℕ → K} {x : K} : ∀ n, (∃ i ≤ n, node i ≤ x) →
    (∀ i j, i < j → node i < node j) →
    search node x n ≤ n ∧ node (search node x n) ≤ x ∧
      (search node x n < n → x < node (search node x n + 1))
  | 0, ⟨i, hi, h⟩, _ => by
    obtain rfl : i = 0 := by omega
    exact ⟨le_rfl, h, fun h => absurd h (lt_irrefl _)⟩
  | n + 1, ⟨i, hi, h⟩, hm => by
    unfold search
    split_ifs with hc
    · exact ⟨le_rfl, hc, fun h => absurd h (lt_irrefl _)⟩
    · have hi' : i ≤ n := by
        rcases Nat.lt_or_ge n i with h' | h'
        · obtain rfl : i = n + 1 := by omega
          exact absurd h hc
        · exact h'
      obtain ⟨a, b, c⟩ := search_spec n ⟨i, hi', h⟩ hm
      refine ⟨by omega, b, fun _ => ?_⟩
      rcases Nat.lt_or_ge (search node x n) n with h' | h'
      · exact c h'
      · have : search node x n = n := by omega
        rw [this]; exact not_le.1 hc

/-- One-dimensional step: any cell containing `x` gives the same value. -/
theorem step_eq {a : Axis K} (ha : a.Good) {i : ℕ} {x : K} (hi : i + 1 < a.n) (h1 : a.node i ≤ x)
    (h2 : x ≤ a.node (i + 1)) (f : ℕ → K) :
    (1 - (x - a.node (cellIdx a x)) / (a.node (cellIdx a x + 1) - a.node (cellIdx a x))) *
        f (cellIdx a x) +
      (x - a.node (cellIdx a x)) / (a.node (cellIdx a x + 1) - a.node (cellIdx a x)) *
        f (cellIdx a x + 1) =
    (1 - (x - a.node i) / (a.node (i + 1) - a.node i)) * f i +
      (x - a.node i) / (a.node (i + 1) - a.node i) * f (i + 1) := by
  have hmono : ∀ i j, i ≤ j → a.node i ≤ a.node j := by
    intro i j h
    rcases Nat.lt_or_eq_of_le h with h | rfl
    · exact (ha.2 _ _ h).le
    · exact le_rfl
  have hinj : ∀ i j, a.node i ≤ a.node j → i ≤ j := by
    intro i j h; by_contra hc; exact absurd (ha.2 j i (not_le.1 hc)) (not_lt.2 h)
  obtain ⟨s1, s2, s3⟩ := search_spec (node := a.node) (x := x) (a.n - 2)
    ⟨i, by omega, h1⟩ ha.2
  change cellIdx a x ≤ _ at s1
  change a.node (cellIdx a x) ≤ x at s2
  change cellIdx a x < _ → x < a.node (cellIdx a x + 1) at s3
  set c := cellIdx a x with hc
  have hci : c = i ∨ (c = i + 1 ∧ x = a.node (i + 1)) := by
    rcases Nat.lt_trichotomy c i with h | h | h
    · exfalso
      have := s3 (by omega)
      exact absurd (hmono (c + 1) i (by omega)) (not_le.2 (lt_of_le_of_lt h1 this))
    · exact Or.inl h
    · have : c ≤ i + 1 := hinj _ _ (le_trans s2 h2)
      have e : c = i + 1 := by omega
      exact Or.inr ⟨e, le_antisymm h2 (e ▸ s2)⟩
  rcases hci with h | ⟨h, hx⟩
  · rw [h]
  · have hne : a.node (i + 1) - a.node i ≠ 0 := (sub_pos.2 (ha.2 i (i + 1) (by omega))).ne'
    rw [h, hx, sub_self, zero_div, div_self hne]; ring

theorem t_bounds {a : Axis K} (ha : a.Good) {i : ℕ} {x : K} (h1 : a.node i ≤ x)
    (h2 : x ≤ a.node (i + 1)) :
    0 ≤ (x - a.node i) / (a.node (i + 1) - a.node i) ∧
      (x - a.node i) / (a.node (i + 1) - a.node i) ≤ 1 := by
  have hpos : 0 < a.node (i + 1) - a.node i := sub_pos.2 (ha.2 i (i + 1) (by omega))
  exact ⟨div_nonneg (sub_nonneg.2 h1) hpos.le, (div_le_one hpos).2 (by linarith)⟩

theorem interp_const (as : List (Axis K)) (c : K) (xs : List K) :
    interp as (fun _ => c) xs = c := by
  induction as generalizing xs with
  | nil => simp [interp]
  | cons a as ih =>
    cases xs with
    | nil => simp [interp]
    | cons x xs => simp only [interp, ih]; ring

/-! ### C19 -/

/-- **C19 (bounds).** For every grid, every array, every point and every cell containing it:
the interpolated value lies between any bounds of the values at the cell's corners. -/
theorem C19_between_corners (as : List (Axis K)) (hg : ∀ a ∈ as, a.Good) (is : List ℕ) (xs : List K)
    (hc : InCell as is xs) (A : List ℕ → K) (lo hi : K)
    (hA : ∀ js, Corner is js → lo ≤ A js ∧ A js ≤ hi) :
    lo ≤ interp as A xs ∧ interp as A xs ≤ hi := by
  induction as generalizing is xs A with
  | nil =>
    match is, xs, hc with
    | [], [], _ => simpa [interp] using hA [] trivial
  | cons a as ih =>
    match is, xs, hc with
    | i :: is, x :: xs, ⟨hi', h1, h2, hrest⟩ =>
      have ha := hg a (by simp)
      simp only [interp]
      rw [step_eq ha hi' h1 h2 (fun i => interp as (fun js => A (i :: js)) xs)]
      obtain ⟨t0, t1⟩ := t_bounds ha h1 h2
      set t := (x - a.node i) / (a.node (i + 1) - a.node i)
      obtain ⟨l1, u1⟩ := ih (fun a h => hg a (by simp [h])) is xs hrest (fun js => A (i :: js))
        (fun js hjs => hA (i :: js) ⟨Or.inl rfl, hjs⟩)
      obtain ⟨l2, u2⟩ := ih (fun a h => hg a (by simp [h])) is xs hrest (fun js => A ((i + 1) :: js))
        (fun js hjs => hA ((i + 1) :: js) ⟨Or.inr rfl, hjs⟩)
      constructor <;> nlinarith

/-- **C19 (nodes).** At a grid node the interpolated value is the grid value. -/
theorem C19_reproduces_nodes (as : List (Axis K)) (hg : ∀ a ∈ as, a.Good) (js : List ℕ)
    (hj : IsNode as js) (A : List ℕ → K) : interp as A (nodeOf as js) = A js := by
  induction as generalizing js A with
  | nil =>
    match js, hj with
    | [], _ => simp [interp]
  | cons a as ih =>
    match js, hj with
    | j :: js, ⟨hj', hrest⟩ =>
      have ha := hg a (by simp)
      have ih' := fun (B : List ℕ → K) => ih (fun a h => hg a (by simp [h])) js hrest B
      simp only [nodeOf, List.zipWith_cons_cons] at ih' ⊢
      simp only [interp, ih']
      have hpos : ∀ i, 0 < a.node (i + 1) - a.node i := fun i =>
        sub_pos.2 (ha.2 i (i + 1) (by omega))
      rcases Nat.lt_or_ge (j + 1) a.n with h | h
      · rw [step_eq ha h le_rfl (ha.2 j (j + 1) (by omega)).le (fun i => A (i :: js))]
        rw [sub_self, zero_div]; ring
      · have h2 := ha.1
        obtain ⟨i, rfl⟩ : ∃ i, j = i + 1 := ⟨j - 1, by omega⟩
        rw [step_eq ha (i := i) (by omega) (ha.2 i (i + 1) (by omega)).le le_rfl
          (fun i => A (i :: js)), div_self (hpos i).ne']
        ring

theorem linspace_good {a b : K} {n : ℕ} (hn : 2 ≤ n) (hab : a < b) : (linspace a b n).Good := by
  refine ⟨hn, fun i j h => ?_⟩
  have hn' : (0 : K) < (n : K) - 1 := by
    have : (2 : K) ≤ n := by exact_mod_cast hn
    linarith
  have : (i : K) < j := by exact_mod_cast h
  have hd : 0 < (b - a) / ((n : K) - 1) := div_pos (sub_pos.2 hab) hn'
  simp only [linspace]
  nlinarith

theorem linspace_first (a b : K) (n : ℕ) : (linspace a b n).node 0 = a := by simp [linspace]

theorem linspace_last (a b : K) {n : ℕ} (hn : 2 ≤ n) : (linspace a b n).node (n - 1) = b := by
  have hn' : ((n : K) - 1) ≠ 0 := by
    have : (2 : K) ≤ n := by exact_mod_cast hn
    have : (0 : K) < (n : K) - 1 := by linarith
    exact this.ne'
  simp only [linspace]
  rw [Nat.cast_sub (by omega), Nat.cast_one]; field_simp; ring

/-- A point between the first and the last node is in some cell. -/
theorem exists_cell {a : Axis K} (ha : a.Good) {x : K} (h1 : a.node 0 ≤ x)
    (h2 : x ≤ a.node (a.n - 1)) : ∃ i, i + 1 < a.n ∧ a.node i ≤ x ∧ x ≤ a.node (i + 1) := by
  obtain ⟨s1, s2, s3⟩ := search_spec (node := a.node) (x := x) (a.n - 2) ⟨0, by omega, h1⟩ ha.2
  have := ha.1
  refine ⟨search a.node x (a.n - 2), by omega, s2, ?_⟩
  rcases Nat.lt_or_ge (search a.node x (a.n - 2)) (a.n - 2) with h | h
  · exact (s3 h).le
  · have e : search a.node x (a.n - 2) + 1 = a.n - 1 := by omega
    rw [e]; exact h2

/-- `x` is inside the bbox (2-D: `(z,x)`, 3-D: `(z,x,y)`). -/
def InBbox : Bbox K → List K → Prop
  | .two z0 z1 x0 x1, [z, x] => z0 ≤ z ∧ z ≤ z1 ∧ x0 ≤ x ∧ x ≤ x1
  | .three z0 z1 x0 x1 y0 y1, [z, x, y] =>
    z0 ≤ z ∧ z ≤ z1 ∧ x0 ≤ x ∧ x ≤ x1 ∧ y0 ≤ y ∧ y ≤ y1
  | _, _ => False

/-- At least two nodes per axis and a bbox of positive extent: what `RegularGridInterpolator`
needs. -/
def Proper (out : Out K) : Prop :=
  2 ≤ out.d0 ∧ 2 ≤ out.d1 ∧
  match out.bbox with
  | .two z0 z1 x0 x1 => z0 < z1 ∧ x0 < x1 ∧ out.d2 = 1
  | .three z0 z1 x0 x1 y0 y1 => z0 < z1 ∧ x0 < x1 ∧ y0 < y1 ∧ 2 ≤ out.d2

/-- **C19 (sizing function).** Inside its bbox the sizing function stays within any bounds of
its grid values; in particular it is at least `hmin` there (with C07). -/
theorem C19_size_function_bounds (out : Out K) (hp : Proper out) (lo hi : K)
    (hA : Sizing.AllNodes out.d0 out.d1 out.d2 fun i j k => lo ≤ out.cell i j k ∧ out.cell i j k ≤ hi)
    (x : List K) (hx : InBbox out.bbox x) : lo ≤ sizeEval out x ∧ sizeEval out x ≤ hi := by
  obtain ⟨d0, d1, d2, cell, vp, bb⟩ := out
  cases bb with
  | two z0 z1 x0 x1 =>
    match x, hx with
    | [z, x], ⟨a1, a2, b1, b2⟩ =>
      obtain ⟨n0, n1, hz, hxx, e⟩ := hp
      simp only at n0 n1 e hA
      subst e
      have g0 := linspace_good n0 hz
      have g1 := linspace_good n1 hxx
      obtain ⟨i, hi1, hi2, hi3⟩ := exists_cell g0 (by rw [linspace_first]; exact a1)
        (x := z) (by change z ≤ (linspace z0 z1 d0).node (d0 - 1); rw [linspace_last _ _ n0]; exact a2)
      obtain ⟨j, hj1, hj2, hj3⟩ := exists_cell g1 (by rw [linspace_first]; exact b1)
        (x := x) (by change x ≤ (linspace x0 x1 d1).node (d1 - 1); rw [linspace_last _ _ n1]; exact b2)
      have hi1' : i + 1 < d0 := hi1
      have hj1' : j + 1 < d1 := hj1
      refine C19_between_corners [linspace z0 z1 d0, linspace x0 x1 d1] ?_ [i, j] [z, x] ⟨hi1, hi2, hi3, hj1, hj2, hj3, trivial⟩ _ lo hi ?_
      · intro a ha
        simp only [List.mem_cons, List.not_mem_nil, or_false] at ha
        rcases ha with rfl | rfl <;> assumption
      · intro js hjs
        match js, hjs with
        | [i', j'], ⟨h1, h2, _⟩ =>
          exact hA i' (by omega) j' (by omega) 0 (by omega)
  | three z0 z1 x0 x1 y0 y1 =>
    match x, hx with
    | [z, x, y], ⟨a1, a2, b1, b2, c1, c2⟩ =>
      obtain ⟨n0, n1, hz, hxx, hy, n2⟩ := hp
      simp only at n0 n1 n2 hA
      have g0 := linspace_good n0 hz
      have g1 := linspace_good n1 hxx
      have g2 := linspace_good n2 hy
      obtain ⟨i, hi1, hi2, hi3⟩ := exists_cell g0 (by rw [linspace_first]; exact a1)
        (x := z) (by change z ≤ (linspace z0 z1 d0).node (d0 - 1); rw [linspace_last _ _ n0]; exact a2)
      obtain ⟨j, hj1, hj2, hj3⟩ := exists_cell g1 (by rw [linspace_first]; exact b1)
        (x := x) (by change x ≤ (linspace x0 x1 d1).node (d1 - 1); rw [linspace_last _ _ n1]; exact b2)
      obtain ⟨k, hk1, hk2, hk3⟩ := exists_cell g2 (by rw [linspace_first]; exact c1)
        (x := y) (by change y ≤ (linspace y0 y1 d2).node (d2 - 1); rw [linspace_last _ _ n2]; exact c2)
      have hi1' : i + 1 < d0 := hi1
      have hj1' : j + 1 < d1 := hj1
      have hk1' : k + 1 < d2 := hk1
      refine C19_between_corners [linspace z0 z1 d0, linspace x0 x1 d1, linspace y0 y1 d2] ?_ [i, j, k] [z, x, y]
        ⟨hi1, hi2, hi3, hj1, hj2, hj3, hk1, hk2, hk3, trivial⟩ _ lo hi ?_
      · intro a ha
        simp only [List.mem_cons, List.not_mem_nil, or_false] at ha
        rcases ha with rfl | rfl | rfl <;> assumption
      · intro js hjs
        match js, hjs with
        | [i', j', k'], ⟨h1, h2, h3, _⟩ =>
          exact hA i' (by omega) j' (by omega) k' (by omega)

/-- **C19 + C07.** The sizing function returned by the pipeline is at least `hmin` at every
point of its bbox, and reproduces its grid. -/
theorem C19_hmin [FloorSemiring K] {imax : ℕ} {seps : K} {d0 d1 d2 : ℕ} {o : Sizing.Opts K}
    {names : List String} {bbox : List K} {vp0 : Sizing.Arr K} {out : Out K}
    (h0 : 0 < d0) (h1 : 0 < d1) (h2 : 0 < d2) (hs : 0 ≤ seps) (hb : Sizing.OrderedBbox bbox)
    (hp : 0 < o.hmin) (hle : o.hmin ≤ o.hmax)
    (h : Sizing.sizing imax seps d0 d1 d2 o names bbox vp0 = .ok (some out)) (hpr : Proper out)
    (x : List K) (hx : InBbox out.bbox x) : o.hmin ≤ sizeEval out x := by
  have hA := Sizing.C07_hmin_lower_bound h0 h1 h2 hs hb hp hle h
  have hpos : 0 < out.d0 ∧ 0 < out.d1 ∧ 0 < out.d2 := by
    obtain ⟨a, b, c⟩ := hpr
    refine ⟨by omega, by omega, ?_⟩
    cases hbb : out.bbox with
    | two => rw [hbb] at c; have := c.2.2; omega
    | three => rw [hbb] at c; have := c.2.2.2; omega
  refine (C19_size_function_bounds out hpr o.hmin (Sizing.amax out.d0 out.d1 out.d2 out.cell) ?_ x hx).1
  exact fun i hi j hj k hk => ⟨hA i hi j hj k hk, Sizing.le_amax _ hi hj hk⟩

/-- Outside the bbox (`fill_value=None`: linear extrapolation) there is no such bound: with all
grid values at least 1 the function takes the value -1. -/
theorem C19_outside_unbounded :
    ∃ (out : Out ℚ) (x : List ℚ), Proper out ∧
      (Sizing.AllNodes out.d0 out.d1 out.d2 fun i j k => 1 ≤ out.cell i j k) ∧
      sizeEval out x = -1 := by
  refine ⟨⟨2, 2, 1, fun i _ _ => if i = 0 then 1 else 3, fun _ _ _ => 0, .two 0 1 0 1⟩, [-1, 0],
    ⟨le_rfl, le_rfl, by norm_num, by norm_num, rfl⟩, ?_, by decide +kernel⟩
  intro i _ j _ k _; simp only; split_ifs <;> norm_num

/-! ### C16 -/

section C16
variable [FloorSemiring K]

/-- If the pad is a whole number `k` of grid spacings, fewer than `n - 1`, the number of cells
added is `k`. -/
theorem padCells_eq {L pad : K} {n k : ℕ} (hn : 2 ≤ n) (hL : 0 < L) (hk : k < n - 1)
    (hpad : pad = k * (L / ((n : K) - 1))) : padCells pad L n = k := by
  have hn2 : (2 : K) ≤ n := by exact_mod_cast hn
  have hn1 : (0 : K) < (n : K) - 1 := by linarith
  have hk' : (k : K) + 1 < n := by exact_mod_cast (by omega : k + 1 < n)
  have e : pad / (L / n) = k * n / ((n : K) - 1) := by rw [hpad]; field_simp
  unfold padCells
  rw [e]
  have hnn : (0 : K) ≤ k * n / ((n : K) - 1) := by positivity
  rw [Nat.floor_eq_iff hnn]
  constructor
  · rw [le_div_iff₀ hn1]
    have : (0 : K) ≤ k := by positivity
    nlinarith
  · rw [div_lt_iff₀ hn1]; nlinarith

/-- The padded grid vector contains the original nodes. -/
theorem pad_node_low {z0 z1 pad : K} {n k : ℕ} (hn : 2 ≤ n)
    (hpad : pad = k * ((z1 - z0) / ((n : K) - 1))) (i : ℕ) :
    (linspace (z0 - pad) z1 (n + k)).node (k + i) = (linspace z0 z1 n).node i := by
  have hn2 : (2 : K) ≤ n := by exact_mod_cast hn
  have hn1 : (n : K) - 1 ≠ 0 := by
    have : (0 : K) < (n : K) - 1 := by linarith
    exact this.ne'
  have hk : (0 : K) ≤ k := by positivity
  have hn3 : (n : K) + k - 1 ≠ 0 := by
    have : (0 : K) < (n : K) + k - 1 := by linarith
    exact this.ne'
  simp only [linspace]
  push_cast
  rw [hpad]
  field_simp
  ring

theorem pad_node_both {x0 x1 pad : K} {n k : ℕ} (hn : 2 ≤ n)
    (hpad : pad = k * ((x1 - x0) / ((n : K) - 1))) (i : ℕ) :
    (linspace (x0 - pad) (x1 + pad) (n + 2 * k)).node (k + i) = (linspace x0 x1 n).node i := by
  have hn2 : (2 : K) ≤ n := by exact_mod_cast hn
  have hn1 : (n : K) - 1 ≠ 0 := by
    have : (0 : K) < (n : K) - 1 := by linarith
    exact this.ne'
  have hk : (0 : K) ≤ k := by positivity
  have hn3 : (n : K) + 2 * k - 1 ≠ 0 := by
    have : (0 : K) < (n : K) + 2 * k - 1 := by linarith
    exact this.ne'
  have key : (x1 + pad - (x0 - pad)) / ((n : K) + 2 * k - 1) = (x1 - x0) / ((n : K) - 1) := by
    rw [div_eq_div_iff hn3 hn1, hpad]
    have e : (x1 - x0) / ((n : K) - 1) * ((n : K) - 1) = x1 - x0 := div_mul_cancel₀ _ hn1
    linear_combination (2 * (k : K)) * e
  simp only [linspace]
  push_cast
  rw [key, hpad]
  ring

/-- **C16 (partial, 2-D).** If the pad is a whole number of grid spacings in both directions
(fewer than the number of cells), the padded sizing function takes at every node of the original
grid the same value as the unpadded one. Missing: other pads (`C16_pad_moves_model`). -/
theorem C16_pad_keeps_model_partial {d0 d1 kz kx : ℕ} (n0 : 2 ≤ d0) (n1 : 2 ≤ d1)
    {cell vp : Sizing.Arr K} {z0 z1 x0 x1 pad : K} (hz : z0 < z1) (hx : x0 < x1)
    {style : String} {st : Style} (hst : Sizing.parseStyle style = .ok st) (hp : 0 < pad)
    (ez : pad = kz * ((z1 - z0) / ((d0 : K) - 1))) (ex : pad = kx * ((x1 - x0) / ((d1 : K) - 1)))
    (hkz : kz < d0 - 1) (hkx : kx < d1 - 1) :
    ∃ out, buildPad d0 d1 1 cell vp (.two z0 z1 x0 x1) pad style = .ok out ∧
      ∀ i < d0, ∀ j < d1,
        sizeEval out (nodeOf (axes d0 d1 1 (.two z0 z1 x0 x1)) [i, j]) =
        sizeEval ⟨d0, d1, 1, cell, vp, .two z0 z1 x0 x1⟩
          (nodeOf (axes d0 d1 1 (.two z0 z1 x0 x1)) [i, j]) := by
  obtain ⟨out, b0, b1, mc, mv, ho, hbb, e0, e1, e2, eb0, eb1, -, -, hpc, -⟩ :=
    Sizing.C15_pad_2d (cell := cell) (vp := vp) (z0 := z0) (z1 := z1) (x0 := x0) (x1 := x1)
      (d0 := d0) (d1 := d1) (by omega) (by omega) hst hp
  have hb0 : b0 = kz := eb0.trans (padCells_eq n0 (sub_pos.2 hz) hkz ez)
  have hb1 : b1 = kx := eb1.trans (padCells_eq n1 (sub_pos.2 hx) hkx ex)
  subst hb0 hb1
  refine ⟨out, ho, fun i hi j hj => ?_⟩
  obtain ⟨D0, D1, D2, C, V, bb⟩ := out
  simp only at e0 e1 e2 hbb hpc
  obtain rfl : bb = .two (z0 - pad) z1 (x0 - pad) (x1 + pad) := by
    cases bb with
    | two => simp only [Bbox.toList, List.cons.injEq, and_true] at hbb; simp [hbb]
    | three => simp [Bbox.toList] at hbb
  subst e2
  have hnode : nodeOf (axes d0 d1 1 (.two z0 z1 x0 x1)) [i, j] =
      nodeOf (axes D0 D1 1 (.two (z0 - pad) z1 (x0 - pad) (x1 + pad))) [b0 + i, b1 + j] := by
    simp only [axes, nodeOf, List.zipWith_cons_cons, List.zipWith_nil_left]
    rw [e0, e1, Nat.add_comm b0 d0, show b1 + d1 + b1 = d1 + 2 * b1 by omega,
      pad_node_low n0 ez, pad_node_both n1 ex]
  have g0 := linspace_good n0 hz
  have g1 := linspace_good n1 hx
  have g0' : (linspace (z0 - pad) z1 D0).Good := linspace_good (by omega) (by linarith)
  have g1' : (linspace (x0 - pad) (x1 + pad) D1).Good := linspace_good (by omega) (by linarith)
  have r1 : sizeEval ⟨d0, d1, 1, cell, vp, .two z0 z1 x0 x1⟩
      (nodeOf (axes d0 d1 1 (.two z0 z1 x0 x1)) [i, j]) = cell i j 0 := by
    refine C19_reproduces_nodes [linspace z0 z1 d0, linspace x0 x1 d1] ?_ [i, j] ⟨hi, hj, trivial⟩ _
    intro a ha
    simp only [List.mem_cons, List.not_mem_nil, or_false] at ha
    rcases ha with rfl | rfl <;> assumption
  have r2 : sizeEval ⟨D0, D1, 1, C, V, .two (z0 - pad) z1 (x0 - pad) (x1 + pad)⟩
      (nodeOf (axes D0 D1 1 (.two (z0 - pad) z1 (x0 - pad) (x1 + pad))) [b0 + i, b1 + j]) =
      C (b0 + i) (b1 + j) 0 := by
    refine C19_reproduces_nodes
      [linspace (z0 - pad) z1 D0, linspace (x0 - pad) (x1 + pad) D1] ?_ [b0 + i, b1 + j]
      ⟨(by change b0 + i < D0; omega), (by change b1 + j < D1; omega), trivial⟩ _
    intro a ha
    simp only [List.mem_cons, List.not_mem_nil, or_false] at ha
    rcases ha with rfl | rfl <;> assumption
  rw [r1, hnode, r2]
  have := hpc.block i hi j hj 0 one_pos
  simpa using this

end C16

/-- The side conditions of the partial theorem can be met: 4 nodes on [0,3], pad 1. -/
example : (1 : ℚ) = (1 : ℕ) * ((3 - 0) / (((4 : ℕ) : ℚ) - 1)) ∧ 1 < 4 - 1 := by norm_num

/-- **C16, negation.** Three rows with sizes 1, 2, 4 on [0,1], pad 1, style `edge`: at the
middle node `z = 1/2` the padded sizing function returns 7/4 instead of 2. -/
theorem C16_pad_moves_model :
    ∃ (cell : Sizing.Arr ℚ) (out : Out ℚ),
      buildPad 3 3 1 cell cell (.two 0 1 0 1) 1 "edge" = .ok out ∧
      sizeEval ⟨3, 3, 1, cell, cell, .two 0 1 0 1⟩ [1 / 2, 1 / 2] = 2 ∧
      sizeEval out [1 / 2, 1 / 2] = 7 / 4 := by
  have key : Sizing.okAnd (K := ℚ)
      ((buildPad 3 3 1 (fun i _ _ => [1, 2, 4].getD i 0) (fun i _ _ => [1, 2, 4].getD i 0)
        (.two 0 1 0 1) 1 "edge").map some)
      (fun out => decide (sizeEval out [1 / 2, 1 / 2] = 7 / 4)) = true := by decide +kernel
  obtain ⟨out, h1, h2⟩ := Sizing.okAnd_spec key
  refine ⟨fun i _ _ => [1, 2, 4].getD i 0, out, ?_, by decide +kernel, of_decide_eq_true h2⟩
  revert h1
  cases buildPad (K := ℚ) 3 3 1 (fun i _ _ => [1, 2, 4].getD i 0) (fun i _ _ => [1, 2, 4].getD i 0)
    (.two 0 1 0 1) 1 "edge" with
  | error e => intro h; cases h
  | ok o => intro h; simp only [Except.map, Except.ok.injEq, Option.some.injEq] at h; rw [h]

/-! ### C71 -/

section C71
variable [FloorSemiring K]

theorem arange_good {start stop h : K} (hh : 0 < h) (hlen : start + h < stop) :
    (arange start stop h).Good := by
  constructor
  · have : (1 : K) < (stop - start) / h := by rw [lt_div_iff₀ hh]; linarith
    have : 1 < ⌈(stop - start) / h⌉₊ := by rw [Nat.lt_ceil]; exact_mod_cast this
    exact this
  · intro i j hij
    have : (i : K) < j := by exact_mod_cast hij
    simp only [arange]; nlinarith

/-- The local grid reaches from `lo` to beyond `hi - h` (`arange` excludes its end point). -/
theorem arange_reach {start stop h : K} (hh : 0 < h) (hlen : start < stop) :
    (arange start stop h).node 0 = start ∧
    stop - h ≤ (arange start stop h).node ((arange start stop h).n - 1) ∧
    (arange start stop h).node ((arange start stop h).n - 1) < stop := by
  have hpos : 0 < (stop - start) / h := div_pos (sub_pos.2 hlen) hh
  have hn : 0 < ⌈(stop - start) / h⌉₊ := Nat.ceil_pos.2 hpos
  have c1 := Nat.le_ceil ((stop - start) / h)
  have c2 := Nat.ceil_lt_add_one hpos.le
  have hc : (((⌈(stop - start) / h⌉₊ - 1 : ℕ)) : K) = (⌈(stop - start) / h⌉₊ : K) - 1 := by
    rw [Nat.cast_sub (by omega), Nat.cast_one]
  refine ⟨by simp [arange], ?_, ?_⟩
  · simp only [arange]
    rw [hc]
    rw [div_le_iff₀ hh] at c1
    nlinarith
  · simp only [arange]
    rw [hc]
    have : (⌈(stop - start) / h⌉₊ : K) - 1 < (stop - start) / h := by linarith
    rw [lt_div_iff₀ hh] at this
    linarith

/-- A non-degenerate box: `lo ≤ hi` on every axis. -/
def BoxOrdered (box : List (K × K)) : Prop := ∀ b ∈ box, b.1 ≤ b.2

theorem slab_ordered {size r axis : ℕ} {bbox : List (K × K)} (h : BoxOrdered bbox) :
    BoxOrdered (slab size r axis bbox) := by
  intro b hb
  simp only [slab, List.mem_mapIdx] at hb
  obtain ⟨i, hi, rfl⟩ := hb
  have hbi := h _ (List.getElem_mem hi)
  split_ifs
  · simp only [linspace]
    have h1 : (0 : K) ≤ ((bbox[i].2 - bbox[i].1) / (((size + 1 : ℕ) : K) - 1)) := by
      apply div_nonneg (sub_nonneg.2 hbi)
      push_cast
      have : (0 : K) ≤ size := by positivity
      linarith
    push_cast at h1 ⊢
    nlinarith
  · exact hbi

theorem localAxes_good {h0 : K} (hh : 0 < h0) {box : List (K × K)} (hb : BoxOrdered box) :
    ∀ a ∈ localAxes h0 box, a.Good := by
  intro a ha
  simp only [localAxes, List.mem_map] at ha
  obtain ⟨b, hb', rfl⟩ := ha
  have := hb b hb'
  exact arange_good hh (by linarith)

/-- **C71 (nodes).** Each rank's local sizing function agrees with the global one at the nodes
of the local grid. -/
theorem C71_agrees_at_nodes {h0 : K} (hh : 0 < h0) {bbox : List (K × K)} (hb : BoxOrdered bbox)
    (fh : List K → K) (axis size r : ℕ) (js : List ℕ)
    (hj : IsNode (localAxes h0 (slab size r axis bbox)) js) :
    localize fh h0 bbox axis size r (nodeOf (localAxes h0 (slab size r axis bbox)) js) =
      fh (nodeOf (localAxes h0 (slab size r axis bbox)) js) := by
  unfold localize
  exact C19_reproduces_nodes _ (localAxes_good hh (slab_ordered hb)) js hj _

/-- **C71 (constant sizes).** If the global sizing function is constant, so is every local one,
at every point (also outside the local grid). -/
theorem C71_constant (c h0 : K) (bbox : List (K × K)) (axis size r : ℕ) (x : List K) :
    localize (fun _ => c) h0 bbox axis size r x = c := by
  unfold localize
  exact interp_const _ _ _

/-- **C71 (cover).** On every axis the local grid of rank `r` starts `3*h0` before its slab and
ends at least `2*h0` (but less than `3*h0`) after it. -/
theorem C71_cover {h0 : K} (hh : 0 < h0) {bbox : List (K × K)} (hb : BoxOrdered bbox)
    (axis size r : ℕ) (b : K × K) (hbm : b ∈ slab size r axis bbox) :
    ∃ a ∈ localAxes h0 (slab size r axis bbox), a.node 0 = b.1 - 3 * h0 ∧
      b.2 + 2 * h0 ≤ a.node (a.n - 1) ∧ a.node (a.n - 1) < b.2 + 3 * h0 := by
  have hle := slab_ordered (size := size) (r := r) (axis := axis) hb b hbm
  refine ⟨_, List.mem_map.2 ⟨b, hbm, rfl⟩, ?_⟩
  obtain ⟨a1, a2, a3⟩ := arange_reach (start := b.1 - 3 * h0) (stop := b.2 + 3 * h0) hh (by linarith)
  exact ⟨a1, by linarith, a3⟩

/-- The slabs of the ranks tile the box along the decomposition axis: rank 0 starts at the lower
end, consecutive slabs meet, the last rank ends at the upper end. -/
theorem C71_slabs_tile (bbox : List (K × K)) (axis : ℕ) (lo hi : K)
    (hax : bbox[axis]? = some (lo, hi)) {size : ℕ} (hs : 0 < size) :
    (∃ cut : ℕ → K, (∀ r, (slab size r axis bbox)[axis]? = some (cut r, cut (r + 1))) ∧
      cut 0 = lo ∧ cut size = hi ∧ ∀ r, cut (r + 1) - cut r = (hi - lo) / size) ∧
    ∀ r i, i ≠ axis → (slab size r axis bbox)[i]? = bbox[i]? := by
  constructor
  · refine ⟨(linspace lo hi (size + 1)).node, fun r => by simp [slab, hax],
      linspace_first _ _ _, ?_, fun r => ?_⟩
    · have := linspace_last lo hi (n := size + 1) (by omega)
      simpa using this
    · simp only [linspace]; push_cast; ring
  · intro r i hi
    simp [slab, hi]

end C71

/-- Non-vacuity: a 2-rank decomposition of [0,4]x[0,2] with h0 = 1/2. -/
example : BoxOrdered ([(0, 4), (0, 2)] : List (ℚ × ℚ)) ∧
    IsNode (localAxes (1 / 2 : ℚ) (slab 2 1 0 [(0, 4), (0, 2)])) [3, 4] := by
  constructor
  · intro b hb; simp at hb; rcases hb with rfl | rfl <;> norm_num
  · refine ⟨?_, ?_, trivial⟩ <;> decide +kernel

end SM.Interp
