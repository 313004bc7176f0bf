import Verif.Props.SizingMirror
import Verif.Props.SizingGrade
import Mathlib.Algebra.BigOperators.Group.List.Basic

/-!
# C121: sizes just outside the region of the velocity model

The interpolant is built with `fill_value=None`: outside its box scipy continues the outermost cells linearly. The generator does
evaluate sizes there (points up to `geps = 0.1 h0` outside the domain are kept).
-/

namespace SM.Interp

open SM.Sizing (Out Bbox)
open SM.Limgrad (GradedBy InGrid at3 Adjacent Succ)

variable {K : Type} [Field K] [LinearOrder K] [IsStrictOrderedRing K]

/-! ### Specification -/

/-- The nearest point of the interval `[lo, hi]`. -/
def nearest (lo hi x : K) : K := max lo (min x hi)

/-- How far `x` is outside `[lo, hi]`, in units of the node spacing `(hi - lo) / (n - 1)`. -/
def beyond (lo hi : K) (n : ℕ) (x : K) : K := max 0 (max (lo - x) (x - hi)) / ((hi - lo) / ((n : K) - 1))

/-! ### One axis -/


section
variable {lo hi : K} {n : ℕ}

theorem gap_pos (hn : 2 ≤ n) (h : lo < hi) : 0 < (hi - lo) / ((n : K) - 1) := by
  have : (2 : K) ≤ n := by exact_mod_cast hn
  exact div_pos (sub_pos.2 h) (by linarith)

theorem beyond_nonneg (hn : 2 ≤ n) (h : lo < hi) (x : K) : 0 ≤ beyond lo hi n x :=
  div_nonneg (le_max_left _ _) (gap_pos hn h).le

theorem linspace_step (i : ℕ) : (linspace lo hi n).node (i + 1) - (linspace lo hi n).node i = (hi - lo) / ((n : K) - 1) := by
  simp only [linspace]; push_cast; ring

theorem search_below {node : ℕ → K} {x : K} (h : ∀ i, x < node (i + 1)) : ∀ m, search node x m = 0
  | 0 => rfl
  | m + 1 => by rw [search, if_neg (not_le.2 (h m)), search_below h m]

/-- What happens on one axis: the cell used, the weights and the deviation from the value at the nearest point. -/
theorem axis_out (hn : 2 ≤ n) (h : lo < hi) (x : K) :
    cellIdx (linspace lo hi n) x + 1 < n ∧
    (let t := (x - (linspace lo hi n).node (cellIdx (linspace lo hi n) x)) /
        ((linspace lo hi n).node (cellIdx (linspace lo hi n) x + 1) - (linspace lo hi n).node (cellIdx (linspace lo hi n) x));
      |1 - t| + |t| ≤ 1 + 2 * beyond lo hi n x) ∧
    ∀ f : ℕ → K, |seg (linspace lo hi n) f x - seg (linspace lo hi n) f (nearest lo hi x)| ≤
      beyond lo hi n x * |f (cellIdx (linspace lo hi n) x + 1) - f (cellIdx (linspace lo hi n) x)| := by
  have hg := linspace_good hn h
  have gp := gap_pos hn h
  have first : (linspace lo hi n).node 0 = lo := linspace_first _ _ _
  have last : (linspace lo hi n).node (n - 1) = hi := linspace_last _ _ hn
  rcases lt_or_ge x lo with hx | hx
  · have hc : cellIdx (linspace lo hi n) x = 0 := by
      refine search_below (fun i => ?_) _
      have := hg.2 0 (i + 1) (by omega)
      rw [first] at this
      exact hx.trans this
    have hb : beyond lo hi n x = (lo - x) / ((hi - lo) / ((n : K) - 1)) := by
      unfold beyond
      rw [max_eq_right (a := 0), max_eq_left (by linarith)]
      exact le_max_of_le_left (by linarith)
    have hnear : nearest lo hi x = lo := by
      unfold nearest; rw [min_eq_left (by linarith), max_eq_left hx.le]
    have ht : (x - (linspace lo hi n).node 0) / ((linspace lo hi n).node (0 + 1) - (linspace lo hi n).node 0) = -beyond lo hi n x := by
      rw [linspace_step, first, hb]; ring
    have hb0 := beyond_nonneg hn h x
    refine ⟨by rw [hc]; omega, ?_, fun f => ?_⟩
    · simp only [hc, ht]
      rw [abs_of_nonneg (by linarith), abs_of_nonpos (by linarith)]
      linarith
    · have e2 : seg (linspace lo hi n) f lo = f 0 := by
        unfold seg lin1
        rw [step_eq hg (i := 0) (by show 0 + 1 < n; omega) (by rw [first]) (by
          have := hg.2 0 (0 + 1) (by omega)
          rw [first] at this; exact this.le) f]
        rw [first]; simp
      have e1 : seg (linspace lo hi n) f x = (1 + beyond lo hi n x) * f 0 - beyond lo hi n x * f 1 := by
        unfold seg lin1
        rw [hc, ht]; ring
      rw [hnear, e1, e2, hc]
      have : (1 + beyond lo hi n x) * f 0 - beyond lo hi n x * f 1 - f 0 = -(beyond lo hi n x * (f (0 + 1) - f 0)) := by rw [zero_add]; ring
      rw [this, abs_neg, abs_mul, abs_of_nonneg hb0]
  · rcases lt_or_ge hi x with hx' | hx'
    · obtain ⟨m, rfl⟩ : ∃ m, n = m + 2 := ⟨n - 2, by omega⟩
      have hc : cellIdx (linspace lo hi (m + 2)) x = m := by
        show search _ x (m + 2 - 2) = m
        rw [show m + 2 - 2 = m by omega]
        cases m with
        | zero => rfl
        | succ m =>
          rw [search, if_pos]
          have := hg.2 (m + 1) (m + 1 + 1) (by omega)
          rw [show m + 1 + 1 = m + 1 + 2 - 1 by omega, last] at this
          exact (this.trans hx').le
      have hlast : (linspace lo hi (m + 2)).node (m + 1) = hi := by
        have := last
        rwa [show m + 2 - 1 = m + 1 by omega] at this
      have hb : beyond lo hi (m + 2) x = (x - hi) / ((hi - lo) / (((m + 2 : ℕ) : K) - 1)) := by
        unfold beyond
        rw [max_eq_right (a := 0), max_eq_right (by linarith)]
        exact le_max_of_le_right (by linarith)
      have hnear : nearest lo hi x = hi := by
        unfold nearest; rw [min_eq_right hx'.le, max_eq_right h.le]
      have ht : (x - (linspace lo hi (m + 2)).node m) / ((linspace lo hi (m + 2)).node (m + 1) - (linspace lo hi (m + 2)).node m) = 1 + beyond lo hi (m + 2) x := by
        have e := linspace_step (lo := lo) (hi := hi) (n := m + 2) m
        rw [e, hb]
        rw [hlast] at e
        have : x - (linspace lo hi (m + 2)).node m = (x - hi) + (hi - lo) / (((m + 2 : ℕ) : K) - 1) := by linarith
        rw [this, add_div, div_self gp.ne']; ring
      have hb0 := beyond_nonneg hn h x
      refine ⟨by rw [hc]; omega, ?_, fun f => ?_⟩
      · simp only [hc, ht]
        rw [abs_of_nonpos (by linarith), abs_of_nonneg (by linarith)]
        linarith
      · have e2 : seg (linspace lo hi (m + 2)) f hi = f (m + 1) := by
          unfold seg lin1
          rw [step_eq hg (i := m) (by show m + 1 < m + 2; omega) (by
            have := hg.2 m (m + 1) (by omega)
            rw [hlast] at this; exact this.le) (by rw [hlast]) f]
          rw [hlast]
          have : hi - (linspace lo hi (m + 2)).node m ≠ 0 := by
            have := hg.2 m (m + 1) (by omega)
            rw [hlast] at this
            exact (sub_pos.2 this).ne'
          rw [div_self this]; ring
        have e1 : seg (linspace lo hi (m + 2)) f x = (1 + beyond lo hi (m + 2) x) * f (m + 1) - beyond lo hi (m + 2) x * f m := by
          unfold seg lin1
          rw [hc, ht]; ring
        rw [hnear, e1, e2, hc]
        have : (1 + beyond lo hi (m + 2) x) * f (m + 1) - beyond lo hi (m + 2) x * f m - f (m + 1) = beyond lo hi (m + 2) x * (f (m + 1) - f m) := by ring
        rw [this, abs_mul, abs_of_nonneg hb0]
    · have hnear : nearest lo hi x = x := by
        unfold nearest; rw [min_eq_left hx', max_eq_right hx]
      have hb : beyond lo hi n x = 0 := by
        unfold beyond
        rw [max_eq_left (max_le (by linarith) (by linarith)), zero_div]
      obtain ⟨i, hi1, hx1, hx2⟩ := exists_cell hg (by rw [first]; exact hx) (x := x) (by change x ≤ (linspace lo hi n).node (n - 1); rw [last]; exact hx')
      obtain ⟨s1, s2, s3⟩ := search_spec (node := (linspace lo hi n).node) (x := x) (n - 2) ⟨i, by have : i + 1 < n := hi1; omega, hx1⟩ hg.2
      change cellIdx (linspace lo hi n) x ≤ _ at s1
      change (linspace lo hi n).node (cellIdx (linspace lo hi n) x) ≤ x at s2
      change cellIdx (linspace lo hi n) x < _ → x < (linspace lo hi n).node (cellIdx (linspace lo hi n) x + 1) at s3
      refine ⟨by omega, ?_, fun f => by rw [hnear, hb]; simp⟩
      have s4 : x ≤ (linspace lo hi n).node (cellIdx (linspace lo hi n) x + 1) := by
        rcases Nat.lt_or_ge (cellIdx (linspace lo hi n) x) (n - 2) with h' | h'
        · exact (s3 h').le
        · rw [show cellIdx (linspace lo hi n) x + 1 = n - 1 by omega, last]; exact hx'
      obtain ⟨t1, t2⟩ := t_bounds hg s2 s4
      simp only [hb]
      rw [abs_of_nonneg (by linarith), abs_of_nonneg t1]
      linarith

end

/-! ### Several axes -/

/-- Interval, number of nodes and coordinate of each axis. -/
abbrev Coord (K : Type) := (K × K) × ℕ × K

def Coord.axis (c : Coord K) : Axis K := linspace c.1.1 c.1.2 c.2.1
def Coord.Ok (c : Coord K) : Prop := 2 ≤ c.2.1 ∧ c.1.1 < c.1.2
def Coord.beyond (c : Coord K) : K := Interp.beyond c.1.1 c.1.2 c.2.1 c.2.2
def Coord.near (c : Coord K) : K := nearest c.1.1 c.1.2 c.2.2

/-- The factor by which linear continuation can amplify: the product of `1 + 2 beyond` over the axes. -/
def amp (cs : List (Coord K)) : K := (cs.map fun c => 1 + 2 * c.beyond).prod

theorem one_le_amp : ∀ (cs : List (Coord K)), (∀ c ∈ cs, c.Ok) → 1 ≤ amp cs
  | [], _ => by simp [amp]
  | c :: cs, h => by
    have h1 := one_le_amp cs fun c hc => h c (by simp [hc])
    have h2 := beyond_nonneg (h c (by simp)).1 (h c (by simp)).2 c.2.2
    simp only [amp, List.map_cons, List.prod_cons] at h1 ⊢
    have : 0 ≤ c.beyond := h2
    nlinarith

/-- Values of size at most `M` at the nodes give at most `amp * M` anywhere. -/
theorem interp_amp : ∀ (cs : List (Coord K)) (A : List ℕ → K) {M : K}, (∀ c ∈ cs, c.Ok) → (∀ js, IsNode (cs.map Coord.axis) js → |A js| ≤ M) →
    |interp (cs.map Coord.axis) A (cs.map fun c => c.2.2)| ≤ amp cs * M
  | [], A, M, _, hA => by simpa [interp, amp] using hA [] trivial
  | c :: cs, A, M, hok, hA => by
    obtain ⟨h1, h2, -⟩ := axis_out (hok c (by simp)).1 (hok c (by simp)).2 c.2.2
    have hok' : ∀ c ∈ cs, c.Ok := fun c hc => hok c (by simp [hc])
    simp only [List.map_cons, interp]
    change cellIdx c.axis c.2.2 + 1 < c.2.1 at h1
    change (let t := (c.2.2 - c.axis.node (cellIdx c.axis c.2.2)) / (c.axis.node (cellIdx c.axis c.2.2 + 1) - c.axis.node (cellIdx c.axis c.2.2)); |1 - t| + |t| ≤ 1 + 2 * c.beyond) at h2
    set i := cellIdx c.axis c.2.2
    set t := (c.2.2 - c.axis.node i) / (c.axis.node (i + 1) - c.axis.node i)
    simp only at h2
    have hi : i < c.axis.n := by show i < c.2.1; omega
    have hi' : i + 1 < c.axis.n := h1
    have a1 := interp_amp cs (fun js => A (i :: js)) (M := M) hok' fun js hjs => hA (i :: js) ⟨hi, hjs⟩
    have a2 := interp_amp cs (fun js => A ((i + 1) :: js)) (M := M) hok' fun js hjs => hA ((i + 1) :: js) ⟨hi', hjs⟩
    have hP := one_le_amp cs hok'
    have hPM : 0 ≤ amp cs * M := (abs_nonneg _).trans a1
    refine (abs_add_le _ _).trans ?_
    rw [abs_mul, abs_mul]
    have e : amp (c :: cs) = (1 + 2 * c.beyond) * amp cs := by simp [amp]
    rw [e]
    calc |1 - t| * |interp (cs.map Coord.axis) (fun js => A (i :: js)) (cs.map fun c => c.2.2)| + |t| * |interp (cs.map Coord.axis) (fun js => A ((i + 1) :: js)) (cs.map fun c => c.2.2)|
        ≤ |1 - t| * (amp cs * M) + |t| * (amp cs * M) := add_le_add (mul_le_mul_of_nonneg_left a1 (abs_nonneg _)) (mul_le_mul_of_nonneg_left a2 (abs_nonneg _))
      _ = (|1 - t| + |t|) * (amp cs * M) := by ring
      _ ≤ (1 + 2 * c.beyond) * (amp cs * M) := mul_le_mul_of_nonneg_right h2 hPM
      _ = _ := by ring

/-- Neighbouring nodes differ by at most `b`. -/
def Steps (b : K) : List (Axis K) → (List ℕ → K) → Prop
  | [], _ => True
  | a :: as, A => (∀ i, i + 1 < a.n → ∀ js, IsNode as js → |A ((i + 1) :: js) - A (i :: js)| ≤ b) ∧ ∀ i < a.n, Steps b as fun js => A (i :: js)

omit [Field K] [IsStrictOrderedRing K] in
theorem nearest_mem {lo hi : K} (h : lo ≤ hi) (x : K) : lo ≤ nearest lo hi x ∧ nearest lo hi x ≤ hi :=
  ⟨le_max_left _ _, max_le h (min_le_right _ _)⟩

/-- **Linear continuation.** The value at a point outside the grid differs from the value at the nearest point of the grid's box by at most
`b (amp - 1) / 2`. -/
theorem interp_out (b : K) : ∀ (cs : List (Coord K)) (A : List ℕ → K), (∀ c ∈ cs, c.Ok) → Steps b (cs.map Coord.axis) A →
    |interp (cs.map Coord.axis) A (cs.map fun c => c.2.2) - interp (cs.map Coord.axis) A (cs.map Coord.near)| ≤ b * ((amp cs - 1) / 2)
  | [], A, _, _ => by simp [interp, amp]
  | c :: cs, A, hok, ⟨hs, hr⟩ => by
    obtain ⟨h1, -, h3⟩ := axis_out (hok c (by simp)).1 (hok c (by simp)).2 c.2.2
    have hok' : ∀ c ∈ cs, c.Ok := fun c hc => hok c (by simp [hc])
    set G : ℕ → K := fun i => interp (cs.map Coord.axis) (fun js => A (i :: js)) (cs.map fun c => c.2.2) with hG
    set H : ℕ → K := fun i => interp (cs.map Coord.axis) (fun js => A (i :: js)) (cs.map Coord.near) with hH
    have e1 : interp ((c :: cs).map Coord.axis) A ((c :: cs).map fun c => c.2.2) = seg c.axis G c.2.2 := rfl
    have e2 : interp ((c :: cs).map Coord.axis) A ((c :: cs).map Coord.near) = seg c.axis H c.near := rfl
    have hb0 : 0 ≤ c.beyond := beyond_nonneg (hok c (by simp)).1 (hok c (by simp)).2 c.2.2
    have b1 : |seg c.axis G c.2.2 - seg c.axis G c.near| ≤ c.beyond * (amp cs * b) := by
      refine (h3 G).trans (mul_le_mul_of_nonneg_left ?_ hb0)
      have := interp_amp cs (fun js => A ((cellIdx c.axis c.2.2 + 1) :: js) - A (cellIdx c.axis c.2.2 :: js)) (M := b) hok'
        fun js hjs => hs _ h1 js hjs
      rw [interp_sub] at this
      exact this
    have b2 : |seg c.axis G c.near - seg c.axis H c.near| ≤ b * ((amp cs - 1) / 2) := by
      have hg := linspace_good (hok c (by simp)).1 (hok c (by simp)).2
      obtain ⟨m1, m2⟩ := nearest_mem (hok c (by simp)).2.le c.2.2
      obtain ⟨i, hi, hx1, hx2⟩ := exists_cell hg (x := c.near) (by rw [linspace_first]; exact m1)
        (by change _ ≤ (linspace c.1.1 c.1.2 c.2.1).node (c.2.1 - 1); rw [linspace_last _ _ (hok c (by simp)).1]; exact m2)
      have s1 := step_eq hg hi hx1 hx2 G
      have s2 := step_eq hg hi hx1 hx2 H
      obtain ⟨t1, t2⟩ := t_bounds hg hx1 hx2
      have q1 := interp_out b cs (fun js => A (i :: js)) hok' (hr i (by have : i + 1 < c.axis.n := hi; omega))
      have q2 := interp_out b cs (fun js => A ((i + 1) :: js)) hok' (hr (i + 1) hi)
      change |G i - H i| ≤ _ at q1
      change |G (i + 1) - H (i + 1)| ≤ _ at q2
      have s1' : seg c.axis G c.near = _ := s1
      have s2' : seg c.axis H c.near = _ := s2
      rw [s1', s2']
      change 0 ≤ (c.near - c.axis.node i) / (c.axis.node (i + 1) - c.axis.node i) at t1
      set t := (c.near - (linspace c.1.1 c.1.2 c.2.1).node i) / ((linspace c.1.1 c.1.2 c.2.1).node (i + 1) - (linspace c.1.1 c.1.2 c.2.1).node i) with ht
      have e : (1 - t) * G i + t * G (i + 1) - ((1 - t) * H i + t * H (i + 1)) = (1 - t) * (G i - H i) + t * (G (i + 1) - H (i + 1)) := by ring
      rw [e]
      have t1' : 0 ≤ t := t1
      have t2' : t ≤ 1 := t2
      refine (abs_add_le _ _).trans ?_
      rw [abs_mul, abs_mul, abs_of_nonneg t1', abs_of_nonneg (by linarith : 0 ≤ 1 - t)]
      nlinarith [mul_le_mul_of_nonneg_left q1 (by linarith : 0 ≤ 1 - t), mul_le_mul_of_nonneg_left q2 t1']
    rw [e1, e2]
    refine (abs_sub_le _ (seg c.axis G c.near) _).trans ?_
    have e : amp (c :: cs) = (1 + 2 * c.beyond) * amp cs := by simp [amp]
    rw [e]
    have : b * (((1 + 2 * c.beyond) * amp cs - 1) / 2) = c.beyond * (amp cs * b) + b * ((amp cs - 1) / 2) := by ring
    rw [this]
    exact add_le_add b1 b2

/-! ### The sizing function -/

/-- The nearest point of the box of the sizing function. -/
def nearestIn : Bbox K → List K → List K
  | .two z0 z1 x0 x1, [z, x] => [nearest z0 z1 z, nearest x0 x1 x]
  | .three z0 z1 x0 x1 y0 y1, [z, x, y] => [nearest z0 z1 z, nearest x0 x1 x, nearest y0 y1 y]
  | _, xs => xs

/-- `(∏ (1 + 2 t) - 1) / 2` over the axes, `t` being the distance outside in units of the spacing: `t` when only one axis is outside. -/
def excess (out : Out K) (xs : List K) : K :=
  match out.bbox, xs with
  | .two z0 z1 x0 x1, [z, x] => ((1 + 2 * beyond z0 z1 out.d0 z) * (1 + 2 * beyond x0 x1 out.d1 x) - 1) / 2
  | .three z0 z1 x0 x1 y0 y1, [z, x, y] =>
    ((1 + 2 * beyond z0 z1 out.d0 z) * ((1 + 2 * beyond x0 x1 out.d1 x) * (1 + 2 * beyond y0 y1 out.d2 y)) - 1) / 2
  | _, _ => 0

/-- A point with as many coordinates as the box has axes. -/
def Fits : Bbox K → List K → Prop
  | .two .., [_, _] => True
  | .three .., [_, _, _] => True
  | _, _ => False

/-- **C121 (a).** Sizes of neighbouring nodes that differ by at most `b` give, at any point outside the box, a size that differs from the
size at the nearest point of the box by at most `b * excess`. -/
theorem C121_near (out : Out K) (hp : Proper out) {b : K} (hG : GradedBy out.d0 out.d1 out.d2 b out.cell) {xs : List K} (hx : Fits out.bbox xs) :
    |sizeEval out xs - sizeEval out (nearestIn out.bbox xs)| ≤ b * excess out xs := by
  obtain ⟨d0, d1, d2, cell, vp, bb⟩ := out
  cases bb with
  | two z0 z1 x0 x1 =>
    match xs, hx with
    | [z, x], _ =>
      obtain ⟨n0, n1, hz, hxx, e⟩ := hp
      simp only at n0 n1 e hG
      subst e
      have := interp_out b [((z0, z1), d0, z), ((x0, x1), d1, x)] (ofArr cell) (by
        intro c hc
        simp only [List.mem_cons, List.not_mem_nil, or_false] at hc
        rcases hc with rfl | rfl
        · exact ⟨n0, hz⟩
        · exact ⟨n1, hxx⟩) (by
        refine ⟨?_, fun i hi => ⟨?_, fun j hj => trivial⟩⟩
        · intro i hi js hjs
          match js, hjs with
          | [j], ⟨hj, _⟩ => exact hG (i + 1, j, 0) (i, j, 0) ⟨hi, hj, Nat.one_pos⟩ ⟨Nat.lt_of_succ_lt hi, hj, Nat.one_pos⟩ (.inr (.inl rfl))
        · intro j hj js hjs
          match js, hjs with
          | [], _ => exact hG (i, j + 1, 0) (i, j, 0) ⟨hi, hj, Nat.one_pos⟩ ⟨hi, Nat.lt_of_succ_lt hj, Nat.one_pos⟩ (.inr (.inr (.inl rfl))))
      simpa [amp, excess, sizeEval, axes, Coord.axis, Coord.near, Coord.beyond, nearestIn] using this
  | three z0 z1 x0 x1 y0 y1 =>
    match xs, hx with
    | [z, x, y], _ =>
      obtain ⟨n0, n1, hz, hxx, hy, n2⟩ := hp
      simp only at n0 n1 n2 hG
      have := interp_out b [((z0, z1), d0, z), ((x0, x1), d1, x), ((y0, y1), d2, y)] (ofArr cell) (by
        intro c hc
        simp only [List.mem_cons, List.not_mem_nil, or_false] at hc
        rcases hc with rfl | rfl | rfl
        · exact ⟨n0, hz⟩
        · exact ⟨n1, hxx⟩
        · exact ⟨n2, hy⟩) (by
        refine ⟨?_, fun i hi => ⟨?_, fun j hj => ⟨?_, fun k hk => trivial⟩⟩⟩
        · intro i hi js hjs
          match js, hjs with
          | [j, k], ⟨hj, hk, _⟩ => exact hG (i + 1, j, k) (i, j, k) ⟨hi, hj, hk⟩ ⟨Nat.lt_of_succ_lt hi, hj, hk⟩ (.inr (.inl rfl))
        · intro j hj js hjs
          match js, hjs with
          | [k], ⟨hk, _⟩ => exact hG (i, j + 1, k) (i, j, k) ⟨hi, hj, hk⟩ ⟨hi, Nat.lt_of_succ_lt hj, hk⟩ (.inr (.inr (.inl rfl)))
        · intro k hk js hjs
          match js, hjs with
          | [], _ => exact hG (i, j, k + 1) (i, j, k) ⟨hi, hj, hk⟩ ⟨hi, hj, Nat.lt_of_succ_lt hk⟩ (.inr (.inr (.inr rfl))))
      simpa [amp, excess, sizeEval, axes, Coord.axis, Coord.near, Coord.beyond, nearestIn] using this

theorem nearestIn_mem {out : Out K} (hp : Proper out) {xs : List K} (hx : Fits out.bbox xs) : InBbox out.bbox (nearestIn out.bbox xs) := by
  obtain ⟨d0, d1, d2, cell, vp, bb⟩ := out
  cases bb with
  | two z0 z1 x0 x1 =>
    match xs, hx with
    | [z, x], _ =>
      obtain ⟨-, -, hz, hxx, -⟩ := hp
      obtain ⟨a, b⟩ := nearest_mem hz.le z
      obtain ⟨c, d⟩ := nearest_mem hxx.le x
      exact ⟨a, b, c, d⟩
  | three z0 z1 x0 x1 y0 y1 =>
    match xs, hx with
    | [z, x, y], _ =>
      obtain ⟨-, -, hz, hxx, hy, -⟩ := hp
      obtain ⟨a, b⟩ := nearest_mem hz.le z
      obtain ⟨c, d⟩ := nearest_mem hxx.le x
      obtain ⟨e, f⟩ := nearest_mem hy.le y
      exact ⟨a, b, c, d, e, f⟩

/-- **C121 (b), partial.** A size request with gradation, with the timestep stage off or asking for nothing above `hmax`, and no padding or
padding of style `edge`: at every point outside the region the size is at least `hmin` minus `(depth/nz * grade + hmax * eps) * excess`.
Missing: calls without gradation (`C121_ungraded_false`) and the other two styles of padding, whose sizes are not graded (C91). -/
theorem C121_hmin_partial [FloorSemiring K] {seps : K} {d0 d1 d2 : ℕ} {o : Sizing.Opts K} {names : List String} {bbox : List K}
    {vp0 V : Sizing.Arr K} {out : Out K} (h0 : 0 < d0) (h1 : 0 < d1) (h2 : 0 < d2) (hs : 0 ≤ seps)
    (hb : Sizing.OrderedBbox bbox) (hp : 0 < o.hmin) (hle : o.hmin ≤ o.hmax) (hgr : 0 < o.grade)
    (hV : Sizing.Prepared d0 d1 d2 o vp0 V)
    (hdt : o.dt = 0 ∨ Sizing.AllNodes d0 d1 d2 fun i j k => V i j k * o.dt * o.spaceOrder / o.crMax ≤ o.hmax)
    (hrange : o.hmax - o.hmin ≤ 9999 * (Sizing.depthOf bbox / d0 * o.grade))
    (hst : o.domainPad = 0 ∨ o.padStyle = "edge")
    (h : Sizing.sizing Limgrad.shippedCap seps d0 d1 d2 o names bbox vp0 = .ok (some out)) (hpr : Proper out)
    {xs : List K} (hx : Fits out.bbox xs) :
    o.hmin - (Sizing.depthOf bbox / d0 * o.grade + o.hmax * seps) * excess out xs ≤ sizeEval out xs := by
  have hG := Sizing.C91_nodes_partial h0 h1 h2 hs hb hp hle hgr hV hdt hrange hst h
  have hn := C121_near out hpr hG hx
  have hm := C19_hmin h0 h1 h2 hs hb hp hle h hpr _ (nearestIn_mem hpr hx)
  have h3 := (abs_le.1 hn).1
  linarith

/-- `excess` of a point that is outside along the depth only is its distance, in units of the spacing. -/
theorem C121_excess_depth {out : Out K} {z0 z1 x0 x1 z x : K} (hb : out.bbox = .two z0 z1 x0 x1) (hx : x0 ≤ x ∧ x ≤ x1) :
    excess out [z, x] = beyond z0 z1 out.d0 z := by
  have : beyond x0 x1 out.d1 x = 0 := by
    unfold beyond
    rw [max_eq_left (max_le (by linarith [hx.1]) (by linarith [hx.2])), zero_div]
  simp only [excess, hb, this]; ring

/-- `excess` of a point that is outside along `x` only. -/
theorem C121_excess_width {out : Out K} {z0 z1 x0 x1 z x : K} (hb : out.bbox = .two z0 z1 x0 x1) (hz : z0 ≤ z ∧ z ≤ z1) :
    excess out [z, x] = beyond x0 x1 out.d1 x := by
  have : beyond z0 z1 out.d0 z = 0 := by
    unfold beyond
    rw [max_eq_left (max_le (by linarith [hz.1]) (by linarith [hz.2])), zero_div]
  simp only [excess, hb, this]; ring

/-! ### Without gradation -/

/-- Five cells per wavelength at 2 Hz, no gradation. -/
def plainOpts : Sizing.Opts ℚ :=
  { Sizing.Opts.default with vpWater := none, wl := 5, hmin := 150, hmax := 1000, grade := 0, dt := 0, grad := 0, domainPad := 0 }

/-- **C121, negation.** Without gradation: water at 1500 m/s beside rock at 5000 m/s, nodes 10 m apart. Every size of the grid is at least
`hmin = 150`, but 15 m (= 0.1 `hmin`, the distance up to which the generator keeps points) outside the box the size is -375. -/
theorem C121_ungraded_false :
    ∃ out, Sizing.sizing Limgrad.shippedCap (1 / 67108864) 2 2 1 plainOpts [] [0, 10, 0, 10] (fun _ j _ => if j = 0 then 1500 else 5000) = .ok (some out) ∧
      (∀ i < out.d0, ∀ j < out.d1, ∀ k < out.d2, 150 ≤ out.cell i j k) ∧
      nearestIn out.bbox [5, -15] = [5, 0] ∧ sizeEval out [5, -15] = -375 := by
  have key : Sizing.okAnd (K := ℚ) (Sizing.sizing Limgrad.shippedCap (1 / 67108864) 2 2 1 plainOpts [] [0, 10, 0, 10] (fun _ j _ => if j = 0 then 1500 else 5000))
      (fun out => decide ((∀ i < out.d0, ∀ j < out.d1, ∀ k < out.d2, 150 ≤ out.cell i j k) ∧
      nearestIn out.bbox [5, -15] = [5, 0] ∧ sizeEval out [5, -15] = -375)) = true := by decide +kernel
  obtain ⟨out, h1, h2⟩ := Sizing.okAnd_spec key
  exact ⟨out, h1, of_decide_eq_true h2⟩

/-! ### Examples -/

/-- A graded grid and a point outside along both axes; the bound is met with equality. -/
example : Proper (⟨2, 2, 1, fun i j _ => 10 + i + j, fun _ _ _ => 0, .two 0 1 0 1⟩ : Out ℚ) ∧
    GradedBy 2 2 1 (1 : ℚ) (fun i j _ => 10 + i + j) ∧
    excess (⟨2, 2, 1, fun i j _ => 10 + i + j, fun _ _ _ => 0, .two 0 1 0 1⟩ : Out ℚ) [-1, 0] = 1 ∧
    sizeEval (⟨2, 2, 1, fun i j _ => 10 + i + j, fun _ _ _ => 0, .two 0 1 0 1⟩ : Out ℚ) [-1, 0] = 9 ∧
    sizeEval (⟨2, 2, 1, fun i j _ => 10 + i + j, fun _ _ _ => 0, .two 0 1 0 1⟩ : Out ℚ) [0, 0] = 10 := by
  refine ⟨⟨le_rfl, le_rfl, by norm_num, by norm_num, rfl⟩, ?_, by decide +kernel, by decide +kernel, by decide +kernel⟩
  rintro ⟨i, j, k⟩ ⟨i', j', k'⟩ ⟨a, b, c⟩ ⟨a', b', c'⟩ h
  simp only [at3]
  rcases h with h | h <;> rcases h with h | h | h <;> (simp only [Prod.mk.injEq] at h; obtain ⟨rfl, rfl, rfl⟩ := h; push_cast; rw [abs_le]; constructor <;> linarith)

/-- The hypotheses of the partial theorem are met by an actual call: padding of style `edge`, sizes 1, 6, 10; 25 m (half a cell) outside
along `x` the size is at least `1 - 5 * (1/2)` up to the tolerance. -/
example : ∃ out, Sizing.sizing Limgrad.shippedCap (1 / 67108864) 3 3 1 (Sizing.padOpts "edge") [] [0, 150, 0, 150]
        (fun _ j _ => if j = 0 then 1 else 10) = .ok (some out) ∧ Proper out ∧ Fits out.bbox [0, 0] ∧
      (Sizing.padOpts "edge").hmin - (Sizing.depthOf [0, 150, 0, 150] / (3 : ℕ) * (Sizing.padOpts "edge").grade + (Sizing.padOpts "edge").hmax * (1 / 67108864)) * excess out [0, 0] ≤
        sizeEval out [0, 0] := by
  have key : Sizing.okAnd (K := ℚ) (Sizing.sizing Limgrad.shippedCap (1 / 67108864) 3 3 1 (Sizing.padOpts "edge") [] [0, 150, 0, 150]
      (fun _ j _ => if j = 0 then 1 else 10))
      (fun out => decide (out.d0 = 4 ∧ out.d1 = 5 ∧ out.d2 = 1 ∧ (match out.bbox with | .two z0 z1 x0 x1 => decide (z0 < z1 ∧ x0 < x1) | .three z0 z1 x0 x1 y0 y1 => false) = true)) = true := by decide +kernel
  obtain ⟨out, h1, h2⟩ := Sizing.okAnd_spec key
  obtain ⟨e0, e1, e2, e3⟩ := of_decide_eq_true h2
  have hpr : Proper out ∧ Fits out.bbox [(0 : ℚ), 0] := by
    obtain ⟨d0, d1, d2, cell, vp, bb⟩ := out
    cases bb with
    | two => exact ⟨⟨by rw [e0]; norm_num, by rw [e1]; norm_num, (of_decide_eq_true e3).1, (of_decide_eq_true e3).2, e2⟩, trivial⟩
    | three => exact absurd e3 (by simp)
  refine ⟨out, h1, hpr.1, hpr.2, C121_hmin_partial (bbox := [0, 150, 0, 150]) (by norm_num) (by norm_num) (by norm_num) (by norm_num) ⟨by norm_num, by norm_num⟩
    (by norm_num [Sizing.padOpts]) (by norm_num [Sizing.padOpts]) (by norm_num [Sizing.padOpts]) (V := fun _ j _ => if j = 0 then 1 else 10) ?_ (.inl rfl) (by norm_num [Sizing.padOpts, Sizing.depthOf]) (.inr rfl) h1 hpr.1 hpr.2⟩
  unfold Sizing.Prepared
  have h1 : Sizing.convertUnits (Sizing.padOpts "edge").units (fun _ j _ => if j = 0 then (1 : ℚ) else 10) =
      fun _ j _ => if j = 0 then (1 : ℚ) else 10 := by
    simp [Sizing.convertUnits, Sizing.padOpts, Sizing.Opts.default]
  rw [h1]
  simp [Sizing.replaceWater, Sizing.padOpts, Sizing.Opts.default, Sizing.waterGuard]
  intro _ _ j _ hlt
  split_ifs at hlt <;> norm_num at hlt

end SM.Interp
