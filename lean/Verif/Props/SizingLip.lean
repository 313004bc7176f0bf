import Verif.Props.Interp
import Verif.Props.SizingGrade
import Mathlib.Tactic.Linarith
import Mathlib.Tactic.Ring
import Mathlib.Tactic.FieldSimp
import Mathlib.Tactic.NormNum

/-!
# C91 (d): the sizing function between its nodes

Multilinear interpolation of an array whose neighbouring values differ by at most `L` times the distance of
the nodes is Lipschitz with these constants, along each axis, on the whole box of the grid. With the node
bounds of C91 this gives the gradation of the sizing function at *all* points, as `generate_mesh` uses it.
-/

namespace SM.Interp

open SM.Sizing (Out)

variable {K : Type*} [Field K] [LinearOrder K] [IsStrictOrderedRing K]

/-- Along axis `k` neighbouring grid values differ by at most `Ls k` times the distance of the nodes. -/
def NodeSlope : List (Axis K) → List K → (List ℕ → K) → Prop
  | [], [], _ => True
  | a :: as, L :: Ls, A =>
    (∀ i, i + 1 < a.n → ∀ js, IsNode as js →
      |A ((i + 1) :: js) - A (i :: js)| ≤ L * (a.node (i + 1) - a.node i)) ∧
    ∀ i < a.n, NodeSlope as Ls fun js => A (i :: js)
  | _, _, _ => False

/-- The point is between the first and last nodes. -/
def InGridBox : List (Axis K) → List K → Prop
  | [], [] => True
  | a :: as, x :: xs => (a.node 0 ≤ x ∧ x ≤ a.node (a.n - 1)) ∧ InGridBox as xs
  | _, _ => False

/-- Weighted distance of two points. -/
def wdist : List K → List K → List K → K
  | L :: Ls, x :: xs, y :: ys => L * |x - y| + wdist Ls xs ys
  | _, _, _ => 0

theorem interp_sub (as : List (Axis K)) (A B : List ℕ → K) (xs : List K) :
    interp as (fun js => A js - B js) xs = interp as A xs - interp as B xs := by
  induction as generalizing A B xs with
  | nil => simp [interp]
  | cons a as ih =>
    cases xs with
    | nil => simp [interp]
    | cons x xs => simp only [interp, ih]; ring

theorem inCell_of_box : ∀ (as : List (Axis K)) (_ : ∀ a ∈ as, a.Good) (xs : List K), InGridBox as xs →
    ∃ is, InCell as is xs ∧ ∀ js, Corner is js → IsNode as js
  | [], _, [], _ => ⟨[], trivial, fun js h => by
      match js, h with
      | [], _ => exact trivial⟩
  | a :: as, hg, x :: xs, ⟨⟨h1, h2⟩, hr⟩ => by
    obtain ⟨i, hi, hx1, hx2⟩ := exists_cell (hg a (by simp)) h1 h2
    obtain ⟨is, his, hc⟩ := inCell_of_box as (fun b hb => hg b (by simp [hb])) xs hr
    refine ⟨i :: is, ⟨hi, hx1, hx2, his⟩, fun js h => ?_⟩
    match js, h with
    | j :: js, ⟨hj, hjs⟩ => exact ⟨by omega, hc js hjs⟩

theorem interp_abs_le (as : List (Axis K)) (hg : ∀ a ∈ as, a.Good) (xs : List K) (hx : InGridBox as xs)
    (A : List ℕ → K) (c : K) (hA : ∀ js, IsNode as js → |A js| ≤ c) : |interp as A xs| ≤ c := by
  obtain ⟨is, his, hc⟩ := inCell_of_box as hg xs hx
  exact abs_le.2 (C19_between_corners as hg is xs his A (-c) c fun js hjs => abs_le.1 (hA js (hc js hjs)))

/-- One axis: the piecewise linear interpolant. -/
def lin1 (a : Axis K) (f : ℕ → K) (i : ℕ) (x : K) : K :=
  (1 - (x - a.node i) / (a.node (i + 1) - a.node i)) * f i +
    (x - a.node i) / (a.node (i + 1) - a.node i) * f (i + 1)

theorem lin1_lip {a : Axis K} (ha : a.Good) {f : ℕ → K} {L : K} (_hL : 0 ≤ L)
    (hf : ∀ i, i + 1 < a.n → |f (i + 1) - f i| ≤ L * (a.node (i + 1) - a.node i)) {i j : ℕ} {x y : K}
    (hi : i + 1 < a.n) (hj : j + 1 < a.n) (hxi : a.node i ≤ x) (hxi' : x ≤ a.node (i + 1))
    (hyj : a.node j ≤ y) (hyj' : y ≤ a.node (j + 1)) (hxy : x ≤ y) :
    |lin1 a f i x - lin1 a f j y| ≤ L * (y - x) := by
  have gap : ∀ i, 0 < a.node (i + 1) - a.node i := fun i => sub_pos.2 (ha.2 i (i + 1) (by omega))
  -- inside one cell
  have inner : ∀ (i : ℕ), i + 1 < a.n → ∀ u v : K, u ≤ v → |lin1 a f i u - lin1 a f i v| ≤ L * (v - u) := by
    intro i hi u v huv
    have e : lin1 a f i u - lin1 a f i v = (u - v) / (a.node (i + 1) - a.node i) * (f (i + 1) - f i) := by
      simp only [lin1]; have := (gap i).ne'; field_simp; ring
    rw [e, abs_mul, abs_div, abs_of_pos (gap i), abs_of_nonpos (by linarith : u - v ≤ 0)]
    have h1 := hf i hi
    rw [div_mul_eq_mul_div, div_le_iff₀ (gap i)]
    have h2 : 0 ≤ v - u := by linarith
    nlinarith
  have atL : ∀ i, lin1 a f i (a.node i) = f i := by intro i; simp [lin1]
  have atR : ∀ i, lin1 a f i (a.node (i + 1)) = f (i + 1) := by
    intro i; simp only [lin1]; rw [div_self (gap i).ne']; ring
  -- between nodes
  have nodes : ∀ k i, i + k < a.n → |f i - f (i + k)| ≤ L * (a.node (i + k) - a.node i) := by
    intro k
    induction k with
    | zero => intro i _; simp
    | succ k ih =>
      intro i hik
      have h1 := ih i (by omega)
      have h2 := hf (i + k) (by omega)
      have h3 := abs_sub_le (f i) (f (i + k)) (f (i + k + 1))
      rw [abs_sub_comm (f (i + k)) (f (i + k + 1))] at h3
      rw [show i + (k + 1) = i + k + 1 by omega]
      linarith
  rcases Nat.lt_trichotomy i j with h | h | h
  · have h1 := inner i hi x (a.node (i + 1)) hxi'
    rw [atR] at h1
    have h2 := inner j hj (a.node j) y hyj
    rw [atL] at h2
    obtain ⟨k, rfl⟩ := Nat.exists_eq_add_of_lt h
    have h3 := nodes k (i + 1) (by omega)
    rw [show i + 1 + k = i + k + 1 by omega] at h3
    have t1 := abs_sub_le (lin1 a f i x) (f (i + 1)) (lin1 a f (i + k + 1) y)
    have t2 := abs_sub_le (f (i + 1)) (f (i + k + 1)) (lin1 a f (i + k + 1) y)
    linarith
  · subst h; exact inner i hi x y hxy
  · have hmono : a.node (j + 1) ≤ a.node i := by
      rcases Nat.lt_or_eq_of_le (show j + 1 ≤ i by omega) with h' | h'
      · exact (ha.2 _ _ h').le
      · rw [h']
    have hx : x = y := le_antisymm hxy (hyj'.trans (hmono.trans hxi))
    have e1 : x = a.node i := le_antisymm (by rw [hx]; exact hyj'.trans hmono) hxi
    have e2 : y = a.node (j + 1) := le_antisymm hyj' (by rw [← hx]; exact hmono.trans hxi)
    have hij : i = j + 1 := by
      by_contra hne
      have := ha.2 (j + 1) i (by omega)
      rw [← e1, ← e2, hx] at this
      exact absurd this (lt_irrefl _)
    have hv : lin1 a f i x = lin1 a f j y := by
      rw [e1, atL, e2, atR, hij]
    rw [hv, sub_self, abs_zero, hx, sub_self, mul_zero]

/-- **Multilinear interpolation keeps the slopes of its grid** on the whole box. -/
theorem interp_lipschitz : ∀ (as : List (Axis K)) (Ls : List K) (A : List ℕ → K) (xs ys : List K),
    (∀ a ∈ as, a.Good) → (∀ L ∈ Ls, 0 ≤ L) → NodeSlope as Ls A → InGridBox as xs → InGridBox as ys →
    |interp as A xs - interp as A ys| ≤ wdist Ls xs ys
  | [], [], A, [], [], _, _, _, _, _ => by simp [interp, wdist]
  | a :: as, L :: Ls, A, x :: xs, y :: ys, hg, hL, ⟨hs, hr⟩, ⟨⟨x1, x2⟩, hx⟩, ⟨⟨y1, y2⟩, hy⟩ => by
    have ha := hg a (by simp)
    have hg' : ∀ b ∈ as, b.Good := fun b hb => hg b (by simp [hb])
    have hL' : ∀ b ∈ Ls, 0 ≤ b := fun b hb => hL b (by simp [hb])
    have hL0 := hL L (by simp)
    obtain ⟨i, hi, hxi, hxi'⟩ := exists_cell ha x1 x2
    obtain ⟨j, hj, hyj, hyj'⟩ := exists_cell ha y1 y2
    have ex : ∀ zs, interp (a :: as) A (x :: zs) = lin1 a (fun i => interp as (fun js => A (i :: js)) zs) i x := by
      intro zs
      simp only [interp]
      exact step_eq ha hi hxi hxi' (fun i => interp as (fun js => A (i :: js)) zs)
    have ey : ∀ zs, interp (a :: as) A (y :: zs) = lin1 a (fun i => interp as (fun js => A (i :: js)) zs) j y := by
      intro zs
      simp only [interp]
      exact step_eq ha hj hyj hyj' (fun i => interp as (fun js => A (i :: js)) zs)
    -- along the first axis
    have hf : ∀ i, i + 1 < a.n → |interp as (fun js => A ((i + 1) :: js)) xs - interp as (fun js => A (i :: js)) xs| ≤
        L * (a.node (i + 1) - a.node i) := by
      intro i hi
      rw [← interp_sub]
      exact interp_abs_le as hg' xs hx _ _ (hs i hi)
    have s1 : |interp (a :: as) A (x :: xs) - interp (a :: as) A (y :: xs)| ≤ L * |x - y| := by
      rw [ex, ey]
      rcases le_total x y with hxy | hxy
      · have := lin1_lip ha (f := fun i => interp as (fun js => A (i :: js)) xs) hL0 hf hi hj hxi hxi' hyj hyj' hxy
        rwa [abs_of_nonpos (by linarith : x - y ≤ 0), neg_sub]
      · have := lin1_lip ha (f := fun i => interp as (fun js => A (i :: js)) xs) hL0 hf hj hi hyj hyj' hxi hxi' hxy
        rwa [abs_sub_comm, abs_of_nonneg (by linarith : 0 ≤ x - y)]
    -- along the others
    have s2 : |interp (a :: as) A (y :: xs) - interp (a :: as) A (y :: ys)| ≤ wdist Ls xs ys := by
      rw [ey, ey]
      have ih := fun i (hi : i < a.n) => interp_lipschitz as Ls (fun js => A (i :: js)) xs ys hg' hL' (hr i hi) hx hy
      have i1 := ih j (by omega)
      have i2 := ih (j + 1) hj
      obtain ⟨t0, t1⟩ := t_bounds ha hyj hyj'
      simp only [lin1]
      set t := (y - a.node j) / (a.node (j + 1) - a.node j)
      have e : (1 - t) * interp as (fun js => A (j :: js)) xs + t * interp as (fun js => A ((j + 1) :: js)) xs -
          ((1 - t) * interp as (fun js => A (j :: js)) ys + t * interp as (fun js => A ((j + 1) :: js)) ys) =
          (1 - t) * (interp as (fun js => A (j :: js)) xs - interp as (fun js => A (j :: js)) ys) +
          t * (interp as (fun js => A ((j + 1) :: js)) xs - interp as (fun js => A ((j + 1) :: js)) ys) := by ring
      rw [e]
      have i1' := abs_le.1 i1
      have i2' := abs_le.1 i2
      rw [abs_le]
      constructor <;> nlinarith [i1'.1, i1'.2, i2'.1, i2'.2]
    have := abs_sub_le (interp (a :: as) A (x :: xs)) (interp (a :: as) A (y :: xs)) (interp (a :: as) A (y :: ys))
    simp only [wdist]
    linarith

theorem linspace_gap (a b : K) (n i : ℕ) :
    (linspace a b n).node (i + 1) - (linspace a b n).node i = Sizing.spacing a b n := by
  simp only [linspace, Sizing.spacing]; push_cast; ring

variable [FloorSemiring K]

/-- **C91 (d), partial, 2-D.** Under the hypotheses of (a) the sizing function that is returned satisfies, at
*all* pairs of points of its box, `|h(p) - h(q)| ≤ (grade + ε) (|Δz| + (e/ex) |Δx|)` with cell height
`e = depth/nz`, cell width `ex = width/nx` and `ε = hmax * eps / e`. So it varies by at most `grade` per unit of
length vertically, and horizontally if the cells are square or wider. -/
theorem C91_everywhere_2d_partial {seps : K} {d0 d1 : ℕ} {o : Sizing.Opts K} {names : List String}
    {z0 z1 x0 x1 : K} {vp0 V : Sizing.Arr K} {out : Out K} (h0 : 0 < d0) (h1 : 0 < d1) (hs : 0 ≤ seps)
    (hz : z0 < z1) (hx : x0 < x1) (hp : 0 < o.hmin) (hle : o.hmin ≤ o.hmax) (hgr : 0 < o.grade)
    (hV : Sizing.Prepared d0 d1 1 o vp0 V)
    (hdt : o.dt = 0 ∨ Sizing.AllNodes d0 d1 1 fun i j k => V i j k * o.dt * o.spaceOrder / o.crMax ≤ o.hmax)
    (hrange : o.hmax - o.hmin ≤ 9999 * ((z1 - z0) / d0 * o.grade))
    (hst : o.domainPad = 0 ∨ o.padStyle = "edge")
    (h : Sizing.sizing Limgrad.shippedCap seps d0 d1 1 o names [z0, z1, x0, x1] vp0 = .ok (some out))
    (hpr : Proper out) {z x z' x' : K} (hin : InBbox out.bbox [z, x]) (hin' : InBbox out.bbox [z', x']) :
    |sizeEval out [z, x] - sizeEval out [z', x']| ≤
      (o.grade + o.hmax * seps / ((z1 - z0) / d0)) *
        (|z - z'| + (z1 - z0) / d0 / ((x1 - x0) / d1) * |x - x'|) := by
  have hG := Sizing.C91_nodes_partial h0 h1 one_pos hs (bbox := [z0, z1, x0, x1]) ⟨hz.le, hx.le⟩ hp hle hgr hV
    hdt hrange hst h
  obtain ⟨vp, bb, req, cell, cell1, cell2, -, hbb, -, -, -, -, -, hpad⟩ := Sizing.sizing_some h
  cases hbb
  obtain ⟨Z0, Z1, X0, X1, hbx, sz, sx⟩ := Sizing.spacing_2d h0 h1 hz hx hpad
  obtain ⟨D0, D1, D2, C, V', bx⟩ := out
  cases bx with
  | three => simp [Sizing.Bbox.toList] at hbx
  | two Z0' Z1' X0' X1' =>
  simp only [Sizing.Bbox.toList, List.cons.injEq, and_true] at hbx
  obtain ⟨rfl, rfl, rfl, rfl⟩ := hbx
  obtain ⟨n0, n1, hZ, hX, e2⟩ := hpr
  simp only at n0 n1 e2 sz sx hG
  subst e2
  have hd0 : (0 : K) < d0 := by exact_mod_cast h0
  have hd1 : (0 : K) < d1 := by exact_mod_cast h1
  set e := (z1 - z0) / (d0 : K) with he
  set ex := (x1 - x0) / (d1 : K) with hex
  have e0 : 0 < e := div_pos (sub_pos.2 hz) hd0
  have ex0 : 0 < ex := div_pos (sub_pos.2 hx) hd1
  set ε := o.hmax * seps / e with hε
  have ε0 : 0 ≤ ε := div_nonneg (mul_nonneg (hp.le.trans hle) hs) e0.le
  have g0 : 0 ≤ o.grade + ε := by linarith
  have ebound : (Sizing.depthOf [z0, z1, x0, x1]) / d0 * o.grade + o.hmax * seps = e * (o.grade + ε) := by
    simp only [Sizing.depthOf]
    rw [← he, hε, mul_add, mul_div_cancel₀ _ e0.ne']
  rw [ebound] at hG
  have goodz := linspace_good n0 hZ
  have goodx := linspace_good n1 hX
  have key := interp_lipschitz [linspace Z0' Z1' D0, linspace X0' X1' D1] [o.grade + ε, (o.grade + ε) * (e / ex)]
    (ofArr C) [z, x] [z', x'] (by simp only [List.mem_cons, List.not_mem_nil, or_false]; rintro a (rfl | rfl) <;> assumption)
    (by
      simp only [List.mem_cons, List.not_mem_nil, or_false]
      rintro a (rfl | rfl)
      · exact g0
      · exact mul_nonneg g0 (div_nonneg e0.le ex0.le))
    (by
      refine ⟨fun i hi js hj => ?_, fun i hi => ⟨fun j hj js hjs => ?_, fun _ _ => trivial⟩⟩
      · match js, hj with
        | [j], ⟨hj, _⟩ =>
          have hi' : i + 1 < D0 := hi
          have hj' : j < D1 := hj
          have := hG (i + 1, j, 0) (i, j, 0) ⟨hi', hj', one_pos⟩ ⟨Nat.lt_of_succ_lt hi', hj', one_pos⟩ (.inr (.inl rfl))
          simp only [ofArr, linspace_gap]
          simp only [Limgrad.at3] at this
          refine this.trans ?_
          have := sz (by omega)
          nlinarith
      · match js, hjs with
        | [], _ =>
          have hi' : i < D0 := hi
          have hj' : j + 1 < D1 := hj
          have := hG (i, j + 1, 0) (i, j, 0) ⟨hi', hj', one_pos⟩ ⟨hi', Nat.lt_of_succ_lt hj', one_pos⟩ (.inr (.inr (.inl rfl)))
          simp only [ofArr, linspace_gap]
          simp only [Limgrad.at3] at this
          refine this.trans ?_
          have hsx := sx (by omega)
          have : (o.grade + ε) * (e / ex) * ex ≤ (o.grade + ε) * (e / ex) * Sizing.spacing X0' X1' D1 :=
            mul_le_mul_of_nonneg_left hsx (mul_nonneg g0 (div_nonneg e0.le ex0.le))
          have e' : (o.grade + ε) * (e / ex) * ex = e * (o.grade + ε) := by field_simp
          linarith)
    (by
      obtain ⟨a1, a2, b1, b2⟩ := hin
      refine ⟨⟨by rw [linspace_first]; exact a1, ?_⟩, ⟨by rw [linspace_first]; exact b1, ?_⟩, trivial⟩
      · change z ≤ (linspace Z0' Z1' D0).node (D0 - 1); rw [linspace_last _ _ n0]; exact a2
      · change x ≤ (linspace X0' X1' D1).node (D1 - 1); rw [linspace_last _ _ n1]; exact b2)
    (by
      obtain ⟨a1, a2, b1, b2⟩ := hin'
      refine ⟨⟨by rw [linspace_first]; exact a1, ?_⟩, ⟨by rw [linspace_first]; exact b1, ?_⟩, trivial⟩
      · change z' ≤ (linspace Z0' Z1' D0).node (D0 - 1); rw [linspace_last _ _ n0]; exact a2
      · change x' ≤ (linspace X0' X1' D1).node (D1 - 1); rw [linspace_last _ _ n1]; exact b2)
  simp only [wdist] at key
  simp only [sizeEval, axes]
  refine key.trans (le_of_eq ?_)
  ring

/-- **C91 (d), partial, 3-D.** -/
theorem C91_everywhere_3d_partial {seps : K} {d0 d1 d2 : ℕ} {o : Sizing.Opts K} {names : List String}
    {z0 z1 x0 x1 y0 y1 : K} {vp0 V : Sizing.Arr K} {out : Out K} (h0 : 0 < d0) (h1 : 0 < d1) (h2 : 0 < d2)
    (hs : 0 ≤ seps) (hz : z0 < z1) (hx : x0 < x1) (hy : y0 < y1) (hp : 0 < o.hmin) (hle : o.hmin ≤ o.hmax)
    (hgr : 0 < o.grade) (hV : Sizing.Prepared d0 d1 d2 o vp0 V)
    (hdt : o.dt = 0 ∨ Sizing.AllNodes d0 d1 d2 fun i j k => V i j k * o.dt * o.spaceOrder / o.crMax ≤ o.hmax)
    (hrange : o.hmax - o.hmin ≤ 9999 * ((z1 - z0) / d0 * o.grade))
    (hst : o.domainPad = 0 ∨ o.padStyle = "edge")
    (h : Sizing.sizing Limgrad.shippedCap seps d0 d1 d2 o names [z0, z1, x0, x1, y0, y1] vp0 = .ok (some out))
    (hpr : Proper out) {z x y z' x' y' : K} (hin : InBbox out.bbox [z, x, y])
    (hin' : InBbox out.bbox [z', x', y']) :
    |sizeEval out [z, x, y] - sizeEval out [z', x', y']| ≤
      (o.grade + o.hmax * seps / ((z1 - z0) / d0)) *
        (|z - z'| + (z1 - z0) / d0 / ((x1 - x0) / d1) * |x - x'| +
          (z1 - z0) / d0 / ((y1 - y0) / d2) * |y - y'|) := by
  have hG := Sizing.C91_nodes_partial h0 h1 h2 hs (bbox := [z0, z1, x0, x1, y0, y1]) ⟨hz.le, hx.le, hy.le⟩ hp hle
    hgr hV hdt hrange hst h
  obtain ⟨vp, bb, req, cell, cell1, cell2, -, hbb, -, -, -, -, -, hpad⟩ := Sizing.sizing_some h
  cases hbb
  obtain ⟨Z0, Z1, X0, X1, Y0, Y1, hbx, sz, sx, sy⟩ := Sizing.spacing_3d h0 h1 h2 hz hx hy hpad
  obtain ⟨D0, D1, D2, C, V', bx⟩ := out
  cases bx with
  | two => simp [Sizing.Bbox.toList] at hbx
  | three Z0' Z1' X0' X1' Y0' Y1' =>
  simp only [Sizing.Bbox.toList, List.cons.injEq, and_true] at hbx
  obtain ⟨rfl, rfl, rfl, rfl, rfl, rfl⟩ := hbx
  obtain ⟨n0, n1, hZ, hX, hY, n2⟩ := hpr
  simp only at n0 n1 n2 sz sx sy hG
  have hd0 : (0 : K) < d0 := by exact_mod_cast h0
  have hd1 : (0 : K) < d1 := by exact_mod_cast h1
  have hd2 : (0 : K) < d2 := by exact_mod_cast h2
  set e := (z1 - z0) / (d0 : K) with he
  set ex := (x1 - x0) / (d1 : K) with hex
  set ey := (y1 - y0) / (d2 : K) with hey
  have e0 : 0 < e := div_pos (sub_pos.2 hz) hd0
  have ex0 : 0 < ex := div_pos (sub_pos.2 hx) hd1
  have ey0 : 0 < ey := div_pos (sub_pos.2 hy) hd2
  set ε := o.hmax * seps / e with hε
  have ε0 : 0 ≤ ε := div_nonneg (mul_nonneg (hp.le.trans hle) hs) e0.le
  have g0 : 0 ≤ o.grade + ε := by linarith
  have ebound : (Sizing.depthOf [z0, z1, x0, x1, y0, y1]) / d0 * o.grade + o.hmax * seps = e * (o.grade + ε) := by
    simp only [Sizing.depthOf]
    rw [← he, hε, mul_add, mul_div_cancel₀ _ e0.ne']
  rw [ebound] at hG
  have goodz := linspace_good n0 hZ
  have goodx := linspace_good n1 hX
  have goody := linspace_good n2 hY
  have scale : ∀ {E S : K}, 0 < E → E ≤ S → e * (o.grade + ε) ≤ (o.grade + ε) * (e / E) * S := by
    intro E S hE hES
    have : (o.grade + ε) * (e / E) * E ≤ (o.grade + ε) * (e / E) * S :=
      mul_le_mul_of_nonneg_left hES (mul_nonneg g0 (div_nonneg e0.le hE.le))
    have e' : (o.grade + ε) * (e / E) * E = e * (o.grade + ε) := by field_simp
    linarith
  have key := interp_lipschitz [linspace Z0' Z1' D0, linspace X0' X1' D1, linspace Y0' Y1' D2]
    [o.grade + ε, (o.grade + ε) * (e / ex), (o.grade + ε) * (e / ey)]
    (ofArr C) [z, x, y] [z', x', y']
    (by simp only [List.mem_cons, List.not_mem_nil, or_false]; rintro a (rfl | rfl | rfl) <;> assumption)
    (by
      simp only [List.mem_cons, List.not_mem_nil, or_false]
      rintro a (rfl | rfl | rfl)
      · exact g0
      · exact mul_nonneg g0 (div_nonneg e0.le ex0.le)
      · exact mul_nonneg g0 (div_nonneg e0.le ey0.le))
    (by
      refine ⟨fun i hi js hj => ?_, fun i hi => ⟨fun j hj js hjs => ?_, fun j hj => ⟨fun k hk js hjs => ?_,
        fun _ _ => trivial⟩⟩⟩
      · match js, hj with
        | [j, k], ⟨hj, hk, _⟩ =>
          have hi' : i + 1 < D0 := hi
          have hj' : j < D1 := hj
          have hk' : k < D2 := hk
          have := hG (i + 1, j, k) (i, j, k) ⟨hi', hj', hk'⟩ ⟨Nat.lt_of_succ_lt hi', hj', hk'⟩ (.inr (.inl rfl))
          simp only [ofArr, linspace_gap]
          simp only [Limgrad.at3] at this
          refine this.trans ?_
          have := sz (by omega)
          nlinarith
      · match js, hjs with
        | [k], ⟨hk, _⟩ =>
          have hi' : i < D0 := hi
          have hj' : j + 1 < D1 := hj
          have hk' : k < D2 := hk
          have := hG (i, j + 1, k) (i, j, k) ⟨hi', hj', hk'⟩ ⟨hi', Nat.lt_of_succ_lt hj', hk'⟩ (.inr (.inr (.inl rfl)))
          simp only [ofArr, linspace_gap]
          simp only [Limgrad.at3] at this
          exact this.trans (scale ex0 (sx (by omega)))
      · match js, hjs with
        | [], _ =>
          have hi' : i < D0 := hi
          have hj' : j < D1 := hj
          have hk' : k + 1 < D2 := hk
          have := hG (i, j, k + 1) (i, j, k) ⟨hi', hj', hk'⟩ ⟨hi', hj', Nat.lt_of_succ_lt hk'⟩ (.inr (.inr (.inr rfl)))
          simp only [ofArr, linspace_gap]
          simp only [Limgrad.at3] at this
          exact this.trans (scale ey0 (sy (by omega))))
    (by
      obtain ⟨a1, a2, b1, b2, c1, c2⟩ := hin
      refine ⟨⟨by rw [linspace_first]; exact a1, ?_⟩, ⟨by rw [linspace_first]; exact b1, ?_⟩,
        ⟨by rw [linspace_first]; exact c1, ?_⟩, trivial⟩
      · change z ≤ (linspace Z0' Z1' D0).node (D0 - 1); rw [linspace_last _ _ n0]; exact a2
      · change x ≤ (linspace X0' X1' D1).node (D1 - 1); rw [linspace_last _ _ n1]; exact b2
      · change y ≤ (linspace Y0' Y1' D2).node (D2 - 1); rw [linspace_last _ _ n2]; exact c2)
    (by
      obtain ⟨a1, a2, b1, b2, c1, c2⟩ := hin'
      refine ⟨⟨by rw [linspace_first]; exact a1, ?_⟩, ⟨by rw [linspace_first]; exact b1, ?_⟩,
        ⟨by rw [linspace_first]; exact c1, ?_⟩, trivial⟩
      · change z' ≤ (linspace Z0' Z1' D0).node (D0 - 1); rw [linspace_last _ _ n0]; exact a2
      · change x' ≤ (linspace X0' X1' D1).node (D1 - 1); rw [linspace_last _ _ n1]; exact b2
      · change y' ≤ (linspace Y0' Y1' D2).node (D2 - 1); rw [linspace_last _ _ n2]; exact c2)
  simp only [wdist] at key
  simp only [sizeEval, axes]
  refine key.trans (le_of_eq ?_)
  ring

/-- The hypotheses are met (see the example in `SizingGrade`): the grid of the padded call is `Proper`, and
two points of its box. -/
example : Sizing.okAnd (K := ℚ) (Sizing.sizing Limgrad.shippedCap (1 / 67108864) 3 3 1 (Sizing.padOpts "edge") []
      [0, 150, 0, 150] (fun _ j _ => if j = 0 then 1 else 10))
      (fun out => decide (out.d0 = 4 ∧ out.d1 = 5 ∧ out.d2 = 1 ∧ out.bbox.toList = [-50, 150, -50, 200] ∧
        sizeEval out [0, 0] = 1 ∧ sizeEval out [0, 100] = 38 / 5)) = true := by
  decide +kernel

end SM.Interp
