import Verif.Props.Interp
import Mathlib.Tactic.Linarith
import Mathlib.Tactic.Ring
import Mathlib.Tactic.FieldSimp
import Mathlib.Tactic.NormNum
import Mathlib.Tactic.Positivity

/-!
# C16, for all pads: how far padding moves the model

`_build_domain_pad` adds `int(pad / (L/n))` nodes per side, while the grid vectors are `linspace`s over the
enlarged box, so the nodes of the unpadded model are shifted unless the pad is a whole number of spacings
(`C16_pad_moves_model`). For every pad, shape and box the shift is at most one cell `L/n` along each axis.
-/

namespace SM.Interp

open SM.Sizing (Bbox Out Style padCells buildPad)

variable {K : Type*} [Field K] [LinearOrder K] [IsStrictOrderedRing K] [FloorSemiring K]

/-- Numerator of the shift. -/
theorem shift_num {L pad : K} {n : ℕ} (hn : 2 ≤ n) (hL : 0 < L) (hp : 0 ≤ pad) :
    |(padCells pad L n : K) * L - pad * ((n : K) - 1)| ≤ L / n * ((n : K) + padCells pad L n - 1) := by
  have hn2 : (2 : K) ≤ n := by exact_mod_cast hn
  have hn0 : (0 : K) < n := by linarith
  set c := L / (n : K) with hc
  have hc0 : 0 < c := div_pos hL hn0
  have hLc : L = c * n := by rw [hc]; field_simp
  set b := padCells pad L n with hb
  have h1 : (b : K) * c ≤ pad := by
    have := Nat.floor_le (R := K) (a := pad / c) (div_nonneg hp hc0.le)
    have hb' : (b : K) ≤ pad / c := this
    rwa [le_div_iff₀ hc0] at hb'
  have h2 : pad < ((b : K) + 1) * c := by
    have := Nat.lt_floor_add_one (R := K) (pad / c)
    have hb' : pad / c < (b : K) + 1 := this
    rwa [div_lt_iff₀ hc0] at hb'
  have hb0 : (0 : K) ≤ b := by positivity
  rw [abs_le, hLc]
  constructor <;> nlinarith [mul_nonneg hb0 hc0.le]

/-- Depth axis: padded at the lower end only. -/
theorem shift_low {z0 z1 pad : K} {n i : ℕ} (hn : 2 ≤ n) (hz : z0 < z1) (hp : 0 ≤ pad) (hi : i < n) :
    |(linspace (z0 - pad) z1 (n + padCells pad (z1 - z0) n)).node (padCells pad (z1 - z0) n + i) -
      (linspace z0 z1 n).node i| ≤ (z1 - z0) / n := by
  have hn2 : (2 : K) ≤ n := by exact_mod_cast hn
  have hi' : (i : K) ≤ n - 1 := by
    have : (i : K) + 1 ≤ n := by exact_mod_cast hi
    linarith
  have hi0 : (0 : K) ≤ i := by positivity
  have hN := shift_num hn (sub_pos.2 hz) hp
  set b := padCells pad (z1 - z0) n
  have hb0 : (0 : K) ≤ b := by positivity
  have d1 : (0 : K) < (n : K) - 1 := by linarith
  have d2 : (0 : K) < (n : K) + b - 1 := by linarith
  have e : (linspace (z0 - pad) z1 (n + b)).node (b + i) - (linspace z0 z1 n).node i =
      ((b : K) * (z1 - z0) - pad * ((n : K) - 1)) / ((n : K) + b - 1) * (((n : K) - 1 - i) / ((n : K) - 1)) := by
    simp only [linspace]
    push_cast
    field_simp
    ring
  rw [e, abs_mul, abs_div, abs_of_pos d2]
  have f1 : |(b : K) * (z1 - z0) - pad * ((n : K) - 1)| / ((n : K) + b - 1) ≤ (z1 - z0) / n := by
    rw [div_le_iff₀ d2]; exact hN
  have f2 : |((n : K) - 1 - i) / ((n : K) - 1)| ≤ 1 := by
    rw [abs_div, abs_of_pos d1, div_le_one d1, abs_le]
    constructor <;> linarith
  have f3 : 0 ≤ |(b : K) * (z1 - z0) - pad * ((n : K) - 1)| / ((n : K) + b - 1) :=
    div_nonneg (abs_nonneg _) d2.le
  calc _ ≤ |(b : K) * (z1 - z0) - pad * ((n : K) - 1)| / ((n : K) + b - 1) * 1 := by
        exact mul_le_mul_of_nonneg_left f2 f3
    _ ≤ _ := by rw [mul_one]; exact f1

/-- Horizontal axes: padded at both ends. -/
theorem shift_both {x0 x1 pad : K} {n i : ℕ} (hn : 2 ≤ n) (hx : x0 < x1) (hp : 0 ≤ pad) (hi : i < n) :
    |(linspace (x0 - pad) (x1 + pad) (n + 2 * padCells pad (x1 - x0) n)).node (padCells pad (x1 - x0) n + i) -
      (linspace x0 x1 n).node i| ≤ (x1 - x0) / n := by
  have hn2 : (2 : K) ≤ n := by exact_mod_cast hn
  have hi' : (i : K) ≤ n - 1 := by
    have : (i : K) + 1 ≤ n := by exact_mod_cast hi
    linarith
  have hi0 : (0 : K) ≤ i := by positivity
  have hN := shift_num hn (sub_pos.2 hx) hp
  set b := padCells pad (x1 - x0) n
  have hb0 : (0 : K) ≤ b := by positivity
  have d1 : (0 : K) < (n : K) - 1 := by linarith
  have d2 : (0 : K) < (n : K) + 2 * b - 1 := by linarith
  have hq : 0 ≤ (x1 - x0) / (n : K) := div_nonneg (sub_pos.2 hx).le (by linarith)
  have e : (linspace (x0 - pad) (x1 + pad) (n + 2 * b)).node (b + i) - (linspace x0 x1 n).node i =
      ((b : K) * (x1 - x0) - pad * ((n : K) - 1)) / ((n : K) + 2 * b - 1) *
        (((n : K) - 1 - 2 * i) / ((n : K) - 1)) := by
    simp only [linspace]
    push_cast
    rw [div_mul_div_comm, eq_div_iff (mul_ne_zero d2.ne' d1.ne')]
    have hu : (x1 + pad - (x0 - pad)) / ((n : K) + 2 * b - 1) * ((n : K) + 2 * b - 1) = x1 + pad - (x0 - pad) :=
      div_mul_cancel₀ _ d2.ne'
    have hv : (x1 - x0) / ((n : K) - 1) * ((n : K) - 1) = x1 - x0 := div_mul_cancel₀ _ d1.ne'
    linear_combination ((b : K) + i) * ((n : K) - 1) * hu - i * ((n : K) + 2 * b - 1) * hv
  rw [e, abs_mul, abs_div, abs_of_pos d2]
  have f1 : |(b : K) * (x1 - x0) - pad * ((n : K) - 1)| / ((n : K) + 2 * b - 1) ≤ (x1 - x0) / n := by
    rw [div_le_iff₀ d2]
    refine hN.trans (mul_le_mul_of_nonneg_left ?_ hq)
    linarith
  have f2 : |((n : K) - 1 - 2 * i) / ((n : K) - 1)| ≤ 1 := by
    rw [abs_div, abs_of_pos d1, div_le_one d1, abs_le]
    constructor <;> linarith
  have f3 : 0 ≤ |(b : K) * (x1 - x0) - pad * ((n : K) - 1)| / ((n : K) + 2 * b - 1) :=
    div_nonneg (abs_nonneg _) d2.le
  calc _ ≤ |(b : K) * (x1 - x0) - pad * ((n : K) - 1)| / ((n : K) + 2 * b - 1) * 1 := by
        exact mul_le_mul_of_nonneg_left f2 f3
    _ ≤ _ := by rw [mul_one]; exact f1

/-- **C16 (all pads, 2-D).** For every shape, box, pad and style: the value the unpadded sizing function has
at node `(i, j)` is taken by the padded one at a point at most one cell away along each axis. -/
theorem C16_shift_2d {d0 d1 : ℕ} (n0 : 2 ≤ d0) (n1 : 2 ≤ d1) {cell vp : Sizing.Arr K}
    {z0 z1 x0 x1 pad : K} (hz : z0 < z1) (hx : x0 < x1) {style : String} {st : Style}
    (hst : Sizing.parseStyle style = .ok st) (hp : 0 < pad) :
    ∃ out, buildPad d0 d1 1 cell vp (.two z0 z1 x0 x1) pad style = .ok out ∧
      ∀ i < d0, ∀ j < d1, ∃ z x,
        sizeEval out [z, x] = sizeEval ⟨d0, d1, 1, cell, vp, .two z0 z1 x0 x1⟩
          (nodeOf (axes d0 d1 1 (.two z0 z1 x0 x1)) [i, j]) ∧
        |z - (linspace z0 z1 d0).node i| ≤ (z1 - z0) / d0 ∧
        |x - (linspace x0 x1 d1).node j| ≤ (x1 - x0) / d1 := by
  obtain ⟨out, b0, b1, mc, mv, ho, hbb, e0, e1, e2, eb0, eb1, -, -, hpc, -⟩ :=
    Sizing.C15_pad_2d (cell := cell) (vp := vp) (z0 := z0) (z1 := z1) (x0 := x0) (x1 := x1)
      (d0 := d0) (d1 := d1) (by omega) (by omega) hst hp
  change b0 = padCells pad (z1 - z0) d0 at eb0
  change b1 = padCells pad (x1 - x0) d1 at eb1
  refine ⟨out, ho, fun i hi j hj => ?_⟩
  obtain ⟨D0, D1, D2, C, V, bb⟩ := out
  simp only at e0 e1 e2 hbb hpc
  obtain rfl : bb = .two (z0 - pad) z1 (x0 - pad) (x1 + pad) := by
    cases bb with
    | two => simp only [Bbox.toList, List.cons.injEq, and_true] at hbb; simp [hbb]
    | three => simp [Bbox.toList] at hbb
  subst e2
  rw [Nat.add_comm] at e0
  rw [show b1 + d1 + b1 = d1 + 2 * b1 by omega] at e1
  refine ⟨(linspace (z0 - pad) z1 D0).node (b0 + i), (linspace (x0 - pad) (x1 + pad) D1).node (b1 + j), ?_, ?_, ?_⟩
  · have r1 : sizeEval ⟨d0, d1, 1, cell, vp, .two z0 z1 x0 x1⟩
        (nodeOf (axes d0 d1 1 (.two z0 z1 x0 x1)) [i, j]) = cell i j 0 := by
      refine C19_reproduces_nodes [linspace z0 z1 d0, linspace x0 x1 d1] ?_ [i, j] ⟨hi, hj, trivial⟩ _
      intro a ha
      simp only [List.mem_cons, List.not_mem_nil, or_false] at ha
      rcases ha with rfl | rfl
      · exact linspace_good n0 hz
      · exact linspace_good n1 hx
    have r2 : sizeEval ⟨D0, D1, 1, C, V, .two (z0 - pad) z1 (x0 - pad) (x1 + pad)⟩
        (nodeOf (axes D0 D1 1 (.two (z0 - pad) z1 (x0 - pad) (x1 + pad))) [b0 + i, b1 + j]) =
        C (b0 + i) (b1 + j) 0 := by
      refine C19_reproduces_nodes
        [linspace (z0 - pad) z1 D0, linspace (x0 - pad) (x1 + pad) D1] ?_ [b0 + i, b1 + j]
        ⟨(by change b0 + i < D0; omega), (by change b1 + j < D1; omega), trivial⟩ _
      intro a ha
      simp only [List.mem_cons, List.not_mem_nil, or_false] at ha
      rcases ha with rfl | rfl
      · exact linspace_good (by omega) (by linarith)
      · exact linspace_good (by omega) (by linarith)
    rw [r1]
    simp only [axes, nodeOf, List.zipWith_cons_cons, List.zipWith_nil_left] at r2
    rw [r2]
    have := hpc.block i hi j hj 0 one_pos
    simpa using this
  · rw [e0, eb0]; exact shift_low n0 hz hp.le hi
  · rw [e1, eb1]; exact shift_both n1 hx hp.le hj

/-- **C16 (all pads, 3-D).** -/
theorem C16_shift_3d {d0 d1 d2 : ℕ} (n0 : 2 ≤ d0) (n1 : 2 ≤ d1) (n2 : 2 ≤ d2) {cell vp : Sizing.Arr K}
    {z0 z1 x0 x1 y0 y1 pad : K} (hz : z0 < z1) (hx : x0 < x1) (hy : y0 < y1) {style : String} {st : Style}
    (hst : Sizing.parseStyle style = .ok st) (hp : 0 < pad) :
    ∃ out, buildPad d0 d1 d2 cell vp (.three z0 z1 x0 x1 y0 y1) pad style = .ok out ∧
      ∀ i < d0, ∀ j < d1, ∀ k < d2, ∃ z x y,
        sizeEval out [z, x, y] = sizeEval ⟨d0, d1, d2, cell, vp, .three z0 z1 x0 x1 y0 y1⟩
          (nodeOf (axes d0 d1 d2 (.three z0 z1 x0 x1 y0 y1)) [i, j, k]) ∧
        |z - (linspace z0 z1 d0).node i| ≤ (z1 - z0) / d0 ∧
        |x - (linspace x0 x1 d1).node j| ≤ (x1 - x0) / d1 ∧
        |y - (linspace y0 y1 d2).node k| ≤ (y1 - y0) / d2 := by
  obtain ⟨out, b0, b1, b2, mc, mv, ho, hbb, e0, e1, e2, eb0, eb1, eb2, -, -, hpc, -⟩ :=
    Sizing.C15_pad_3d (cell := cell) (vp := vp) (z0 := z0) (z1 := z1) (x0 := x0) (x1 := x1) (y0 := y0)
      (y1 := y1) (d0 := d0) (d1 := d1) (d2 := d2) (by omega) (by omega) (by omega) hst hp
  change b0 = padCells pad (z1 - z0) d0 at eb0
  change b1 = padCells pad (x1 - x0) d1 at eb1
  change b2 = padCells pad (y1 - y0) d2 at eb2
  refine ⟨out, ho, fun i hi j hj k hk => ?_⟩
  obtain ⟨D0, D1, D2, C, V, bb⟩ := out
  simp only at e0 e1 e2 hbb hpc
  obtain rfl : bb = .three (z0 - pad) z1 (x0 - pad) (x1 + pad) (y0 - pad) (y1 + pad) := by
    cases bb with
    | three => simp only [Bbox.toList, List.cons.injEq, and_true] at hbb; simp [hbb]
    | two => simp [Bbox.toList] at hbb
  rw [Nat.add_comm] at e0
  rw [show b1 + d1 + b1 = d1 + 2 * b1 by omega] at e1
  rw [show b2 + d2 + b2 = d2 + 2 * b2 by omega] at e2
  refine ⟨(linspace (z0 - pad) z1 D0).node (b0 + i), (linspace (x0 - pad) (x1 + pad) D1).node (b1 + j),
    (linspace (y0 - pad) (y1 + pad) D2).node (b2 + k), ?_, ?_, ?_, ?_⟩
  · have r1 : sizeEval ⟨d0, d1, d2, cell, vp, .three z0 z1 x0 x1 y0 y1⟩
        (nodeOf (axes d0 d1 d2 (.three z0 z1 x0 x1 y0 y1)) [i, j, k]) = cell i j k := by
      refine C19_reproduces_nodes [linspace z0 z1 d0, linspace x0 x1 d1, linspace y0 y1 d2] ?_ [i, j, k]
        ⟨hi, hj, hk, trivial⟩ _
      intro a ha
      simp only [List.mem_cons, List.not_mem_nil, or_false] at ha
      rcases ha with rfl | rfl | rfl
      · exact linspace_good n0 hz
      · exact linspace_good n1 hx
      · exact linspace_good n2 hy
    have r2 : sizeEval ⟨D0, D1, D2, C, V, .three (z0 - pad) z1 (x0 - pad) (x1 + pad) (y0 - pad) (y1 + pad)⟩
        (nodeOf (axes D0 D1 D2 (.three (z0 - pad) z1 (x0 - pad) (x1 + pad) (y0 - pad) (y1 + pad)))
          [b0 + i, b1 + j, b2 + k]) = C (b0 + i) (b1 + j) (b2 + k) := by
      refine C19_reproduces_nodes [linspace (z0 - pad) z1 D0, linspace (x0 - pad) (x1 + pad) D1,
          linspace (y0 - pad) (y1 + pad) D2] ?_ [b0 + i, b1 + j, b2 + k]
        ⟨(by change b0 + i < D0; omega), (by change b1 + j < D1; omega), (by change b2 + k < D2; omega),
          trivial⟩ _
      intro a ha
      simp only [List.mem_cons, List.not_mem_nil, or_false] at ha
      rcases ha with rfl | rfl | rfl
      · exact linspace_good (by omega) (by linarith)
      · exact linspace_good (by omega) (by linarith)
      · exact linspace_good (by omega) (by linarith)
    rw [r1]
    simp only [axes, nodeOf, List.zipWith_cons_cons, List.zipWith_nil_left] at r2
    rw [r2]
    exact hpc.block i hi j hj k hk
  · rw [e0, eb0]; exact shift_low n0 hz hp.le hi
  · rw [e1, eb1]; exact shift_both n1 hx hp.le hj
  · rw [e2, eb2]; exact shift_both n2 hy hp.le hk

/-- **C16 (partial, 3-D).** If the pad is a whole number of spacings along every axis, nothing moves. -/
theorem C16_pad_keeps_model_3d_partial {d0 d1 d2 kz kx ky : ℕ} (n0 : 2 ≤ d0) (n1 : 2 ≤ d1) (n2 : 2 ≤ d2)
    {cell vp : Sizing.Arr K} {z0 z1 x0 x1 y0 y1 pad : K} (hz : z0 < z1) (hx : x0 < x1) (hy : y0 < y1)
    {style : String} {st : Style} (hst : Sizing.parseStyle style = .ok st) (hp : 0 < pad)
    (ez : pad = kz * ((z1 - z0) / ((d0 : K) - 1))) (ex : pad = kx * ((x1 - x0) / ((d1 : K) - 1)))
    (ey : pad = ky * ((y1 - y0) / ((d2 : K) - 1)))
    (hkz : kz < d0 - 1) (hkx : kx < d1 - 1) (hky : ky < d2 - 1) :
    ∃ out, buildPad d0 d1 d2 cell vp (.three z0 z1 x0 x1 y0 y1) pad style = .ok out ∧
      ∀ i < d0, ∀ j < d1, ∀ k < d2,
        sizeEval out (nodeOf (axes d0 d1 d2 (.three z0 z1 x0 x1 y0 y1)) [i, j, k]) =
        sizeEval ⟨d0, d1, d2, cell, vp, .three z0 z1 x0 x1 y0 y1⟩
          (nodeOf (axes d0 d1 d2 (.three z0 z1 x0 x1 y0 y1)) [i, j, k]) := by
  obtain ⟨out, b0, b1, b2, mc, mv, ho, hbb, e0, e1, e2, eb0, eb1, eb2, -, -, hpc, -⟩ :=
    Sizing.C15_pad_3d (cell := cell) (vp := vp) (z0 := z0) (z1 := z1) (x0 := x0) (x1 := x1) (y0 := y0)
      (y1 := y1) (d0 := d0) (d1 := d1) (d2 := d2) (by omega) (by omega) (by omega) hst hp
  have hb0 : b0 = kz := eb0.trans (padCells_eq n0 (sub_pos.2 hz) hkz ez)
  have hb1 : b1 = kx := eb1.trans (padCells_eq n1 (sub_pos.2 hx) hkx ex)
  have hb2 : b2 = ky := eb2.trans (padCells_eq n2 (sub_pos.2 hy) hky ey)
  subst hb0 hb1 hb2
  refine ⟨out, ho, fun i hi j hj k hk => ?_⟩
  obtain ⟨D0, D1, D2, C, V, bb⟩ := out
  simp only at e0 e1 e2 hbb hpc
  obtain rfl : bb = .three (z0 - pad) z1 (x0 - pad) (x1 + pad) (y0 - pad) (y1 + pad) := by
    cases bb with
    | three => simp only [Bbox.toList, List.cons.injEq, and_true] at hbb; simp [hbb]
    | two => simp [Bbox.toList] at hbb
  have hnode : nodeOf (axes d0 d1 d2 (.three z0 z1 x0 x1 y0 y1)) [i, j, k] =
      nodeOf (axes D0 D1 D2 (.three (z0 - pad) z1 (x0 - pad) (x1 + pad) (y0 - pad) (y1 + pad)))
        [b0 + i, b1 + j, b2 + k] := by
    simp only [axes, nodeOf, List.zipWith_cons_cons, List.zipWith_nil_left]
    rw [e0, e1, e2, Nat.add_comm b0 d0, show b1 + d1 + b1 = d1 + 2 * b1 by omega,
      show b2 + d2 + b2 = d2 + 2 * b2 by omega,
      pad_node_low n0 ez, pad_node_both n1 ex, pad_node_both n2 ey]
  have r1 : sizeEval ⟨d0, d1, d2, cell, vp, .three z0 z1 x0 x1 y0 y1⟩
      (nodeOf (axes d0 d1 d2 (.three z0 z1 x0 x1 y0 y1)) [i, j, k]) = cell i j k := by
    refine C19_reproduces_nodes [linspace z0 z1 d0, linspace x0 x1 d1, linspace y0 y1 d2] ?_ [i, j, k]
      ⟨hi, hj, hk, trivial⟩ _
    intro a ha
    simp only [List.mem_cons, List.not_mem_nil, or_false] at ha
    rcases ha with rfl | rfl | rfl
    · exact linspace_good n0 hz
    · exact linspace_good n1 hx
    · exact linspace_good n2 hy
  have r2 : sizeEval ⟨D0, D1, D2, C, V, .three (z0 - pad) z1 (x0 - pad) (x1 + pad) (y0 - pad) (y1 + pad)⟩
      (nodeOf (axes D0 D1 D2 (.three (z0 - pad) z1 (x0 - pad) (x1 + pad) (y0 - pad) (y1 + pad)))
        [b0 + i, b1 + j, b2 + k]) = C (b0 + i) (b1 + j) (b2 + k) := by
    refine C19_reproduces_nodes [linspace (z0 - pad) z1 D0, linspace (x0 - pad) (x1 + pad) D1,
        linspace (y0 - pad) (y1 + pad) D2] ?_ [b0 + i, b1 + j, b2 + k]
      ⟨(by change b0 + i < D0; omega), (by change b1 + j < D1; omega), (by change b2 + k < D2; omega),
        trivial⟩ _
    intro a ha
    simp only [List.mem_cons, List.not_mem_nil, or_false] at ha
    rcases ha with rfl | rfl | rfl
    · exact linspace_good (by omega) (by linarith)
    · exact linspace_good (by omega) (by linarith)
    · exact linspace_good (by omega) (by linarith)
  rw [r1, hnode, r2]
  exact hpc.block i hi j hj k hk

/-- The side conditions are met: 4 nodes on [0,3] along each axis, pad 1; and any positive pad for the shift. -/
example : (2 : ℕ) ≤ 4 ∧ (0 : ℚ) < 3 ∧ Sizing.parseStyle "edge" = .ok Style.edge ∧
    (1 : ℚ) = (1 : ℕ) * ((3 - 0) / (((4 : ℕ) : ℚ) - 1)) ∧ 1 < 4 - 1 := by
  refine ⟨by norm_num, by norm_num, rfl, by norm_num, by norm_num⟩

/-- The bound is nearly attained: with a pad just below two of three cells, the deepest node moves up. Here
`n = 3`, `L = 3`, `pad = 1.9`: one cell is added, and the node of `z = 0` is found at `z = -4/15`. -/
example : padCells (19 / 10 : ℚ) 3 3 = 1 ∧
    (linspace (0 - 19 / 10) 3 (3 + 1)).node (1 + 0) = (-4 / 15 : ℚ) := by
  constructor
  · decide +kernel
  · norm_num [linspace]

end SM.Interp
