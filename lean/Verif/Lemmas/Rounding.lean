import Mathlib.Algebra.Order.Field.Basic
import Mathlib.Algebra.Order.Ring.Abs
import Mathlib.Tactic.Linarith
import Mathlib.Tactic.Positivity
import Mathlib.Tactic.Ring

/-!
# Bounds of accumulated rounding errors

`Near u k B x' x`: `x'` is an approximation of `x` after at most `k` roundings of relative error `u`, in a computation whose terms
are bounded by `B`.
-/

namespace SM.Round

variable {K : Type} [Field K] [LinearOrder K]

/-- Relative error of one operation. -/
def Accurate (rnd : K → K) (u : K) : Prop := ∀ x, |rnd x - x| ≤ u * |x|

/-- `k` roundings in terms of size `B`. -/
def Near (u : K) (k : ℕ) (B x' x : K) : Prop := |x| ≤ B ∧ |x' - x| ≤ ((1 + u) ^ k - 1) * B

variable [IsStrictOrderedRing K] {u : K}

theorem one_le_pow_u (hu : 0 ≤ u) (k : ℕ) : 1 ≤ (1 + u) ^ k := one_le_pow₀ (by linarith)

theorem Near.exact {B x : K} (h : |x| ≤ B) : Near u 0 B x x := by
  refine ⟨h, ?_⟩
  simp

theorem Near.size {k : ℕ} {B x' x : K} (h : Near u k B x' x) : |x'| ≤ (1 + u) ^ k * B := by
  have h1 : |x'| ≤ |x' - x| + |x| := by
    have := abs_add_le (x' - x) x
    simpa using this
  have := h.1
  have := h.2
  linarith

theorem Near.weaken (hu : 0 ≤ u) {k l : ℕ} (hkl : k ≤ l) {B C x' x : K} (h : Near u k B x' x) (hB : B ≤ C) : Near u l C x' x := by
  refine ⟨h.1.trans hB, h.2.trans ?_⟩
  have h0 : 0 ≤ B := (abs_nonneg _).trans h.1
  have h1 : (1 + u) ^ k ≤ (1 + u) ^ l := pow_le_pow_right₀ (by linarith) hkl
  have h2 := one_le_pow_u hu k
  exact mul_le_mul (by linarith) hB h0 (by linarith)

theorem Near.rnd {rnd : K → K} (hu : 0 ≤ u) (ha : Accurate rnd u) {k : ℕ} {B x' x : K} (h : Near u k B x' x) :
    Near u (k + 1) B (rnd x') x := by
  refine ⟨h.1, ?_⟩
  have h1 := ha x'
  have h2 := mul_le_mul_of_nonneg_left h.size hu
  have h3 : |rnd x' - x| ≤ |rnd x' - x'| + |x' - x| := abs_sub_le _ _ _
  have h4 := h.2
  rw [pow_succ]
  linarith

theorem Near.mul (hu : 0 ≤ u) {k l : ℕ} {B C x' x y' y : K} (h : Near u k B x' x) (g : Near u l C y' y) :
    Near u (k + l) (B * C) (x' * y') (x * y) := by
  have hB : 0 ≤ B := (abs_nonneg _).trans h.1
  have hC : 0 ≤ C := (abs_nonneg _).trans g.1
  have hk := one_le_pow_u hu k
  have hl := one_le_pow_u hu l
  refine ⟨?_, ?_⟩
  · rw [abs_mul]
    exact mul_le_mul h.1 g.1 (abs_nonneg _) hB
  · have e : x' * y' - x * y = x' * (y' - y) + (x' - x) * y := by ring
    rw [e]
    refine (abs_add_le _ _).trans ?_
    rw [abs_mul, abs_mul]
    have h1 := mul_le_mul h.size g.2 (abs_nonneg _) (by positivity)
    have h2 := mul_le_mul h.2 g.1 (abs_nonneg _) (mul_nonneg (by linarith) hB)
    rw [pow_add]
    linarith

theorem Near.add {k : ℕ} {B C x' x y' y : K} (h : Near u k B x' x) (g : Near u k C y' y) :
    Near u k (B + C) (x' + y') (x + y) := by
  refine ⟨(abs_add_le _ _).trans (add_le_add h.1 g.1), ?_⟩
  have e : x' + y' - (x + y) = (x' - x) + (y' - y) := by ring
  rw [e]
  have := abs_add_le (x' - x) (y' - y)
  have := h.2
  have := g.2
  linarith

theorem Near.neg {k : ℕ} {B x' x : K} (h : Near u k B x' x) : Near u k B (-x') (-x) := by
  refine ⟨by rw [abs_neg]; exact h.1, ?_⟩
  rw [show -x' - -x = -(x' - x) by ring, abs_neg]
  exact h.2

theorem Near.sub {k : ℕ} {B C x' x y' y : K} (h : Near u k B x' x) (g : Near u k C y' y) :
    Near u k (B + C) (x' - y') (x - y) := by
  rw [sub_eq_add_neg, sub_eq_add_neg]
  exact h.add g.neg

theorem Near.div {k : ℕ} {B x' x : K} (h : Near u k B x' x) {c : K} (hc : 0 < c) : Near u k (B / c) (x' / c) (x / c) := by
  refine ⟨?_, ?_⟩
  · rw [abs_div, abs_of_pos hc]
    exact div_le_div_of_nonneg_right h.1 hc.le
  · rw [← sub_div, abs_div, abs_of_pos hc, ← mul_div_assoc]
    exact div_le_div_of_nonneg_right h.2 hc.le

end SM.Round
