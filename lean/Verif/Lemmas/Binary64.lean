import Mathlib.Algebra.Order.Field.Power
import Mathlib.Data.Int.Log
import Mathlib.Algebra.Order.Round
import Mathlib.Data.Rat.Floor
import Mathlib.Tactic.Linarith
import Mathlib.Tactic.Positivity
import Mathlib.Tactic.FieldSimp
import Mathlib.Tactic.Ring

/-!
# Rounding to 53 significant bits

IEEE 754 binary64, round to nearest (ties away from zero), without limits on the exponent: no overflow, no subnormal numbers.
It is monotone, idempotent, odd, and its relative error is at most `2^-53`.
-/

namespace SM.Fl

/-- Rounding of a positive number. -/
def pos53 (q : ℚ) : ℚ := (round (q * (2 : ℚ) ^ (52 - Int.log 2 q)) : ℤ) / (2 : ℚ) ^ (52 - Int.log 2 q)

/-- Rounding to the nearest number with 53 significant bits. -/
def binary64 (q : ℚ) : ℚ := if 0 ≤ q then pos53 q else -pos53 (-q)

theorem round_mono' {x y : ℚ} (h : x ≤ y) : round x ≤ round y := by
  rw [round_eq, round_eq]; exact Int.floor_le_floor (by linarith)

theorem log_le {q : ℚ} (h : 0 < q) : (2 : ℚ) ^ Int.log 2 q ≤ q := by
  have := Int.zpow_log_le_self (b := 2) (by norm_num) h
  exact_mod_cast this

theorem lt_log (q : ℚ) : q < (2 : ℚ) ^ (Int.log 2 q + 1) := by
  have := Int.lt_zpow_succ_log_self (b := 2) (by norm_num) q
  exact_mod_cast this

theorem scaled {q : ℚ} (h : 0 < q) : (2 : ℚ) ^ (52 : ℤ) ≤ q * (2 : ℚ) ^ (52 - Int.log 2 q) ∧
    q * (2 : ℚ) ^ (52 - Int.log 2 q) < (2 : ℚ) ^ (53 : ℤ) := by
  have hs : (0 : ℚ) < (2 : ℚ) ^ (52 - Int.log 2 q) := by positivity
  constructor
  · have := mul_le_mul_of_nonneg_right (log_le h) hs.le
    rwa [← zpow_add₀ (by norm_num), show Int.log 2 q + (52 - Int.log 2 q) = 52 by ring] at this
  · have := mul_lt_mul_of_pos_right (lt_log q) hs
    rwa [← zpow_add₀ (by norm_num), show Int.log 2 q + 1 + (52 - Int.log 2 q) = 53 by ring] at this

/-- The integer significand. -/
def sig (q : ℚ) : ℤ := round (q * (2 : ℚ) ^ (52 - Int.log 2 q))

theorem sig_range {q : ℚ} (h : 0 < q) : 2 ^ 52 ≤ sig q ∧ sig q ≤ 2 ^ 53 := by
  obtain ⟨h1, h2⟩ := scaled h
  constructor
  · have := round_mono' h1
    rw [show ((2 : ℚ) ^ (52 : ℤ)) = ((2 ^ 52 : ℤ) : ℚ) by norm_num, round_intCast] at this
    exact this
  · have := round_mono' h2.le
    rw [show ((2 : ℚ) ^ (53 : ℤ)) = ((2 ^ 53 : ℤ) : ℚ) by norm_num, round_intCast] at this
    exact this

theorem pos53_eq (q : ℚ) : pos53 q = (sig q : ℚ) * (2 : ℚ) ^ (Int.log 2 q - 52) := by
  unfold pos53 sig
  rw [div_eq_mul_inv, ← zpow_neg, neg_sub]

theorem pos53_range {q : ℚ} (h : 0 < q) : (2 : ℚ) ^ Int.log 2 q ≤ pos53 q ∧ pos53 q ≤ (2 : ℚ) ^ (Int.log 2 q + 1) := by
  obtain ⟨h1, h2⟩ := sig_range h
  have hs : (0 : ℚ) < (2 : ℚ) ^ (Int.log 2 q - 52) := by positivity
  rw [pos53_eq]
  constructor
  · have : ((2 ^ 52 : ℤ) : ℚ) ≤ sig q := by exact_mod_cast h1
    have := mul_le_mul_of_nonneg_right this hs.le
    rw [show ((2 ^ 52 : ℤ) : ℚ) = (2 : ℚ) ^ (52 : ℤ) by norm_num, ← zpow_add₀ (by norm_num),
      show (52 : ℤ) + (Int.log 2 q - 52) = Int.log 2 q by ring] at this
    exact this
  · have : (sig q : ℚ) ≤ ((2 ^ 53 : ℤ) : ℚ) := by exact_mod_cast h2
    have := mul_le_mul_of_nonneg_right this hs.le
    rw [show ((2 ^ 53 : ℤ) : ℚ) = (2 : ℚ) ^ (53 : ℤ) by norm_num, ← zpow_add₀ (by norm_num),
      show (53 : ℤ) + (Int.log 2 q - 52) = Int.log 2 q + 1 by ring] at this
    exact this

theorem pos53_pos {q : ℚ} (h : 0 < q) : 0 < pos53 q := lt_of_lt_of_le (by positivity) (pos53_range h).1

theorem pos53_zero : pos53 0 = 0 := by simp [pos53]

theorem pos53_nonneg {q : ℚ} (h : 0 ≤ q) : 0 ≤ pos53 q := by
  rcases h.eq_or_lt with rfl | h
  · rw [pos53_zero]
  · exact (pos53_pos h).le

theorem pos53_mono {q r : ℚ} (h : 0 < q) (hr : q ≤ r) : pos53 q ≤ pos53 r := by
  have hl : Int.log 2 q ≤ Int.log 2 r := Int.log_mono_right h hr
  rcases hl.eq_or_lt with e | hlt
  · unfold pos53
    rw [e]
    have hs : (0 : ℚ) < (2 : ℚ) ^ (52 - Int.log 2 r) := by positivity
    rw [div_le_div_iff_of_pos_right hs]
    exact_mod_cast round_mono' (mul_le_mul_of_nonneg_right hr hs.le)
  · exact (pos53_range h).2.trans ((zpow_le_zpow_right₀ (by norm_num) (by omega)).trans (pos53_range (h.trans_le hr)).1)

theorem pos53_fix {x : ℚ} {n : ℤ} (h : x * (2 : ℚ) ^ (52 - Int.log 2 x) = n) : pos53 x = x := by
  unfold pos53
  rw [h, round_intCast, ← h]
  field_simp

theorem pos53_idem {q : ℚ} (h : 0 < q) : pos53 (pos53 q) = pos53 q := by
  obtain ⟨h1, h2⟩ := pos53_range h
  have hp := pos53_pos h
  rcases h2.eq_or_lt with e | hlt
  · have hl : Int.log 2 (pos53 q) = Int.log 2 q + 1 := by
      rw [e]
      have := Int.log_zpow (R := ℚ) (b := 2) (by norm_num) (Int.log 2 q + 1)
      exact_mod_cast this
    refine pos53_fix (n := 2 ^ 52) ?_
    rw [hl, e, ← zpow_add₀ (by norm_num), show Int.log 2 q + 1 + (52 - (Int.log 2 q + 1)) = 52 by ring]
    norm_num
  · have hl : Int.log 2 (pos53 q) = Int.log 2 q := by
      apply le_antisymm
      · by_contra hc
        have h3 : (2 : ℚ) ^ (Int.log 2 q + 1) ≤ (2 : ℚ) ^ (Int.log 2 (pos53 q)) := zpow_le_zpow_right₀ (by norm_num) (by omega)
        exact absurd (h3.trans (log_le hp)) (not_le.2 hlt)
      · by_contra hc
        have h3 : (2 : ℚ) ^ (Int.log 2 (pos53 q) + 1) ≤ (2 : ℚ) ^ (Int.log 2 q) := zpow_le_zpow_right₀ (by norm_num) (by omega)
        exact absurd (h3.trans h1) (not_le.2 (lt_log _))
    refine pos53_fix (n := sig q) ?_
    rw [hl, pos53_eq, mul_assoc, ← zpow_add₀ (by norm_num), show Int.log 2 q - 52 + (52 - Int.log 2 q) = 0 by ring]
    simp

theorem pos53_error {q : ℚ} (hpos : 0 < q) : |pos53 q - q| ≤ q / 9007199254740992 := by
  unfold pos53
  set e := Int.log 2 q
  have hs : (0 : ℚ) < (2 : ℚ) ^ (52 - e) := by positivity
  have hr := abs_sub_round (q * (2 : ℚ) ^ (52 - e))
  have hle : (2 : ℚ) ^ e ≤ q := log_le hpos
  have e1 : ((round (q * (2 : ℚ) ^ (52 - e)) : ℤ) : ℚ) / (2 : ℚ) ^ (52 - e) - q =
      -(q * (2 : ℚ) ^ (52 - e) - (round (q * (2 : ℚ) ^ (52 - e)) : ℤ)) / (2 : ℚ) ^ (52 - e) := by
    field_simp; ring
  rw [e1, abs_div, abs_neg, abs_of_pos hs, div_le_iff₀ hs]
  refine hr.trans ?_
  have e2 : (2 : ℚ) ^ (52 - e) = 4503599627370496 / (2 : ℚ) ^ e := by
    rw [zpow_sub₀ (by norm_num)]; norm_num
  rw [e2]
  have he : (0 : ℚ) < (2 : ℚ) ^ e := by positivity
  rw [div_mul_div_comm, div_le_div_iff₀ (by norm_num) (by positivity)]
  nlinarith

theorem binary64_zero : binary64 0 = 0 := by simp [binary64, pos53_zero]

theorem binary64_mono : Monotone binary64 := by
  intro q r h
  unfold binary64
  split_ifs with h1 h2 h2
  · rcases h1.eq_or_lt with rfl | h1
    · rw [pos53_zero]; exact pos53_nonneg h2
    · exact pos53_mono h1 h
  · exact absurd (h1.trans h) h2
  · have := pos53_nonneg (q := -q) (by linarith)
    have := pos53_nonneg h2
    linarith
  · have := pos53_mono (q := -r) (r := -q) (by linarith) (by linarith)
    linarith

theorem binary64_idem (q : ℚ) : binary64 (binary64 q) = binary64 q := by
  rcases lt_trichotomy q 0 with h | rfl | h
  · have e : binary64 q = -pos53 (-q) := if_neg (not_le.2 h)
    have hp := pos53_pos (q := -q) (by linarith)
    have e2 : binary64 (-pos53 (-q)) = -pos53 (- -pos53 (-q)) := if_neg (by linarith)
    rw [e, e2, neg_neg, pos53_idem (by linarith)]
  · rw [binary64_zero, binary64_zero]
  · have e : binary64 q = pos53 q := if_pos h.le
    have e2 : binary64 (pos53 q) = pos53 (pos53 q) := if_pos (pos53_pos h).le
    rw [e, e2, pos53_idem h]

theorem binary64_error (q : ℚ) : |binary64 q - q| ≤ 1 / 9007199254740992 * |q| := by
  rcases lt_trichotomy q 0 with h | rfl | h
  · have e : binary64 q = -pos53 (-q) := if_neg (not_le.2 h)
    have := pos53_error (q := -q) (by linarith)
    rw [e, abs_of_neg h, show -pos53 (-q) - q = -(pos53 (-q) - -q) by ring, abs_neg]
    linarith
  · rw [binary64_zero]; simp
  · have e : binary64 q = pos53 q := if_pos h.le
    have := pos53_error h
    rw [e, abs_of_pos h]; linarith

/-- Whole numbers up to `2^53` are kept. -/
theorem binary64_int {n : ℤ} (h0 : 1 ≤ n) (h : n < 9007199254740992) : binary64 n = n := by
  have hpos : (0 : ℚ) < n := by exact_mod_cast h0
  have e : binary64 n = pos53 n := if_pos hpos.le
  rw [e]
  have hlog : Int.log 2 (n : ℚ) ≤ 52 := by
    by_contra hc
    have h4 : (2 : ℚ) ^ (53 : ℤ) ≤ (2 : ℚ) ^ (Int.log 2 (n : ℚ)) := zpow_le_zpow_right₀ (by norm_num) (by omega)
    have h5 : (n : ℚ) < 9007199254740992 := by exact_mod_cast h
    have h6 := h4.trans (log_le hpos)
    norm_num at h6
    linarith
  obtain ⟨m, hm⟩ : ∃ m : ℕ, 52 - Int.log 2 (n : ℚ) = m := ⟨(52 - Int.log 2 (n : ℚ)).toNat, by omega⟩
  refine pos53_fix (n := n * 2 ^ m) ?_
  rw [hm, zpow_natCast]
  push_cast
  rfl

end SM.Fl
