import Verif.Lemmas.Binary64
import Verif.Props.BallFl
import Mathlib.Data.Rat.Floor

/-!
# Square roots rounded to 53 significant bits, computably

`sqrt64 q` is the exact square root of the rational `q` rounded to 53 significant bits (`sqrt64_cast`).
-/

namespace SM.Fl

/-- Integer square root by bits: the largest `r ≥ k` with `r * r ≤ n`, if `n < (k + 2^i)²`. -/
def bits : ℕ → ℕ → ℕ → ℕ
  | 0, _, k => k
  | i + 1, n, k => if (k + 2 ^ i) * (k + 2 ^ i) ≤ n then bits i n (k + 2 ^ i) else bits i n k

theorem bits_spec (i n k : ℕ) (h : k * k ≤ n) (h' : n < (k + 2 ^ i) * (k + 2 ^ i)) :
    bits i n k * bits i n k ≤ n ∧ n < (bits i n k + 1) * (bits i n k + 1) := by
  induction i generalizing k with
  | zero => exact ⟨h, by rw [pow_zero] at h'; exact h'⟩
  | succ i ih =>
    unfold bits
    split_ifs with hc
    · exact ih _ hc (by rw [pow_succ] at h'; rwa [add_assoc, ← mul_two])
    · exact ih _ h (not_le.1 hc)

/-- The square root of a positive number rounded to 53 significant bits, half a unit upwards. -/
def sqrtPos (q : ℚ) : ℚ :=
  let e := Int.log 2 q / 2
  let y := q * (4 : ℚ) ^ (52 - e)
  let k := bits 53 ⌊y⌋₊ 0
  (if y < ((k : ℚ) + 1 / 2) * (k + 1 / 2) then (k : ℚ) else k + 1) / (2 : ℚ) ^ (52 - e)

/-- The square root rounded to 53 significant bits. -/
def sqrt64 (q : ℚ) : ℚ := if 0 < q then sqrtPos q else 0

theorem log_unique {x : ℝ} (hx : 0 < x) {e : ℤ} (h1 : (2 : ℝ) ^ e ≤ x) (h2 : x < (2 : ℝ) ^ (e + 1)) : Int.log 2 x = e := by
  have a := BallFl.log_le hx
  have b := BallFl.lt_log x
  apply le_antisymm
  · by_contra hc
    have : (2 : ℝ) ^ (e + 1) ≤ (2 : ℝ) ^ Int.log 2 x := zpow_le_zpow_right₀ (by norm_num) (by omega)
    linarith
  · by_contra hc
    have : (2 : ℝ) ^ (Int.log 2 x + 1) ≤ (2 : ℝ) ^ e := zpow_le_zpow_right₀ (by norm_num) (by omega)
    linarith

theorem log_le_real {q : ℚ} (hq : 0 < q) : (2 : ℝ) ^ Int.log 2 q ≤ q := by
  have := Rat.cast_le (K := ℝ) |>.2 (log_le hq)
  push_cast at this
  exact this

theorem lt_log_real (q : ℚ) : (q : ℝ) < (2 : ℝ) ^ (Int.log 2 q + 1) := by
  have := Rat.cast_lt (K := ℝ) |>.2 (lt_log q)
  rw [Rat.cast_zpow, Rat.cast_ofNat] at this
  exact this

theorem log_cast {q : ℚ} (hq : 0 < q) : Int.log 2 (q : ℝ) = Int.log 2 q := by
  refine log_unique (by exact_mod_cast hq) ?_ ?_
  · exact log_le_real hq
  · exact lt_log_real q

theorem pos53_cast {q : ℚ} (hq : 0 ≤ q) : BallFl.pos53 (q : ℝ) = (pos53 q : ℝ) := by
  rcases hq.eq_or_lt with rfl | hq
  · rw [pos53_zero]; simp [BallFl.pos53_zero]
  unfold BallFl.pos53 pos53
  rw [log_cast hq]
  have : round ((q : ℝ) * (2 : ℝ) ^ (52 - Int.log 2 q)) = round (q * (2 : ℚ) ^ (52 - Int.log 2 q)) := by
    rw [← Rat.round_cast (α := ℝ)]
    push_cast
    rfl
  rw [this]
  push_cast
  rfl

/-- The rounding of reals agrees with that of rationals. -/
theorem binary64_cast (q : ℚ) : BallFl.binary64 (q : ℝ) = (binary64 q : ℝ) := by
  unfold BallFl.binary64 binary64
  have e : (0 : ℝ) ≤ (q : ℝ) ↔ 0 ≤ q := by exact_mod_cast Iff.rfl
  by_cases h : 0 ≤ q
  · rw [if_pos h, if_pos (e.2 h)]; exact pos53_cast h
  · rw [if_neg h, if_neg (fun h' => h (e.1 h'))]
    have := pos53_cast (q := -q) (by linarith)
    push_cast at this ⊢
    rw [this]

/-- `sqrt64` is the exact square root, rounded. -/
theorem sqrt64_cast (q : ℚ) : BallFl.binary64 √(q : ℝ) = (sqrt64 q : ℝ) := by
  rw [BallFl.binary64_of_nonneg (Real.sqrt_nonneg _)]
  by_cases hq : 0 < q
  · rw [sqrt64, if_pos hq]
    have hqR : (0 : ℝ) < q := by exact_mod_cast hq
    have hs : 0 < √(q : ℝ) := Real.sqrt_pos.2 hqR
    have hss : √(q : ℝ) * √(q : ℝ) = q := Real.mul_self_sqrt hqR.le
    set s := √(q : ℝ)
    set e := Int.log 2 q / 2 with he
    have a : (2 : ℝ) ^ Int.log 2 q ≤ q := by exact log_le_real hq
    have b : (q : ℝ) < (2 : ℝ) ^ (Int.log 2 q + 1) := by exact lt_log_real q
    have p2 : ∀ n : ℤ, (2 : ℝ) ^ (2 * n) = (2 : ℝ) ^ n * (2 : ℝ) ^ n := fun n => by rw [two_mul, zpow_add₀ (by norm_num)]
    have hlog : Int.log 2 s = e := by
      refine log_unique hs ?_ ?_
      · by_contra hc
        push Not at hc
        have h1 : s * s < (2 : ℝ) ^ e * (2 : ℝ) ^ e := mul_self_lt_mul_self hs.le hc
        rw [hss, ← p2] at h1
        have h2 : (2 : ℝ) ^ (2 * e) ≤ (2 : ℝ) ^ Int.log 2 q := zpow_le_zpow_right₀ (by norm_num) (by omega)
        linarith
      · by_contra hc
        push Not at hc
        have h1 : (2 : ℝ) ^ (e + 1) * (2 : ℝ) ^ (e + 1) ≤ s * s := mul_self_le_mul_self (by positivity) hc
        rw [hss, ← p2] at h1
        have h2 : (2 : ℝ) ^ (Int.log 2 q + 1) ≤ (2 : ℝ) ^ (2 * (e + 1)) := zpow_le_zpow_right₀ (by norm_num) (by omega)
        linarith
    unfold BallFl.pos53 sqrtPos
    rw [hlog]
    simp only
    rw [← he]
    set y := q * (4 : ℚ) ^ (52 - e) with ey
    set x := s * (2 : ℝ) ^ (52 - e) with ex
    have hx0 : 0 < x := by positivity
    have hxy : x * x = (y : ℝ) := by
      rw [ex, ey]
      push_cast
      rw [← hss, show (4 : ℝ) = 2 * 2 by norm_num, mul_zpow]
      ring
    have hx53 : x < 2 ^ 53 := by
      have := BallFl.lt_log s
      rw [hlog] at this
      have h3 := mul_lt_mul_of_pos_right this (by positivity : (0 : ℝ) < (2 : ℝ) ^ (52 - e))
      rw [← zpow_add₀ (by norm_num), show e + 1 + (52 - e) = 53 by ring] at h3
      exact_mod_cast h3
    have hy0 : 0 ≤ y := by positivity
    have hn : ⌊y⌋₊ < (0 + 2 ^ 53) * (0 + 2 ^ 53) := by
      rw [Nat.floor_lt hy0]
      have : (y : ℝ) < (2 ^ 53) * (2 ^ 53) := by rw [← hxy]; exact mul_self_lt_mul_self hx0.le hx53
      have : y < (2 ^ 53) * (2 ^ 53) := by exact_mod_cast this
      push_cast
      linarith
    obtain ⟨k1, k2⟩ := bits_spec 53 ⌊y⌋₊ 0 (Nat.zero_le _) hn
    generalize bits 53 ⌊y⌋₊ 0 = k at k1 k2
    have k1' : (k : ℝ) * k ≤ y := by
      have h1 : ((k * k : ℕ) : ℚ) ≤ y := (Nat.cast_le.2 k1).trans (Nat.floor_le hy0)
      have h2 : (((k * k : ℕ) : ℚ) : ℝ) ≤ (y : ℝ) := by exact_mod_cast h1
      push_cast at h2
      exact h2
    have k2' : (y : ℝ) < (k + 1) * (k + 1) := by
      have h1 : y < ((k + 1) * (k + 1) : ℕ) := (Nat.floor_lt hy0).1 k2
      have h2 : (y : ℝ) < (((k + 1) * (k + 1) : ℕ) : ℚ) := by exact_mod_cast h1
      push_cast at h2
      exact h2
    rw [← hxy] at k1' k2'
    have kx : (k : ℝ) ≤ x := by
      by_contra hc
      push Not at hc
      exact absurd (mul_self_lt_mul_self hx0.le hc) (not_lt.2 k1')
    have xk : x < k + 1 := by
      by_contra hc
      push Not at hc
      exact absurd (mul_self_le_mul_self (by positivity) hc) (not_le.2 k2')
    have hcmp : (y < ((k : ℚ) + 1 / 2) * (k + 1 / 2)) ↔ x < k + 1 / 2 := by
      have e1 : (y < ((k : ℚ) + 1 / 2) * (k + 1 / 2)) ↔ (y : ℝ) < ((k : ℝ) + 1 / 2) * (k + 1 / 2) := by
        rw [← Rat.cast_lt (K := ℝ)]
        push_cast
        rfl
      rw [e1, ← hxy]
      constructor
      · intro h
        by_contra hc
        push Not at hc
        exact absurd (mul_self_le_mul_self (by positivity) hc) (not_le.2 h)
      · exact fun h => mul_self_lt_mul_self hx0.le h
    have hround : ((round x : ℤ) : ℝ) = ((if y < ((k : ℚ) + 1 / 2) * (k + 1 / 2) then (k : ℚ) else k + 1 : ℚ) : ℝ) := by
      rw [round_eq]
      by_cases hc : x < k + 1 / 2
      · rw [if_pos (hcmp.2 hc)]
        have : ⌊x + 1 / 2⌋ = (k : ℤ) := Int.floor_eq_iff.2 ⟨by push_cast; linarith, by push_cast; linarith⟩
        rw [this]; simp
      · rw [if_neg (fun h => hc (hcmp.1 h))]
        push Not at hc
        have : ⌊x + 1 / 2⌋ = (k : ℤ) + 1 := Int.floor_eq_iff.2 ⟨by push_cast; linarith, by push_cast; linarith⟩
        rw [this]; simp
    rw [hround, Rat.cast_div]
    push_cast
    rfl
  · rw [sqrt64, if_neg hq, Real.sqrt_eq_zero_of_nonpos (by exact_mod_cast not_lt.1 hq), BallFl.pos53_zero]
    simp

end SM.Fl
