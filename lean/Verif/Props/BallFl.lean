import Verif.Model.BallFl
import Verif.Props.Sdf
import Verif.Props.SdfFl
import Verif.Lemmas.Binary64
import Mathlib.Data.Rat.Floor
import Mathlib.Data.Int.Log

/-!
# C123: disks and balls in floating-point arithmetic
-/

namespace SM.BallFl

open SM.Sdf (Pt eucl)
open SM.SdfFl (Rounding Accurate)

/-! ### Specification -/

/-- `x` is positive or zero and is `y` up to `k` roundings of relative error `u`. -/
def Within (u : ℝ) (k : ℕ) (x y : ℝ) : Prop := (1 - u) ^ k * y ≤ x ∧ x ≤ (1 + u) ^ k * y

/-! ### Accumulation of relative errors -/

section
variable {rnd : ℝ → ℝ} {u : ℝ}

theorem Within.nonneg (hu : u ≤ 1) {k : ℕ} {x y : ℝ} (hy : 0 ≤ y) (h : Within u k x y) : 0 ≤ x :=
  (mul_nonneg (pow_nonneg (by linarith) _) hy).trans h.1

theorem rnd_within (ha : Accurate rnd u) {x : ℝ} (hx : 0 ≤ x) : Within u 1 (rnd x) x := by
  have := ha x
  rw [abs_of_nonneg hx, abs_le] at this
  exact ⟨by rw [pow_one]; linarith, by rw [pow_one]; linarith⟩

theorem Within.step (hu0 : 0 ≤ u) (hu : u ≤ 1) (ha : Accurate rnd u) {k : ℕ} {x y : ℝ} (hy : 0 ≤ y) (h : Within u k x y) : Within u (k + 1) (rnd x) y := by
  have hr := rnd_within ha (h.nonneg hu hy)
  rw [Within, pow_one, pow_one] at hr
  have h1 : 0 ≤ 1 - u := by linarith
  constructor
  · rw [pow_succ]
    have := mul_le_mul_of_nonneg_left h.1 h1
    linarith
  · rw [pow_succ]
    have := mul_le_mul_of_nonneg_left h.2 (by linarith : 0 ≤ 1 + u)
    linarith

theorem Within.weaken (hu0 : 0 ≤ u) (hu : u ≤ 1) {k l : ℕ} (hkl : k ≤ l) {x y : ℝ} (hy : 0 ≤ y) (h : Within u k x y) : Within u l x y := by
  constructor
  · exact (mul_le_mul_of_nonneg_right (pow_le_pow_of_le_one (by linarith) (by linarith) hkl) hy).trans h.1
  · exact h.2.trans (mul_le_mul_of_nonneg_right (pow_le_pow_right₀ (by linarith) hkl) hy)

theorem Within.add {k : ℕ} {x y x' y' : ℝ} (h : Within u k x y) (h' : Within u k x' y') : Within u k (x + x') (y + y') := by
  obtain ⟨a, b⟩ := h
  obtain ⟨a', b'⟩ := h'
  constructor <;> rw [mul_add] <;> linarith

theorem Within.sqrt (hu0 : 0 ≤ u) (hu : u ≤ 1) {k : ℕ} {x y : ℝ} (h : Within u (2 * k) x y) : Within u k √x √y := by
  have e : ∀ a : ℝ, 0 ≤ a → a ^ k * √y = √(a ^ (2 * k) * y) := fun a ha => by
    rw [Real.sqrt_mul (by positivity), mul_comm 2 k, pow_mul, Real.sqrt_sq (by positivity)]
  constructor
  · rw [e _ (by linarith)]
    exact Real.sqrt_le_sqrt h.1
  · rw [e _ (by linarith)]
    exact Real.sqrt_le_sqrt h.2

theorem sqDiff_within (hu0 : 0 ≤ u) (hu : u ≤ 1) (ha : Accurate rnd u) (a b : ℝ) : Within u 3 (sqDiff rnd a b) ((a - b) ^ 2) := by
  unfold sqDiff
  refine Within.step (k := 2) hu0 hu ha (sq_nonneg _) ?_
  have h1 := ha (a - b)
  have h2 : |rnd (a - b)| ≤ (1 + u) * |a - b| := by
    have := abs_sub_abs_le_abs_sub (rnd (a - b)) (a - b)
    linarith
  have h3 : (1 - u) * |a - b| ≤ |rnd (a - b)| := by
    have := abs_sub_abs_le_abs_sub (a - b) (rnd (a - b))
    rw [abs_sub_comm (a - b) (rnd (a - b))] at this
    linarith
  rw [← sq, ← sq_abs (rnd _), ← sq_abs (a - b), Within, ← mul_pow, ← mul_pow]
  have h0 : 0 ≤ (1 - u) * |a - b| := mul_nonneg (by linarith) (abs_nonneg _)
  exact ⟨pow_le_pow_left₀ h0 h3 2, pow_le_pow_left₀ (abs_nonneg _) h2 2⟩

/-- From the computed distance to the centre to the computed signed distance. -/
theorem finish (h : Rounding rnd) {r ρ ρ' : ℝ} {k : ℕ} (hw : Within u k ρ' ρ) :
    ((1 + u) ^ k * ρ < r → rnd (ρ' - r) < 0) ∧ (r < (1 - u) ^ k * ρ → 0 < rnd (ρ' - r)) :=
  ⟨fun h1 => h.neg.2 (by linarith [hw.2]), fun h1 => h.pos.2 (by linarith [hw.1])⟩

theorem pow_sum (hu0 : 0 ≤ u) (hu : u ≤ 1) (k : ℕ) : 1 - (1 - u) ^ k ≤ (1 + u) ^ k - 1 := by
  have h1 := one_add_mul_le_pow (a := u) (by linarith) k
  have h2 := one_add_mul_le_pow (a := -u) (by linarith) k
  rw [← sub_eq_add_neg] at h2
  linarith

theorem finish_error (hu0 : 0 ≤ u) (hu : u ≤ 1) (ha : Accurate rnd u) {r ρ ρ' : ℝ} {k : ℕ} (hr : 0 ≤ r) (hρ : 0 ≤ ρ) (hw : Within u k ρ' ρ) :
    |rnd (ρ' - r) - (ρ - r)| ≤ ((1 + u) ^ (k + 1) - 1) * max ρ r := by
  have hp := pow_sum hu0 hu k
  have h1 : |ρ' - ρ| ≤ ((1 + u) ^ k - 1) * ρ := by
    rw [abs_le]
    have := mul_le_mul_of_nonneg_right hp hρ
    constructor
    · linarith [hw.1]
    · linarith [hw.2]
  have h2 := ha (ρ' - r)
  have hk : 1 ≤ (1 + u) ^ k := one_le_pow₀ (by linarith)
  have hρ' : 0 ≤ ρ' := hw.nonneg hu hρ
  have h3 : |ρ' - r| ≤ (1 + u) ^ k * max ρ r := by
    have m1 := le_max_left ρ r
    have m2 := le_max_right ρ r
    have : 0 ≤ max ρ r := hr.trans m2
    have a1 : (1 + u) ^ k * ρ ≤ (1 + u) ^ k * max ρ r := mul_le_mul_of_nonneg_left m1 (by linarith)
    have a2 : 1 * max ρ r ≤ (1 + u) ^ k * max ρ r := mul_le_mul_of_nonneg_right hk this
    rw [abs_le]
    constructor <;> linarith [hw.2]
  have h4 : |rnd (ρ' - r) - (ρ - r)| ≤ |rnd (ρ' - r) - (ρ' - r)| + |ρ' - ρ| := by
    have := abs_add_le (rnd (ρ' - r) - (ρ' - r)) (ρ' - ρ)
    rwa [show rnd (ρ' - r) - (ρ' - r) + (ρ' - ρ) = rnd (ρ' - r) - (ρ - r) by ring] at this
  have h5 := mul_le_mul_of_nonneg_left h3 hu0
  have h6 : ((1 + u) ^ k - 1) * ρ ≤ ((1 + u) ^ k - 1) * max ρ r := mul_le_mul_of_nonneg_left (le_max_left _ _) (by linarith)
  rw [pow_succ]
  linarith

theorem disk_within (hu0 : 0 ≤ u) (hu : u ≤ 1) (ha : Accurate rnd u) (xc yc : ℝ) (p : Pt 2) :
    Within u 3 (rnd √(rnd (sqDiff rnd (p 0) xc + sqDiff rnd (p 1) yc))) (eucl p ![xc, yc]) := by
  have h1 := (sqDiff_within hu0 hu ha (p 0) xc).add (sqDiff_within hu0 hu ha (p 1) yc)
  have h2 := h1.step hu0 hu ha (by positivity)
  have h3 := (Within.sqrt hu0 hu (k := 2) h2).step hu0 hu ha (Real.sqrt_nonneg _)
  have e : eucl p ![xc, yc] = √((p 0 - xc) ^ 2 + (p 1 - yc) ^ 2) := by
    have := Sdf.ddisk_eq xc yc 0 p
    simp only [Sdf.ddisk, sub_zero] at this
    exact this.symm
  rw [e]; exact h3

theorem ball_within (hu0 : 0 ≤ u) (hu : u ≤ 1) (ha : Accurate rnd u) (xc yc zc : ℝ) (p : Pt 3) :
    Within u 4 (rnd √(rnd (rnd (sqDiff rnd (p 0) xc + sqDiff rnd (p 1) yc) + sqDiff rnd (p 2) zc))) (eucl p ![xc, yc, zc]) := by
  have h1 := ((sqDiff_within hu0 hu ha (p 0) xc).add (sqDiff_within hu0 hu ha (p 1) yc)).step hu0 hu ha (by positivity)
  have h2 := (h1.add ((sqDiff_within hu0 hu ha (p 2) zc).weaken hu0 hu (by norm_num : 3 ≤ 3 + 1) (sq_nonneg _))).step hu0 hu ha (by positivity)
  have h3 := (Within.sqrt hu0 hu (k := 3) (h2.weaken hu0 hu (by norm_num : 3 + 1 + 1 ≤ 2 * 3) (by positivity))).step hu0 hu ha (Real.sqrt_nonneg _)
  have e : eucl p ![xc, yc, zc] = √((p 0 - xc) ^ 2 + (p 1 - yc) ^ 2 + (p 2 - zc) ^ 2) := by
    have := Sdf.dball_eq xc yc zc 0 p
    simp only [Sdf.dball, sub_zero] at this
    exact this.symm
  rw [e]; exact h3

/-! ### Theorems -/

/-- **C123 (disk, sign).** The computed signed distance of a point is negative if the point is closer to the centre than `r / (1+u)^3` and positive if it is
farther than `r / (1-u)^3`. -/
theorem C123_disk_sign (h : Rounding rnd) (hu0 : 0 ≤ u) (hu : u ≤ 1) (ha : Accurate rnd u) (xc yc r : ℝ) (p : Pt 2) :
    ((1 + u) ^ 3 * eucl p ![xc, yc] < r → ddisk rnd xc yc r p < 0) ∧ (r < (1 - u) ^ 3 * eucl p ![xc, yc] → 0 < ddisk rnd xc yc r p) :=
  finish h (disk_within hu0 hu ha xc yc p)

/-- **C123 (ball, sign).** -/
theorem C123_ball_sign (h : Rounding rnd) (hu0 : 0 ≤ u) (hu : u ≤ 1) (ha : Accurate rnd u) (xc yc zc r : ℝ) (p : Pt 3) :
    ((1 + u) ^ 4 * eucl p ![xc, yc, zc] < r → dball rnd xc yc zc r p < 0) ∧ (r < (1 - u) ^ 4 * eucl p ![xc, yc, zc] → 0 < dball rnd xc yc zc r p) :=
  finish h (ball_within hu0 hu ha xc yc zc p)

/-- **C123 (disk, error).** The computed signed distance differs from the exact one by at most `(1+u)^4 - 1` times the larger of the radius and the distance
to the centre. -/
theorem C123_disk_error (hu0 : 0 ≤ u) (hu : u ≤ 1) (ha : Accurate rnd u) (xc yc : ℝ) {r : ℝ} (hr : 0 ≤ r) (p : Pt 2) :
    |ddisk rnd xc yc r p - (eucl p ![xc, yc] - r)| ≤ ((1 + u) ^ 4 - 1) * max (eucl p ![xc, yc]) r :=
  finish_error hu0 hu ha hr (Real.sqrt_nonneg _) (disk_within hu0 hu ha xc yc p)

/-- **C123 (ball, error).** -/
theorem C123_ball_error (hu0 : 0 ≤ u) (hu : u ≤ 1) (ha : Accurate rnd u) (xc yc zc : ℝ) {r : ℝ} (hr : 0 ≤ r) (p : Pt 3) :
    |dball rnd xc yc zc r p - (eucl p ![xc, yc, zc] - r)| ≤ ((1 + u) ^ 5 - 1) * max (eucl p ![xc, yc, zc]) r :=
  finish_error hu0 hu ha hr (Real.sqrt_nonneg _) (ball_within hu0 hu ha xc yc zc p)

/-- **C123 (model).** Without rounding these are the functions of the other claims. -/
theorem C123_model (xc yc zc r : ℝ) (p : Pt 2) (q : Pt 3) :
    ddisk id xc yc r p = Sdf.ddisk xc yc r p ∧ dball id xc yc zc r q = Sdf.dball xc yc zc r q := by
  simp only [ddisk, dball, sqDiff, id, Sdf.ddisk, Sdf.dball, sq, and_self]

/-- **C123 (set operations).** Sharp set operations add no error of their own: operands computed with an error of at most `e` give a union, intersection and
difference with an error of at most `e`. -/
theorem C123_set_operations {α : Type} {f g : α → ℝ} {e : ℝ} (os : List α) (h : ∀ a ∈ os, |f a - g a| ≤ e) {x y : ℝ} (hxy : |x - y| ≤ e) :
    |Sdf.unionEval 0 x (os.map f) - Sdf.unionEval 0 y (os.map g)| ≤ e ∧
    |Sdf.interEval 0 x (os.map f) - Sdf.interEval 0 y (os.map g)| ≤ e ∧
    |Sdf.diffEval 0 x (os.map f) - Sdf.diffEval 0 y (os.map g)| ≤ e := by
  simp only [Sdf.unionEval, Sdf.interEval, Sdf.diffEval, if_true, List.map_map]
  refine ⟨SdfFl.foldl_min_close os h hxy, SdfFl.foldl_max_close os h hxy, SdfFl.foldl_max_close os (fun a ha => ?_) hxy⟩
  simp only [Function.comp]
  rw [show -f a - -g a = -(f a - g a) by ring, abs_neg]
  exact h a ha

end

/-! ### binary64 on the reals -/

/-- Rounding a positive real to 53 significant bits. -/
noncomputable def pos53 (q : ℝ) : ℝ := (round (q * (2 : ℝ) ^ (52 - Int.log 2 q)) : ℤ) / (2 : ℝ) ^ (52 - Int.log 2 q)

/-- Rounding to the nearest number with 53 significant bits. -/
noncomputable def binary64 (q : ℝ) : ℝ := if 0 ≤ q then pos53 q else -pos53 (-q)

theorem log_le {q : ℝ} (h : 0 < q) : (2 : ℝ) ^ Int.log 2 q ≤ q := by
  have := Int.zpow_log_le_self (b := 2) (by norm_num) h
  exact_mod_cast this

theorem lt_log (q : ℝ) : q < (2 : ℝ) ^ (Int.log 2 q + 1) := by
  have := Int.lt_zpow_succ_log_self (b := 2) (by norm_num) q
  exact_mod_cast this

theorem round_mono' {x y : ℝ} (h : x ≤ y) : round x ≤ round y := by
  rw [round_eq, round_eq]; exact Int.floor_le_floor (by linarith)

theorem scaled {q : ℝ} (h : 0 < q) : ((2 ^ 52 : ℤ) : ℝ) ≤ q * (2 : ℝ) ^ (52 - Int.log 2 q) ∧
    q * (2 : ℝ) ^ (52 - Int.log 2 q) ≤ ((2 ^ 53 : ℤ) : ℝ) := by
  have hs : (0 : ℝ) < (2 : ℝ) ^ (52 - Int.log 2 q) := by positivity
  constructor
  · have := mul_le_mul_of_nonneg_right (log_le h) hs.le
    rw [← zpow_add₀ (by norm_num), show Int.log 2 q + (52 - Int.log 2 q) = 52 by ring] at this
    norm_num at this ⊢; exact this
  · have := mul_le_mul_of_nonneg_right (lt_log q).le hs.le
    rw [← zpow_add₀ (by norm_num), show Int.log 2 q + 1 + (52 - Int.log 2 q) = 53 by ring] at this
    norm_num at this ⊢; exact this

theorem pos53_range {q : ℝ} (h : 0 < q) : (2 : ℝ) ^ Int.log 2 q ≤ pos53 q ∧ pos53 q ≤ (2 : ℝ) ^ (Int.log 2 q + 1) := by
  obtain ⟨h1, h2⟩ := scaled h
  have hs : (0 : ℝ) < (2 : ℝ) ^ (52 - Int.log 2 q) := by positivity
  have r1 := round_mono' h1
  have r2 := round_mono' h2
  rw [round_intCast] at r1 r2
  have r1' : ((2 ^ 52 : ℤ) : ℝ) ≤ (round (q * (2 : ℝ) ^ (52 - Int.log 2 q)) : ℤ) := by exact_mod_cast r1
  have r2' : ((round (q * (2 : ℝ) ^ (52 - Int.log 2 q)) : ℤ) : ℝ) ≤ ((2 ^ 53 : ℤ) : ℝ) := by exact_mod_cast r2
  unfold pos53
  rw [le_div_iff₀ hs, div_le_iff₀ hs, ← zpow_add₀ (by norm_num), ← zpow_add₀ (by norm_num),
    show Int.log 2 q + (52 - Int.log 2 q) = 52 by ring, show Int.log 2 q + 1 + (52 - Int.log 2 q) = 53 by ring]
  norm_num at r1' r2' ⊢
  exact ⟨r1', r2'⟩

theorem pos53_pos {q : ℝ} (h : 0 < q) : 0 < pos53 q := lt_of_lt_of_le (by positivity) (pos53_range h).1

theorem pos53_zero : pos53 0 = 0 := by simp [pos53]

theorem pos53_nonneg {q : ℝ} (h : 0 ≤ q) : 0 ≤ pos53 q := by
  rcases h.eq_or_lt with rfl | h
  · rw [pos53_zero]
  · exact (pos53_pos h).le

theorem pos53_mono {q r : ℝ} (h : 0 < q) (hr : q ≤ r) : pos53 q ≤ pos53 r := by
  have hl : Int.log 2 q ≤ Int.log 2 r := Int.log_mono_right h hr
  rcases hl.eq_or_lt with e | hlt
  · unfold pos53
    rw [e]
    have hs : (0 : ℝ) < (2 : ℝ) ^ (52 - Int.log 2 r) := by positivity
    refine div_le_div_of_nonneg_right ?_ hs.le
    exact_mod_cast round_mono' (mul_le_mul_of_nonneg_right hr hs.le)
  · refine (pos53_range h).2.trans (le_trans ?_ (pos53_range (h.trans_le hr)).1)
    exact zpow_le_zpow_right₀ (by norm_num) (by omega)

theorem pos53_error {q : ℝ} (hpos : 0 < q) : |pos53 q - q| ≤ q / 9007199254740992 := by
  unfold pos53
  set e := Int.log 2 q
  have hs : (0 : ℝ) < (2 : ℝ) ^ (52 - e) := by positivity
  have hr := abs_sub_round (q * (2 : ℝ) ^ (52 - e))
  have hle : (2 : ℝ) ^ e ≤ q := log_le hpos
  have e1 : ((round (q * (2 : ℝ) ^ (52 - e)) : ℤ) : ℝ) / (2 : ℝ) ^ (52 - e) - q =
      -(q * (2 : ℝ) ^ (52 - e) - (round (q * (2 : ℝ) ^ (52 - e)) : ℤ)) / (2 : ℝ) ^ (52 - e) := by
    field_simp; ring
  rw [e1, abs_div, abs_neg, abs_of_pos hs, div_le_iff₀ hs]
  refine hr.trans ?_
  have e2 : (2 : ℝ) ^ (52 - e) = 4503599627370496 / (2 : ℝ) ^ e := by
    rw [zpow_sub₀ (by norm_num)]; norm_num
  rw [e2]
  have he : (0 : ℝ) < (2 : ℝ) ^ e := by positivity
  rw [div_mul_div_comm, div_le_div_iff₀ (by norm_num) (by positivity)]
  nlinarith

theorem binary64_neg_of_pos {q : ℝ} (h : q < 0) : binary64 q = -pos53 (-q) := if_neg (not_le.2 h)
theorem binary64_of_nonneg {q : ℝ} (h : 0 ≤ q) : binary64 q = pos53 q := if_pos h

theorem binary64_zero : binary64 0 = 0 := by rw [binary64_of_nonneg le_rfl, pos53_zero]

/-- **C123 (binary64).** Rounding to 53 significant bits satisfies the hypotheses, with `u = 2^-53`. -/
theorem C123_binary64 : Rounding binary64 ∧ Accurate binary64 (1 / 9007199254740992) := by
  refine ⟨⟨?_, fun q => ?_, fun q hq => ?_⟩, fun q => ?_⟩
  · intro q r h
    unfold binary64
    split_ifs with h1 h2 h2
    · rcases h1.eq_or_lt with rfl | h1
      · rw [pos53_zero]; exact pos53_nonneg h2
      · exact pos53_mono h1 h
    · exact absurd (h1.trans h) h2
    · have := pos53_nonneg (q := -q) (by linarith)
      have := pos53_nonneg h2
      linarith
    · have := pos53_mono (q := -r) (r := -q) (by linarith) (by linarith)
      linarith
  · rcases lt_trichotomy q 0 with h | rfl | h
    · rw [binary64_of_nonneg (by linarith), binary64_neg_of_pos h, neg_neg]
    · rw [neg_zero, binary64_zero, neg_zero]
    · rw [binary64_neg_of_pos (by linarith), binary64_of_nonneg h.le, neg_neg]
  · by_contra hne
    rcases lt_or_gt_of_ne hne with h | h
    · have := pos53_pos (q := -q) (by linarith)
      rw [binary64_neg_of_pos h] at hq; linarith
    · have := pos53_pos h
      rw [binary64_of_nonneg h.le] at hq; linarith
  · rcases lt_trichotomy q 0 with h | rfl | h
    · have := pos53_error (q := -q) (by linarith)
      rw [binary64_neg_of_pos h, abs_of_neg h, show -pos53 (-q) - q = -(pos53 (-q) - -q) by ring, abs_neg]
      linarith
    · rw [binary64_zero]; simp
    · have := pos53_error h
      rw [binary64_of_nonneg h.le, abs_of_pos h]; linarith

/-- Powers of two are kept. -/
theorem pos53_pow (n : ℤ) : pos53 ((2 : ℝ) ^ n) = (2 : ℝ) ^ n := by
  have e : Int.log 2 ((2 : ℝ) ^ n) = n := by
    have := Int.log_zpow (R := ℝ) (b := 2) (by norm_num) n
    exact_mod_cast this
  unfold pos53
  rw [e, ← zpow_add₀ (by norm_num), show n + (52 - n) = 52 by ring]
  have : ((2 : ℝ) ^ (52 : ℤ)) = ((2 ^ 52 : ℤ) : ℝ) := by norm_num
  rw [this, round_intCast, ← this, ← zpow_sub₀ (by norm_num), show 52 - (52 - n) = n by ring]

theorem pos53_one_add : pos53 (1 + 2 ^ (-60 : ℤ)) = 1 := by
  have e : Int.log 2 ((1 : ℝ) + 2 ^ (-60 : ℤ)) = 0 := by
    refine le_antisymm ?_ ?_
    · by_contra hc
      have h1 : (2 : ℝ) ^ (1 : ℤ) ≤ (2 : ℝ) ^ Int.log 2 ((1 : ℝ) + 2 ^ (-60 : ℤ)) := zpow_le_zpow_right₀ (by norm_num) (by omega)
      have h2 := log_le (q := (1 : ℝ) + 2 ^ (-60 : ℤ)) (by positivity)
      have h3 := h1.trans h2
      norm_num at h3
    · have := Int.log_mono_right (b := 2) (r₁ := (1 : ℝ)) (r₂ := 1 + 2 ^ (-60 : ℤ)) (by norm_num) (by
        have : (0 : ℝ) < 2 ^ (-60 : ℤ) := by positivity
        linarith)
      rwa [Int.log_one_right] at this
  unfold pos53
  rw [e]
  have : round (((1 : ℝ) + 2 ^ (-60 : ℤ)) * 2 ^ ((52 : ℤ) - 0)) = 2 ^ 52 := by
    rw [round_eq, Int.floor_eq_iff]
    constructor <;> norm_num
  rw [this]
  norm_num

/-- **C123 (the band is needed).** The point `(1, 2^-30)` is outside the unit disk, but its computed signed distance is 0: `1 + 2^-60` rounds to 1. -/
theorem C123_band_needed : 1 < eucl (![1, 2 ^ (-30 : ℤ)] : Pt 2) ![0, 0] ∧ ddisk binary64 0 0 1 ![1, 2 ^ (-30 : ℤ)] = 0 := by
  constructor
  · have e : eucl (![1, 2 ^ (-30 : ℤ)] : Pt 2) ![0, 0] = √(1 + 2 ^ (-60 : ℤ)) := by
      unfold eucl; rw [Fin.sum_univ_two]; norm_num
    rw [e, Real.lt_sqrt (by norm_num)]
    have : (0 : ℝ) < 2 ^ (-60 : ℤ) := by positivity
    linarith
  · have b1 : binary64 1 = 1 := by
      rw [binary64_of_nonneg (by norm_num)]; have := pos53_pow 0; simpa using this
    have b2 : binary64 (2 ^ (-30 : ℤ)) = 2 ^ (-30 : ℤ) := by rw [binary64_of_nonneg (by positivity), pos53_pow]
    have b3 : binary64 (2 ^ (-60 : ℤ)) = 2 ^ (-60 : ℤ) := by rw [binary64_of_nonneg (by positivity), pos53_pow]
    have b4 : binary64 (1 + 2 ^ (-60 : ℤ)) = 1 := by rw [binary64_of_nonneg (by positivity), pos53_one_add]
    have e2 : (2 : ℝ) ^ (-30 : ℤ) * 2 ^ (-30 : ℤ) = 2 ^ (-60 : ℤ) := by rw [← zpow_add₀ (by norm_num)]; norm_num
    simp only [ddisk, sqDiff, Matrix.cons_val_zero, Matrix.cons_val_one, sub_zero]
    rw [b1, b2, e2, b3, mul_one, b1, b4, Real.sqrt_one, b1, sub_self, binary64_zero]

/-- Non-trivial instance: at double the radius the computed distance is positive, at half the radius it is negative, for every centre. -/
example (xc yc : ℝ) (p : Pt 2) (h : eucl p ![xc, yc] = 2) : 0 < ddisk binary64 xc yc 1 p ∧ ddisk binary64 xc yc 4 p < 0 := by
  have h1 := C123_disk_sign C123_binary64.1 (by norm_num) (by norm_num) C123_binary64.2 xc yc 1 p
  have h2 := C123_disk_sign C123_binary64.1 (by norm_num) (by norm_num) C123_binary64.2 xc yc 4 p
  rw [h] at h1 h2
  exact ⟨h1.2 (by norm_num), h2.1 (by norm_num)⟩

end SM.BallFl
