import Verif.Model.Sizing
import Verif.Props.Limgrad
import Mathlib.Algebra.Order.Chebyshev
import Mathlib.Tactic.FieldSimp
import Mathlib.Tactic.Linarith
import Mathlib.Tactic.Ring
import Mathlib.Tactic.Positivity

/-! Helper lemmas for the sizing pipeline. -/

set_option linter.unusedSectionVars false

namespace SM.Sizing

variable {K : Type*} [Field K] [LinearOrder K] [IsStrictOrderedRing K]

/-! ### amax / amin -/

theorem foldl_max_ge {α : Type*} (g : α → K) (l : List α) (x : K) :
    x ≤ l.foldl (fun m n => max m (g n)) x := by
  induction l generalizing x with
  | nil => exact le_rfl
  | cons a l ih => exact le_trans (le_max_left _ _) (ih _)

theorem foldl_max_mem_le {α : Type*} (g : α → K) {l : List α} (x : K) {a : α} (h : a ∈ l) :
    g a ≤ l.foldl (fun m n => max m (g n)) x := by
  induction l generalizing x with
  | nil => simp at h
  | cons b l ih =>
    rcases List.mem_cons.1 h with rfl | h
    · exact le_trans (le_max_right _ _) (foldl_max_ge g l _)
    · exact ih _ h

theorem foldl_max_attained {α : Type*} (g : α → K) (l : List α) (x : K) :
    l.foldl (fun m n => max m (g n)) x = x ∨ ∃ a ∈ l, l.foldl (fun m n => max m (g n)) x = g a := by
  induction l generalizing x with
  | nil => left; rfl
  | cons b l ih =>
    rcases ih (max x (g b)) with h | ⟨a, ha, h⟩
    · rcases max_choice x (g b) with e | e
      · left; rw [List.foldl_cons, h, e]
      · right; exact ⟨b, by simp, by rw [List.foldl_cons, h, e]⟩
    · right; exact ⟨a, by simp [ha], by rw [List.foldl_cons, h]⟩

theorem le_amax {d0 d1 d2 : ℕ} (A : Arr K) {i j k : ℕ} (hi : i < d0) (hj : j < d1) (hk : k < d2) :
    A i j k ≤ amax d0 d1 d2 A := by
  have := foldl_max_mem_le (Limgrad.flattenF d0 d1 A) (A 0 0 0)
    (List.mem_range.2 (Limgrad.lin_lt hi hj hk))
  rwa [Limgrad.flatten_lin hi hj] at this

theorem amax_attained {d0 d1 d2 : ℕ} (A : Arr K) (h0 : 0 < d0) (h1 : 0 < d1) (h2 : 0 < d2) :
    ∃ i < d0, ∃ j < d1, ∃ k < d2, amax d0 d1 d2 A = A i j k := by
  rcases foldl_max_attained (Limgrad.flattenF d0 d1 A) (List.range (d0 * d1 * d2)) (A 0 0 0) with
    h | ⟨n, hn, h⟩
  · exact ⟨0, h0, 0, h1, 0, h2, h⟩
  · obtain ⟨i, j, k, hi, hj, hk, rfl⟩ := Limgrad.exists_lin (List.mem_range.1 hn)
    exact ⟨i, hi, j, hj, k, hk, by rw [amax, h, Limgrad.flatten_lin hi hj]⟩

theorem amin_eq (d0 d1 d2 : ℕ) (A : Arr K) :
    amin d0 d1 d2 A = Limgrad.minElement (d0 * d1 * d2) (Limgrad.flattenF d0 d1 A) := by
  simp [amin, Limgrad.minElement, Limgrad.flattenF]

theorem amin_le {d0 d1 d2 : ℕ} (A : Arr K) {i j k : ℕ} (hi : i < d0) (hj : j < d1) (hk : k < d2) :
    amin d0 d1 d2 A ≤ A i j k := by
  rw [amin_eq]
  have := Limgrad.minElement_le (f := Limgrad.flattenF d0 d1 A) (Limgrad.lin_lt hi hj hk)
  rwa [Limgrad.flatten_lin hi hj] at this

theorem amin_attained {d0 d1 d2 : ℕ} (A : Arr K) (h0 : 0 < d0) (h1 : 0 < d1) (h2 : 0 < d2) :
    ∃ i < d0, ∃ j < d1, ∃ k < d2, amin d0 d1 d2 A = A i j k := by
  rw [amin_eq]
  obtain ⟨⟨i, j, k⟩, hp, h⟩ := (Limgrad.isMin_minElement (d0 := d0) (d1 := d1) (d2 := d2)
    (by positivity) A).2
  exact ⟨i, hp.1, j, hp.2.1, k, hp.2.2, h.symm⟩

theorem le_amin {d0 d1 d2 : ℕ} (A : Arr K) (h0 : 0 < d0) (h1 : 0 < d1) (h2 : 0 < d2) {x : K}
    (h : ∀ i < d0, ∀ j < d1, ∀ k < d2, x ≤ A i j k) : x ≤ amin d0 d1 d2 A := by
  obtain ⟨i, hi, j, hj, k, hk, e⟩ := amin_attained A h0 h1 h2
  rw [e]; exact h i hi j hj k hk

theorem amax_le {d0 d1 d2 : ℕ} (A : Arr K) (h0 : 0 < d0) (h1 : 0 < d1) (h2 : 0 < d2) {x : K}
    (h : ∀ i < d0, ∀ j < d1, ∀ k < d2, A i j k ≤ x) : amax d0 d1 d2 A ≤ x := by
  obtain ⟨i, hi, j, hj, k, hk, e⟩ := amax_attained A h0 h1 h2
  rw [e]; exact h i hi j hj k hk

/-! ### clamp / finite -/

theorem clamp_nan (hmin hmax : K) : clamp hmin hmax .nan = .nan := by
  unfold clamp
  have h1 : ¬ fltK (Fl.nan : Fl K) hmin := id
  have h2 : ¬ fgtK (Fl.nan : Fl K) hmax := id
  simp only [if_neg h1, if_neg h2]

theorem clamp_pinf (hmin hmax : K) : clamp hmin hmax .pinf = .fin hmax := by
  unfold clamp
  have h1 : ¬ fltK (Fl.pinf : Fl K) hmin := id
  have h2 : fgtK (Fl.pinf : Fl K) hmax := trivial
  simp only [if_neg h1, if_pos h2]

theorem fgt_step (hmax y : K) :
    (if fgtK (Fl.fin y) hmax then Fl.fin hmax else Fl.fin y) = Fl.fin (min hmax y) := by
  by_cases h : fgtK (Fl.fin y) hmax
  · rw [if_pos h, min_eq_left (le_of_lt h)]
  · rw [if_neg h, min_eq_right (not_lt.1 h)]

theorem clamp_ninf (hmin hmax : K) : clamp hmin hmax .ninf = .fin (min hmax hmin) := by
  unfold clamp
  have h1 : fltK (Fl.ninf : Fl K) hmin := trivial
  simp only [if_pos h1, fgt_step]

theorem clamp_fin (hmin hmax y : K) : clamp hmin hmax (.fin y) = .fin (min hmax (max hmin y)) := by
  unfold clamp
  by_cases h1 : fltK (Fl.fin y) hmin
  · simp only [if_pos h1, fgt_step, max_eq_left (le_of_lt h1)]
  · simp only [if_neg h1, fgt_step, max_eq_right (not_lt.1 h1)]

theorem clamp_bounds {hmin hmax x : K} {v : Fl K} (h : clamp hmin hmax v = .fin x) :
    x ≤ hmax ∧ (hmin ≤ hmax → hmin ≤ x) := by
  cases v with
  | nan => rw [clamp_nan] at h; cases h
  | ninf => rw [clamp_ninf] at h; cases h; exact ⟨min_le_left _ _, fun h => le_min h le_rfl⟩
  | pinf => rw [clamp_pinf] at h; cases h; exact ⟨le_rfl, id⟩
  | fin y =>
    rw [clamp_fin] at h; cases h
    exact ⟨min_le_left _ _, fun h => le_min h (le_max_left _ _)⟩

/-- A clamped value is at most `max hmin v`. -/
theorem clamp_le {hmin hmax x y : K} {v : Fl K} (hv : v = .ninf ∨ ∃ w ≤ y, v = .fin w)
    (h : clamp hmin hmax v = .fin x) : x ≤ max hmin y := by
  rcases hv with rfl | ⟨w, hw, rfl⟩
  · rw [clamp_ninf] at h; cases h; exact le_trans (min_le_right _ _) (le_max_left _ _)
  · rw [clamp_fin] at h; cases h; exact le_trans (min_le_right _ _) (max_le_max le_rfl hw)

/-- After clamping a value is finite or NaN, and it is NaN exactly if it was before. -/
theorem clamp_cases (hmin hmax : K) (v : Fl K) :
    (clamp hmin hmax v = .nan ∧ v = .nan) ∨ ((∃ x, clamp hmin hmax v = .fin x) ∧ v ≠ .nan) := by
  cases v with
  | nan => left; exact ⟨clamp_nan _ _, rfl⟩
  | ninf => right; exact ⟨⟨_, clamp_ninf _ _⟩, by simp⟩
  | pinf => right; exact ⟨⟨_, clamp_pinf _ _⟩, by simp⟩
  | fin y => right; exact ⟨⟨_, clamp_fin _ _ _⟩, by simp⟩

theorem finite_some {d0 d1 d2 : ℕ} {A : Arr (Fl K)} {B : Arr K} (h : finite d0 d1 d2 A = some B)
    {i j k : ℕ} (hi : i < d0) (hj : j < d1) (hk : k < d2) : A i j k = .fin (B i j k) := by
  unfold finite at h
  split_ifs at h with hall
  cases h
  simp only [List.all_eq_true, List.mem_range] at hall
  have := hall i hi j hj k hk
  cases hA : A i j k with
  | fin x => simp only [hA]
  | nan => rw [hA] at this; cases this
  | ninf => rw [hA] at this; cases this
  | pinf => rw [hA] at this; cases this

theorem finite_none {d0 d1 d2 : ℕ} {A : Arr (Fl K)} (h : finite d0 d1 d2 A = none) :
    ∃ i < d0, ∃ j < d1, ∃ k < d2, ∀ x, A i j k ≠ .fin x := by
  by_contra hcon
  push Not at hcon
  unfold finite at h
  rw [if_pos] at h
  · cases h
  · simp only [List.all_eq_true, List.mem_range]
    intro i hi j hj k hk
    obtain ⟨x, hx⟩ := hcon i hi j hj k hk
    rw [hx]

theorem finite_isSome {d0 d1 d2 : ℕ} {A : Arr (Fl K)}
    (h : ∀ i < d0, ∀ j < d1, ∀ k < d2, ∃ x, A i j k = .fin x) : ∃ B, finite d0 d1 d2 A = some B := by
  cases hf : finite d0 d1 d2 A with
  | some B => exact ⟨B, rfl⟩
  | none =>
    obtain ⟨i, hi, j, hj, k, hk, hx⟩ := finite_none hf
    obtain ⟨x, e⟩ := h i hi j hj k hk
    exact absurd e (hx x)

/-! ### the window mean -/

theorem reflect_lt {n : ℕ} (hn : 0 < n) (k : ℤ) : reflect n k < n := by
  unfold reflect
  have h1 : 0 ≤ k % (2 * n : ℤ) := Int.emod_nonneg _ (by omega)
  have h2 : k % (2 * n : ℤ) < 2 * n := Int.emod_lt_of_pos _ (by omega)
  simp only
  split_ifs with h
  · exact h
  · omega

theorem ufilt1_add (w n : ℕ) (f g : ℕ → K) (i : ℕ) :
    ufilt1 w n (fun x => f x + g x) i = ufilt1 w n f i + ufilt1 w n g i := by
  unfold ufilt1; split_ifs
  · rfl
  · rw [Finset.sum_add_distrib, add_div]

theorem ufilt1_smul (w n : ℕ) (c : K) (f : ℕ → K) (i : ℕ) :
    ufilt1 w n (fun x => c * f x) i = c * ufilt1 w n f i := by
  unfold ufilt1; split_ifs
  · rfl
  · rw [← Finset.mul_sum, mul_div_assoc]

theorem ufilt1_const (w n : ℕ) (c : K) (i : ℕ) : ufilt1 w n (fun _ => c) i = c := by
  unfold ufilt1; split_ifs with h
  · rfl
  · have : (w : K) ≠ 0 := by exact_mod_cast (by omega : w ≠ 0)
    rw [Finset.sum_const, Finset.card_range, nsmul_eq_mul]; field_simp

theorem ufilt1_mono {w n : ℕ} (hn : 0 < n) {f g : ℕ → K} (h : ∀ x < n, f x ≤ g x) {i : ℕ}
    (hi : i < n) : ufilt1 w n f i ≤ ufilt1 w n g i := by
  unfold ufilt1; split_ifs
  · exact h i hi
  · have : (0 : K) ≤ w := by positivity
    exact div_le_div_of_nonneg_right (Finset.sum_le_sum fun j _ => h _ (reflect_lt hn _)) this

theorem ufilt_add (d0 d1 d2 : ℕ) (w : ℕ × ℕ × ℕ) (A B : Arr K) (i j k : ℕ) :
    ufilt d0 d1 d2 w (fun i j k => A i j k + B i j k) i j k =
      ufilt d0 d1 d2 w A i j k + ufilt d0 d1 d2 w B i j k := by
  simp only [ufilt, ufilt1_add]

theorem ufilt_smul (d0 d1 d2 : ℕ) (w : ℕ × ℕ × ℕ) (c : K) (A : Arr K) (i j k : ℕ) :
    ufilt d0 d1 d2 w (fun i j k => c * A i j k) i j k = c * ufilt d0 d1 d2 w A i j k := by
  simp only [ufilt, ufilt1_smul]

theorem ufilt_const (d0 d1 d2 : ℕ) (w : ℕ × ℕ × ℕ) (c : K) (i j k : ℕ) :
    ufilt d0 d1 d2 w (fun _ _ _ => c) i j k = c := by
  simp only [ufilt, ufilt1_const]

theorem ufilt_nonneg {d0 d1 d2 : ℕ} {w : ℕ × ℕ × ℕ} {A : Arr K}
    (h : ∀ i < d0, ∀ j < d1, ∀ k < d2, 0 ≤ A i j k) {i j k : ℕ} (hi : i < d0) (hj : j < d1)
    (hk : k < d2) : 0 ≤ ufilt d0 d1 d2 w A i j k := by
  have m : ∀ (w n : ℕ) (f : ℕ → K), (∀ x < n, 0 ≤ f x) → ∀ i < n, 0 ≤ ufilt1 w n f i := by
    intro w n f hf i hi
    have := ufilt1_mono (w := w) (f := fun _ => (0 : K)) (by omega) hf hi
    rwa [ufilt1_const] at this
  simp only [ufilt]
  refine m _ _ _ (fun k hk => m _ _ _ (fun j hj => m _ _ _ (fun i hi => h i hi j hj k hk) _ hi) _ hj)
    _ hk

/-! ### padding -/

theorem pad1_lin (st : Style) (a b m m' : K) (n p q : ℕ) (f g : ℕ → K) (i : ℕ) :
    pad1 st (a * m + b * m') n p q (fun x => a * f x + b * g x) i =
      a * pad1 st m n p q f i + b * pad1 st m' n p q g i := by
  unfold pad1
  split_ifs <;> cases st <;> simp only <;> ring

theorem pad1_const (st : Style) (c : K) (n p q : ℕ) (i : ℕ) : pad1 st c n p q (fun _ => c) i = c := by
  unfold pad1
  split_ifs <;> cases st <;> simp

theorem pad1_nonneg {st : Style} {m : K} {n p q : ℕ} {f : ℕ → K} (hm : 0 ≤ m) (hn : 0 < n)
    (hf : ∀ x < n, 0 ≤ f x) {i : ℕ} (hi : i < p + n + q) : 0 ≤ pad1 st m n p q f i := by
  unfold pad1
  split_ifs with h1 h2
  · cases st
    · exact hf 0 hn
    · exact hm
    · simp only
      have hp : (0 : K) < p := by exact_mod_cast (by omega : 0 < p)
      have hip : (i : K) ≤ p := by exact_mod_cast h1.le
      have h0 := hf 0 hn
      have : m + i * ((f 0 - m) / p) = ((p - i) * m + i * f 0) / p := by field_simp; ring
      rw [this]
      have : (0 : K) ≤ p - i := by linarith
      positivity
  · exact hf _ (by omega)
  · cases st
    · exact hf _ (by omega)
    · exact hm
    · simp only
      have hp : (0 : K) < q := by exact_mod_cast (by omega : 0 < q)
      set r := q - 1 - (i - p - n) with hr
      have hip : (r : K) ≤ q := by exact_mod_cast (by omega : r ≤ q)
      have h0 := hf (n - 1) (by omega)
      have : m + r * ((f (n - 1) - m) / q) = ((q - r) * m + r * f (n - 1)) / q := by
        field_simp; ring
      rw [this]
      have : (0 : K) ≤ q - r := by linarith
      positivity

theorem pad3_lin (st : Style) (a b m m' : K) (d0 d1 d2 b0 b1 b2 : ℕ) (A B : Arr K) (i j k : ℕ) :
    pad3 st (a * m + b * m') d0 d1 d2 b0 b1 b2 (fun i j k => a * A i j k + b * B i j k) i j k =
      a * pad3 st m d0 d1 d2 b0 b1 b2 A i j k + b * pad3 st m' d0 d1 d2 b0 b1 b2 B i j k := by
  simp only [pad3, pad1_lin]

theorem pad3_const (st : Style) (c : K) (d0 d1 d2 b0 b1 b2 : ℕ) (i j k : ℕ) :
    pad3 st c d0 d1 d2 b0 b1 b2 (fun _ _ _ => c) i j k = c := by
  simp only [pad3, pad1_const]

theorem pad3_nonneg {st : Style} {m : K} {d0 d1 d2 b0 b1 b2 : ℕ} {A : Arr K} (hm : 0 ≤ m)
    (h0 : 0 < d0) (h1 : 0 < d1) (h2 : 0 < d2)
    (hA : ∀ i < d0, ∀ j < d1, ∀ k < d2, 0 ≤ A i j k) {i j k : ℕ} (hi : i < d0 + b0)
    (hj : j < d1 + 2 * b1) (hk : k < d2 + 2 * b2) : 0 ≤ pad3 st m d0 d1 d2 b0 b1 b2 A i j k := by
  simp only [pad3]
  refine pad1_nonneg hm h2 (fun k hk => pad1_nonneg hm h1 (fun j hj => pad1_nonneg hm h0
    (fun i hi => hA i hi j hj k hk) (by omega)) (by omega)) (by omega)

/-- Monotonicity-type consequence: a linear inequality between two fields survives padding. -/
theorem pad3_lin_le {st : Style} {a b m m' : K} {d0 d1 d2 b0 b1 b2 : ℕ} {A B : Arr K}
    (hm : a * m ≤ b * m') (h0 : 0 < d0) (h1 : 0 < d1) (h2 : 0 < d2)
    (hA : ∀ i < d0, ∀ j < d1, ∀ k < d2, a * A i j k ≤ b * B i j k) {i j k : ℕ} (hi : i < d0 + b0)
    (hj : j < d1 + 2 * b1) (hk : k < d2 + 2 * b2) :
    a * pad3 st m d0 d1 d2 b0 b1 b2 A i j k ≤ b * pad3 st m' d0 d1 d2 b0 b1 b2 B i j k := by
  have := pad3_nonneg (st := st) (m := b * m' + (-a) * m)
    (A := fun i j k => b * B i j k + (-a) * A i j k) (b0 := b0) (b1 := b1) (b2 := b2)
    (by linarith) h0 h1 h2 (fun i hi j hj k hk => by have := hA i hi j hj k hk; linarith) hi hj hk
  rw [pad3_lin] at this
  linarith

/-- In the styles `edge` and `constant` every padded value is a value of the array or `m`,
chosen independently of the array. -/
theorem pad1_select {st : Style} (hst : st ≠ .linearRamp) {n p q : ℕ} (hn : 0 < n) {i : ℕ}
    (_hi : i < p + n + q) :
    (∃ i' < n, ∀ (m : K) (f : ℕ → K), pad1 st m n p q f i = f i') ∨
      ∀ (m : K) (f : ℕ → K), pad1 st m n p q f i = m := by
  unfold pad1
  split_ifs with h1 h2
  · cases st
    · left; exact ⟨0, hn, fun _ _ => rfl⟩
    · right; exact fun _ _ => rfl
    · exact absurd rfl hst
  · left; exact ⟨_, by omega, fun _ _ => rfl⟩
  · cases st
    · left; exact ⟨n - 1, by omega, fun _ _ => rfl⟩
    · right; exact fun _ _ => rfl
    · exact absurd rfl hst

theorem pad3_select {st : Style} (hst : st ≠ .linearRamp) {d0 d1 d2 b0 b1 b2 : ℕ}
    (h0 : 0 < d0) (h1 : 0 < d1) (h2 : 0 < d2) {i j k : ℕ} (_hi : i < d0 + b0)
    (_hj : j < d1 + 2 * b1) (_hk : k < d2 + 2 * b2) :
    (∃ i' < d0, ∃ j' < d1, ∃ k' < d2, ∀ (m : K) (A : Arr K),
      pad3 st m d0 d1 d2 b0 b1 b2 A i j k = A i' j' k') ∨
      ∀ (m : K) (A : Arr K), pad3 st m d0 d1 d2 b0 b1 b2 A i j k = m := by
  simp only [pad3]
  rcases pad1_select (K := K) hst (p := b2) (q := b2) h2 (i := k) (by omega) with ⟨k', hk', e2⟩ | e2
  · rcases pad1_select (K := K) hst (p := b1) (q := b1) h1 (i := j) (by omega) with ⟨j', hj', e1⟩ | e1
    · rcases pad1_select (K := K) hst (p := b0) (q := 0) h0 (i := i) (by omega) with
        ⟨i', hi', e0⟩ | e0
      · left; exact ⟨i', hi', j', hj', k', hk', fun m A => by simp only [e2, e1, e0]⟩
      · right; exact fun m A => by simp only [e2, e1, e0]
    · right; exact fun m A => by simp only [e2, e1]
  · right; exact fun m A => by simp only [e2]

/-- The unpadded array is a block of the padded one. -/
theorem pad3_block (st : Style) (m : K) (d0 d1 d2 b0 b1 b2 : ℕ) (A : Arr K) {i j k : ℕ}
    (hi : i < d0) (hj : j < d1) (hk : k < d2) :
    pad3 st m d0 d1 d2 b0 b1 b2 A (b0 + i) (b1 + j) (b2 + k) = A i j k := by
  have e : ∀ (n p q x : ℕ) (f : ℕ → K), x < n → pad1 st m n p q f (p + x) = f x := by
    intro n p q x f hx
    unfold pad1
    rw [if_neg (by omega), if_pos (by omega)]
    congr 1; omega
  simp only [pad3, e _ _ _ _ _ hi, e _ _ _ _ _ hj, e _ _ _ _ _ hk]

/-! ### inversion of the pipeline -/

theorem courant_ok {dim : ℕ} {vp cell R : Arr K} {crMax dt so : K}
    (h : courant dim vp cell crMax dt so = .ok R) :
    ((crMax = 0 ∨ dt = 0 ∨ so = 0) ∧ R = cell) ∨ (0 < crMax ∧ 0 < dt ∧ 1 ≤ so ∧ ∀ i j k, R i j k =
      if (vp i j k * dt) / (dim * cell i j k) > crMax / (dim * so) then
        (vp i j k * dt) / (dim * (crMax / (dim * so))) else cell i j k) := by
  unfold courant at h
  split_ifs at h with h1 h2 h3 h4
  · left; cases h; exact ⟨h1, rfl⟩
  · push Not at h1
    right; cases h
    exact ⟨lt_of_le_of_ne (not_lt.1 h2) (Ne.symm h1.1),
      lt_of_le_of_ne (not_lt.1 h3) (Ne.symm h1.2.1), not_lt.1 h4, fun i j k => rfl⟩

/-- The Courant stage on one node with a positive size: it is the maximum of the old size and
the smallest size compatible with the Courant number. -/
theorem courant_max {dim : ℕ} (hd : 0 < dim) {vp c crMax dt so : K} (hc : 0 < c) (hcr : 0 < crMax)
    (hso : 1 ≤ so) :
    (if (vp * dt) / (dim * c) > crMax / (dim * so) then
        (vp * dt) / (dim * (crMax / (dim * so))) else c) = max c (vp * dt * so / crMax) := by
  have hd' : (0 : K) < dim := by exact_mod_cast hd
  have hso' : 0 < so := by linarith
  have e : (vp * dt) / (dim * (crMax / (dim * so))) = vp * dt * so / crMax := by
    field_simp
  have hiff : ((vp * dt) / (dim * c) > crMax / (dim * so)) ↔ c < vp * dt * so / crMax := by
    rw [gt_iff_lt, div_lt_div_iff₀ (by positivity) (by positivity), lt_div_iff₀ hcr]
    constructor
    · intro h
      have : dim * (crMax * c) < dim * (vp * dt * so) := by linarith
      have := lt_of_mul_lt_mul_left this hd'.le
      linarith
    · intro h
      have := mul_lt_mul_of_pos_left h hd'
      linarith
  rw [e]
  split_ifs with h
  · rw [max_eq_right (hiff.1 h).le]
  · rw [max_eq_left (not_lt.1 fun h' => h (hiff.2 h'))]

variable [FloorSemiring K]

theorem sizing_some {imax : ℕ} {seps : K} {d0 d1 d2 : ℕ} {o : Opts K} {names : List String}
    {bbox : List K} {vp0 : Arr K} {out : Out K}
    (h : sizing imax seps d0 d1 d2 o names bbox vp0 = .ok (some out)) :
    ∃ vp bb req cell cell1 cell2,
      replaceWater d0 d1 d2 o.vpWater (convertUnits o.units vp0) = .ok vp ∧
      parseBbox bbox = .ok bb ∧ checkNames names = .ok () ∧
      requested d0 d1 d2 o vp = .ok req ∧
      finite d0 d1 d2 (fun i j k => clamp o.hmin o.hmax (req i j k)) = some cell ∧
      courant bb.dim vp cell o.crMax o.dt o.spaceOrder = .ok cell1 ∧
      gradation imax seps d0 d1 d2 cell1 o.grade (bb.zLen / d0) = .ok cell2 ∧
      buildPad d0 d1 d2 cell2 vp bb o.domainPad o.padStyle = .ok out := by
  unfold sizing at h
  cases h1 : replaceWater d0 d1 d2 o.vpWater (convertUnits o.units vp0) with
  | error e => rw [h1] at h; cases h
  | ok vp =>
  cases h2 : parseBbox bbox with
  | error e => rw [h1, h2] at h; cases h
  | ok bb =>
  cases h3 : checkNames names with
  | error e => rw [h1, h2, h3] at h; cases h
  | ok u =>
  cases h4 : requested d0 d1 d2 o vp with
  | error e => rw [h1, h2, h3] at h; simp only [h4] at h; cases h
  | ok req =>
  rw [h1, h2, h3] at h; simp only [h4] at h
  cases h5 : finite d0 d1 d2 (fun i j k => clamp o.hmin o.hmax (req i j k)) with
  | none =>
    rw [h5] at h
    simp only [Option.map_none] at h
    split at h <;> try cases h
    split at h <;> try cases h
    split at h <;> cases h
  | some cell =>
  rw [h5] at h
  simp only [Option.getD_some, Option.map_some] at h
  cases h6 : courant bb.dim vp cell o.crMax o.dt o.spaceOrder with
  | error e => rw [h6] at h; cases h
  | ok cell1 =>
  rw [h6] at h; simp only at h
  cases h7 : gradation imax seps d0 d1 d2 cell1 o.grade (bb.zLen / d0) with
  | error e => rw [h7] at h; cases h
  | ok cell2 =>
  rw [h7] at h; simp only at h
  cases h8 : buildPad d0 d1 d2 cell2 vp bb o.domainPad o.padStyle with
  | error e => rw [h8] at h; cases h
  | ok out' =>
  rw [h8] at h; simp only [Except.ok.injEq, Option.some.injEq] at h
  subst h
  exact ⟨vp, bb, req, cell, cell1, cell2, rfl, rfl, rfl, h4, h5, h6, h7, h8⟩

theorem gradation_ok {imax : ℕ} {seps : K} {d0 d1 d2 : ℕ} {A R : Arr K} {grade elen : K}
    (h : gradation imax seps d0 d1 d2 A grade elen = .ok R) :
    ∃ c, Limgrad.enforceGradation imax d0 d1 d2 seps A grade elen = .ok (R, c) := by
  unfold gradation at h
  split at h
  · rename_i r hr; cases h; exact ⟨r.2, hr⟩
  · cases h

/-- The padding stage as one formula. -/
theorem buildPad_ok {d0 d1 d2 : ℕ} {cell vp : Arr K} {bb : Bbox K} {pad : K} {style : String}
    {out : Out K} (h : buildPad d0 d1 d2 cell vp bb pad style = .ok out) :
    (pad = 0 ∧ out = ⟨d0, d1, d2, cell, vp, bb⟩) ∨
    (0 < pad ∧ ∃ st b0 b1 b2, parseStyle style = .ok st ∧
      out.d0 = d0 + b0 ∧ out.d1 = d1 + 2 * b1 ∧ out.d2 = d2 + 2 * b2 ∧
      out.cell = pad3 st (amax d0 d1 d2 cell) d0 d1 d2 b0 b1 b2 cell ∧
      out.vp = pad3 st (amax d0 d1 d2 vp) d0 d1 d2 b0 b1 b2 vp) := by
  unfold buildPad at h
  split_ifs at h with h1 h2
  · right
    refine ⟨h2, ?_⟩
    cases hs : parseStyle style with
    | error e => rw [hs] at h; cases h
    | ok st =>
      rw [hs] at h
      cases bb with
      | two z0 z1 x0 x1 =>
        simp only [Except.ok.injEq] at h; subst h
        exact ⟨st, _, _, 0, rfl, rfl, rfl, rfl, rfl, rfl⟩
      | three z0 z1 x0 x1 y0 y1 =>
        simp only [Except.ok.injEq] at h; subst h
        exact ⟨st, _, _, _, rfl, rfl, rfl, rfl, rfl, rfl⟩
  · left
    cases h
    exact ⟨le_antisymm (not_lt.1 h2) (not_lt.1 h1), rfl⟩

end SM.Sizing
