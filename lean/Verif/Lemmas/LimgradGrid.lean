import Verif.Model.Limgrad
import Mathlib.Tactic.Linarith
import Mathlib.Tactic.Ring
import Mathlib.Tactic.FieldSimp
import Mathlib.Tactic.Positivity

/-! Grid numbering lemmas for the limiter. -/

set_option linter.unusedSectionVars false

namespace SM.Limgrad

/-- Column-major position of `(i,j,k)` (0-based). -/
def lin (d0 d1 i j k : ℕ) : ℕ := i + d0 * (j + d1 * k)

theorem lin_div {d0 d1 i j k : ℕ} (hi : i < d0) (hj : j < d1) :
    lin d0 d1 i j k % d0 = i ∧ lin d0 d1 i j k / d0 % d1 = j ∧
    lin d0 d1 i j k / (d0 * d1) = k := by
  unfold lin
  have h0 : (i + d0 * (j + d1 * k)) / d0 = j + d1 * k := by
    rw [Nat.add_mul_div_left _ _ (by omega), Nat.div_eq_of_lt hi]; simp
  refine ⟨by rw [Nat.add_mul_mod_self_left, Nat.mod_eq_of_lt hi], ?_, ?_⟩
  · rw [h0, Nat.add_mul_mod_self_left, Nat.mod_eq_of_lt hj]
  · rw [← Nat.div_div_eq_div_mul, h0, Nat.add_mul_div_left _ _ (by omega), Nat.div_eq_of_lt hj]; simp

theorem lin_lt {d0 d1 d2 i j k : ℕ} (hi : i < d0) (hj : j < d1) (hk : k < d2) :
    lin d0 d1 i j k < d0 * d1 * d2 := by
  unfold lin
  have h1 : j + d1 * k + 1 ≤ d1 * d2 := by nlinarith
  nlinarith

theorem exists_lin {d0 d1 d2 n : ℕ} (h : n < d0 * d1 * d2) :
    ∃ i j k, i < d0 ∧ j < d1 ∧ k < d2 ∧ n = lin d0 d1 i j k := by
  have h0 : 0 < d0 := by rcases Nat.eq_zero_or_pos d0 with h' | h' <;> simp_all
  have h1 : 0 < d1 := by rcases Nat.eq_zero_or_pos d1 with h' | h' <;> simp_all
  refine ⟨n % d0, n / d0 % d1, n / (d0 * d1), Nat.mod_lt _ h0, Nat.mod_lt _ h1, ?_, ?_⟩
  · exact Nat.div_lt_of_lt_mul h
  · unfold lin
    rw [← Nat.div_div_eq_div_mul, Nat.mod_add_div, Nat.mod_add_div]

theorem ind2sub_eq {d0 d1 : ℕ} {i j k : ℕ} (hi : i < d0) (hj : j < d1) :
    ind2sub ((lin d0 d1 i j k : ℕ) + 1) d0 d1 = ((i : ℤ) + 1, (j : ℤ) + 1, (k : ℤ) + 1) := by
  unfold ind2sub
  have hk : ⌈(((lin d0 d1 i j k : ℕ) + 1 : ℤ) : ℚ) / (((d0 : ℤ) * (d1 : ℤ) : ℤ) : ℚ)⌉ = (k : ℤ) + 1 := by
    rw [Int.ceil_eq_iff]
    have hd0 : (0 : ℚ) < d0 := by exact_mod_cast (by omega : 0 < d0)
    have hd1 : (0 : ℚ) < d1 := by exact_mod_cast (by omega : 0 < d1)
    have hpos : (0 : ℚ) < (d0 : ℚ) * d1 := by positivity
    push_cast
    constructor
    · rw [lt_div_iff₀ hpos]
      have : ((d0 * d1 * k : ℕ) : ℚ) < ((lin d0 d1 i j k + 1 : ℕ) : ℚ) := by
        have : d0 * d1 * k < lin d0 d1 i j k + 1 := by unfold lin; nlinarith
        exact_mod_cast this
      push_cast at this
      linarith
    · rw [div_le_iff₀ hpos]
      have : ((lin d0 d1 i j k + 1 : ℕ) : ℚ) ≤ ((d0 * d1 * (k + 1) : ℕ) : ℚ) := by
        have : lin d0 d1 i j k + 1 ≤ d0 * d1 * (k + 1) := lin_lt hi hj (Nat.lt_succ_self k)
        exact_mod_cast this
      push_cast at this
      linarith
  simp only [hk]
  have ht : ((lin d0 d1 i j k : ℕ) : ℤ) + 1 - ((k : ℤ) + 1 - 1) * d0 * d1 = i + d0 * j + 1 := by
    unfold lin; push_cast; ring
  rw [ht]
  have hdiv : ((i : ℤ) + d0 * j + 1 - 1).tdiv d0 = j := by
    have : ((i : ℤ) + d0 * j + 1 - 1) = ((i + d0 * j : ℕ) : ℤ) := by push_cast; ring
    rw [this]
    have h2 : ((i + d0 * j : ℕ) : ℤ).tdiv (d0 : ℤ) = (((i + d0 * j) / d0 : ℕ) : ℤ) := rfl
    rw [h2, Nat.add_mul_div_left _ _ (by omega), Nat.div_eq_of_lt hi]; simp
  rw [hdiv]
  ext <;> simp <;> ring

theorem sub2ind_eq (d0 d1 i j k : ℕ) :
    sub2ind ((i : ℤ) + 1) ((j : ℤ) + 1) ((k : ℤ) + 1) d0 d1 = (lin d0 d1 i j k : ℤ) + 1 := by
  unfold sub2ind lin; push_cast; ring

/-- The stencil in 0-based grid coordinates. -/
theorem nbrs_eq {d0 d1 d2 i j k : ℕ} (hi : i < d0) (hj : j < d1) (hk : k < d2) :
    nbrs d0 d1 d2 (lin d0 d1 i j k) =
      [ lin d0 d1 i (min (j + 1) (d1 - 1)) k, lin d0 d1 i (j - 1) k,
        lin d0 d1 (min (i + 1) (d0 - 1)) j k, lin d0 d1 (i - 1) j k,
        lin d0 d1 i j (min (k + 1) (d2 - 1)), lin d0 d1 i j (k - 1) ] := by
  unfold nbrs stencil
  simp only [ind2sub_eq hi hj]
  have up : ∀ (x d : ℕ), x < d → min ((x : ℤ) + 1 + 1) d = ((min (x + 1) (d - 1) : ℕ) : ℤ) + 1 := by
    intro x d h; omega
  have dn : ∀ (x : ℕ), max ((x : ℤ) + 1 - 1) 1 = ((x - 1 : ℕ) : ℤ) + 1 := by
    intro x; omega
  rw [up j d1 hj, up i d0 hi, up k d2 hk, dn, dn, dn]
  simp only [sub2ind_eq]
  simp

theorem reshape_lin {K : Type*} (d0 d1 i j k : ℕ) (v : ℕ → K) :
    reshapeF d0 d1 v i j k = v (lin d0 d1 i j k) := rfl

theorem flatten_lin {K : Type*} {d0 d1 i j k : ℕ} (hi : i < d0) (hj : j < d1) (A : ℕ → ℕ → ℕ → K) :
    flattenF d0 d1 A (lin d0 d1 i j k) = A i j k := by
  unfold flattenF
  obtain ⟨h1, h2, h3⟩ := lin_div (k := k) hi hj
  rw [h1, h2, h3]

theorem lin_inj {d0 d1 i j k i' j' k' : ℕ} (hi : i < d0) (hj : j < d1) (hi' : i' < d0) (hj' : j' < d1)
    (h : lin d0 d1 i j k = lin d0 d1 i' j' k') : i = i' ∧ j = j' ∧ k = k' := by
  obtain ⟨h1, h2, h3⟩ := lin_div (k := k) hi hj
  obtain ⟨g1, g2, g3⟩ := lin_div (k := k') hi' hj'
  rw [h] at h1 h2 h3
  omega

end SM.Limgrad
