import Verif.Props.Sizing
import Mathlib.Algebra.BigOperators.Field
import Mathlib.Algebra.Ring.Periodic
import Mathlib.Tactic.LinearCombination

/-!
# C11: the local variance behind the `grad` option is the variance over the window around the node

`scipy.ndimage.uniform_filter` is modelled by separable one-dimensional means; here the value at a node is
written as one mean over the `w0 × w1 × w2` window, with the array continued by reflection at its borders.
-/

namespace SM.Sizing

variable {K : Type} [Field K] [LinearOrder K] [IsStrictOrderedRing K] [FloorSemiring K]

/-- `r` continues the positions `0, ..., n-1` by reflection at the borders (`d c b a | a b c d | d c b a`). -/
def Reflects (n : ℕ) (r : ℤ → ℕ) : Prop :=
  (∀ k : ℕ, k < n → r k = k) ∧ (∀ k : ℤ, r (-1 - k) = r k) ∧ (∀ k : ℤ, r (k + 2 * n) = r k)

/-- The mean over the window of `w0 × w1 × w2` positions that starts half a window before the node `(i, j, k)`,
of an array continued by `r0`, `r1`, `r2`. -/
def windowMean (w0 w1 w2 : ℕ) (r0 r1 r2 : ℤ → ℕ) (A : Arr K) (i j k : ℕ) : K :=
  (∑ a ∈ Finset.range w0, ∑ b ∈ Finset.range w1, ∑ c ∈ Finset.range w2,
    A (r0 (i - (w0 / 2 : ℕ) + a)) (r1 (j - (w1 / 2 : ℕ) + b)) (r2 (k - (w2 / 2 : ℕ) + c))) / (w0 * w1 * w2)

theorem reflects_periodic {n : ℕ} {r : ℤ → ℕ} (h : Reflects n r) (k m : ℤ) : r (k + 2 * n * m) = r k := by
  have hp : Function.Periodic r (2 * (n : ℤ)) := fun k => h.2.2 k
  have := hp.zsmul m k
  rw [← this]; congr 1; simp only [smul_eq_mul]; ring

theorem reflects_eq {n : ℕ} (hn : 0 < n) {r : ℤ → ℕ} (h : Reflects n r) (k : ℤ) : r k = reflect n k := by
  have hpos : (0 : ℤ) < 2 * n := by omega
  have hm := Int.emod_nonneg k hpos.ne'
  have hlt := Int.emod_lt_of_pos k hpos
  have hk : r k = r (k % (2 * n)) := by
    conv_lhs => rw [← Int.emod_add_mul_ediv k (2 * n)]
    exact reflects_periodic h _ _
  obtain ⟨m, hmk⟩ := Int.eq_ofNat_of_zero_le hm
  rw [hk, hmk]
  simp only [reflect, hmk, Int.toNat_natCast]
  split_ifs with hc
  · exact h.1 m hc
  · rw [← h.2.1, ← h.2.2]
    have e : (-1 - (m : ℤ) + 2 * n) = ((2 * n - 1 - m : ℕ) : ℤ) := by omega
    rw [e]; exact h.1 _ (by omega)

theorem reflect_reflects {n : ℕ} (hn : 0 < n) : Reflects n (reflect n) := by
  refine ⟨?_, ?_, ?_⟩
  · intro k hk
    have : (k : ℤ) % (2 * n) = k := Int.emod_eq_of_lt (by omega) (by omega)
    simp [reflect, this, hk]
  · intro k
    have hpos : (0 : ℤ) < 2 * n := by omega
    have h1 := Int.emod_nonneg k hpos.ne'
    have h2 := Int.emod_lt_of_pos k hpos
    have : (-1 - k) % (2 * n : ℤ) = 2 * n - 1 - k % (2 * n) := by
      rw [Int.emod_eq_iff hpos.ne']
      refine ⟨by omega, by rw [Int.natAbs_mul]; simp; omega, ?_⟩
      have := Int.emod_add_mul_ediv k (2 * n)
      refine ⟨k / (2 * n) + 1, ?_⟩
      linear_combination -this
    simp only [reflect, this]
    split_ifs <;> omega
  · intro k; simp [reflect]

theorem ufilt1_eq {w n : ℕ} (hn : 0 < n) (hw : 1 ≤ w) {r : ℤ → ℕ} (hr : Reflects n r) (f : ℕ → K) {i : ℕ} (hi : i < n) :
    ufilt1 w n f i = (∑ a ∈ Finset.range w, f (r (i - (w / 2 : ℕ) + a))) / w := by
  unfold ufilt1
  split_ifs with h
  · obtain rfl : w = 1 := by omega
    simp [hr.1 i hi]
  · simp only [reflects_eq hn hr]

theorem reflects_lt {n : ℕ} (hn : 0 < n) {r : ℤ → ℕ} (h : Reflects n r) (k : ℤ) : r k < n := by
  rw [reflects_eq hn h, reflect]
  have := Int.emod_lt_of_pos k (b := 2 * n) (by omega)
  have := Int.emod_nonneg k (b := 2 * n) (by omega)
  split_ifs <;> omega

theorem ufilt_window {d0 d1 d2 : ℕ} (h0 : 0 < d0) (h1 : 0 < d1) (h2 : 0 < d2) {w0 w1 w2 : ℕ} (hw0 : 1 ≤ w0)
    (hw1 : 1 ≤ w1) (hw2 : 1 ≤ w2) {r0 r1 r2 : ℤ → ℕ} (hr0 : Reflects d0 r0) (hr1 : Reflects d1 r1)
    (hr2 : Reflects d2 r2) (A : Arr K) {i j k : ℕ} (hi : i < d0) (hj : j < d1) (hk : k < d2) :
    ufilt d0 d1 d2 (w0, w1, w2) A i j k = windowMean w0 w1 w2 r0 r1 r2 A i j k := by
  simp only [ufilt, windowMean]
  rw [ufilt1_eq h2 hw2 hr2 _ hk]
  simp_rw [ufilt1_eq h1 hw1 hr1 _ hj, ufilt1_eq h0 hw0 hr0 _ hi]
  simp_rw [← Finset.sum_div]
  rw [div_div, div_div]
  congr 1
  · rw [Finset.sum_comm, Finset.sum_comm (s := Finset.range w0)]
    exact Finset.sum_congr rfl fun b _ => Finset.sum_comm
  · ring

/-- **C11 (the variance is the local variance).** At every node of every grid, for every window of at least one
node per axis: `win_var` is the mean, over the `w0 × w1 × w2` window around the node (starting `w/2` nodes before it,
the array being continued by reflection), of the squared deviation from the mean over that window. -/
theorem C11_window {d0 d1 d2 : ℕ} (h0 : 0 < d0) (h1 : 0 < d1) (h2 : 0 < d2) {w0 w1 w2 : ℕ} (hw0 : 1 ≤ w0)
    (hw1 : 1 ≤ w1) (hw2 : 1 ≤ w2) {r0 r1 r2 : ℤ → ℕ} (hr0 : Reflects d0 r0) (hr1 : Reflects d1 r1)
    (hr2 : Reflects d2 r2) (vp : Arr K) :
    AllNodes d0 d1 d2 fun i j k => winVar d0 d1 d2 (w0, w1, w2) vp i j k =
      windowMean w0 w1 w2 r0 r1 r2 (fun a b c => (vp a b c - windowMean w0 w1 w2 r0 r1 r2 vp i j k) ^ 2) i j k := by
  intro i hi j hj k hk
  rw [C11_variance, ufilt_window h0 h1 h2 hw0 hw1 hw2 hr0 hr1 hr2 _ hi hj hk,
    ufilt_window h0 h1 h2 hw0 hw1 hw2 hr0 hr1 hr2 _ hi hj hk]

/-- Such continuations exist for every length, and only one. -/
example {n : ℕ} (hn : 0 < n) : ∃! r, Reflects n r :=
  ⟨reflect n, reflect_reflects hn, fun _ hr => funext fun k => reflects_eq hn hr k⟩

/-- Five values in a row, window 3: at the first node the window holds the first value twice. -/
example : winVar 5 1 1 (3, 1, 1) (fun i _ _ => [(1 : ℚ), 4, 1, 1, 9].getD i 0) 0 0 0 =
    ((1 - 2) ^ 2 + (1 - 2) ^ 2 + (4 - 2) ^ 2) / 3 := by decide +kernel

end SM.Sizing
