import Verif.Model.DihedralFl
import Verif.Props.Sliver
import Verif.Props.BallFl
import Verif.Lemmas.Rounding
import Verif.Lemmas.Sqrt64

/-!
# C132: dihedral angles and the detection of slivers in floating-point arithmetic
-/

namespace SM.DihedralFl

open SM.Simplex (dihedral cosDihedral e3)
open SM.Round (Near)

noncomputable section

/-! ### Specification -/

/-- Sine of the angle at `a` of the triangle `a b c`. -/
def faceSin (a b c : Fin 3 → ℝ) : ℝ := Real.sin (InnerProductGeometry.angle (e3 b - e3 a) (e3 c - e3 a))

/-- The relative error of every operation is at most `u`. -/
def Accurate (rnd : ℝ → ℝ) (u : ℝ) : Prop := ∀ x, |rnd x - x| ≤ u * |x|

/-- The C library's `acos`: NaN beyond ±1, otherwise the arc cosine up to an error of `ε`. -/
def AcosWithin (ε : ℝ) (ac : ℝ → Option ℝ) : Prop :=
  (∀ c, 1 < |c| → ac c = none) ∧ ∀ c, |c| ≤ 1 → ∃ a, ac c = some a ∧ |a - Real.arccos c| ≤ ε

/-! ### Accumulated errors -/

section
variable {rnd : ℝ → ℝ} {u : ℝ}

theorem pow12 {w : ℝ} (h0 : 0 ≤ w) (h : w ≤ 1 / 200) : (1 + w) ^ 12 - 1 ≤ 13 * w := by
  have a2 : (1 + w) ^ 3 ≤ 1 + 3.02 * w := by nlinarith [mul_nonneg h0 h0, mul_nonneg h0 (sub_nonneg.2 h), mul_nonneg (mul_nonneg h0 h0) (sub_nonneg.2 h)]
  have a3 : (1 + w) ^ 6 ≤ 1 + 6.1 * w := by
    calc (1 + w) ^ 6 = ((1 + w) ^ 3) ^ 2 := by ring
      _ ≤ (1 + 3.02 * w) ^ 2 := pow_le_pow_left₀ (by positivity) a2 2
      _ ≤ _ := by nlinarith [mul_nonneg h0 (sub_nonneg.2 h)]
  calc (1 + w) ^ 12 - 1 = ((1 + w) ^ 6) ^ 2 - 1 := by ring
    _ ≤ (1 + 6.1 * w) ^ 2 - 1 := by linarith [pow_le_pow_left₀ (by positivity : (0:ℝ) ≤ (1 + w) ^ 6) a3 2]
    _ ≤ _ := by nlinarith [mul_nonneg h0 (sub_nonneg.2 h)]

theorem l2_edge (p0 p : Fin 3 → ℝ) : l2 rnd (fun x => rnd √x) (edgeVec rnd p0 p) =
    rnd √(rnd (rnd (BallFl.sqDiff rnd (p 0) (p0 0) + BallFl.sqDiff rnd (p 1) (p0 1)) + BallFl.sqDiff rnd (p 2) (p0 2))) := rfl

theorem eucl_l2 (p0 p : Fin 3 → ℝ) : Sdf.eucl p ![p0 0, p0 1, p0 2] = Simplex.l2 fun j => p j - p0 j := by
  have := Sdf.dball_eq (p0 0) (p0 1) (p0 2) 0 p
  rw [sub_zero] at this
  rw [← this, Sdf.dball, Simplex.l2]
  simp [sq]

/-- The computed unit vectors. -/
theorem unit_near (hu0 : 0 ≤ u) (hu : u ≤ 1 / 1600) (ha : Accurate rnd u) {p0 p : Fin 3 → ℝ} (hp : 0 < Simplex.l2 fun j => p j - p0 j) (j : Fin 3) :
    Near (8 * u) 1 1 (unit rnd (fun x => rnd √x) (edgeVec rnd p0 p) j) ((p j - p0 j) / Simplex.l2 fun j => p j - p0 j) ∧
      0 < l2 rnd (fun x => rnd √x) (edgeVec rnd p0 p) := by
  have hw := BallFl.ball_within hu0 (by linarith) ha (p0 0) (p0 1) (p0 2) p
  rw [eucl_l2, ← l2_edge (rnd := rnd)] at hw
  set n := Simplex.l2 fun j => p j - p0 j with hn
  set n' := l2 rnd (fun x => rnd √x) (edgeVec rnd p0 p)
  have b1 : (1 + u) ^ 4 ≤ 1 + 4.1 * u := by
    have : (1 + u) ^ 2 ≤ 1 + 2.01 * u := by nlinarith
    calc (1 + u) ^ 4 = ((1 + u) ^ 2) ^ 2 := by ring
      _ ≤ (1 + 2.01 * u) ^ 2 := pow_le_pow_left₀ (by positivity) this 2
      _ ≤ _ := by nlinarith
  have b2 : 1 - 4 * u ≤ (1 - u) ^ 4 := by
    have := one_add_mul_le_pow (a := -u) (by linarith) 4
    push_cast at this
    linarith [show (1 + -u) ^ 4 = (1 - u) ^ 4 by ring]
  have l1 : (1 - 4.1 * u) * n ≤ n' := le_trans (by nlinarith) hw.1
  have l2' : n' ≤ (1 + 4.1 * u) * n := hw.2.trans (by nlinarith)
  have hn' : 0 < n' := lt_of_lt_of_le (mul_pos (by linarith) hp) l1
  refine ⟨?_, hn'⟩
  set x := p j - p0 j
  have hx : |x| ≤ n := by
    rw [hn, Simplex.l2]
    apply Real.abs_le_sqrt
    fin_cases j <;> simp only [x] <;> simp <;> nlinarith [sq_nonneg (p 0 - p0 0), sq_nonneg (p 1 - p0 1), sq_nonneg (p 2 - p0 2)]
  have hr1 : |x / n| ≤ 1 := by
    rw [abs_div, abs_of_pos hp]
    exact (div_le_one hp).2 hx
  refine ⟨hr1, ?_⟩
  rw [pow_one, mul_one, add_sub_cancel_left]
  change |rnd (rnd x / n') - x / n| ≤ 8 * u
  have e1 : |rnd x / n' - x / n| ≤ 5.4 * u := by
    have e : rnd x / n' - x / n = ((rnd x - x) + x / n * (n - n')) / n' := by
      field_simp
      ring
    rw [e, abs_div, abs_of_pos hn', div_le_iff₀ hn']
    have h1 := ha x
    have h2 : |x / n * (n - n')| ≤ 1 * (4.1 * u * n) := by
      rw [abs_mul]
      refine mul_le_mul hr1 ?_ (abs_nonneg _) zero_le_one
      rw [abs_le]
      constructor <;> linarith
    have h3 : u * |x| ≤ u * n := mul_le_mul_of_nonneg_left hx hu0
    have h4 := abs_add_le (rnd x - x) (x / n * (n - n'))
    have h5 : 5.4 * u * ((1 - 4.1 * u) * n) ≤ 5.4 * u * n' := mul_le_mul_of_nonneg_left l1 (by linarith)
    have h6 : 0 ≤ u * n * (1 / 1600 - u) := mul_nonneg (by positivity) (by linarith)
    nlinarith
  have e2 := ha (rnd x / n')
  have e3 : |rnd x / n'| ≤ 1.1 := by
    have := abs_sub_abs_le_abs_sub (rnd x / n') (x / n)
    linarith
  have e4 := abs_sub_le (rnd (rnd x / n')) (rnd x / n') (x / n)
  have e5 := mul_le_mul_of_nonneg_left e3 hu0
  linarith

variable {w : ℝ}

theorem dot_near (hw0 : 0 ≤ w) (ha : Round.Accurate rnd w) {a b a' b' : Fin 3 → ℝ} (h : ∀ j, Near w 1 1 (a' j) (a j)) (g : ∀ j, Near w 1 1 (b' j) (b j)) :
    Near w 5 3 (dot rnd a' b') (Simplex.dot a b) := by
  have m : ∀ j, Near w 3 1 (rnd (a' j * b' j)) (a j * b j) := fun j => by
    have := ((h j).mul hw0 (g j)).rnd hw0 ha
    rwa [one_mul] at this
  have s := (((((m 0).add (m 1)).rnd hw0 ha).add ((m 2).weaken hw0 (by norm_num : 3 ≤ 4) le_rfl)).rnd hw0 ha)
  exact s.weaken hw0 (by norm_num) (by norm_num)

theorem cross_near (hw0 : 0 ≤ w) (ha : Round.Accurate rnd w) {a b a' b' : Fin 3 → ℝ} (h : ∀ j, Near w 1 1 (a' j) (a j)) (g : ∀ j, Near w 1 1 (b' j) (b j)) (j : Fin 3) :
    Near w 4 2 (cross rnd a' b' j) (FixMesh.cross a b j) := by
  have m : ∀ i j, Near w 3 1 (rnd (a' i * b' j)) (a i * b j) := fun i j => by
    have := ((h i).mul hw0 (g j)).rnd hw0 ha
    rwa [one_mul] at this
  have s : ∀ i j k l, Near w 4 2 (rnd (rnd (a' i * b' j) - rnd (a' k * b' l))) (a i * b j - a k * b l) := fun i j k l =>
    (((m i j).sub (m k l)).rnd hw0 ha).weaken hw0 (by norm_num) (by norm_num)
  fin_cases j
  · exact s 1 2 2 1
  · exact s 2 0 0 2
  · exact s 0 1 1 0

/-- The computed norm of the cross product: relative error. -/
theorem norm_near (hw0 : 0 ≤ w) (hw : w ≤ 1 / 200) (ha : Round.Accurate rnd (w / 8)) {c c' : Fin 3 → ℝ} (h : ∀ j, Near w 4 2 (c' j) (c j)) {σ : ℝ} (hσ0 : 0 < σ)
    (hσ : σ ≤ Simplex.l2 c) (hk : 160 * w / σ ^ 2 ≤ 1 / 20) :
    |l2 rnd (fun x => rnd √x) c' - Simplex.l2 c| ≤ 160 * w / σ ^ 2 * Simplex.l2 c := by
  have ha' : Round.Accurate rnd w := fun x => (ha x).trans (mul_le_mul_of_nonneg_right (by linarith) (abs_nonneg _))
  have m : ∀ j, Near w 9 4 (rnd (c' j * c' j)) (c j * c j) := fun j => by
    have := ((h j).mul hw0 (h j)).rnd hw0 ha'
    exact this.weaken hw0 (by norm_num) (by norm_num)
  have hS := ((((((m 0).add (m 1)).rnd hw0 ha').add ((m 2).weaken hw0 (by norm_num : 9 ≤ 10) le_rfl)).rnd hw0 ha')).weaken hw0 (by norm_num : 11 ≤ 12) (by norm_num : (4 : ℝ) + 4 + 4 ≤ 12)
  set S' := rnd (rnd (rnd (c' 0 * c' 0) + rnd (c' 1 * c' 1)) + rnd (c' 2 * c' 2)) with eS'
  have hsq : Simplex.l2 c * Simplex.l2 c = c 0 * c 0 + c 1 * c 1 + c 2 * c 2 := Simplex.l2_sq c
  rw [← hsq] at hS
  set s := Simplex.l2 c
  have hs : 0 < s := hσ0.trans_le hσ
  obtain ⟨hS1, hS2⟩ := hS
  have hS3 : |S' - s * s| ≤ 156 * w := hS2.trans (by linarith [pow12 hw0 hw])
  have hσ2 : σ ^ 2 ≤ s * s := by nlinarith
  set k := 160 * w / σ ^ 2 with ek
  have hkw : 160 * w = k * σ ^ 2 := by rw [ek]; field_simp
  have hk0 : 0 ≤ k := by positivity
  have hks : k * σ ^ 2 ≤ k * (s * s) := mul_le_mul_of_nonneg_left hσ2 hk0
  have hS0 : 0 ≤ S' := by
    have := (abs_le.1 hS3).1
    nlinarith
  have hr0 := Real.sqrt_nonneg S'
  have hrr := Real.mul_self_sqrt hS0
  have h1 : |√S' - s| ≤ 156 / 160 * k * s := by
    have e : (√S' - s) * (√S' + s) = S' - s * s := by linear_combination hrr
    have e2 : |√S' - s| * (√S' + s) = |S' - s * s| := by rw [← e, abs_mul, abs_of_nonneg (by linarith : 0 ≤ √S' + s)]
    have e3 : |√S' - s| * s ≤ |√S' - s| * (√S' + s) := mul_le_mul_of_nonneg_left (by linarith) (abs_nonneg _)
    have e4 : |√S' - s| * s ≤ (156 / 160 * k * s) * s := by nlinarith
    exact le_of_mul_le_mul_right e4 hs
  have h2 : |√S'| ≤ 1.05 * s := by
    rw [abs_of_nonneg hr0]
    have := (abs_le.1 h1).2
    nlinarith
  have h3 := ha √S'
  have hσ12 : s * s ≤ 12 := (le_abs_self _).trans hS1
  have h4 : w / 8 * |√S'| ≤ 4 / 160 * k * s := by
    have : w ≤ 12 / 160 * k := by nlinarith
    have h5 := mul_le_mul (by linarith : w / 8 ≤ 12 / 1280 * k) h2 (abs_nonneg _) (by positivity)
    have : 0 ≤ k * s := by positivity
    linarith
  have h5 := abs_sub_le (rnd √S') √S' s
  change |rnd √S' - s| ≤ _
  linarith

theorem accurate_round (ha : Accurate rnd u) : Round.Accurate rnd u := ha

/-- The quotient. -/
theorem quotient_near {N N' s s' t t' k σ v : ℝ} (hσ0 : 0 < σ) (hs : σ ≤ s) (ht : σ ≤ t) (hk0 : 0 ≤ k) (hk : k ≤ 1 / 20)
    (hv : v ≤ k / 100) (ha : ∀ x, |rnd x - x| ≤ v * |x|)
    (hN : |N' - N| ≤ k * σ ^ 2) (hs' : |s' - s| ≤ k * s) (ht' : |t' - t| ≤ k * t) (hc : |N / (s * t)| ≤ 1) :
    0 < rnd (s' * t') ∧ |rnd (N' / rnd (s' * t')) - N / (s * t)| ≤ 4 * k := by
  have hs0 : 0 < s := by linarith
  have ht0 : 0 < t := by linarith
  have hD0 : 0 < s * t := by positivity
  have hσD : σ ^ 2 ≤ s * t := by nlinarith
  set c := N / (s * t) with ec
  have hNc : N = c * (s * t) := by rw [ec]; field_simp
  have h1 : |s' * t' - s * t| ≤ (2 * k + k ^ 2) * (s * t) := by
    have e : s' * t' - s * t = (s' - s) * (t' - t) + (s' - s) * t + s * (t' - t) := by ring
    rw [e]
    have a1 : |(s' - s) * (t' - t)| ≤ (k * s) * (k * t) := by
      rw [abs_mul]; exact mul_le_mul hs' ht' (abs_nonneg _) (by positivity)
    have a2 : |(s' - s) * t| ≤ (k * s) * t := by
      rw [abs_mul, abs_of_pos ht0]; exact mul_le_mul_of_nonneg_right hs' ht0.le
    have a3 : |s * (t' - t)| ≤ s * (k * t) := by
      rw [abs_mul, abs_of_pos hs0]; exact mul_le_mul_of_nonneg_left ht' hs0.le
    have := abs_add_le ((s' - s) * (t' - t) + (s' - s) * t) (s * (t' - t))
    have := abs_add_le ((s' - s) * (t' - t)) ((s' - s) * t)
    nlinarith
  have hkk : k ^ 2 ≤ k / 20 := by nlinarith
  have h2 : |s' * t' - s * t| ≤ 2.05 * k * (s * t) := h1.trans (by nlinarith)
  have h3 : |rnd (s' * t') - s * t| ≤ 2.1 * k * (s * t) := by
    have a := ha (s' * t')
    have b : |s' * t'| ≤ 1.2 * (s * t) := by
      have := abs_sub_abs_le_abs_sub (s' * t') (s * t)
      rw [abs_of_pos hD0] at this
      nlinarith
    have c1 := mul_le_mul hv b (abs_nonneg _) (by linarith)
    have := abs_sub_le (rnd (s' * t')) (s' * t') (s * t)
    have : 0 ≤ k * (s * t) := by positivity
    linarith
  set D' := rnd (s' * t')
  have hD' : (1 - 2.1 * k) * (s * t) ≤ D' := by linarith [(abs_le.1 h3).1]
  have hD'0 : 0 < D' := lt_of_lt_of_le (mul_pos (by linarith) hD0) hD'
  refine ⟨hD'0, ?_⟩
  have h4 : |N' / D' - c| ≤ 3.5 * k := by
    have e : N' / D' - c = ((N' - N) + c * (s * t - D')) / D' := by
      rw [hNc]; field_simp; ring
    rw [e, abs_div, abs_of_pos hD'0, div_le_iff₀ hD'0]
    have a1 : |c * (s * t - D')| ≤ 1 * (2.1 * k * (s * t)) := by
      rw [abs_mul, abs_sub_comm (s * t)]
      exact mul_le_mul hc h3 (abs_nonneg _) zero_le_one
    have a2 := abs_add_le (N' - N) (c * (s * t - D'))
    have a3 : k * σ ^ 2 ≤ k * (s * t) := mul_le_mul_of_nonneg_left hσD hk0
    have a4 : 3.5 * k * ((1 - 2.1 * k) * (s * t)) ≤ 3.5 * k * D' := mul_le_mul_of_nonneg_left hD' (by linarith)
    have a5 : k ^ 2 * (s * t) ≤ k / 20 * (s * t) := mul_le_mul_of_nonneg_right hkk hD0.le
    nlinarith
  have h5 := ha (N' / D')
  have h6 : |N' / D'| ≤ 1.2 := by
    have := abs_sub_abs_le_abs_sub (N' / D') c
    linarith
  have h7 := mul_le_mul hv h6 (abs_nonneg _) (by linarith)
  have h8 := abs_sub_le (rnd (N' / D')) (N' / D') c
  linarith

theorem faceSin_eq {a b c : Fin 3 → ℝ} (hb : b ≠ a) (hc : c ≠ a) :
    Simplex.l2 (FixMesh.cross (fun j => (b j - a j) / Simplex.l2 fun j => b j - a j) (fun j => (c j - a j) / Simplex.l2 fun j => c j - a j)) = faceSin a b c ∧
      0 < (Simplex.l2 fun j => b j - a j) := by
  have hn : ∀ {p : Fin 3 → ℝ}, p ≠ a → 0 < Simplex.l2 fun j => p j - a j := by
    intro p hp; apply Simplex.l2_pos; intro h0; apply hp; ext j; have := congrFun h0 j; simp at this; linarith
  have hs := InnerProductGeometry.sin_angle_mul_norm_mul_norm (e3 b - e3 a) (e3 c - e3 a)
  rw [Simplex.e3_sub, Simplex.e3_sub, Simplex.norm_e3, Simplex.norm_e3, Simplex.inner_e3, Simplex.inner_e3, Simplex.inner_e3] at hs
  have h1 := hn hb
  have h2 := hn hc
  refine ⟨?_, h1⟩
  rw [faceSin, Simplex.e3_sub, Simplex.e3_sub]
  set v := fun j => b j - a j with ev
  set z := fun j => c j - a j with ez
  have hne : (Simplex.l2 v * Simplex.l2 z) ≠ 0 := by positivity
  rw [← mul_left_inj' hne, hs]
  have hm : 0 ≤ Simplex.l2 v * Simplex.l2 z := by positivity
  rw [Simplex.l2, ← Real.sqrt_sq hm, ← Real.sqrt_mul' _ (sq_nonneg _)]
  congr 1
  have e : ∀ i, FixMesh.cross (fun j => v j / Simplex.l2 v) (fun j => z j / Simplex.l2 z) i = FixMesh.cross v z i / (Simplex.l2 v * Simplex.l2 z) := by
    intro i; fin_cases i <;> simp [FixMesh.cross] <;> field_simp
  have e' : ∀ i, FixMesh.cross (fun j => (b j - a j) / Simplex.l2 v) (fun j => (c j - a j) / Simplex.l2 z) i = FixMesh.cross v z i / (Simplex.l2 v * Simplex.l2 z) := e
  rw [e', e', e']
  field_simp
  simp only [FixMesh.cross, Simplex.dot, Matrix.cons_val_zero, Matrix.cons_val_one, Matrix.cons_val]
  ring

/-- **C132 (accuracy).** If the two face angles at the first vertex of the edge have sines of at least `σ`, the computed cosine of the dihedral angle is within
`5120 u / σ²` of the true one and no division by zero occurs, for every rounding of relative error at most `u ≤ σ² / 25600`. -/
theorem C132_cosine (hu0 : 0 ≤ u) (ha : Accurate rnd u) {p0 p1 p2 p3 : Fin 3 → ℝ} (h1 : p1 ≠ p0) (h2 : p2 ≠ p0) (h3 : p3 ≠ p0)
    {σ : ℝ} (hσ0 : 0 < σ) (hσ2 : σ ≤ faceSin p0 p1 p2) (hσ3 : σ ≤ faceSin p0 p1 p3) (hσ : 25600 * u ≤ σ ^ 2) :
    |cphi rnd (fun x => rnd √x) p0 p1 p2 p3 - Real.cos (dihedral p0 p1 p2 p3)| ≤ 5120 * u / σ ^ 2 ∧
      ∀ ac : ℝ → Option ℝ, angle rnd (fun x => rnd √x) ac p0 p1 p2 p3 = ac (cphi rnd (fun x => rnd √x) p0 p1 p2 p3) := by
  obtain ⟨f2, n1⟩ := faceSin_eq h1 h2
  obtain ⟨f3, -⟩ := faceSin_eq h1 h3
  obtain ⟨-, n2⟩ := faceSin_eq h2 h1
  obtain ⟨-, n3⟩ := faceSin_eq h3 h1
  have hσ1 : σ ≤ 1 := hσ2.trans (Real.sin_le_one _)
  have hu : u ≤ 1 / 1600 := by nlinarith
  have k1 := unit_near hu0 hu ha n1
  have k2 := unit_near hu0 hu ha n2
  have k3 := unit_near hu0 hu ha n3
  have hw0 : 0 ≤ 8 * u := by linarith
  have hw : 8 * u ≤ 1 / 200 := by linarith
  have ha' : Round.Accurate rnd (8 * u) := fun x => (ha x).trans (mul_le_mul_of_nonneg_right (by linarith) (abs_nonneg _))
  have ha8 : Round.Accurate rnd (8 * u / 8) := fun x => by rw [mul_div_cancel_left₀ u (by norm_num : (8 : ℝ) ≠ 0)]; exact ha x
  have d23 := dot_near hw0 ha' (fun j => (k2 j).1) (fun j => (k3 j).1)
  have d12 := dot_near hw0 ha' (fun j => (k1 j).1) (fun j => (k2 j).1)
  have d13 := dot_near hw0 ha' (fun j => (k1 j).1) (fun j => (k3 j).1)
  have hN := (((d23.weaken hw0 (by norm_num : 5 ≤ 11) le_rfl).sub ((d12.mul hw0 d13).rnd hw0 ha')).rnd hw0 ha').2
  have hk : 160 * (8 * u) / σ ^ 2 ≤ 1 / 20 := by
    rw [div_le_iff₀ (by positivity)]; linarith
  have s2 := norm_near hw0 hw ha8 (fun j => cross_near hw0 ha' (fun j => (k1 j).1) (fun j => (k2 j).1) j) hσ0 (by rw [f2]; exact hσ2) hk
  have s3 := norm_near hw0 hw ha8 (fun j => cross_near hw0 ha' (fun j => (k1 j).1) (fun j => (k3 j).1) j) hσ0 (by rw [f3]; exact hσ3) hk
  have hcos : cosDihedral p0 p1 p2 p3 = Real.cos (dihedral p0 p1 p2 p3) := by
    rw [Simplex.cos_formula h1 h2 h3, dihedral, InnerProductGeometry.cos_angle]
  have habs : |cosDihedral p0 p1 p2 p3| ≤ 1 := by rw [hcos]; exact Real.abs_cos_le_one _
  set k := 160 * (8 * u) / σ ^ 2 with ek
  have hku : k * σ ^ 2 = 1280 * u := by rw [ek]; field_simp; ring
  have hk0 : 0 ≤ k := by positivity
  have hkσ : k * σ ^ 2 ≤ k := by nlinarith [mul_nonneg hk0 (by nlinarith : 0 ≤ 1 - σ ^ 2)]
  have hN' : _ ≤ k * σ ^ 2 := hN.trans (by have := pow12 hw0 hw; norm_num at this ⊢; nlinarith)
  rw [f2] at s2
  rw [f3] at s3
  have q := quotient_near (rnd := rnd) (k := k) hσ0 hσ2 hσ3 hk0 hk (by linarith : u ≤ k / 100) ha hN' s2 s3 (by rw [← f2, ← f3]; exact habs)
  have e5 : 5120 * u / σ ^ 2 = 4 * k := by rw [ek]; ring
  rw [← hcos, e5]
  refine ⟨?_, fun ac => ?_⟩
  · have := q.2
    rw [← f2, ← f3] at this
    exact this
  · unfold angle
    simp only
    rw [if_neg]
    rintro (e | e | e | e)
    · exact (k1 0).2.ne' e
    · exact (k2 0).2.ne' e
    · exact (k3 0).2.ne' e
    · exact q.1.ne' e

/-! ### Detection of slivers -/

open SM.Sliver (IsCell dihedral_comm dihedral_rev)
open Np FixMesh MeshLoop

/-- The edges in the order of the table, each with the two other vertices. -/
def six : List (Fin 4 × Fin 4 × Fin 4 × Fin 4) := [(2, 3, 0, 1), (1, 3, 0, 2), (1, 2, 0, 3), (0, 3, 1, 2), (0, 2, 1, 3), (0, 1, 2, 3)]

theorem cellAngles_six {K : Type} [Field K] [LinearOrder K] (rnd rsq : K → K) (ac : K → Option K) (q : Fin 4 → Fin 3 → K) :
    cellAngles rnd rsq ac q = six.map fun e => angle rnd rsq ac (q e.1) (q e.2.1) (q e.2.2.1) (q e.2.2.2) := rfl

set_option synthInstance.maxHeartbeats 400000 in
set_option synthInstance.maxSize 1000 in
set_option maxRecDepth 10000 in
theorem six_all : ∀ a b c d : Fin 4, [a, b, c, d].Nodup →
    (a, b, c, d) ∈ six ∨ (b, a, c, d) ∈ six ∨ (a, b, d, c) ∈ six ∨ (b, a, d, c) ∈ six := by decide

theorem mem_six (q : Fin 4 → Fin 3 → ℝ) (π : Equiv.Perm (Fin 4)) :
    ∃ e ∈ six, dihedral (q (π 0)) (q (π 1)) (q (π 2)) (q (π 3)) = dihedral (q e.1) (q e.2.1) (q e.2.2.1) (q e.2.2.2) := by
  have hinj := π.injective
  have n01 : π 0 ≠ π 1 := fun e => by simpa using hinj e
  have n02 : π 0 ≠ π 2 := fun e => by simpa using hinj e
  have n03 : π 0 ≠ π 3 := fun e => by simpa using hinj e
  have n12 : π 1 ≠ π 2 := fun e => by simpa using hinj e
  have n13 : π 1 ≠ π 3 := fun e => by simpa using hinj e
  have n23 : π 2 ≠ π 3 := fun e => by simpa using hinj e
  generalize π 0 = a at *
  generalize π 1 = b at *
  generalize π 2 = c at *
  generalize π 3 = d at *
  rcases six_all a b c d (by simp [*]) with h | h | h | h
  · exact ⟨_, h, rfl⟩
  · exact ⟨_, h, (dihedral_rev _ _ _ _).symm⟩
  · exact ⟨_, h, (dihedral_comm _ _ _ _).symm⟩
  · exact ⟨_, h, by rw [dihedral_comm, dihedral_rev]⟩

theorem six_perm {e : Fin 4 × Fin 4 × Fin 4 × Fin 4} (he : e ∈ six) : ∃ π : Equiv.Perm (Fin 4), π 0 = e.1 ∧ π 1 = e.2.1 ∧ π 2 = e.2.2.1 ∧ π 3 = e.2.2.2 := by
  have key : ∀ e ∈ six, Function.Injective ![e.1, e.2.1, e.2.2.1, e.2.2.2] := by
    intro e he
    simp only [six, List.mem_cons, List.not_mem_nil, or_false] at he
    rcases he with rfl | rfl | rfl | rfl | rfl | rfl <;> decide
  exact ⟨Equiv.ofBijective _ (Finite.injective_iff_bijective.1 (key e he)), rfl, rfl, rfl, rfl⟩

/-- The cosine of the dihedral angle at the edge of the first two vertices in the order `π`. -/
def cosAt (q : Fin 4 → Fin 3 → ℝ) (π : Equiv.Perm (Fin 4)) : ℝ := Real.cos (dihedral (q (π 0)) (q (π 1)) (q (π 2)) (q (π 3)))

/-- The four vertices are different and no face has an angle whose sine is below `σ`. -/
def Faces (σ : ℝ) (q : Fin 4 → Fin 3 → ℝ) : Prop :=
  Function.Injective q ∧ ∀ π : Equiv.Perm (Fin 4), σ ≤ faceSin (q (π 0)) (q (π 1)) (q (π 2))

theorem bad_iff {K : Type} [Field K] [LinearOrder K] (rnd rsq : K → K) (ac : K → Option K) (lo hi : K) {p : List (Fin 3 → K)} {t : List (List ℕ)}
    (hex : ∀ r ∈ t, ∃ l, rowAngles rnd rsq ac p r = .ok l) :
    ∃ bad, badCells rnd rsq ac lo hi p t = .ok bad ∧ bad.Pairwise (· < ·) ∧ (∀ k ∈ bad, k < t.length) ∧
      ∀ (k : ℕ) row q, t[k]? = some row → corners p row = .ok q → (k ∈ bad ↔ ∃ x ∈ cellAngles rnd rsq ac q, outside lo hi x = true) := by
  obtain ⟨parts, hp⟩ := mapM_exists hex
  have hf := mapM_forall₂.1 hp
  have hlen : ∀ r ∈ parts, r.length = 6 := by
    intro r hrm
    obtain ⟨s, -, hs⟩ := forall₂_right hf r hrm
    simp only [rowAngles, bind, Except.bind, pure, Except.pure] at hs
    split at hs
    · simp at hs
    · rw [← Except.ok.inj hs]; simp [cellAngles]
  have hrun : badCells rnd rsq ac lo hi p t = .ok (uniqBy id (((parts.flatten.zipIdx.filter fun ai => outside lo hi ai.1).map Prod.snd).map fun i => i / 6)) := by
    simp only [badCells, hp, bind, Except.bind, pure, Except.pure]
  have hmem : ∀ k, k ∈ uniqBy id (((parts.flatten.zipIdx.filter fun ai => outside lo hi ai.1).map Prod.snd).map fun i => i / 6) ↔
      ∃ r, parts[k]? = some r ∧ ∃ x ∈ r, outside lo hi x = true := by
    intro k
    rw [mem_uniqBy Function.injective_id]
    simp only [List.mem_map, List.mem_filter, Prod.exists, List.mem_zipIdx_iff_getElem?]
    constructor
    · rintro ⟨i, ⟨x, j, ⟨hx, ho⟩, rfl⟩, rfl⟩
      rw [Sliver.flatten6 parts hlen] at hx
      simp only [Option.bind_eq_some_iff] at hx
      obtain ⟨r, h1, h2⟩ := hx
      exact ⟨r, h1, x, List.mem_of_getElem? h2, ho⟩
    · rintro ⟨r, h1, x, hx, ho⟩
      obtain ⟨j, hj⟩ := List.mem_iff_getElem?.1 hx
      have hj6 : j < 6 := by rw [← hlen r (List.mem_of_getElem? h1)]; exact (List.getElem?_eq_some_iff.1 hj).1
      refine ⟨k * 6 + j, ⟨x, k * 6 + j, ⟨?_, ho⟩, rfl⟩, by omega⟩
      rw [Sliver.flatten6 parts hlen, show (k * 6 + j) / 6 = k by omega, show (k * 6 + j) % 6 = j by omega, h1]
      exact hj
  refine ⟨_, hrun, ?_, ?_, ?_⟩
  · have := uniqBy_sorted (id : ℕ → ℕ) (((parts.flatten.zipIdx.filter fun ai => outside lo hi ai.1).map Prod.snd).map fun i => i / 6)
    simpa using this
  · intro k hk
    obtain ⟨r, h1, -⟩ := (hmem k).1 hk
    rw [hf.length_eq]; exact (List.getElem?_eq_some_iff.1 h1).1
  · intro k row q hk hq
    rw [hmem]
    obtain ⟨hlt, hk'⟩ := List.getElem?_eq_some_iff.1 hk
    have hl2 : k < parts.length := by rw [← hf.length_eq]; exact hlt
    have hg := List.Forall₂.get hf hlt hl2
    simp only [List.get_eq_getElem, hk', rowAngles, hq, bind, Except.bind, pure, Except.pure, Except.ok.injEq] at hg
    rw [List.getElem?_eq_getElem hl2, ← hg]
    simp

theorem corners_ok {p : List (Fin 3 → ℝ)} {row : List ℕ} {q : Fin 4 → Fin 3 → ℝ} (h : IsCell p row q) : corners p row = .ok q := Sliver.corners_ok h

/-- **C132 (detection).** Cells of which no face has an angle of sine below `σ`, every rounding of relative error at most `u ≤ σ² / 25600`, an `acos` with an error of at
most `ε`, and `τ = 5120 u / σ²`: a cell all of whose dihedral angles are within the bounds, with the margins `ε` (angle) and `τ` (cosine), is left alone; a cell with a dihedral
angle out of bounds with these margins, and whose cosine is at least `τ` away from ±1, is treated. -/
theorem C132_detect_partial (hu0 : 0 ≤ u) (ha : Accurate rnd u) {ε : ℝ} {ac : ℝ → Option ℝ} (hac : AcosWithin ε ac) {σ : ℝ} (hσ0 : 0 < σ) (hσ : 25600 * u ≤ σ ^ 2)
    (lo hi : ℝ) {p : List (Fin 3 → ℝ)} {t : List (List ℕ)} (hr : InRange p t) (h4 : ∀ r ∈ t, r.length = 4) :
    ∃ bad, badCells rnd (fun x => rnd √x) ac lo hi p t = .ok bad ∧ bad.Pairwise (· < ·) ∧ (∀ k ∈ bad, k < t.length) ∧
      ∀ (k : ℕ) row q, t[k]? = some row → IsCell p row q → Faces σ q →
        (0 ≤ lo + ε → lo + ε ≤ Real.pi → 0 ≤ hi - ε → hi - ε ≤ Real.pi →
          (∀ π, Real.cos (hi - ε) + 5120 * u / σ ^ 2 ≤ cosAt q π ∧ cosAt q π ≤ Real.cos (lo + ε) - 5120 * u / σ ^ 2) → k ∉ bad) ∧
        ((∃ π, |cosAt q π| ≤ 1 - 5120 * u / σ ^ 2 ∧
            (0 ≤ lo - ε ∧ lo - ε ≤ Real.pi ∧ Real.cos (lo - ε) < cosAt q π - 5120 * u / σ ^ 2 ∨
              0 ≤ hi + ε ∧ hi + ε ≤ Real.pi ∧ cosAt q π + 5120 * u / σ ^ 2 < Real.cos (hi + ε))) → k ∈ bad) := by
  have hex : ∀ r ∈ t, ∃ l, rowAngles rnd (fun x => rnd √x) ac p r = .ok l := by
    intro r hrow
    obtain ⟨q, hq⟩ := Sliver.cell_exists hr h4 hrow
    exact ⟨_, by simp only [rowAngles, corners_ok hq, bind, Except.bind, pure, Except.pure]; rfl⟩
  obtain ⟨bad, e1, e2, e3, e4⟩ := bad_iff rnd (fun x => rnd √x) ac lo hi hex
  refine ⟨bad, e1, e2, e3, fun k row q hk hq hf => ?_⟩
  rw [e4 k row q hk (corners_ok hq), cellAngles_six]
  have acc : ∀ e ∈ six, |cphi rnd (fun x => rnd √x) (q e.1) (q e.2.1) (q e.2.2.1) (q e.2.2.2) - Real.cos (dihedral (q e.1) (q e.2.1) (q e.2.2.1) (q e.2.2.2))| ≤ 5120 * u / σ ^ 2 ∧
      angle rnd (fun x => rnd √x) ac (q e.1) (q e.2.1) (q e.2.2.1) (q e.2.2.2) = ac (cphi rnd (fun x => rnd √x) (q e.1) (q e.2.1) (q e.2.2.1) (q e.2.2.2)) := by
    intro e he
    obtain ⟨π, p0, p1, p2, p3⟩ := six_perm he
    have ne : ∀ i j : Fin 4, i ≠ j → q (π i) ≠ q (π j) := fun i j hij h => hij (π.injective (hf.1 h))
    have s1 := hf.2 π
    have s2 := hf.2 ((Equiv.swap 2 3).trans π)
    have w0 : (Equiv.swap (2 : Fin 4) 3) 0 = 0 := by decide
    have w1 : (Equiv.swap (2 : Fin 4) 3) 1 = 1 := by decide
    have w2 : (Equiv.swap (2 : Fin 4) 3) 2 = 3 := by decide
    simp only [Equiv.trans_apply, w0, w1, w2] at s2
    have n1 := ne 1 0 (by decide)
    have n2 := ne 2 0 (by decide)
    have n3 := ne 3 0 (by decide)
    rw [p0, p1, p2] at s1
    rw [p0, p1, p3] at s2
    rw [p0, p1] at n1
    rw [p0, p2] at n2
    rw [p0, p3] at n3
    obtain ⟨a, b⟩ := C132_cosine hu0 ha n1 n2 n3 hσ0 s1 s2 hσ
    exact ⟨a, b ac⟩
  constructor
  · rintro l0 l1 h0 h1 hin ⟨x, hx, ho⟩
    obtain ⟨e, he, rfl⟩ := List.mem_map.1 hx
    obtain ⟨a, b⟩ := acc e he
    obtain ⟨π, p0, p1, p2, p3⟩ := six_perm he
    have hπ := hin π
    rw [cosAt, p0, p1, p2, p3] at hπ
    rw [b] at ho
    set c := cphi rnd (fun x => rnd √x) (q e.1) (q e.2.1) (q e.2.2.1) (q e.2.2.2)
    rw [abs_le] at a
    by_cases hc : |c| ≤ 1
    · obtain ⟨y, hy, hye⟩ := hac.2 c hc
      rw [hy] at ho
      simp only [outside, decide_eq_true_eq] at ho
      rw [abs_le] at hye
      have u1 : Real.arccos c ≤ hi - ε := by
        rw [← Real.arccos_cos h0 h1]
        exact Real.arccos_le_arccos (by linarith)
      have u2 : lo + ε ≤ Real.arccos c := by
        rw [← Real.arccos_cos l0 l1]
        exact Real.arccos_le_arccos (by linarith)
      rcases ho with ho | ho <;> linarith
    · rw [hac.1 c (not_le.1 hc)] at ho
      simp [outside] at ho
  · rintro ⟨π, hc1, hout⟩
    obtain ⟨e, he, hd⟩ := mem_six q π
    obtain ⟨a, b⟩ := acc e he
    rw [cosAt, hd] at hc1 hout
    refine ⟨_, List.mem_map.2 ⟨e, he, rfl⟩, ?_⟩
    rw [b]
    set c := cphi rnd (fun x => rnd √x) (q e.1) (q e.2.1) (q e.2.2.1) (q e.2.2.2)
    rw [abs_le] at a hc1
    have hc : |c| ≤ 1 := abs_le.2 ⟨by linarith, by linarith⟩
    obtain ⟨y, hy, hye⟩ := hac.2 c hc
    rw [hy]
    simp only [outside, decide_eq_true_eq]
    rw [abs_le] at hye
    rw [abs_le] at hc
    rcases hout with ⟨l0, l1, hl⟩ | ⟨h0, h1, hh⟩
    · left
      have : Real.arccos c < lo - ε := by
        rw [← Real.arccos_cos l0 l1]
        exact Real.strictAntiOn_arccos ⟨Real.neg_one_le_cos _, Real.cos_le_one _⟩ hc (by linarith)
      linarith
    · right
      have : hi + ε < Real.arccos c := by
        rw [← Real.arccos_cos h0 h1]
        exact Real.strictAntiOn_arccos hc ⟨Real.neg_one_le_cos _, Real.cos_le_one _⟩ (by linarith)
      linarith

end

/-! ### Slivers that are missed -/

theorem faceSin_ge {a b c : Fin 3 → ℝ} (hb : b ≠ a) (hc : c ≠ a) {σ : ℝ} (hσ : 0 ≤ σ)
    (h : σ ^ 2 * (Simplex.dot (fun j => b j - a j) (fun j => b j - a j) * Simplex.dot (fun j => c j - a j) (fun j => c j - a j)) ≤
      Simplex.dot (fun j => b j - a j) (fun j => b j - a j) * Simplex.dot (fun j => c j - a j) (fun j => c j - a j) -
        Simplex.dot (fun j => b j - a j) (fun j => c j - a j) * Simplex.dot (fun j => b j - a j) (fun j => c j - a j)) : σ ≤ faceSin a b c := by
  have hs := InnerProductGeometry.sin_angle_mul_norm_mul_norm (e3 b - e3 a) (e3 c - e3 a)
  have n1 := (faceSin_eq hb hc).2
  have n2 := (faceSin_eq hc hb).2
  rw [Simplex.e3_sub, Simplex.e3_sub, Simplex.norm_e3, Simplex.norm_e3, Simplex.inner_e3, Simplex.inner_e3, Simplex.inner_e3] at hs
  have q1 := Simplex.l2_sq fun j => b j - a j
  have q2 := Simplex.l2_sq fun j => c j - a j
  have hpos : 0 < (Simplex.l2 fun j => b j - a j) * Simplex.l2 fun j => c j - a j := mul_pos n1 n2
  refine le_of_mul_le_mul_right ?_ hpos
  rw [faceSin, Simplex.e3_sub, Simplex.e3_sub, hs]
  refine Real.le_sqrt_of_sq_le (le_trans (le_of_eq ?_) h)
  rw [← q1, ← q2]
  ring

/-- A convex quadrilateral in a plane: the corners of a kite. -/
def flatQ : Fin 4 → Fin 3 → ℚ := ![![6, 6, 0], ![0, 0, 0], ![3, 5, 0], ![5, 3, 0]]

/-- The same as real numbers. -/
def flat : Fin 4 → Fin 3 → ℝ := fun i j => (flatQ i j : ℝ)

/-- No face of the flat cell is degenerate: the sines of all face angles are at least 1/10. -/
theorem flat_faces : Faces (1 / 10) flat := by
  have hd : ∀ a b : Fin 4, a ≠ b → flatQ a ≠ flatQ b := by decide +kernel
  have hne : ∀ a b : Fin 4, a ≠ b → flat a ≠ flat b := by
    intro a b hab h
    apply hd a b hab
    funext j
    have := congrFun h j
    simp only [flat] at this
    exact_mod_cast this
  refine ⟨fun a b h => by_contra fun hab => hne a b hab h, fun π => ?_⟩
  have hinj := π.injective
  refine faceSin_ge (hne _ _ fun e => by simpa using hinj e) (hne _ _ fun e => by simpa using hinj e) (by norm_num) ?_
  have key : ∀ a b c : Fin 4, a ≠ b → a ≠ c → b ≠ c → ∀ v w z : ℚ,
      v = (flatQ b 0 - flatQ a 0) * (flatQ b 0 - flatQ a 0) + (flatQ b 1 - flatQ a 1) * (flatQ b 1 - flatQ a 1) + (flatQ b 2 - flatQ a 2) * (flatQ b 2 - flatQ a 2) →
      w = (flatQ c 0 - flatQ a 0) * (flatQ c 0 - flatQ a 0) + (flatQ c 1 - flatQ a 1) * (flatQ c 1 - flatQ a 1) + (flatQ c 2 - flatQ a 2) * (flatQ c 2 - flatQ a 2) →
      z = (flatQ b 0 - flatQ a 0) * (flatQ c 0 - flatQ a 0) + (flatQ b 1 - flatQ a 1) * (flatQ c 1 - flatQ a 1) + (flatQ b 2 - flatQ a 2) * (flatQ c 2 - flatQ a 2) →
      (1 / 10) ^ 2 * (v * w) ≤ v * w - z * z := by
    intro a b c h1 h2 h3 v w z e1 e2 e3
    subst e1; subst e2; subst e3
    revert a b c
    decide +kernel
  have := key (π 0) (π 1) (π 2) (fun e => by simpa using hinj e) (fun e => by simpa using hinj e) (fun e => by simpa using hinj e) _ _ _ rfl rfl rfl
  have := (Rat.cast_le (K := ℝ)).2 this
  push_cast at this
  simp only [Simplex.dot, flat]
  exact this

section
variable {L M : Type} [Field L] [LinearOrder L] [Field M] [LinearOrder M]

/-- The computation commutes with an embedding of number systems that respects rounding. -/
theorem cphi_map (f : L →+* M) {rnd rsq : L → L} {rnd' rsq' : M → M} (h : ∀ x, rnd' (f x) = f (rnd x)) (h' : ∀ x, rsq' (f x) = f (rsq x)) (p0 p1 p2 p3 : Fin 3 → L) :
    cphi rnd' rsq' (fun j => f (p0 j)) (fun j => f (p1 j)) (fun j => f (p2 j)) (fun j => f (p3 j)) = f (cphi rnd rsq p0 p1 p2 p3) := by
  have hl2 : ∀ v : Fin 3 → L, l2 rnd' rsq' (fun j => f (v j)) = f (l2 rnd rsq v) := by
    intro v; simp only [l2, ← map_mul, h, ← map_add, h']
  have hun : ∀ p : Fin 3 → L, unit rnd' rsq' (edgeVec rnd' (fun j => f (p0 j)) fun j => f (p j)) = fun j => f (unit rnd rsq (edgeVec rnd p0 p) j) := by
    intro p
    funext j
    have e : edgeVec rnd' (fun j => f (p0 j)) (fun j => f (p j)) = fun j => f (edgeVec rnd p0 p j) := by
      funext j; simp only [edgeVec, ← map_sub, h]
    rw [e]
    simp only [unit, hl2, ← map_div₀, h]
  have hdot : ∀ u v : Fin 3 → L, dot rnd' (fun j => f (u j)) (fun j => f (v j)) = f (dot rnd u v) := by
    intro u v; simp only [dot, ← map_mul, h, ← map_add]
  have hcr : ∀ u v : Fin 3 → L, cross rnd' (fun j => f (u j)) (fun j => f (v j)) = fun j => f (cross rnd u v j) := by
    intro u v
    funext j
    fin_cases j <;> simp only [cross, ← map_mul, h, ← map_sub] <;> rfl
  simp only [cphi, hun, hdot, hcr, hl2, ← map_mul, h, ← map_sub, ← map_div₀]

end

/-- At each of the six edges the computed cosine is beyond ±1. -/
theorem flat_beyond : ∀ e ∈ six, 1 < |cphi BallFl.binary64 (fun x => BallFl.binary64 √x) (flat e.1) (flat e.2.1) (flat e.2.2.1) (flat e.2.2.2)| := by
  have key : ∀ e ∈ six, 1 < |cphi Fl.binary64 Fl.sqrt64 (flatQ e.1) (flatQ e.2.1) (flatQ e.2.2.1) (flatQ e.2.2.2)| := by
    intro e he
    simp only [six, List.mem_cons, List.not_mem_nil, or_false] at he
    rcases he with rfl | rfl | rfl | rfl | rfl | rfl <;> decide +kernel
  intro e he
  have h := cphi_map (Rat.castHom ℝ) (rnd := Fl.binary64) (rsq := Fl.sqrt64) (rnd' := BallFl.binary64) (rsq' := fun x => BallFl.binary64 √x)
    (fun x => Fl.binary64_cast x) (fun x => Fl.sqrt64_cast x) (flatQ e.1) (flatQ e.2.1) (flatQ e.2.2.1) (flatQ e.2.2.2)
  change 1 < |cphi _ _ (fun j => Rat.castHom ℝ (flatQ e.1 j)) (fun j => Rat.castHom ℝ (flatQ e.2.1 j)) (fun j => Rat.castHom ℝ (flatQ e.2.2.1 j)) (fun j => Rat.castHom ℝ (flatQ e.2.2.2 j))|
  rw [h]
  have := key e he
  change 1 < |((_ : ℚ) : ℝ)|
  exact_mod_cast this

theorem flat_solid : Sliver.Solid flat := by
  intro i j k hij hik hjk h
  have key : ∀ i j k : Fin 4, i ≠ j → i ≠ k → j ≠ k →
      (flatQ j 0 - flatQ i 0) * (flatQ k 1 - flatQ i 1) - (flatQ j 1 - flatQ i 1) * (flatQ k 0 - flatQ i 0) ≠ 0 := by decide +kernel
  apply key i j k hij hik hjk
  rw [collinear_iff_of_mem (p₀ := flat i) (by simp)] at h
  obtain ⟨v, hv⟩ := h
  obtain ⟨r, hr⟩ := hv (flat j) (by simp)
  obtain ⟨s, hs⟩ := hv (flat k) (by simp)
  have e1 : ∀ a, (flatQ j a : ℝ) = r * v a + flatQ i a := fun a => by have := congrFun hr a; simpa [flat] using this
  have e2 : ∀ a, (flatQ k a : ℝ) = s * v a + flatQ i a := fun a => by have := congrFun hs a; simpa [flat] using this
  rw [← Rat.cast_inj (α := ℝ)]
  push_cast
  rw [e1, e1, e2, e2]
  ring

/-- The dihedral angle at the side of the kite vanishes. -/
theorem flat_zero : dihedral (flat 0) (flat 2) (flat 1) (flat 3) = 0 := by
  have v : flat 0 0 = 6 ∧ flat 0 1 = 6 ∧ flat 0 2 = 0 ∧ flat 1 0 = 0 ∧ flat 1 1 = 0 ∧ flat 1 2 = 0 ∧ flat 2 0 = 3 ∧ flat 2 1 = 5 ∧ flat 2 2 = 0 ∧
      flat 3 0 = 5 ∧ flat 3 1 = 3 ∧ flat 3 2 = 0 := by
    simp [flat, flatQ]
  obtain ⟨a0, a1, a2, b0, b1, b2, c0, c1, c2, d0, d1, d2⟩ := v
  rw [dihedral, Simplex.e3_sub, Simplex.e3_sub, Simplex.e3_sub, Simplex.rej_e3, Simplex.rej_e3]
  have h1 : (fun j => flat 1 j - flat 0 j - Simplex.dot (fun j => flat 2 j - flat 0 j) (fun j => flat 1 j - flat 0 j) /
      Simplex.dot (fun j => flat 2 j - flat 0 j) (fun j => flat 2 j - flat 0 j) * (flat 2 j - flat 0 j)) = ![6 / 5, -18 / 5, 0] := by
    funext j
    fin_cases j <;> simp [Simplex.dot, a0, a1, a2, b0, b1, b2, c0, c1, c2] <;> norm_num
  have h2 : (fun j => flat 3 j - flat 0 j - Simplex.dot (fun j => flat 2 j - flat 0 j) (fun j => flat 3 j - flat 0 j) /
      Simplex.dot (fun j => flat 2 j - flat 0 j) (fun j => flat 2 j - flat 0 j) * (flat 2 j - flat 0 j)) = ![4 / 5, -12 / 5, 0] := by
    funext j
    fin_cases j <;> simp [Simplex.dot, a0, a1, a2, d0, d1, d2, c0, c1, c2] <;> norm_num
  rw [h1, h2]
  have h3 : e3 ![6 / 5, -18 / 5, 0] = (3 / 2 : ℝ) • e3 ![4 / 5, -12 / 5, 0] := by
    ext j
    fin_cases j <;> simp [e3] <;> norm_num
  rw [h3, InnerProductGeometry.angle_smul_left_of_pos _ _ (by norm_num), InnerProductGeometry.angle_self]
  intro h0
  have := congrArg (fun x => x 0) h0
  simp [e3] at this

open Sliver (IsCell)
open FixMesh (InRange)

theorem flat_cell : IsCell [flat 0, flat 1, flat 2, flat 3] [0, 1, 2, 3] flat := rfl

/-- **C132 (finding): flat slivers are missed.** The argument of `acos` is not clamped: for the flat cell with these corners, none of whose faces is thin, the computed
cosine is beyond ±1 at all six edges, so all angles are NaN, and the cell is not selected, whatever the bounds; exactly, one of its dihedral angles is zero and it has to be
treated (and the exact computation selects it). -/
theorem C132_flat_missed (lo hi : ℝ) (hlo : 0 < lo) {ac : ℝ → Option ℝ} (hac : ∀ c, 1 < |c| → ac c = none) :
    badCells BallFl.binary64 (fun x => BallFl.binary64 √x) ac lo hi [flat 0, flat 1, flat 2, flat 3] [[0, 1, 2, 3]] = .ok [] ∧
      Faces (1 / 10) flat ∧ ¬ Sliver.Within lo hi flat ∧
      Sliver.badCells lo hi [flat 0, flat 1, flat 2, flat 3] [[0, 1, 2, 3]] = .ok [0] := by
  have hin : InRange [flat 0, flat 1, flat 2, flat 3] [[0, 1, 2, 3]] := by
    intro r hr i hi
    simp only [List.mem_singleton] at hr
    subst hr
    simp at hi ⊢
    omega
  have h4 : ∀ r ∈ [[0, 1, 2, 3]], r.length = 4 := by simp
  have hw : ¬ Sliver.Within lo hi flat := by
    intro h
    have key : Function.Injective ![(0 : Fin 4), 2, 1, 3] := by decide
    have := (h (Equiv.ofBijective _ (Finite.injective_iff_bijective.1 key))).1
    change lo ≤ dihedral (flat 0) (flat 2) (flat 1) (flat 3) at this
    rw [flat_zero] at this
    linarith
  refine ⟨?_, flat_faces, hw, ?_⟩
  · have hex : ∀ r ∈ [[0, 1, 2, 3]], ∃ l, rowAngles BallFl.binary64 (fun x => BallFl.binary64 √x) ac [flat 0, flat 1, flat 2, flat 3] r = .ok l := by
      intro r hr
      simp only [List.mem_singleton] at hr
      subst hr
      exact ⟨_, by simp only [rowAngles, corners_ok flat_cell, bind, Except.bind, pure, Except.pure]; rfl⟩
    obtain ⟨bad, e1, -, e3, e4⟩ := bad_iff BallFl.binary64 (fun x => BallFl.binary64 √x) ac lo hi hex
    rw [e1]
    congr 1
    rw [List.eq_nil_iff_forall_not_mem]
    intro k hk
    have hk0 : k = 0 := by have := e3 k hk; simp at this; exact this
    subst hk0
    obtain ⟨x, hx, ho⟩ := (e4 0 _ flat rfl (corners_ok flat_cell)).1 hk
    rw [cellAngles_six] at hx
    obtain ⟨e, he, rfl⟩ := List.mem_map.1 hx
    have : angle BallFl.binary64 (fun x => BallFl.binary64 √x) ac (flat e.1) (flat e.2.1) (flat e.2.2.1) (flat e.2.2.2) = none := by
      unfold angle
      simp only
      split_ifs
      · rfl
      · exact hac _ (flat_beyond e he)
    rw [this] at ho
    simp [outside] at ho
  · obtain ⟨bad, e1, e2, e3, e4⟩ := Sliver.C61_detect lo hi hin h4
    rw [e1]
    congr 1
    have h0 : 0 ∈ bad := (e4 0 _ flat rfl flat_cell flat_solid).2 hw
    have hall : ∀ k ∈ bad, k = 0 := fun k hk => by have := e3 k hk; simp at this; exact this
    match bad, e2, h0, hall with
    | [a], _, _, hall => rw [hall a (by simp)]
    | a :: b :: l, e2, _, hall =>
      have := List.rel_of_pairwise_cons e2 (a' := b) (by simp)
      rw [hall a (by simp), hall b (by simp)] at this
      exact absurd this (lt_irrefl _)

/-! ### The hypotheses are met -/

/-- The exact arc cosine, with NaN beyond ±1. -/
def exactAcos (c : ℝ) : Option ℝ := open Classical in if |c| ≤ 1 then some (Real.arccos c) else none

theorem exactAcos_within : AcosWithin 0 exactAcos :=
  ⟨fun c h => if_neg (not_le.2 h), fun c h => ⟨_, if_pos h, by simp⟩⟩

theorem corner_faces : Faces (1 / 2) Sliver.corner := by
  have hne : ∀ a b : Fin 4, a ≠ b → Sliver.corner a ≠ Sliver.corner b := fun a b hab h => hab (Sliver.corner_ind.injective h)
  refine ⟨Sliver.corner_ind.injective, fun π => ?_⟩
  have hinj := π.injective
  have n1 : π 0 ≠ π 1 := fun e => by simpa using hinj e
  have n2 : π 0 ≠ π 2 := fun e => by simpa using hinj e
  have n3 : π 1 ≠ π 2 := fun e => by simpa using hinj e
  refine faceSin_ge (hne _ _ n1.symm) (hne _ _ n2.symm) (by norm_num) ?_
  generalize π 0 = a at *
  generalize π 1 = b at *
  generalize π 2 = c at *
  fin_cases a <;> fin_cases b <;> fin_cases c <;>
    first
    | exact absurd rfl n1 | exact absurd rfl n2 | exact absurd rfl n3
    | (simp [Simplex.dot, Sliver.corner_val]; try norm_num)

theorem corner_cell : IsCell [Sliver.corner 0, Sliver.corner 1, Sliver.corner 2, Sliver.corner 3] [0, 1, 2, 3] Sliver.corner := rfl

theorem corner_right : cosAt Sliver.corner (Equiv.refl _) = 0 := by
  have h := Simplex.C48_cosine (p0 := Sliver.corner 0) (p1 := Sliver.corner 1) (p2 := Sliver.corner 2) (p3 := Sliver.corner 3) (by
    have e : ![Sliver.corner 0, Sliver.corner 1, Sliver.corner 2, Sliver.corner 3] = Sliver.corner := by ext i; fin_cases i <;> rfl
    rw [e]; exact Sliver.corner_ind)
  change Real.cos (dihedral (Sliver.corner 0) (Sliver.corner 1) (Sliver.corner 2) (Sliver.corner 3)) = 0
  rw [← h.2.2]
  simp [cosDihedral, Simplex.dot, Sliver.corner_val]

/-- With binary64 the corner tetrahedron is left alone for the bounds 30 and 135 degrees, and treated for the bounds 0 and 60 degrees. -/
example : badCells BallFl.binary64 (fun x => BallFl.binary64 √x) exactAcos (Real.pi / 6) (3 * Real.pi / 4)
      [Sliver.corner 0, Sliver.corner 1, Sliver.corner 2, Sliver.corner 3] [[0, 1, 2, 3]] = .ok [] ∧
    ∃ bad, badCells BallFl.binary64 (fun x => BallFl.binary64 √x) exactAcos 0 (Real.pi / 3)
      [Sliver.corner 0, Sliver.corner 1, Sliver.corner 2, Sliver.corner 3] [[0, 1, 2, 3]] = .ok bad ∧ 0 ∈ bad := by
  have hin : InRange [Sliver.corner 0, Sliver.corner 1, Sliver.corner 2, Sliver.corner 3] [[0, 1, 2, 3]] := by
    intro r hr i hi
    simp only [List.mem_singleton] at hr
    subst hr
    simp at hi ⊢
    omega
  have h4 : ∀ r ∈ [[0, 1, 2, 3]], r.length = 4 := by simp
  have hp := Real.pi_pos
  have hτ : 5120 * (1 / 9007199254740992 : ℝ) / (1 / 2) ^ 2 ≤ 1 / 100 := by norm_num
  have hτ0 : 0 ≤ 5120 * (1 / 9007199254740992 : ℝ) / (1 / 2) ^ 2 := by positivity
  constructor
  · obtain ⟨bad, e1, -, e3, e4⟩ := C132_detect_partial (u := 1 / 9007199254740992) (by norm_num) BallFl.C123_binary64.2 exactAcos_within (σ := 1 / 2) (by norm_num) (by norm_num)
      (Real.pi / 6) (3 * Real.pi / 4) hin h4
    rw [e1]
    congr 1
    rw [List.eq_nil_iff_forall_not_mem]
    intro k hk
    have hk0 : k = 0 := by have := e3 k hk; simp at this; exact this
    subst hk0
    refine (e4 0 _ Sliver.corner rfl corner_cell corner_faces).1 (by linarith) (by linarith) (by linarith) (by linarith) (fun π => ?_) hk
    have hd := Sliver.corner_within π
    have c1 := Real.cos_le_cos_of_nonneg_of_le_pi (by linarith) (by linarith [hd.2]) hd.1
    have c2 := Real.cos_le_cos_of_nonneg_of_le_pi (by linarith [hd.1]) (by linarith) hd.2
    rw [Real.cos_pi_div_two] at c2
    rw [Real.cos_pi_div_four] at c1
    rw [add_zero, sub_zero, Real.cos_pi_div_six, show 3 * Real.pi / 4 = Real.pi - Real.pi / 4 by ring, Real.cos_pi_sub, Real.cos_pi_div_four]
    have s2 : √2 ≤ 1.42 := Real.sqrt_le_iff.2 ⟨by norm_num, by norm_num⟩
    have s2' : 1 ≤ √2 := Real.le_sqrt_of_sq_le (by norm_num)
    have s3 : 1.7 ≤ √3 := Real.le_sqrt_of_sq_le (by norm_num)
    constructor
    · change _ ≤ Real.cos _
      linarith
    · change Real.cos _ ≤ _
      linarith
  · obtain ⟨bad, e1, -, e3, e4⟩ := C132_detect_partial (u := 1 / 9007199254740992) (by norm_num) BallFl.C123_binary64.2 exactAcos_within (σ := 1 / 2) (by norm_num) (by norm_num)
      0 (Real.pi / 3) hin h4
    refine ⟨bad, e1, (e4 0 _ Sliver.corner rfl corner_cell corner_faces).2 ⟨Equiv.refl _, ?_, Or.inr ⟨by linarith, by linarith, ?_⟩⟩⟩
    · rw [corner_right, abs_zero]; linarith
    · rw [corner_right, add_zero, Real.cos_pi_div_three]; linarith

end

end SM.DihedralFl
