import Verif.Model.ProjectFl
import Verif.Props.SdfFl
import Verif.Lemmas.Rounding
import Mathlib.Tactic.Linarith
import Mathlib.Tactic.FieldSimp

/-!
# C131: the projection of outside points in floating-point arithmetic
-/

namespace SM.ProjectFl

open SM.SdfFl

variable {K : Type} [Field K] [LinearOrder K] [IsStrictOrderedRing K] {u : K} {rnd : K → K} {d : ℕ}

/-! ### The gradient -/

theorem acc_bound (ha : Accurate rnd u) (hu : 0 ≤ u) {x y e : K} (h : |x - y| ≤ e) : |rnd x - y| ≤ e + u * (|y| + e) := by
  have h1 := ha x
  have h2 : |x| ≤ |y| + e := by
    have := abs_add_le (x - y) y
    rw [sub_add_cancel] at this
    linarith
  have h3 := abs_sub_le (rnd x) x y
  have h4 := mul_le_mul_of_nonneg_left h2 hu
  linarith

/-- The computed derivative across a flat face. -/
theorem grad_face (ha : Accurate rnd u) (hu : 0 ≤ u) (hu1 : u ≤ 1 / 64) {s xk a deps B : K} (hs : s = 1 ∨ s = -1) (hx : |xk| ≤ B) (hz : |xk - a| ≤ B)
    (hd0 : 0 < deps) (hdB : deps ≤ B) : |rnd (rnd (rnd (s * (rnd (xk + deps) - a)) - rnd (s * (xk - a))) / deps) - s| ≤ 8 * (u * B / deps) := by
  have hB : 0 ≤ B := hd0.le.trans hdB
  have hs1 : |s| = 1 := by rcases hs with rfl | rfl <;> simp
  have huB : 0 ≤ u * B := mul_nonneg hu hB
  have huu : u * (u * B) ≤ 1 / 64 * (u * B) := mul_le_mul_of_nonneg_right hu1 huB
  -- the shifted coordinate
  have e1 : |rnd (xk + deps) - (xk + deps)| ≤ 2 * (u * B) := by
    refine (ha _).trans ?_
    have : |xk + deps| ≤ B + B := (abs_add_le _ _).trans (add_le_add hx (by rw [abs_of_pos hd0]; exact hdB))
    have := mul_le_mul_of_nonneg_left this hu
    linarith
  have e2 : |s * (rnd (xk + deps) - a) - s * (xk + deps - a)| ≤ 2 * (u * B) := by
    rw [← mul_sub, abs_mul, hs1, one_mul, show rnd (xk + deps) - a - (xk + deps - a) = rnd (xk + deps) - (xk + deps) by ring]
    exact e1
  have b2 : |s * (xk + deps - a)| ≤ 2 * B := by
    rw [abs_mul, hs1, one_mul, show xk + deps - a = (xk - a) + deps by ring]
    have := abs_add_le (xk - a) deps
    rw [abs_of_pos hd0] at this
    linarith
  have e3 := acc_bound ha hu e2
  have e3' : |rnd (s * (rnd (xk + deps) - a)) - s * (xk + deps - a)| ≤ (4 + 1 / 32) * (u * B) := by
    have := mul_le_mul_of_nonneg_left b2 hu
    linarith
  have e4 : |rnd (s * (xk - a)) - s * (xk - a)| ≤ u * B := by
    refine (ha _).trans (mul_le_mul_of_nonneg_left ?_ hu)
    rw [abs_mul, hs1, one_mul]
    exact hz
  have e5 : |(rnd (s * (rnd (xk + deps) - a)) - rnd (s * (xk - a))) - s * deps| ≤ (5 + 1 / 32) * (u * B) := by
    have e : (rnd (s * (rnd (xk + deps) - a)) - rnd (s * (xk - a))) - s * deps =
        (rnd (s * (rnd (xk + deps) - a)) - s * (xk + deps - a)) - (rnd (s * (xk - a)) - s * (xk - a)) := by ring
    rw [e]
    refine (abs_sub _ _).trans ?_
    linarith
  have e6 := acc_bound ha hu e5
  have e6' : |rnd (rnd (s * (rnd (xk + deps) - a)) - rnd (s * (xk - a))) - s * deps| ≤ (6 + 1 / 8) * (u * B) := by
    rw [abs_mul, hs1, one_mul, abs_of_pos hd0] at e6
    have := mul_le_mul_of_nonneg_left hdB hu
    linarith
  have e7 : |rnd (rnd (s * (rnd (xk + deps) - a)) - rnd (s * (xk - a))) / deps - s| ≤ (6 + 1 / 8) * (u * B / deps) := by
    rw [show ∀ t : K, t / deps - s = (t - s * deps) / deps from fun t => by rw [sub_div, mul_div_cancel_right₀ _ hd0.ne'], abs_div, abs_of_pos hd0, ← mul_div_assoc]
    exact div_le_div_of_nonneg_right e6' hd0.le
  have e8 := acc_bound ha hu e7
  rw [hs1] at e8
  have h1 : u ≤ u * B / deps := by
    rw [mul_div_assoc]
    exact le_mul_of_one_le_right hu ((one_le_div hd0).2 hdB)
  have h2 : u * (u * B / deps) ≤ 1 / 64 * (u * B / deps) := mul_le_mul_of_nonneg_right hu1 (by positivity)
  linarith

/-! ### The sum of squares -/

theorem sumSq_zero (h0 : rnd 0 = 0) {g : Fin d → K} : ∀ (l : List (Fin d)), (∀ i ∈ l, g i = 0) → l.foldl (fun s i => rnd (s + rnd (g i * g i))) 0 = 0
  | [], _ => rfl
  | i :: l, h => by
    simp only [List.foldl_cons, h i (by simp), mul_zero, h0, add_zero]
    exact sumSq_zero h0 l fun j hj => h j (by simp [hj])

theorem sumSq_tail (ha : Accurate rnd u) (hu : 0 ≤ u) (h0 : rnd 0 = 0) {g : Fin d → K} {v : K} (hv : 0 ≤ v) : ∀ (l : List (Fin d)) (k : ℕ) (s : K), (∀ i ∈ l, g i = 0) →
    Round.Near u k v s v → Round.Near u (k + l.length) v (l.foldl (fun s i => rnd (s + rnd (g i * g i))) s) v
  | [], _, _, _, hs => hs
  | i :: l, k, s, h, hs => by
    simp only [List.foldl_cons, h i (by simp), mul_zero, h0, add_zero]
    have := sumSq_tail ha hu h0 hv l (k + 1) _ (fun j hj => h j (by simp [hj])) (hs.rnd hu ha)
    rwa [List.length_cons, show k + (l.length + 1) = k + 1 + l.length by omega]

/-- Only one derivative is different from zero. -/
theorem sumSq_single (ha : Accurate rnd u) (hu : 0 ≤ u) (h0 : rnd 0 = 0) {g : Fin d → K} {k : Fin d} (hg : ∀ i, i ≠ k → g i = 0) :
    |sumSq rnd g - g k * g k| ≤ ((1 + u) ^ (d + 1) - 1) * (g k * g k) := by
  have hv : 0 ≤ g k * g k := mul_self_nonneg _
  obtain ⟨l1, l2, hl⟩ := List.append_of_mem (List.mem_finRange k)
  have hnd : (l1 ++ k :: l2).Nodup := hl ▸ List.nodup_finRange d
  have hnd' := List.nodup_append.1 hnd
  have h1 : ∀ i ∈ l1, g i = 0 := fun i hi => hg i fun e => hnd'.2.2 i hi k (by simp) e
  have h2 : ∀ i ∈ l2, g i = 0 := fun i hi => hg i fun e => (List.nodup_cons.1 hnd'.2.1).1 (e ▸ hi)
  have hlen : l1.length + (l2.length + 1) = d := by
    have := congrArg List.length hl
    simpa using this.symm
  have n0 : Round.Near u 2 (g k * g k) (rnd (0 + rnd (g k * g k))) (g k * g k) := by
    rw [zero_add]
    exact ((Round.Near.exact (by rw [abs_of_nonneg hv])).rnd hu ha).rnd hu ha
  have n1 := sumSq_tail ha hu h0 hv l2 2 _ h2 n0
  have n2 : Round.Near u (d + 1) (g k * g k) (sumSq rnd g) (g k * g k) := by
    unfold sumSq
    rw [hl, List.foldl_append, sumSq_zero h0 l1 h1, List.foldl_cons]
    exact n1.weaken hu (by omega) le_rfl
  exact n2.2

/-! ### One step -/

theorem pow_le_five (hu : 0 ≤ u) (hu1 : u ≤ 1 / 64) (hd : d ≤ 3) : (1 + u) ^ (d + 1) - 1 ≤ 5 * u := by
  have h1 : (1 + u) ^ (d + 1) ≤ (1 + u) ^ 4 := pow_le_pow_right₀ (by linarith) (by omega)
  have e : 1 + 5 * u - (1 + u) ^ 4 = u * (1 - 6 * u - 4 * u ^ 2 - u ^ 3) := by ring
  have h3 : u ^ 2 ≤ u * (1 / 64) := by nlinarith
  have h4 : u ^ 3 ≤ u * (1 / 64) := by nlinarith
  have : 0 ≤ u * (1 - 6 * u - 4 * u ^ 2 - u ^ 3) := mul_nonneg hu (by linarith)
  linarith

/-- The computed step across a flat face. -/
theorem step_face (ha : Accurate rnd u) (hu : 0 ≤ u) (hu1 : u ≤ 1 / 64) {s z g g2 η : K} (hs : s = 1 ∨ s = -1) (hg : |g - s| ≤ η) (hη : η ≤ 1 / 8)
    (hg2 : |g2 - g * g| ≤ 5 * u * (g * g)) : |rnd (rnd (rnd (s * z) * g) / g2) - z| ≤ (8 / 7 * η + 13 * u) * |z| := by
  have hA := abs_nonneg z
  have hss : s * s = 1 := by rcases hs with rfl | rfl <;> norm_num
  have hs1 : |s| = 1 := by rcases hs with rfl | rfl <;> simp
  have gl : 7 / 8 ≤ |g| := by
    have := abs_sub_abs_le_abs_sub s g
    rw [abs_sub_comm, hs1] at this
    linarith
  have gu : |g| ≤ 9 / 8 := by
    have := abs_sub_abs_le_abs_sub g s
    rw [hs1] at this
    linarith
  have hgg : g * g = |g| * |g| := (abs_mul_abs_self g).symm
  have hgpos : 0 < |g| := by linarith
  have hg0 : g ≠ 0 := abs_pos.1 hgpos
  have hG : 49 / 64 ≤ g * g := by rw [hgg]; nlinarith
  have h2l : 7 / 10 ≤ g2 := by
    have := (abs_le.1 hg2).1
    have : u * (g * g) ≤ 1 / 64 * (g * g) := mul_le_mul_of_nonneg_right hu1 (by linarith)
    linarith
  have h2p : 0 < g2 := by linarith
  obtain ⟨A, hAe⟩ : ∃ A, A = |z| := ⟨_, rfl⟩
  rw [← hAe] at hA ⊢
  have huA : 0 ≤ u * A := mul_nonneg hu hA
  have huuA : u * (u * A) ≤ 1 / 64 * (u * A) := mul_le_mul_of_nonneg_right hu1 huA
  have f0 : |rnd (s * z) - s * z| ≤ u * A := by
    refine (ha _).trans_eq ?_
    rw [abs_mul, hs1, one_mul, hAe]
  have p1 : |rnd (s * z) * g - s * z * g| ≤ u * A * |g| := by
    rw [← sub_mul, abs_mul]
    exact mul_le_mul_of_nonneg_right f0 (abs_nonneg g)
  have p2 := acc_bound ha hu p1
  rw [abs_mul (s * z) g, abs_mul s z, hs1, one_mul, ← hAe] at p2
  have p3 : |rnd (rnd (s * z) * g) - s * z * g| ≤ (2 + 1 / 64) * (u * A) * |g| := by
    have : u * (u * A) * |g| ≤ 1 / 64 * (u * A) * |g| := mul_le_mul_of_nonneg_right huuA (abs_nonneg g)
    linarith
  have q1 : |rnd (rnd (s * z) * g) / g2 - s * z / g| ≤ (11 + 1 / 2) * (u * A) := by
    have e : rnd (rnd (s * z) * g) / g2 - s * z / g = ((rnd (rnd (s * z) * g) - s * z * g) - s * z / g * (g2 - g * g)) / g2 := by
      field_simp
      ring
    rw [e, abs_div, abs_of_pos h2p, div_le_iff₀ h2p]
    have t1 := abs_sub (rnd (rnd (s * z) * g) - s * z * g) (s * z / g * (g2 - g * g))
    have t2 : |s * z / g * (g2 - g * g)| ≤ 5 * (u * A) * |g| := by
      rw [abs_mul, abs_div, abs_mul, hs1, one_mul, ← hAe]
      have := mul_le_mul_of_nonneg_left hg2 (div_nonneg hA (abs_nonneg g))
      refine this.trans_eq ?_
      rw [hgg]
      field_simp
    have t3 : (u * A) * |g| ≤ (u * A) * (9 / 8) := mul_le_mul_of_nonneg_left gu huA
    have t4 : (u * A) * (7 / 10) ≤ (u * A) * g2 := mul_le_mul_of_nonneg_left h2l huA
    linarith
  have q2 := acc_bound ha hu q1
  have b : |s * z / g| ≤ 8 / 7 * A := by
    rw [abs_div, abs_mul, hs1, one_mul, ← hAe, div_le_iff₀ hgpos]
    nlinarith
  have q3 : |rnd (rnd (rnd (s * z) * g) / g2) - s * z / g| ≤ 13 * (u * A) := by
    have := mul_le_mul_of_nonneg_left b hu
    linarith
  have r : |s * z / g - z| ≤ 8 / 7 * η * A := by
    have e : s * z / g - z = z * (s - g) / g := by field_simp
    rw [e, abs_div, abs_mul, ← hAe, abs_sub_comm, div_le_iff₀ hgpos]
    have t1 : A * |g - s| ≤ A * η := mul_le_mul_of_nonneg_left hg hA
    have hη0 : 0 ≤ η := (abs_nonneg _).trans hg
    have t2 : 8 / 7 * η * A * (7 / 8) ≤ 8 / 7 * η * A * |g| := mul_le_mul_of_nonneg_left gl (by positivity)
    linarith
  have := abs_sub_le (rnd (rnd (rnd (s * z) * g) / g2)) (s * z / g) z
  linarith

/-- **C131 (face).** Let the computed level-set function be the correctly rounded signed distance to the plane `x_k = a` at the point and at the shifted points. One
projection in floating-point arithmetic leaves the other coordinates alone and brings the point to the plane up to a fraction `16 u B / deps + 16 u` of its distance and one
rounding of the coordinate, provided `u B / deps` is at most 1/64. -/
theorem C131_face (h0 : rnd 0 = 0) (ha : Accurate rnd u) (hu : 0 ≤ u) (hu1 : u ≤ 1 / 64) (hd : d ≤ 3) {fl : (Fin d → K) → K} {s a deps B : K} {k : Fin d} {x : Fin d → K}
    (hs : s = 1 ∨ s = -1) (hx : |x k| ≤ B) (hab : |a| ≤ B) (hz : |x k - a| ≤ B) (hd0 : 0 < deps) (hdB : deps ≤ B) (hd1 : deps ≤ 1 / 2) (hres : 64 * (u * B) ≤ deps)
    (hflat : fl x = rnd (s * (x k - a)) ∧ ∀ i, fl (bump rnd deps x i) = rnd (s * (bump rnd deps x i k - a))) :
    (∀ i, i ≠ k → newton rnd fl deps x i = rnd (x i)) ∧
      |newton rnd fl deps x k - a| ≤ (16 * (u * B / deps) + 16 * u) * |x k - a| + u * B := by
  obtain ⟨hf, hb⟩ := hflat
  have hB : 0 ≤ B := hd0.le.trans hdB
  have hg0 : ∀ i, i ≠ k → dgrad rnd fl deps x i = 0 := by
    intro i hi
    unfold dgrad
    rw [hb i, hf]
    simp [bump, Ne.symm hi, h0]
  have hgk : |dgrad rnd fl deps x k - s| ≤ 8 * (u * B / deps) := by
    unfold dgrad
    rw [hb k, hf]
    simp only [bump, if_true]
    exact grad_face ha hu hu1 hs hx hz hd0 hdB
  have hη : 8 * (u * B / deps) ≤ 1 / 8 := by
    have : u * B / deps ≤ 1 / 64 := by rw [div_le_iff₀ hd0]; linarith
    linarith
  have hsq := sumSq_single ha hu h0 hg0
  have hsq' : |sumSq rnd (dgrad rnd fl deps x) - dgrad rnd fl deps x k * dgrad rnd fl deps x k| ≤ 5 * u * (dgrad rnd fl deps x k * dgrad rnd fl deps x k) :=
    hsq.trans (mul_le_mul_of_nonneg_right (pow_le_five hu hu1 hd) (mul_self_nonneg _))
  have hg2 : dgrad2 rnd fl deps x = sumSq rnd (dgrad rnd fl deps x) := by
    unfold dgrad2
    have hs1 : |s| = 1 := by rcases hs with rfl | rfl <;> simp
    have gl : 7 / 8 ≤ |dgrad rnd fl deps x k| := by
      have := abs_sub_abs_le_abs_sub s (dgrad rnd fl deps x k)
      rw [abs_sub_comm, hs1] at this
      linarith
    have hG : 49 / 64 ≤ dgrad rnd fl deps x k * dgrad rnd fl deps x k := by rw [← abs_mul_abs_self]; nlinarith
    have h1 := (abs_le.1 hsq').1
    have : u * (dgrad rnd fl deps x k * dgrad rnd fl deps x k) ≤ 1 / 64 * (dgrad rnd fl deps x k * dgrad rnd fl deps x k) := mul_le_mul_of_nonneg_right hu1 (by linarith)
    rw [if_neg (by push Not; linarith)]
  constructor
  · intro i hi
    unfold newton
    rw [hg0 i hi, mul_zero, h0, zero_div, h0, sub_zero]
  · have hst := step_face (z := x k - a) ha hu hu1 hs hgk hη hsq'
    unfold newton
    rw [hg2, hf]
    set st := rnd (rnd (rnd (s * (x k - a)) * dgrad rnd fl deps x k) / sumSq rnd (dgrad rnd fl deps x)) with hstd
    have e1 : |(x k - st) - a| ≤ (8 / 7 * (8 * (u * B / deps)) + 13 * u) * |x k - a| := by
      rw [show x k - st - a = -(st - (x k - a)) by ring, abs_neg]
      exact hst
    have e2 := acc_bound ha hu e1
    have hq : 0 ≤ u * B / deps := by positivity
    have hA := abs_nonneg (x k - a)
    have c1 : 0 ≤ (8 / 7 * (8 * (u * B / deps)) + 13 * u) * |x k - a| := mul_nonneg (by positivity) hA
    have c2 := mul_le_mul_of_nonneg_right hu1 c1
    have c3 := mul_le_mul_of_nonneg_left hab hu
    have c4 : 0 ≤ u * |x k - a| := mul_nonneg hu hA
    have c5 : 0 ≤ u * B / deps * |x k - a| := mul_nonneg hq hA
    linarith

/-- **C131 (domains of boxes).** The domain is any sharp combination of rectangles or cubes (without translation), and near the point its exact signed distance is that to
the plane `x_k = a`. -/
theorem C131_boxes (h : Rounding rnd) (ha : Accurate rnd u) (hu : 0 ≤ u) (hu1 : u ≤ 1 / 64) (hd : d ≤ 3) {g : Geo K d} (hg : g.AllPrims Untranslated) {s a deps B : K} {k : Fin d}
    {x : Fin d → K} (hs : s = 1 ∨ s = -1) (hx : ∀ i, |x i| ≤ B) (hab : |a| ≤ B) (hz : |x k - a| ≤ B) (hd0 : 0 < deps) (hdB : deps ≤ B) (hd1 : deps ≤ 1 / 2)
    (hres : 64 * (u * B) ≤ deps) (hflat : ∀ y : Fin d → K, (∀ i, |y i - x i| ≤ 2 * deps) → g.eval id y = s * (y k - a)) :
    (∀ i, i ≠ k → newton rnd (fun y => g.eval rnd y) deps x i = rnd (x i)) ∧
      |newton rnd (fun y => g.eval rnd y) deps x k - a| ≤ (16 * (u * B / deps) + 16 * u) * |x k - a| + u * B := by
  have hB : 0 ≤ B := hd0.le.trans hdB
  refine C131_face h.zero ha hu hu1 hd hs (hx k) hab hz hd0 hdB hd1 hres ⟨?_, fun i => ?_⟩
  · simp only [C107_correctly_rounded h _ g hg]
    rw [hflat x fun i => by rw [sub_self, abs_zero]; linarith]
  · simp only [C107_correctly_rounded h _ g hg]
    rw [hflat _ fun j => ?_]
    simp only [bump]
    split
    · have h1 := ha (x j + deps)
      have h2 : |x j + deps| ≤ B + B := (abs_add_le _ _).trans (add_le_add (hx j) (by rw [abs_of_pos hd0]; exact hdB))
      have h3 := mul_le_mul_of_nonneg_left h2 hu
      have h4 : |rnd (x j + deps) - x j| ≤ |rnd (x j + deps) - (x j + deps)| + |x j + deps - x j| := abs_sub_le _ _ _
      rw [add_sub_cancel_left, abs_of_pos hd0] at h4
      linarith [mul_nonneg hu hB]
    · rw [sub_self, abs_zero]; linarith

/-- **C131 (stuck).** When `deps` is lost in the rounding of every coordinate, the projection does nothing at all, however far outside the point is. -/
theorem C131_stuck (h0 : rnd 0 = 0) {fl : (Fin d → K) → K} {deps : K} {x : Fin d → K} (hx : ∀ i, rnd (x i) = x i) (hlost : ∀ i, rnd (x i + deps) = x i) :
    newton rnd fl deps x = x := by
  have hb : ∀ i, bump rnd deps x i = x := fun i => funext fun k => by simp [bump, hlost]
  funext i
  simp [newton, dgrad, hb, h0, hx]

/-! ### Concrete cases -/

/-- A square with a side of 100 `h0` (`h0 = 1`), its corner at `(c, c)`. -/
def square (c : ℚ) : Geo ℚ 2 := .prim (.rect c (c + 100) c (c + 100) none)

/-- A point 10 `h0` outside the right side. -/
def beside (c : ℚ) : Fin 2 → ℚ := ![c + 110, c + 50]

/-- `deps = sqrt(eps) * h0` with `eps = 2^-52`, mesh_generator.py:421. -/
def deps1 : ℚ := 1 / 67108864

/-- **C131 (far away).** In double precision the projection brings the point to the boundary when the square is at the origin or at 2^20 `h0`, and leaves it 10 `h0` outside
the domain when the same square is at 2^30 `h0`. -/
theorem C131_far :
    projectBack SM.Fl.binary64 (fun y => (square 0).eval SM.Fl.binary64 y) deps1 [beside 0] = [![100, 50]] ∧
    projectBack SM.Fl.binary64 (fun y => (square 1048576).eval SM.Fl.binary64 y) deps1 [beside 1048576] = [![1048676, 1048626]] ∧
    projectBack SM.Fl.binary64 (fun y => (square 1073741824).eval SM.Fl.binary64 y) deps1 [beside 1073741824] = [beside 1073741824] ∧
    (square 1073741824).eval SM.Fl.binary64 (beside 1073741824) = 10 := by
  refine ⟨by decide +kernel, by decide +kernel, by decide +kernel, by decide +kernel⟩

/-- The hypotheses of `C131_boxes` hold for the square at 2^20 `h0` with `B = 2^21`. -/
example : (square 1048576).AllPrims Untranslated ∧ (∀ i, |beside 1048576 i| ≤ 2097152) ∧ 64 * (1 / 9007199254740992 * 2097152) ≤ deps1 ∧
    ∀ y : Fin 2 → ℚ, (∀ i, |y i - beside 1048576 i| ≤ 2 * deps1) → (square 1048576).eval id y = 1 * (y 0 - (1048576 + 100)) := by
  refine ⟨by simp [square, Geo.AllPrims, Untranslated, Prim.shift], by decide +kernel, by decide +kernel, fun y hy => ?_⟩
  have h0 := abs_le.1 (hy 0)
  have h1 := abs_le.1 (hy 1)
  simp only [beside, deps1, Matrix.cons_val_zero, Matrix.cons_val_one] at h0 h1
  simp only [square, Geo.eval, Prim.eval, drectangle, translateBack, id]
  rw [min_eq_right, one_mul]
  · ring
  · refine le_min (le_min ?_ ?_) ?_ <;> linarith

end SM.ProjectFl
