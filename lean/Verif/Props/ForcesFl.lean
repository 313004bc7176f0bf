import Verif.Model.ForcesFl
import Verif.Props.Outward
import Verif.Props.ShapesFl

/-!
# C135: the truss forces in floating-point arithmetic
-/

namespace SM.ForcesFl

open Np Topology FixMesh Forces
open SM.Round (Near one_le_pow_u)
open BallFl (Within)

noncomputable section
variable {d : ℕ}

/-! ### Specification -/

/-- What is assumed of the arithmetic, with relative error `u`: each operation is rounded with that error; powers of numbers that are not negative are accurate to 2 roundings and roots to `q`
(`q` is 128 for cube roots in double precision, whose exponent `1.0 / 3` is itself rounded); a sum of `n` numbers that are not negative is accurate to `n` roundings (true
in every order of summation). -/
structure Accuracy (u : ℝ) (q d : ℕ) (A : Arith) : Prop where
  nonneg : 0 ≤ u
  small : u ≤ 1 / 16
  rnd : ∀ x, |A.rnd x - x| ≤ u * |x|
  pw : ∀ x, 0 ≤ x → Within u 2 (A.pw d x) (x ^ d)
  root : ∀ x, 0 ≤ x → Within u q (A.root d x) (x ^ ((1 : ℝ) / d))
  total : ∀ l : List ℝ, (∀ x ∈ l, 0 ≤ x) → Within u l.length (A.total l) l.sum

/-- What C135 promises of the computed forces. Every bar `e` has a midpoint `w e`, accurate to 2 roundings, at which its size is taken; there is a computed factor `s`, scaled as documented up to rounding, and every bar has a force `f e` such
that: each component of `f e` points from the second to the first end point, or is zero; a bar that is clearly longer than its target `L0 = size * m * s` exerts no force at all; `f e` is
the exact force for that target, up to 16 roundings; what the vertex `i` gets is the sum of the forces of its bars, each taken with opposite sign at the other end, up to one rounding per bar of
the vertex; and the forces on all vertices add up to zero up to `D` roundings of the forces, where `D` is the largest number of bars of a vertex. -/
structure BalancedFl (u : ℝ) (q : ℕ) (eps m : ℝ) (fh : (Fin d → ℝ) → ℝ) (p : List (Fin d → ℝ)) (t : List (List ℕ))
    (F : List (Fin d → ℝ)) : Prop where
  length : F.length = p.length
  bars : ∃ (s : ℝ) (f w : ℕ × ℕ → Fin d → ℝ), 0 ≤ s ∧
    (∀ e k, |w e k - mid (pos p e.1) (pos p e.2) k| ≤ ((1 + u) ^ 2 - 1) * ((|pos p e.1 k| + |pos p e.2 k|) / 2)) ∧
    Within u (q * d + 3 * (barSet p.length t).card + 4 * d + 7)
      (∑ e ∈ barSet p.length t, (fh (w e) * s) ^ d) (∑ e ∈ barSet p.length t, len eps (pos p e.1) (pos p e.2) ^ d) ∧
    (∀ e ∈ barSet p.length t, ∀ k, 0 ≤ f e k * (pos p e.1 k - pos p e.2 k)) ∧
    (∀ e ∈ barSet p.length t, (1 + u) ^ 2 * (fh (w e) * m * s) ≤ (1 - u) ^ 4 * len eps (pos p e.1) (pos p e.2) → f e = 0) ∧
    (∀ e ∈ barSet p.length t, ∀ k,
      |f e k - push eps (fh (w e) * m * s) (pos p e.1) (pos p e.2) k| ≤
        ((1 + u) ^ 16 - 1) * (fh (w e) * m * s + len eps (pos p e.1) (pos p e.2))) ∧
    (∀ i < p.length, ∀ k,
      |pos F i k - ∑ e ∈ barSet p.length t, ((if e.1 = i then f e k else 0) + (if e.2 = i then -f e k else 0))| ≤
        ((1 + u) ^ (barsAt p.length t i).card - 1) * ∑ e ∈ barsAt p.length t i, |f e k|) ∧
    ∀ D, (∀ i < p.length, (barsAt p.length t i).card ≤ D) → ∀ k,
      |∑ i ∈ Finset.range p.length, pos F i k| ≤ 2 * ((1 + u) ^ D - 1) * ∑ e ∈ barSet p.length t, |f e k|

/-! ### Proof -/

section calculus

variable {u : ℝ}

theorem Within.trans (hu0 : 0 ≤ u) (hu : u ≤ 1) {k l : ℕ} {x y z : ℝ} (h : Within u k x y) (g : Within u l y z) : Within u (k + l) x z := by
  have h1 : 0 ≤ (1 - u) ^ k := pow_nonneg (by linarith) _
  have h2 : 0 ≤ (1 + u) ^ k := pow_nonneg (by linarith) _
  constructor
  · rw [pow_add, mul_assoc]
    exact (mul_le_mul_of_nonneg_left g.1 h1).trans h.1
  · rw [pow_add, mul_assoc]
    exact h.2.trans (mul_le_mul_of_nonneg_left g.2 h2)

theorem Within.mul (hu0 : 0 ≤ u) (hu : u ≤ 1) {k l : ℕ} {x y a b : ℝ} (hy : 0 ≤ y) (hb : 0 ≤ b) (h : Within u k x y) (g : Within u l a b) :
    Within u (k + l) (x * a) (y * b) := by
  have hx := h.nonneg hu hy
  have ha := g.nonneg hu hb
  have h1 : 0 ≤ (1 - u) ^ k := pow_nonneg (by linarith) _
  have h2 : 0 ≤ (1 + u) ^ k := pow_nonneg (by linarith) _
  have h3 : 0 ≤ (1 - u) ^ l := pow_nonneg (by linarith) _
  have h4 : 0 ≤ (1 + u) ^ l := pow_nonneg (by linarith) _
  constructor
  · calc _ = ((1 - u) ^ k * y) * ((1 - u) ^ l * b) := by rw [pow_add]; ring
      _ ≤ x * a := mul_le_mul h.1 g.1 (by positivity) hx
  · calc x * a ≤ ((1 + u) ^ k * y) * ((1 + u) ^ l * b) := mul_le_mul h.2 g.2 ha (by positivity)
      _ = _ := by rw [pow_add]; ring

theorem Within.refl {x : ℝ} : Within u 0 x x := by simp [Within]

theorem Within.pow (hu0 : 0 ≤ u) (hu : u ≤ 1) {k : ℕ} {x y : ℝ} (hy : 0 ≤ y) (h : Within u k x y) (n : ℕ) : Within u (k * n) (x ^ n) (y ^ n) := by
  constructor
  · rw [pow_mul, ← mul_pow]
    exact pow_le_pow_left₀ (mul_nonneg (pow_nonneg (by linarith) _) hy) h.1 n
  · rw [pow_mul, ← mul_pow]
    exact pow_le_pow_left₀ (h.nonneg hu hy) h.2 n

theorem Within.list_sum {ι : Type} (l : List ι) {k : ℕ} {x y : ι → ℝ} (h : ∀ i ∈ l, Within u k (x i) (y i)) :
    Within u k (l.map x).sum (l.map y).sum := by
  induction l with
  | nil => simp [Within]
  | cons a l ih =>
    simp only [List.map_cons, List.sum_cons]
    exact (h a (by simp)).add (ih fun i hi => h i (by simp [hi]))

/-- The quotient of approximations, cleared of its denominator. -/
theorem Within.quot (hu0 : 0 ≤ u) (hu : u ≤ 1 / 2) {k m : ℕ} {x y a b : ℝ} (hy : 0 ≤ y) (hb : 0 < b) (h : Within u k x y) (g : Within u m a b) :
    Within u (k + 2 * m) (x / a) (y / b) := by
  have hp : 0 < (1 - u) ^ m := pow_pos (by linarith) _
  have ha : 0 < a := (mul_pos hp hb).trans_le g.1
  have e1 : 1 ≤ (1 - u) ^ m * (1 + u) ^ (2 * m) := by
    rw [pow_mul, ← mul_pow]
    exact one_le_pow₀ (by nlinarith [sq_nonneg u, mul_nonneg hu0 (sub_nonneg.2 hu)])
  have e2 : (1 - u) ^ (2 * m) * (1 + u) ^ m ≤ 1 := by
    rw [pow_mul, ← mul_pow]
    exact pow_le_one₀ (by positivity) (by nlinarith [sq_nonneg u])
  have hk1 : 0 ≤ (1 - u) ^ k := pow_nonneg (by linarith) _
  have hk2 : 0 ≤ (1 + u) ^ k := pow_nonneg (by linarith) _
  have hm1 : 0 ≤ (1 - u) ^ (2 * m) := pow_nonneg (by linarith) _
  have hm2 : 0 ≤ (1 + u) ^ (2 * m) := pow_nonneg (by linarith) _
  constructor
  · rw [le_div_iff₀ ha, pow_add]
    have h1 : y / b * a ≤ (1 + u) ^ m * y := by
      rw [div_mul_eq_mul_div, div_le_iff₀ hb]
      have := mul_le_mul_of_nonneg_left g.2 hy
      linarith
    calc _ = (1 - u) ^ k * ((1 - u) ^ (2 * m) * (y / b * a)) := by ring
      _ ≤ (1 - u) ^ k * ((1 - u) ^ (2 * m) * ((1 + u) ^ m * y)) := by gcongr
      _ = (1 - u) ^ k * ((1 - u) ^ (2 * m) * (1 + u) ^ m * y) := by ring
      _ ≤ (1 - u) ^ k * (1 * y) := by gcongr
      _ ≤ x := by rw [one_mul]; exact h.1
  · rw [div_le_iff₀ ha, pow_add]
    have h1 : (1 - u) ^ m * y ≤ y / b * a := by
      rw [div_mul_eq_mul_div, le_div_iff₀ hb]
      have := mul_le_mul_of_nonneg_left g.1 hy
      linarith
    calc x ≤ (1 + u) ^ k * y := h.2
      _ = (1 + u) ^ k * (1 * y) := by rw [one_mul]
      _ ≤ (1 + u) ^ k * ((1 - u) ^ m * (1 + u) ^ (2 * m) * y) := by gcongr
      _ = (1 + u) ^ k * ((1 + u) ^ (2 * m) * ((1 - u) ^ m * y)) := by ring
      _ ≤ (1 + u) ^ k * ((1 + u) ^ (2 * m) * (y / b * a)) := by gcongr
      _ = _ := by ring

end calculus

variable {u : ℝ} {q : ℕ} {A : Arith}

theorem Accuracy.le_one (hA : Accuracy u q d A) : u ≤ 1 := hA.small.trans (by norm_num)

theorem rnd_sign (hA : Accuracy u q d A) (x : ℝ) : 0 ≤ A.rnd x * x := by
  have h := hA.rnd x
  have h1 := mul_le_mul_of_nonneg_right hA.le_one (abs_nonneg x)
  rcases le_total 0 x with hx | hx
  · rw [abs_of_nonneg hx] at h h1
    have := (abs_le.1 h).1
    exact mul_nonneg (by linarith) hx
  · rw [abs_of_nonpos hx] at h h1
    have := (abs_le.1 h).2
    exact mul_nonneg_of_nonpos_of_nonpos (by linarith) hx

theorem rnd_nonneg (hA : Accuracy u q d A) {x : ℝ} (hx : 0 ≤ x) : 0 ≤ A.rnd x := by
  have h := hA.rnd x
  have h1 := mul_le_mul_of_nonneg_right hA.le_one (abs_nonneg x)
  rw [abs_of_nonneg hx] at h h1
  have := (abs_le.1 h).1
  linarith

theorem rnd_nonpos (hA : Accuracy u q d A) {x : ℝ} (hx : x ≤ 0) : A.rnd x ≤ 0 := by
  have h := hA.rnd x
  have h1 := mul_le_mul_of_nonneg_right hA.le_one (abs_nonneg x)
  rw [abs_of_nonpos hx] at h h1
  have := (abs_le.1 h).2
  linarith

theorem rnd_zero (hA : Accuracy u q d A) : A.rnd 0 = 0 := by
  have h := hA.rnd 0
  simpa using h

/-- The computed squared length. -/
theorem sumSq_within (hA : Accuracy u q d A) (a b : Fin d → ℝ) :
    Within u (3 + d) (sumSq A fun k => A.rnd (a k - b k)) (∑ k, (a k - b k) ^ 2) := by
  have hu0 := hA.nonneg
  have hu1 := hA.le_one
  have key : ∀ (l : List (Fin d)) (n : ℕ) (s' s : ℝ), 0 ≤ s → Within u (3 + n) s' s →
      Within u (3 + n + l.length) (l.foldl (fun s k => A.rnd (s + A.rnd (A.rnd (a k - b k) * A.rnd (a k - b k)))) s') (s + (l.map fun k => (a k - b k) ^ 2).sum) := by
    intro l
    induction l with
    | nil => intro n s' s _ h; simpa using h
    | cons k l ih =>
      intro n s' s hs h
      have h3 := (BallFl.sqDiff_within hu0 hu1 hA.rnd (a k) (b k)).weaken hu0 hu1 (by omega : 3 ≤ 3 + n) (sq_nonneg _)
      have h4 := (h.add h3).step hu0 hu1 hA.rnd (add_nonneg hs (sq_nonneg _))
      have := ih (n + 1) _ _ (add_nonneg hs (sq_nonneg _)) h4
      simp only [List.foldl_cons, List.map_cons, List.sum_cons, List.length_cons]
      rw [show 3 + n + (l.length + 1) = 3 + (n + 1) + l.length by omega, ← add_assoc s]
      exact this
  have := key (List.finRange d) 0 0 0 le_rfl (by simp [Within])
  simp only [List.length_finRange, add_zero, zero_add] at this
  rw [← List.ofFn_eq_map, List.sum_ofFn] at this
  exact this

/-- The computed length of a bar. -/
theorem barLen_within (hA : Accuracy u q d A) (hd : d ≤ 3) {eps : ℝ} (he : 0 < eps) (x : Bar d) : Within u 4 (barLen A eps x) (len eps x.2.1 x.2.2) := by
  have hu0 := hA.nonneg
  have hu1 := hA.le_one
  have h1 := (sumSq_within hA x.2.1 x.2.2).weaken hu0 hu1 (by omega : 3 + d ≤ 2 * 3) (Finset.sum_nonneg fun k _ => sq_nonneg _)
  have h2 := (h1.sqrt hu0 hu1).step hu0 hu1 hA.rnd (Real.sqrt_nonneg _)
  unfold barLen len
  by_cases h : x.2.1 = x.2.2
  · have e : Real.sqrt (∑ k, (x.2.1 k - x.2.2 k) ^ 2) = 0 := (sum_sq_eq_zero _ _).2 h
    rw [e] at h2
    have : A.rnd (Real.sqrt (sumSq A (barVec A x))) = 0 := by
      have a1 := h2.1; have a2 := h2.2
      simp only [mul_zero] at a1 a2
      exact le_antisymm a2 a1
    simp only [this, h, if_true]
    exact (Within.refl).weaken hu0 hu1 (Nat.zero_le 4) he.le
  · have e : 0 < Real.sqrt (∑ k, (x.2.1 k - x.2.2 k) ^ 2) :=
      lt_of_le_of_ne (Real.sqrt_nonneg _) fun hc => h ((sum_sq_eq_zero _ _).1 hc.symm)
    have hp : (0 : ℝ) < 1 - u := by have := hA.small; linarith
    have : 0 < A.rnd (Real.sqrt (sumSq A (barVec A x))) := (mul_pos (pow_pos hp _) e).trans_le h2.1
    simp only [this.ne', h, if_false]
    exact h2

theorem barLen_pos (hA : Accuracy u q d A) (hd : d ≤ 3) {eps : ℝ} (he : 0 < eps) (x : Bar d) : 0 < barLen A eps x := by
  have hp : (0 : ℝ) < 1 - u := by have := hA.small; linarith
  exact (mul_pos (pow_pos hp _) (len_pos he _ _)).trans_le (barLen_within hA hd he x).1

theorem target_within (hA : Accuracy u q d A) {fh : (Fin d → ℝ) → ℝ} (hfh : ∀ x, 0 < fh x) {m s : ℝ} (hm : 0 ≤ m) (hs : 0 ≤ s) (x : Bar d) :
    Within u 2 (target A fh m s x) (hEdge A fh x * m * s) := by
  have h0 : 0 ≤ hEdge A fh x * m := mul_nonneg (hfh _).le hm
  have h1 := BallFl.rnd_within hA.rnd h0
  have h2 := Within.mul hA.nonneg hA.le_one h0 hs h1 (Within.refl (u := u) (x := s))
  exact h2.step hA.nonneg hA.le_one hA.rnd (mul_nonneg h0 hs)

theorem barForce_eq (eps : ℝ) (fh : (Fin d → ℝ) → ℝ) (m s : ℝ) (x : Bar d) :
    barForce A eps fh m s x = max (A.rnd (target A fh m s x - barLen A eps x)) 0 := by
  unfold barForce
  dsimp only
  split
  · rename_i h; rw [max_eq_right h.le]
  · rename_i h; rw [max_eq_left (not_lt.1 h)]

theorem within_to_near (hA : Accuracy u q d A) {k : ℕ} {x y : ℝ} (hy : 0 ≤ y) (h : Within u k x y) : Near u k y x y := by
  have := ShapesFl.within_near hA.nonneg hA.le_one (Near.exact (u := u) (B := y) (x := y) (abs_of_nonneg hy).le) hy h
  rwa [zero_add] at this

theorem barForce_near (hA : Accuracy u q d A) (hd : d ≤ 3) {eps : ℝ} (he : 0 < eps) {fh : (Fin d → ℝ) → ℝ} (hfh : ∀ x, 0 < fh x) {m s : ℝ} (hm : 0 ≤ m)
    (hs : 0 ≤ s) (x : Bar d) : Near u 5 (hEdge A fh x * m * s + len eps x.2.1 x.2.2) (barForce A eps fh m s x)
      (max (hEdge A fh x * m * s - len eps x.2.1 x.2.2) 0) := by
  have h0 : 0 ≤ hEdge A fh x * m * s := mul_nonneg (mul_nonneg (hfh _).le hm) hs
  have hl := (len_pos he x.2.1 x.2.2).le
  have h1 := (within_to_near hA h0 (target_within hA hfh hm hs x)).weaken hA.nonneg (by norm_num : 2 ≤ 4) le_rfl
  have h2 := within_to_near hA hl (barLen_within hA hd he x)
  rw [barForce_eq]
  exact ShapesFl.near_max ((h1.sub h2).rnd hA.nonneg hA.rnd) (ShapesFl.near_zero hA.nonneg (add_nonneg h0 hl))

theorem abs_le_len {eps : ℝ} (he : 0 < eps) (a b : Fin d → ℝ) (k : Fin d) : |a k - b k| ≤ len eps a b := by
  unfold len
  split
  · rename_i h; simp [h, he.le]
  · rw [← Real.sqrt_sq_eq_abs]
    exact Real.sqrt_le_sqrt (Finset.single_le_sum (f := fun k => (a k - b k) ^ 2) (fun _ _ => sq_nonneg _) (Finset.mem_univ k))

theorem forceVec_near (hA : Accuracy u q d A) (hd : d ≤ 3) {eps : ℝ} (he : 0 < eps) {fh : (Fin d → ℝ) → ℝ} (hfh : ∀ x, 0 < fh x) {m s : ℝ} (hm : 0 ≤ m)
    (hs : 0 ≤ s) (x : Bar d) (k : Fin d) : |forceVec A eps fh m s x k - push eps (hEdge A fh x * m * s) x.2.1 x.2.2 k| ≤
      ((1 + u) ^ 16 - 1) * (hEdge A fh x * m * s + len eps x.2.1 x.2.2) := by
  have hu := hA.nonneg
  have hl := len_pos he x.2.1 x.2.2
  have h1 := ShapesFl.near_quot hu (hA.small.trans (by norm_num)) (barForce_near hA hd he hfh hm hs x) hl (barLen_within hA hd he x)
  have h2 := h1.2.rnd hu hA.rnd
  have h3 := (Near.exact (u := u) (le_refl |x.2.1 k - x.2.2 k|)).rnd hu hA.rnd
  have h4 : Near u 16 _ _ _ := (h2.mul hu h3).rnd hu hA.rnd
  have e : max (hEdge A fh x * m * s - len eps x.2.1 x.2.2) 0 / len eps x.2.1 x.2.2 * (x.2.1 k - x.2.2 k) = push eps (hEdge A fh x * m * s) x.2.1 x.2.2 k := by
    simp only [push, Pi.smul_apply, Pi.sub_apply, smul_eq_mul]; ring
  rw [e] at h4
  have h0 : 0 ≤ hEdge A fh x * m * s + len eps x.2.1 x.2.2 := add_nonneg (mul_nonneg (mul_nonneg (hfh _).le hm) hs) hl.le
  refine h4.2.trans (mul_le_mul_of_nonneg_left ?_ (by linarith [one_le_pow_u hu 16]))
  rw [div_mul_eq_mul_div, div_le_iff₀ hl]
  exact mul_le_mul_of_nonneg_left (abs_le_len he _ _ k) h0

theorem barForce_nonneg (eps : ℝ) (fh : (Fin d → ℝ) → ℝ) (m s : ℝ) (x : Bar d) : 0 ≤ barForce A eps fh m s x := by
  rw [barForce_eq]; exact le_max_right _ _

theorem forceVec_sign (hA : Accuracy u q d A) (hd : d ≤ 3) {eps : ℝ} (he : 0 < eps) (fh : (Fin d → ℝ) → ℝ) (m s : ℝ) (x : Bar d) (k : Fin d) :
    0 ≤ forceVec A eps fh m s x k * (x.2.1 k - x.2.2 k) := by
  have hc := rnd_nonneg hA (div_nonneg (barForce_nonneg (A := A) eps fh m s x) (barLen_pos hA hd he x).le)
  unfold forceVec barVec
  rcases le_total 0 (x.2.1 k - x.2.2 k) with h | h
  · exact mul_nonneg (rnd_nonneg hA (mul_nonneg hc (rnd_nonneg hA h))) h
  · exact mul_nonneg_of_nonpos_of_nonpos (rnd_nonpos hA (mul_nonpos_of_nonneg_of_nonpos hc (rnd_nonpos hA h))) h

theorem forceVec_zero (hA : Accuracy u q d A) (hd : d ≤ 3) {eps : ℝ} (he : 0 < eps) {fh : (Fin d → ℝ) → ℝ} (hfh : ∀ x, 0 < fh x) {m s : ℝ} (hm : 0 ≤ m)
    (hs : 0 ≤ s) (x : Bar d) (h : (1 + u) ^ 2 * (hEdge A fh x * m * s) ≤ (1 - u) ^ 4 * len eps x.2.1 x.2.2) : forceVec A eps fh m s x = 0 := by
  have h1 := (target_within hA hfh hm hs x).2
  have h2 := (barLen_within hA hd he x).1
  have h3 := rnd_nonpos hA (by linarith : target A fh m s x - barLen A eps x ≤ 0)
  have h4 : barForce A eps fh m s x = 0 := by rw [barForce_eq, max_eq_right h3]
  funext k
  simp [forceVec, h4, rnd_zero hA]

/-! ### Summation -/

theorem fold_near (hA : Accuracy u q d A) : ∀ (l : List ℝ) (k : ℕ) (S s' s : ℝ), Near u k S s' s →
    Near u (k + l.length) (S + (l.map fun v => |v|).sum) (l.foldl (fun s v => A.rnd (s + v)) s') (s + l.sum)
  | [], k, S, s', s, h => by simpa using h
  | v :: l, k, S, s', s, h => by
    have hv : Near u k |v| v v := (Near.exact le_rfl).weaken hA.nonneg (Nat.zero_le k) le_rfl
    have := fold_near hA l (k + 1) _ _ _ ((h.add hv).rnd hA.nonneg hA.rnd)
    simp only [List.foldl_cons, List.map_cons, List.sum_cons, List.length_cons]
    rw [show k + (l.length + 1) = k + 1 + l.length by omega, ← add_assoc S, ← add_assoc s]
    exact this

theorem filter_finRange {i j : ℕ} (a : ℕ) (f : Fin d → ℝ) (hj : j < d) :
    ((((List.finRange d).map fun k => (a, k.1, f k)).filter fun e => decide (e.1 = i ∧ e.2.1 = j)).map fun e => e.2.2) =
      if a = i then [f ⟨j, hj⟩] else [] := by
  rw [List.filter_map, List.map_map]
  by_cases h : a = i
  · have e : (List.finRange d).filter ((fun e : ℕ × ℕ × ℝ => decide (e.1 = i ∧ e.2.1 = j)) ∘ fun k => (a, k.1, f k)) =
        (List.finRange d).filter (· == ⟨j, hj⟩) := by
      refine List.filter_congr fun k _ => ?_
      rw [Bool.eq_iff_iff]; simp [h, Fin.ext_iff]
    rw [e, List.filter_beq, List.count_eq_one_of_mem (List.nodup_finRange d) (List.mem_finRange _), if_pos h]
    rfl
  · rw [if_neg h]
    simp [h]

/-- What vertex `i` collects, in order. -/
theorem filter_triples (eps : ℝ) (fh : (Fin d → ℝ) → ℝ) (m s : ℝ) (bars : List (Bar d)) (i : ℕ) (k : Fin d) :
    (((bars.flatMap (triples A eps fh m s)).filter fun e => decide (e.1 = i ∧ e.2.1 = k.1)).map fun e => e.2.2) =
      bars.flatMap fun x => (if x.1.1 = i then [forceVec A eps fh m s x k] else []) ++ (if x.1.2 = i then [-forceVec A eps fh m s x k] else []) := by
  induction bars with
  | nil => rfl
  | cons x bars ih =>
    rw [List.flatMap_cons, List.filter_append, List.map_append, ih, List.flatMap_cons]
    congr 1
    unfold triples
    rw [List.filter_append, List.map_append, filter_finRange x.1.1 _ k.2]
    have := filter_finRange (d := d) (i := i) (j := k.1) x.1.2 (fun k => -forceVec A eps fh m s x k) k.2
    rw [this]

theorem collect_sum {ι : Type} (l : List ι) (g : ι → List ℝ) : (l.flatMap g).sum = (l.map fun x => (g x).sum).sum := by
  induction l with
  | nil => rfl
  | cons x l ih => simp [ih]

theorem collect_abs {ι : Type} (l : List ι) (g : ι → List ℝ) : ((l.flatMap g).map fun v => |v|).sum = (l.map fun x => ((g x).map fun v => |v|).sum).sum := by
  induction l with
  | nil => rfl
  | cons x l ih => simp [ih]

theorem collect_length {ι : Type} (l : List ι) (g : ι → List ℝ) : (l.flatMap g).length = (l.map fun x => (g x).length).sum := by
  induction l with
  | nil => rfl
  | cons x l ih => simp [ih]

theorem Within.zero {k : ℕ} : Within u k 0 0 := by simp [Within]

/-- The computed scale. -/
theorem scale_within (hA : Accuracy u q d A) (hd0 : d ≠ 0) (hd : d ≤ 3) {eps : ℝ} (he : 0 < eps) {fh : (Fin d → ℝ) → ℝ} (hfh : ∀ x, 0 < fh x)
    {bars : List (Bar d)} (hne : bars ≠ []) : 0 ≤ scale A eps fh bars ∧
    Within u (q * d + 3 * bars.length + 4 * d + 7) ((bars.map fun x => (hEdge A fh x * scale A eps fh bars) ^ d).sum) (bars.map fun x => len eps x.2.1 x.2.2 ^ d).sum := by
  have hu0 := hA.nonneg
  have hu1 := hA.le_one
  have hu2 : u ≤ 1 / 2 := hA.small.trans (by norm_num)
  have hL : ∀ x : Bar d, Within u (2 + 4 * d) (A.pw d (barLen A eps x)) (len eps x.2.1 x.2.2 ^ d) := fun x =>
    Within.trans hu0 hu1 (hA.pw _ (barLen_pos hA hd he x).le) (Within.pow hu0 hu1 (len_pos he _ _).le (barLen_within hA hd he x) d)
  have hH : ∀ x : Bar d, Within u 2 (A.pw d (hEdge A fh x)) (hEdge A fh x ^ d) := fun x => hA.pw _ (hfh _).le
  have hTL := Within.trans hu0 hu1 (hA.total (bars.map fun x => A.pw d (barLen A eps x)) (by
    intro y hy; obtain ⟨x, -, rfl⟩ := List.mem_map.1 hy; exact (hL x).nonneg hu1 (pow_nonneg (len_pos he _ _).le _)))
    (Within.list_sum bars fun x _ => hL x)
  have hTH := Within.trans hu0 hu1 (hA.total (bars.map fun x => A.pw d (hEdge A fh x)) (by
    intro y hy; obtain ⟨x, -, rfl⟩ := List.mem_map.1 hy; exact (hH x).nonneg hu1 (pow_nonneg (hfh _).le _)))
    (Within.list_sum bars fun x _ => hH x)
  simp only [List.length_map] at hTL hTH
  have pL : 0 ≤ (bars.map fun x => len eps x.2.1 x.2.2 ^ d).sum := List.sum_nonneg (by
    intro y hy; obtain ⟨x, -, rfl⟩ := List.mem_map.1 hy; exact pow_nonneg (len_pos he _ _).le _)
  have pH : 0 < (bars.map fun x => hEdge A fh x ^ d).sum := List.sum_pos _ (by
    intro y hy; obtain ⟨x, -, rfl⟩ := List.mem_map.1 hy; exact pow_pos (hfh _) _) (by simpa using hne)
  have hr := (Within.quot hu0 hu2 pL pH hTL hTH).step hu0 hu1 hA.rnd (div_nonneg pL pH.le)
  have hr0 := hr.nonneg hu1 (div_nonneg pL pH.le)
  have hroot := hA.root _ hr0
  have hs0 : 0 ≤ scale A eps fh bars := hroot.nonneg hu1 (Real.rpow_nonneg hr0 _)
  refine ⟨hs0, ?_⟩
  have hp := Within.pow hu0 hu1 (Real.rpow_nonneg hr0 _) hroot d
  rw [one_div, Real.rpow_inv_natCast_pow hr0 hd0] at hp
  have hall := Within.trans hu0 hu1 hp hr
  have hm := Within.mul hu0 hu1 pH.le (div_nonneg pL pH.le) (Within.refl (u := u) (x := (bars.map fun x => hEdge A fh x ^ d).sum)) hall
  rw [mul_div_cancel₀ _ pH.ne', ← List.sum_map_mul_right] at hm
  simp only [mul_pow]
  convert hm using 1
  · omega
  · rfl

theorem midPt_near (hA : Accuracy u q d A) (a b : Fin d → ℝ) (k : Fin d) : |midPt A a b k - mid a b k| ≤ ((1 + u) ^ 2 - 1) * ((|a k| + |b k|) / 2) :=
  (((((Near.exact (u := u) (le_refl |a k|)).add (Near.exact (le_refl |b k|))).rnd hA.nonneg hA.rnd).div two_pos).rnd hA.nonneg hA.rnd).2

theorem ite_pair {M : Type} [AddCommMonoid M] {a b i : ℕ} (h : a < b) (x : M) : ((if a = i then x else 0) + (if b = i then x else 0)) = if a = i ∨ b = i then x else 0 := by
  by_cases h1 : a = i
  · have h2 : b ≠ i := by omega
    simp [h1, h2]
  · simp [h1]

theorem balanced_of (hA : Accuracy u q d A) (hd0 : d ≠ 0) (hd : d ≤ 3) {eps : ℝ} (he : 0 < eps) {p : List (Fin d → ℝ)} {t : List (List ℕ)}
    {fh : (Fin d → ℝ) → ℝ} (hfh : ∀ x, 0 < fh x) {m : ℝ} (hm : 0 ≤ m) (hr : InRange p t)
    {es : List (ℕ × ℕ)} (hes : getBars t (d + 1) = .ok es)
    (hmem : ∀ a b, (a, b) ∈ es ↔ a < b ∧ ∃ r ∈ t, a ∈ r ∧ b ∈ r) (hnd : es.Nodup) :
    ∃ F, computeForces A eps p t fh m = .ok F ∧ BalancedFl u q eps m fh p t F := by
  have hu := hA.nonneg
  have hin : ∀ e ∈ es, e.1 < p.length ∧ e.2 < p.length := by
    rintro ⟨a, b⟩ h
    obtain ⟨-, r, hrt, ha, hb⟩ := (hmem a b).1 h
    exact ⟨hr r hrt a ha, hr r hrt b hb⟩
  have hset : ∀ e, e ∈ es ↔ e ∈ barSet p.length t := by
    rintro ⟨a, b⟩
    simp only [barSet, Finset.mem_filter, Finset.mem_product, Finset.mem_range, hmem]
    constructor
    · intro h
      exact ⟨hin (a, b) ((hmem a b).2 h), h⟩
    · exact fun h => h.2
  have hlt : ∀ e ∈ barSet p.length t, e.1 < e.2 := fun e h => by
    simp only [barSet, Finset.mem_filter] at h; exact h.2.1
  have hcard : es.length = (barSet p.length t).card := by
    rw [← List.toFinset_card_of_nodup hnd]
    congr 1; ext e; simp [hset]
  let bar : ℕ × ℕ → Bar d := fun e => (e, pos p e.1, pos p e.2)
  set bars : List (Bar d) := es.map bar with hbars
  set s := scale A eps fh bars with hs
  let f : ℕ × ℕ → Fin d → ℝ := fun e => forceVec A eps fh m s (bar e)
  let w : ℕ × ℕ → Fin d → ℝ := fun e => midPt A (pos p e.1) (pos p e.2)
  have hw : ∀ e k, |w e k - mid (pos p e.1) (pos p e.2) k| ≤ ((1 + u) ^ 2 - 1) * ((|pos p e.1 k| + |pos p e.2 k|) / 2) :=
    fun e k => midPt_near hA _ _ k
  have hrun : computeForces A eps p t fh m = .ok (dense A p.length (bars.flatMap (triples A eps fh m s))) := by
    have := bars_run hin
    simp only [computeForces, hes, this, bind, Except.bind, pure, Except.pure]
    rfl
  have hFl : (dense A p.length (bars.flatMap (triples A eps fh m s)) : List (Fin d → ℝ)).length = p.length := by simp [dense]
  have hs0 : (barSet p.length t).Nonempty → 0 ≤ s ∧ Within u (q * d + 3 * (barSet p.length t).card + 4 * d + 7)
      (∑ e ∈ barSet p.length t, (fh (midPt A (pos p e.1) (pos p e.2)) * s) ^ d) (∑ e ∈ barSet p.length t, len eps (pos p e.1) (pos p e.2) ^ d) := by
    rintro ⟨e, hemem⟩
    have hne : bars ≠ [] := by
      rw [hbars]
      intro h
      rw [List.map_eq_nil_iff] at h
      have := (hset e).2 hemem
      simp [h] at this
    obtain ⟨h1, h2⟩ := scale_within hA hd0 hd he hfh hne
    refine ⟨h1, ?_⟩
    rw [← list_sum_eq hnd hset, ← list_sum_eq hnd hset, ← hcard]
    rw [hbars, List.length_map, List.map_map, List.map_map] at h2
    exact h2
  -- what a vertex gets
  have hF : ∀ i < p.length, ∀ k, |pos (dense A p.length (bars.flatMap (triples A eps fh m s)) : List (Fin d → ℝ)) i k -
      ∑ e ∈ barSet p.length t, ((if e.1 = i then f e k else 0) + (if e.2 = i then -f e k else 0))| ≤
        ((1 + u) ^ (barsAt p.length t i).card - 1) * ∑ e ∈ barsAt p.length t i, |f e k| := by
    intro i hi k
    have hpos : pos (dense A p.length (bars.flatMap (triples A eps fh m s)) : List (Fin d → ℝ)) i k = cooEntry A (bars.flatMap (triples A eps fh m s)) i k.1 := by
      unfold pos dense
      simp [List.getD, hi]
    rw [hpos, cooEntry, filter_triples]
    have hn := fold_near hA (bars.flatMap fun x => (if x.1.1 = i then [forceVec A eps fh m s x k] else []) ++
      (if x.1.2 = i then [-forceVec A eps fh m s x k] else [])) 0 0 0 0 (Near.exact (by simp))
    rw [collect_sum, collect_abs, collect_length, zero_add, zero_add, zero_add, hbars, List.map_map, List.map_map, List.map_map, list_sum_eq hnd hset, list_sum_eq hnd hset,
      list_sum_eq hnd hset] at hn
    have e1 : ∑ e ∈ barSet p.length t, ((fun x : Bar d => ((if x.1.1 = i then [forceVec A eps fh m s x k] else []) ++
        (if x.1.2 = i then [-forceVec A eps fh m s x k] else [])).sum) ∘ bar) e =
        ∑ e ∈ barSet p.length t, ((if e.1 = i then f e k else 0) + (if e.2 = i then -f e k else 0)) := by
      refine Finset.sum_congr rfl fun e _ => ?_
      simp only [Function.comp, List.sum_append]
      congr 1 <;> split <;> simp [bar, f]
    have e2 : ∑ e ∈ barSet p.length t, ((fun x : Bar d => (((if x.1.1 = i then [forceVec A eps fh m s x k] else []) ++
        (if x.1.2 = i then [-forceVec A eps fh m s x k] else [])).map fun v => |v|).sum) ∘ bar) e = ∑ e ∈ barsAt p.length t i, |f e k| := by
      rw [barsAt, Finset.sum_filter]
      refine Finset.sum_congr rfl fun e hemem => ?_
      rw [← ite_pair (hlt e hemem)]
      simp only [Function.comp, List.map_append, List.sum_append]
      congr 1 <;> split <;> simp [bar, f]
    have e3 : ∑ e ∈ barSet p.length t, ((fun x : Bar d => ((if x.1.1 = i then [forceVec A eps fh m s x k] else []) ++
        (if x.1.2 = i then [-forceVec A eps fh m s x k] else [])).length) ∘ bar) e = (barsAt p.length t i).card := by
      rw [barsAt, Finset.card_filter]
      refine Finset.sum_congr rfl fun e hemem => ?_
      rw [← ite_pair (hlt e hemem)]
      simp only [Function.comp, List.length_append]
      congr 1 <;> split <;> simp [bar]
    rw [e1, e2, e3] at hn
    exact hn.2
  refine ⟨_, hrun, hFl, ?_⟩
  rcases (barSet p.length t).eq_empty_or_nonempty with h0 | h0
  · -- no bars
    refine ⟨0, f, w, le_rfl, hw, by simp [h0, Within], by simp [h0], by simp [h0], by simp [h0], hF, ?_⟩
    intro D _ k
    have : ∀ i ∈ Finset.range p.length, pos (dense A p.length (bars.flatMap (triples A eps fh m s)) : List (Fin d → ℝ)) i k = 0 := by
      intro i hi
      have := hF i (Finset.mem_range.1 hi) k
      simp only [barsAt, h0, Finset.sum_empty, Finset.filter_empty, Finset.card_empty, mul_zero, sub_zero] at this
      exact abs_eq_zero.1 (le_antisymm this (abs_nonneg _))
    rw [Finset.sum_eq_zero this]
    simp [h0]
  obtain ⟨hsn, hsw⟩ := hs0 h0
  refine ⟨s, f, w, hsn, hw, hsw, fun e _ k => forceVec_sign hA hd he fh m s (bar e) k, fun e _ h => forceVec_zero hA hd he hfh hm hsn (bar e) h,
    fun e _ k => forceVec_near hA hd he hfh hm hsn (bar e) k, hF, ?_⟩
  intro D hD k
  have hz : ∑ i ∈ Finset.range p.length, ∑ e ∈ barSet p.length t, ((if e.1 = i then f e k else 0) + (if e.2 = i then -f e k else 0)) = 0 := by
    rw [Finset.sum_comm]
    refine Finset.sum_eq_zero fun e hemem => ?_
    have := hin e ((hset e).2 hemem)
    rw [Finset.sum_add_distrib, Finset.sum_ite_eq, Finset.sum_ite_eq, if_pos (Finset.mem_range.2 this.1), if_pos (Finset.mem_range.2 this.2), add_neg_cancel]
  have habs : ∑ i ∈ Finset.range p.length, ∑ e ∈ barsAt p.length t i, |f e k| = 2 * ∑ e ∈ barSet p.length t, |f e k| := by
    simp only [barsAt, Finset.sum_filter]
    rw [Finset.sum_comm, Finset.mul_sum]
    refine Finset.sum_congr rfl fun e hemem => ?_
    have := hin e ((hset e).2 hemem)
    rw [Finset.sum_congr rfl fun i _ => (ite_pair (i := i) (hlt e hemem) |f e k|).symm, Finset.sum_add_distrib, Finset.sum_ite_eq, Finset.sum_ite_eq,
      if_pos (Finset.mem_range.2 this.1), if_pos (Finset.mem_range.2 this.2), two_mul]
  have e : ∑ i ∈ Finset.range p.length, pos (dense A p.length (bars.flatMap (triples A eps fh m s)) : List (Fin d → ℝ)) i k =
      ∑ i ∈ Finset.range p.length, (pos (dense A p.length (bars.flatMap (triples A eps fh m s)) : List (Fin d → ℝ)) i k -
        ∑ e ∈ barSet p.length t, ((if e.1 = i then f e k else 0) + (if e.2 = i then -f e k else 0))) := by
    rw [Finset.sum_sub_distrib, hz, sub_zero]
  rw [e]
  refine (Finset.abs_sum_le_sum_abs _ _).trans ?_
  have hle : ∀ i ∈ Finset.range p.length, |pos (dense A p.length (bars.flatMap (triples A eps fh m s)) : List (Fin d → ℝ)) i k -
        ∑ e ∈ barSet p.length t, ((if e.1 = i then f e k else 0) + (if e.2 = i then -f e k else 0))| ≤
        ((1 + u) ^ D - 1) * ∑ e ∈ barsAt p.length t i, |f e k| := by
    intro i hi
    refine (hF i (Finset.mem_range.1 hi) k).trans (mul_le_mul_of_nonneg_right ?_ (Finset.sum_nonneg fun _ _ => abs_nonneg _))
    have := pow_le_pow_right₀ (by linarith : (1 : ℝ) ≤ 1 + u) (hD i (Finset.mem_range.1 hi))
    linarith
  refine (Finset.sum_le_sum hle).trans (le_of_eq ?_)
  rw [← Finset.mul_sum, habs]
  ring

/-- **C135 (2-D).** -/
theorem C135_triangles (hA : Accuracy u q 2 A) {eps : ℝ} (he : 0 < eps) {p : List (Fin 2 → ℝ)} {t : List (List ℕ)}
    {fh : (Fin 2 → ℝ) → ℝ} (hfh : ∀ x, 0 < fh x) {m : ℝ} (hm : 0 ≤ m) (ht : Simplices 3 t) (hr : InRange p t) :
    ∃ F, computeForces A eps p t fh m = .ok F ∧ BalancedFl u q eps m fh p t F := by
  obtain ⟨es, h1, h2, h3⟩ := C34_bars2 ht
  exact balanced_of hA (by decide) (by decide) he hfh hm hr h1 h2 (nodup_of_lex h3)

/-- **C135 (3-D).** -/
theorem C135_tetrahedra (hA : Accuracy u q 3 A) {eps : ℝ} (he : 0 < eps) {p : List (Fin 3 → ℝ)} {t : List (List ℕ)}
    {fh : (Fin 3 → ℝ) → ℝ} (hfh : ∀ x, 0 < fh x) {m : ℝ} (hm : 0 ≤ m) (ht : Simplices 4 t) (hr : InRange p t) :
    ∃ F, computeForces A eps p t fh m = .ok F ∧ BalancedFl u q eps m fh p t F := by
  obtain ⟨es, h1, h2, h3⟩ := C34_bars3 ht
  exact balanced_of hA (by decide) (by decide) he hfh hm hr h1 h2 (nodup_of_lex h3)

/-- **C135 (no drift).** A vertex all of whose bars are clearly longer than their targets feels exactly no force, rounding included. -/
theorem C135_still {eps m : ℝ} {fh : (Fin d → ℝ) → ℝ} {p : List (Fin d → ℝ)} {t : List (List ℕ)} {F : List (Fin d → ℝ)}
    (h : BalancedFl u q eps m fh p t F) : ∃ (s : ℝ) (w : ℕ × ℕ → Fin d → ℝ), 0 ≤ s ∧
    (∀ e k, |w e k - mid (pos p e.1) (pos p e.2) k| ≤ ((1 + u) ^ 2 - 1) * ((|pos p e.1 k| + |pos p e.2 k|) / 2)) ∧
    Within u (q * d + 3 * (barSet p.length t).card + 4 * d + 7)
      (∑ e ∈ barSet p.length t, (fh (w e) * s) ^ d) (∑ e ∈ barSet p.length t, len eps (pos p e.1) (pos p e.2) ^ d) ∧
    ∀ i < p.length, (∀ e ∈ barsAt p.length t i,
      (1 + u) ^ 2 * (fh (w e) * m * s) ≤ (1 - u) ^ 4 * len eps (pos p e.1) (pos p e.2)) → pos F i = 0 := by
  obtain ⟨s, f, w, hs, hw, hsc, -, hz, -, hF, -⟩ := h.bars
  refine ⟨s, w, hs, hw, hsc, fun i hi hl => ?_⟩
  have h0 : ∀ e ∈ barsAt p.length t i, f e = 0 := fun e he => hz e (Finset.mem_filter.1 he).1 (hl e he)
  funext k
  have h1 := hF i hi k
  have h2 : ∑ e ∈ barsAt p.length t i, |f e k| = 0 := Finset.sum_eq_zero fun e he => by rw [h0 e he]; simp
  have h3 : ∑ e ∈ barSet p.length t, ((if e.1 = i then f e k else 0) + (if e.2 = i then -f e k else 0)) = 0 := by
    refine Finset.sum_eq_zero fun e he => ?_
    by_cases h4 : e.1 = i ∨ e.2 = i
    · have : f e k = 0 := by rw [h0 e (Finset.mem_filter.2 ⟨he, h4⟩)]; rfl
      simp [this]
    · simp only [not_or] at h4
      simp [h4.1, h4.2]
  rw [h2, h3, mul_zero, sub_zero] at h1
  simpa using abs_eq_zero.1 (le_antisymm h1 (abs_nonneg _))

/-! ### Double precision -/

/-- Double precision, with correctly rounded powers and roots, and sums from left to right. -/
def double : Arith := ⟨BallFl.binary64, fun d x => BallFl.binary64 (x ^ d), fun d x => BallFl.binary64 (x ^ ((1 : ℝ) / d)),
  fun l => l.foldl (fun s x => BallFl.binary64 (s + x)) 0⟩

/-- **C135 (double precision).** The assumptions on the arithmetic hold for rounding to 53 bits, with `u = 2^-53`. -/
theorem C135_double (d : ℕ) : Accuracy (1 / 9007199254740992) 1 d double := by
  have ha := BallFl.C123_binary64.2
  refine ⟨by norm_num, by norm_num, ha, fun x hx => ?_, fun x hx => ?_, ?_⟩
  · exact (BallFl.rnd_within ha (pow_nonneg hx d)).weaken (by norm_num) (by norm_num) (by norm_num) (pow_nonneg hx d)
  · exact BallFl.rnd_within ha (Real.rpow_nonneg hx _)
  · have key : ∀ (l : List ℝ), (∀ x ∈ l, 0 ≤ x) → ∀ (n : ℕ) (s' s : ℝ), 0 ≤ s → Within (1 / 9007199254740992) n s' s →
        Within (1 / 9007199254740992) (n + l.length) (l.foldl (fun s x => BallFl.binary64 (s + x)) s') (s + l.sum) := by
      intro l
      induction l with
      | nil => intro _ n s' s _ h; simpa using h
      | cons x l ih =>
        intro hl n s' s hs h
        have hx : 0 ≤ x := hl x (by simp)
        have h1 := (h.add ((Within.refl (x := x)).weaken (by norm_num) (by norm_num) (Nat.zero_le n) hx)).step (by norm_num) (by norm_num) ha (add_nonneg hs hx)
        have := ih (fun y hy => hl y (by simp [hy])) (n + 1) _ _ (add_nonneg hs hx) h1
        simp only [List.foldl_cons, List.sum_cons, List.length_cons]
        rw [show n + (l.length + 1) = n + 1 + l.length by omega, ← add_assoc s]
        exact this
    intro l hl
    have := key l hl 0 0 0 le_rfl (by simp [Within])
    rw [zero_add, zero_add] at this
    exact this

/-- Concrete case: one triangle, size 1, double precision. -/
example : ∃ F, computeForces double (1 / 4503599627370496) [![0, 0], ![1, 0], ![0, 2]] [[0, 1, 2]] (fun _ => 1) (6 / 5) = .ok F ∧
    BalancedFl (1 / 9007199254740992) 1 (1 / 4503599627370496) (6 / 5) (fun _ => 1) [![0, 0], ![1, 0], ![0, 2]] [[0, 1, 2]] F :=
  C135_triangles (C135_double 2) (by norm_num) (fun _ => one_pos) (by norm_num) (by intro r hr; simp at hr; subst hr; simp)
    (by intro r hr; simp at hr; subst hr; simp)

end

end SM.ForcesFl
