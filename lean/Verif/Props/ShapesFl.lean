import Verif.Model.ShapesFl
import Verif.Props.OutsideFl
import Verif.Props.Lipschitz
import Verif.Lemmas.Rounding

/-!
# C133: every shape in floating-point arithmetic
-/

namespace SM.ShapesFl

open SM.Sdf (Pt)
open SM.Domain (Box Rot Manip Obj)
open SM.Round (Accurate Near one_le_pow_u)

noncomputable section

/-! ### Specification -/

/-- What is assumed of the arithmetic, with relative error `u`: each operation is rounded with that error, `cos` and `sin` are accurate to `2u`, and a dot product
perturbs each of its `d` products by at most `d` roundings (true in every order of summation, with or without fused multiply-add). -/
structure Accuracy (u : ℝ) (A : Arith) : Prop where
  nonneg : 0 ≤ u
  small : u ≤ 1 / 16
  rnd : Accurate A.rnd u
  cos : ∀ t, |A.cos t - Real.cos t| ≤ 2 * u
  sin : ∀ t, |A.sin t - Real.sin t| ≤ 2 * u
  dot : ∀ {d : ℕ} (a b : Pt d), ∃ θ : Fin d → ℝ, (∀ i, (1 - u) ^ d ≤ θ i ∧ θ i ≤ (1 + u) ^ d) ∧ A.dot a b = ∑ i, a i * b i * θ i

/-- Stretch vectors are not zero. -/
def StretchOk {d : ℕ} (m : Manip d) : Prop := ∀ v, m.stretch = some v → v ≠ 0

/-- Bound of the coordinates after a translation. -/
def transSize {d : ℕ} (t : Option (Pt d)) (B : ℝ) : ℝ :=
  match t with
  | none => B
  | some t => B + ∑ i, |t i|

/-- Factor of a rotation in the bound of the coordinates: 2 for each axis. -/
def rotFactor : {d : ℕ} → Rot d → ℝ
  | _, .two _ => 2
  | _, .three _ _ _ => 8

/-- Factor of a stretch in the bound of the coordinates. -/
def stretchFactor {d : ℕ} (v : Option (Pt d)) : ℝ :=
  match v with
  | none => 1
  | some v => 1 + d + d / √(∑ i, v i ^ 2)

/-- Bound of the coordinates after the manipulations, for points with coordinates up to `B`. -/
def manipSize {d : ℕ} (m : Manip d) (B : ℝ) : ℝ := stretchFactor m.stretch * (rotFactor m.rot * transSize m.trans B)

/-- Bound of the values of a primitive. -/
def Prim.size (B : ℝ) : {d : ℕ} → Prim d → ℝ
  | _, .disk x0 r m => 2 * (manipSize m B + ∑ i, |x0 i|) + |r|
  | _, .ball x0 r m => 2 * (manipSize m B + ∑ i, |x0 i|) + |r|
  | _, .rectangle b m => manipSize m B + ∑ i, (|b.lo i| + |b.hi i|)
  | _, .cube b m => manipSize m B + ∑ i, (|b.lo i| + |b.hi i|)
  | _, .torus r1 r2 m => 4 * manipSize m B + 2 * |r1| + |r2|
  | _, .prism b h m => 2 * manipSize m B + |b| + |h|
  | _, .cylinder h r m => 3 * (2 * manipSize m B + |r| + |h|)

def Prim.StretchOk : {d : ℕ} → Prim d → Prop
  | _, .disk _ _ m => ShapesFl.StretchOk m
  | _, .ball _ _ m => ShapesFl.StretchOk m
  | _, .rectangle _ m => ShapesFl.StretchOk m
  | _, .cube _ m => ShapesFl.StretchOk m
  | _, .torus _ _ m => ShapesFl.StretchOk m
  | _, .prism _ _ m => ShapesFl.StretchOk m
  | _, .cylinder _ _ m => ShapesFl.StretchOk m

mutual
/-- Stretch vectors are not zero and smoothness parameters are not negative. -/
def Geo.Ok {d : ℕ} : Geo d → Prop
  | .prim p => p.StretchOk
  | .union k o os => 0 ≤ k ∧ o.Ok ∧ Oks os
  | .inter k o os => 0 ≤ k ∧ o.Ok ∧ Oks os
  | .diff k o os => 0 ≤ k ∧ o.Ok ∧ Oks os
def Oks {d : ℕ} : List (Geo d) → Prop
  | [] => True
  | o :: os => o.Ok ∧ Oks os
end

mutual
/-- Bound of the values: the largest of the primitives, plus `n k` for a set operation of smoothness `k` with `n` further operands. -/
def Geo.size {d : ℕ} (B : ℝ) : Geo d → ℝ
  | .prim p => p.size B
  | .union k o os => sizes B (o.size B) os + os.length * k
  | .inter k o os => sizes B (o.size B) os + os.length * k
  | .diff k o os => sizes B (o.size B) os + os.length * k
/-- The largest of `S` and the sizes. -/
def sizes {d : ℕ} (B : ℝ) (S : ℝ) : List (Geo d) → ℝ
  | [] => S
  | o :: os => max (o.size B) (sizes B S os)
end

mutual
/-- Number of roundings on the longest way from the coordinates to the result: 54 for a primitive, 3 for each smooth operation. -/
def Geo.roundings {d : ℕ} : Geo d → ℕ
  | .prim _ => 54
  | .union _ o os => roundingss o.roundings os + 3 * os.length
  | .inter _ o os => roundingss o.roundings os + 3 * os.length
  | .diff _ o os => roundingss o.roundings os + 3 * os.length
/-- The largest of `n` and the numbers of roundings. -/
def roundingss {d : ℕ} (n : ℕ) : List (Geo d) → ℕ
  | [] => n
  | o :: os => max o.roundings (roundingss n os)
end

/-! ### Calculus -/

section calculus

variable {u : ℝ} {k : ℕ} {B x x' y y' : ℝ}

theorem near_abs (h : Near u k B x' x) : Near u k B |x'| |x| := by
  refine ⟨by rw [abs_abs]; exact h.1, (abs_abs_sub_abs_le _ _).trans h.2⟩

theorem near_max (h : Near u k B x' x) (g : Near u k B y' y) : Near u k B (max x' y') (max x y) := by
  refine ⟨abs_max_le_max_abs_abs.trans (max_le h.1 g.1), (abs_max_sub_max_le_max _ _ _ _).trans (max_le h.2 g.2)⟩

theorem near_min (h : Near u k B x' x) (g : Near u k B y' y) : Near u k B (min x' y') (min x y) := by
  refine ⟨abs_min_le_max_abs_abs.trans (max_le h.1 g.1), (abs_min_sub_min_le_max _ _ _ _).trans (max_le h.2 g.2)⟩

theorem near_zero (hu : 0 ≤ u) (hB : 0 ≤ B) : Near u k B 0 0 := by
  refine ⟨by simpa using hB, ?_⟩
  have := one_le_pow_u hu k
  simp only [sub_self, abs_zero]
  exact mul_nonneg (by linarith) hB

theorem near_ex (hu : 0 ≤ u) (h : |x| ≤ B) : Near u k B x x := (Near.exact h).weaken hu (Nat.zero_le k) le_rfl

theorem Near.nn (h : Near u k B x' x) : 0 ≤ B := (abs_nonneg _).trans h.1

/-- Division by a positive number known up to `m` relative errors. -/
theorem near_quot (hu : 0 ≤ u) (hu1 : u ≤ 1 / 2) (h : Near u k B x' x) {m : ℕ} {a a' : ℝ} (ha : 0 < a) (hw : BallFl.Within u m a' a) :
    0 < a' ∧ Near u (k + 2 * m) (B / a) (x' / a') (x / a) := by
  have hp : 0 < (1 - u) ^ m := pow_pos (by linarith) _
  have hq := one_le_pow_u hu m
  have ha' : 0 < a' := (mul_pos hp ha).trans_le hw.1
  have hB := Near.nn h
  have e1 : 1 ≤ (1 - u) ^ m * (1 + u) ^ (2 * m) := by
    rw [pow_mul, ← mul_pow]
    exact one_le_pow₀ (by nlinarith [sq_nonneg u, mul_nonneg hu (sub_nonneg.2 hu1)])
  have hr := one_le_pow_u hu (2 * m)
  have e2 : (1 + u) ^ m * (2 - (1 + u) ^ (2 * m)) ≤ 1 := by
    have : (1 + u) ^ (2 * m) = ((1 + u) ^ m) ^ 2 := by rw [← pow_mul, mul_comm]
    rw [this]
    nlinarith [sq_nonneg ((1 + u) ^ m - 1)]
  -- `a / a'` is close to 1
  have h1 : a / a' ≤ (1 + u) ^ (2 * m) := by
    rw [div_le_iff₀ ha']
    have := mul_le_mul_of_nonneg_left hw.1 (by linarith : 0 ≤ (1 + u) ^ (2 * m))
    have := mul_le_mul_of_nonneg_right e1 ha.le
    linarith
  have h2 : 2 - (1 + u) ^ (2 * m) ≤ a / a' := by
    rw [le_div_iff₀ ha']
    rcases le_total (2 - (1 + u) ^ (2 * m)) 0 with h0 | h0
    · have := mul_nonneg_of_nonpos_of_nonpos h0 (neg_nonpos.2 ha'.le)
      linarith
    · have := mul_le_mul_of_nonneg_left hw.2 h0
      have := mul_le_mul_of_nonneg_right e2 ha.le
      linarith
  have h3 : Near u (2 * m) 1 (a / a') 1 := ⟨by simp, by rw [mul_one, abs_le]; constructor <;> linarith⟩
  refine ⟨ha', ?_⟩
  have := (h.mul hu h3).div ha
  rw [mul_one, mul_one] at this
  convert this using 1
  field_simp

end calculus

section norms

variable {u : ℝ} {A : Arith}

open BallFl (Within)

theorem within_near (hu : 0 ≤ u) (hu1 : u ≤ 1) {k m : ℕ} {B x z w : ℝ} (h : Near u k B w x) (hw : 0 ≤ w) (hz : Within u m z w) : Near u (k + m) B z x := by
  refine ⟨h.1, ?_⟩
  have h1 := BallFl.pow_sum hu hu1 m
  have h2 : |z - w| ≤ ((1 + u) ^ m - 1) * w := by
    have := mul_le_mul_of_nonneg_right h1 hw
    rw [abs_le]
    constructor <;> linarith [hz.1, hz.2]
  have h3 : w ≤ (1 + u) ^ k * B := (le_abs_self _).trans h.size
  have h4 := mul_le_mul_of_nonneg_left h3 (by linarith [one_le_pow_u hu m] : 0 ≤ (1 + u) ^ m - 1)
  have h5 := abs_sub_le z w x
  have h6 := h.2
  rw [pow_add]
  linarith

theorem sq_within (hA : Accuracy u A) (x : ℝ) : Within u 1 (A.rnd (x * x)) (x ^ 2) := by
  have := BallFl.rnd_within hA.rnd (mul_self_nonneg x)
  rwa [← sq] at this ⊢

theorem near_norm2 (hu : 0 ≤ u) {k : ℕ} {B a a' b b' : ℝ} (h : Near u k B a' a) (g : Near u k B b' b) : Near u k (2 * B) √(a' ^ 2 + b' ^ 2) √(a ^ 2 + b ^ 2) := by
  have hB := Near.nn h
  have e1 : √(a ^ 2 + b ^ 2) = Sdf.length2 a b := by simp [Sdf.length2]
  have e2 : √(a' ^ 2 + b' ^ 2) = Sdf.length2 a' b' := by simp [Sdf.length2]
  have key : ∀ {x y c : ℝ}, |x| ≤ c → |y| ≤ c → Sdf.length2 x y ≤ 2 * c := fun {x y c} hx hy => by
    have hc := (abs_nonneg x).trans hx
    rw [Domain.length2_le (by linarith)]
    have h1 := sq_le_sq' (by linarith [(abs_le.1 hx).1]) (abs_le.1 hx).2
    have h2 := sq_le_sq' (by linarith [(abs_le.1 hy).1]) (abs_le.1 hy).2
    nlinarith
  rw [e1, e2]
  refine ⟨?_, ?_⟩
  · rw [abs_of_nonneg (Domain.length2_nonneg _ _)]
    exact key h.1 g.1
  · refine (Domain.length2_lip _ _ _ _).trans ((key h.2 g.2).trans (by linarith))

theorem near_norm3 (hu : 0 ≤ u) {k : ℕ} {B a a' b b' c c' : ℝ} (h : Near u k B a' a) (g : Near u k B b' b) (f : Near u k B c' c) :
    Near u k (2 * B) √(a' ^ 2 + b' ^ 2 + c' ^ 2) √(a ^ 2 + b ^ 2 + c ^ 2) := by
  have hB := Near.nn h
  have key : ∀ {x y z e : ℝ}, |x| ≤ e → |y| ≤ e → |z| ≤ e → √(x ^ 2 + y ^ 2 + z ^ 2) ≤ 2 * e := fun {x y z e} hx hy hz => by
    have he := (abs_nonneg x).trans hx
    refine Real.sqrt_le_iff.2 ⟨by linarith, ?_⟩
    have h1 := sq_le_sq' (by linarith [(abs_le.1 hx).1]) (abs_le.1 hx).2
    have h2 := sq_le_sq' (by linarith [(abs_le.1 hy).1]) (abs_le.1 hy).2
    have h3 := sq_le_sq' (by linarith [(abs_le.1 hz).1]) (abs_le.1 hz).2
    nlinarith
  refine ⟨?_, ?_⟩
  · rw [abs_of_nonneg (Real.sqrt_nonneg _)]
    exact key h.1 g.1 f.1
  · have e : ∀ x y z : ℝ, √(x ^ 2 + y ^ 2 + z ^ 2) = Sdf.eucl (![x, y, z] : Pt 3) 0 := fun x y z => by
      unfold Sdf.eucl; rw [Fin.sum_univ_three]; simp
    have e2 : √((a' - a) ^ 2 + (b' - b) ^ 2 + (c' - c) ^ 2) = Sdf.eucl (![a', b', c'] : Pt 3) ![a, b, c] := by
      unfold Sdf.eucl; rw [Fin.sum_univ_three]; simp
    have := Domain.ball_lip (0 : Pt 3) 0 ![a', b', c'] ![a, b, c]
    simp only [one_mul, ← e2, sub_zero, ← e] at this
    exact this.trans ((key h.2 g.2 f.2).trans (by linarith))

theorem near_length2 (hA : Accuracy u A) {k : ℕ} {B a a' b b' : ℝ} (h : Near u k B a' a) (g : Near u k B b' b) :
    Near u (k + 2) (2 * B) (length2 A a' b') (Sdf.length2 a b) := by
  have hu := hA.nonneg
  have hu1 : u ≤ 1 := hA.small.trans (by norm_num)
  have h1 := ((sq_within hA |a'|).add (sq_within hA |b'|)).step hu hu1 hA.rnd (by positivity)
  have h2 := (Within.sqrt hu hu1 (k := 1) h1).step hu hu1 hA.rnd (Real.sqrt_nonneg _)
  rw [sq_abs, sq_abs] at h2
  have e : Sdf.length2 a b = √(a ^ 2 + b ^ 2) := by simp [Sdf.length2]
  rw [e]
  exact within_near hu hu1 (near_norm2 hu h g) (Real.sqrt_nonneg _) h2

/-! ### Primitives -/

theorem near_rnd (hA : Accuracy u A) {k : ℕ} {B x' x : ℝ} (h : Near u k B x' x) : Near u (k + 1) B (A.rnd x') x := h.rnd hA.nonneg hA.rnd

theorem near_disk (hA : Accuracy u A) {k : ℕ} {B : ℝ} {p' p : Pt 2} (h : ∀ i, Near u k B (p' i) (p i)) (c : Pt 2) (r : ℝ) :
    Near u (k + 4) (2 * (B + ∑ i, |c i|) + |r|) (ddisk A (c 0) (c 1) r p') (Sdf.ddisk (c 0) (c 1) r p) := by
  have hu := hA.nonneg
  have hu1 : u ≤ 1 := hA.small.trans (by norm_num)
  have hc : ∀ i, |c i| ≤ ∑ i, |c i| := fun i => Finset.single_le_sum (f := fun i => |c i|) (fun _ _ => abs_nonneg _) (Finset.mem_univ i)
  have hd : ∀ i, Near u (k + 1) (B + ∑ i, |c i|) (A.rnd (p' i - c i)) (p i - c i) := fun i => near_rnd hA ((h i).sub (near_ex hu (hc i)))
  have h1 := ((sq_within hA (A.rnd (p' 0 - c 0))).add (sq_within hA (A.rnd (p' 1 - c 1)))).step hu hu1 hA.rnd (by positivity)
  have h2 := (BallFl.Within.sqrt hu hu1 (k := 1) h1).step hu hu1 hA.rnd (Real.sqrt_nonneg _)
  have h3 := within_near hu hu1 (near_norm2 hu (hd 0) (hd 1)) (Real.sqrt_nonneg _) h2
  exact near_rnd hA (h3.sub (near_ex hu le_rfl))

theorem near_ball (hA : Accuracy u A) {k : ℕ} {B : ℝ} {p' p : Pt 3} (h : ∀ i, Near u k B (p' i) (p i)) (c : Pt 3) (r : ℝ) :
    Near u (k + 5) (2 * (B + ∑ i, |c i|) + |r|) (dball A (c 0) (c 1) (c 2) r p') (Sdf.dball (c 0) (c 1) (c 2) r p) := by
  have hu := hA.nonneg
  have hu1 : u ≤ 1 := hA.small.trans (by norm_num)
  have hc : ∀ i, |c i| ≤ ∑ i, |c i| := fun i => Finset.single_le_sum (f := fun i => |c i|) (fun _ _ => abs_nonneg _) (Finset.mem_univ i)
  have hd : ∀ i, Near u (k + 1) (B + ∑ i, |c i|) (A.rnd (p' i - c i)) (p i - c i) := fun i => near_rnd hA ((h i).sub (near_ex hu (hc i)))
  have h1 := ((sq_within hA (A.rnd (p' 0 - c 0))).add (sq_within hA (A.rnd (p' 1 - c 1)))).step hu hu1 hA.rnd (by positivity)
  have h2 := (h1.add ((sq_within hA (A.rnd (p' 2 - c 2))).weaken hu hu1 (by norm_num : 1 ≤ 1 + 1) (sq_nonneg _))).step hu hu1 hA.rnd (by positivity)
  have h3 := (BallFl.Within.sqrt hu hu1 (k := 2) (h2.weaken hu hu1 (by norm_num : 1 + 1 + 1 ≤ 2 * 2) (by positivity))).step hu hu1 hA.rnd (Real.sqrt_nonneg _)
  have h4 := within_near hu hu1 (near_norm3 hu (hd 0) (hd 1) (hd 2)) (Real.sqrt_nonneg _) h3
  exact near_rnd hA (h4.sub (near_ex hu le_rfl))

theorem near_rectangle (hA : Accuracy u A) {k : ℕ} {B : ℝ} {p' p : Pt 2} (h : ∀ i, Near u k B (p' i) (p i)) (b : Box 2) :
    Near u (k + 1) (B + ∑ i, (|b.lo i| + |b.hi i|)) (drectangle A (b.lo 0) (b.hi 0) (b.lo 1) (b.hi 1) p')
      (Sdf.drectangle (b.lo 0) (b.hi 0) (b.lo 1) (b.hi 1) p) := by
  have hu := hA.nonneg
  have hc : ∀ i, |b.lo i| + |b.hi i| ≤ ∑ i, (|b.lo i| + |b.hi i|) := fun i =>
    Finset.single_le_sum (f := fun i => |b.lo i| + |b.hi i|) (fun _ _ => by positivity) (Finset.mem_univ i)
  set S := ∑ i, (|b.lo i| + |b.hi i|)
  have hl : ∀ i, Near u (k + 1) (B + S) (A.rnd (-b.lo i + p' i)) (-b.lo i + p i) := fun i => by
    have := (near_ex (k := k) hu (show |-b.lo i| ≤ S by rw [abs_neg]; linarith [hc i, abs_nonneg (b.hi i)])).add (h i)
    rw [add_comm B]
    exact near_rnd hA this
  have hh : ∀ i, Near u (k + 1) (B + S) (A.rnd (b.hi i - p' i)) (b.hi i - p i) := fun i => by
    have := (near_ex (k := k) hu (show |b.hi i| ≤ S by linarith [hc i, abs_nonneg (b.lo i)])).sub (h i)
    rw [add_comm B]
    exact near_rnd hA this
  exact (near_min (near_min (near_min (hl 1) (hh 1)) (hl 0)) (hh 0)).neg

theorem near_cube (hA : Accuracy u A) {k : ℕ} {B : ℝ} {p' p : Pt 3} (h : ∀ i, Near u k B (p' i) (p i)) (b : Box 3) :
    Near u (k + 1) (B + ∑ i, (|b.lo i| + |b.hi i|)) (dblock A (b.lo 0) (b.hi 0) (b.lo 1) (b.hi 1) (b.lo 2) (b.hi 2) p')
      (Sdf.dblock (b.lo 0) (b.hi 0) (b.lo 1) (b.hi 1) (b.lo 2) (b.hi 2) p) := by
  have hu := hA.nonneg
  have hc : ∀ i, |b.lo i| + |b.hi i| ≤ ∑ i, (|b.lo i| + |b.hi i|) := fun i =>
    Finset.single_le_sum (f := fun i => |b.lo i| + |b.hi i|) (fun _ _ => by positivity) (Finset.mem_univ i)
  set S := ∑ i, (|b.lo i| + |b.hi i|)
  have hl : ∀ i, Near u (k + 1) (B + S) (A.rnd (-b.lo i + p' i)) (-b.lo i + p i) := fun i => by
    have := (near_ex (k := k) hu (show |-b.lo i| ≤ S by rw [abs_neg]; linarith [hc i, abs_nonneg (b.hi i)])).add (h i)
    rw [add_comm B]
    exact near_rnd hA this
  have hh : ∀ i, Near u (k + 1) (B + S) (A.rnd (b.hi i - p' i)) (b.hi i - p i) := fun i => by
    have := (near_ex (k := k) hu (show |b.hi i| ≤ S by linarith [hc i, abs_nonneg (b.lo i)])).sub (h i)
    rw [add_comm B]
    exact near_rnd hA this
  exact (near_min (near_min (near_min (near_min (near_min (hl 2) (hh 2)) (hl 1)) (hh 1)) (hl 0)) (hh 0)).neg

theorem near_torus (hA : Accuracy u A) {k : ℕ} {B : ℝ} {p' p : Pt 3} (h : ∀ i, Near u k B (p' i) (p i)) (r1 r2 : ℝ) :
    Near u (k + 6) (4 * B + 2 * |r1| + |r2|) (dtorus A r1 r2 p') (Sdf.dtorus r1 r2 p) := by
  have hu := hA.nonneg
  have hB := Near.nn (h 0)
  have h1 := near_rnd hA ((near_length2 hA (h 0) (h 2)).sub (near_ex hu (le_refl |r1|)))
  have h2 : Near u (k + 3) (2 * B + |r1|) (p' 1) (p 1) := (h 1).weaken hu (by omega) (by linarith [abs_nonneg r1])
  have h3 := near_rnd hA ((near_length2 hA h1 h2).sub (near_ex hu (le_refl |r2|)))
  exact h3.weaken hu (by omega) (by linarith)

theorem near_prism (hA : Accuracy u A) {k : ℕ} {B : ℝ} {p' p : Pt 3} (h : ∀ i, Near u k B (p' i) (p i)) (b h0 : ℝ) :
    Near u (k + 5) (2 * B + |b| + |h0|) (dprism A b h0 p') (Sdf.dprism b h0 p) := by
  have hu := hA.nonneg
  have hB := Near.nn (h 0)
  have hc : Near u 1 1 (A.rnd 0.866025) 0.866025 := near_rnd hA (Near.exact (by norm_num [abs_of_pos]))
  have h1 := near_rnd hA ((near_abs (h 0)).mul hu hc)
  have h5 : Near u 0 0.5 (0.5 : ℝ) 0.5 := Near.exact (by norm_num [abs_of_pos])
  have h2 := (near_rnd hA ((h 1).mul hu h5)).weaken hu (by omega : k + 0 + 1 ≤ k + 1 + 1) le_rfl
  have h3 := near_rnd hA (h1.add h2)
  have h4 : Near u (k + 3) (2 * B) _ _ := h3.weaken hu (by omega) (show B * 1 + B * 0.5 ≤ 2 * B by linarith)
  have h6 := near_max h4 ((h 1).neg.weaken hu (by omega : k ≤ k + 3) (by linarith : B ≤ 2 * B))
  have h7 : Near u (k + 3) (|b|) (A.rnd (b * 0.5)) (b * 0.5) := by
    have := near_rnd hA ((near_ex (k := k + 2) hu (le_refl |b|)).mul hu h5)
    exact this.weaken hu (by omega) (by linarith [abs_nonneg b])
  have h8 := near_rnd hA (h6.sub h7)
  have h9 := near_rnd hA ((near_abs (h 2)).sub (near_ex hu (le_refl |h0|)))
  exact near_max (h9.weaken hu (by omega) (by linarith [abs_nonneg b])) (h8.weaken hu (by omega) (by linarith [abs_nonneg h0]))

theorem near_cylinder (hA : Accuracy u A) {k : ℕ} {B : ℝ} {p' p : Pt 3} (h : ∀ i, Near u k B (p' i) (p i)) (h0 r : ℝ) :
    Near u (k + 6) (3 * (2 * B + |r| + |h0|)) (dcylinder A h0 r p') (Sdf.dcylinder h0 r p) := by
  have hu := hA.nonneg
  have hB := Near.nn (h 0)
  have ar := abs_nonneg r
  have ah := abs_nonneg h0
  have hh : Near u (k + 1) (|h0|) (A.rnd (h0 / 2.0)) (h0 / 2.0) := by
    have := near_rnd hA ((near_ex (k := k) hu (le_refl |h0|)).div (c := 2.0) (by norm_num))
    exact this.weaken hu le_rfl (by rw [div_le_iff₀ (by norm_num)]; linarith)
  have h1 : Near u (k + 3) (2 * B + |r| + |h0|) _ _ := (near_rnd hA ((near_abs (near_length2 hA (h 0) (h 2))).sub (near_ex hu (le_refl |r|)))).weaken hu (by omega) (by linarith)
  have h2 : Near u (k + 3) (2 * B + |r| + |h0|) _ _ :=
    (near_rnd hA (((near_abs (h 1)).weaken hu (Nat.le_succ k) le_rfl).sub hh)).weaken hu (by omega) (by linarith)
  have hz := near_zero (k := k + 3) (B := 2 * B + |r| + |h0|) hu (by positivity)
  have h3 := (near_min (near_max h1 h2) hz).weaken hu (by omega : k + 3 ≤ k + 3 + 2) le_rfl
  have h4 := near_length2 hA (near_max h1 hz) (near_max h2 hz)
  exact (near_rnd hA (h3.add h4)).weaken hu (by omega) (by linarith)

/-! ### Manipulations -/

theorem near_sum {ι : Type} (s : Finset ι) {k : ℕ} {w a' a : ι → ℝ} (h : ∀ i ∈ s, Near u k (w i) (a' i) (a i)) :
    Near u k (∑ i ∈ s, w i) (∑ i ∈ s, a' i) (∑ i ∈ s, a i) := by
  refine ⟨(Finset.abs_sum_le_sum_abs _ _).trans (Finset.sum_le_sum fun i hi => (h i hi).1), ?_⟩
  rw [← Finset.sum_sub_distrib, Finset.mul_sum]
  exact (Finset.abs_sum_le_sum_abs _ _).trans (Finset.sum_le_sum fun i hi => (h i hi).2)

theorem near_dot (hA : Accuracy u A) {d ka kb : ℕ} {w a' a b' b : Pt d} {B W : ℝ} (ha : ∀ i, Near u ka (w i) (a' i) (a i)) (hb : ∀ i, Near u kb B (b' i) (b i))
    (hB : 0 ≤ B) (hW : ∑ i, w i ≤ W) : Near u (ka + kb + d) (W * B) (A.dot a' b') (∑ i, a i * b i) := by
  have hu := hA.nonneg
  have hu1 : u ≤ 1 := hA.small.trans (by norm_num)
  obtain ⟨θ, hθ, e⟩ := hA.dot a' b'
  have ht : ∀ i, Near u d 1 (θ i) 1 := fun i => ⟨by simp, by
    have := BallFl.pow_sum hu hu1 d
    rw [mul_one, abs_le]
    constructor <;> linarith [(hθ i).1, (hθ i).2]⟩
  have h1 : ∀ i, Near u (ka + kb + d) (w i * B) (a' i * b' i * θ i) (a i * b i) := fun i => by
    have := (((ha i).mul hu (hb i)).mul hu (ht i))
    rwa [mul_one, mul_one] at this
  have h2 := near_sum (u := u) Finset.univ fun i _ => h1 i
  rw [e]
  refine h2.weaken hu le_rfl ?_
  rw [← Finset.sum_mul]
  exact mul_le_mul_of_nonneg_right hW hB

theorem near_cos (hA : Accuracy u A) (t : ℝ) : Near u 2 1 (A.cos t) (Real.cos t) := by
  refine ⟨Real.abs_cos_le_one t, (hA.cos t).trans ?_⟩
  nlinarith [sq_nonneg u]

theorem near_sin (hA : Accuracy u A) (t : ℝ) : Near u 2 1 (A.sin t) (Real.sin t) := by
  refine ⟨Real.abs_sin_le_one t, (hA.sin t).trans ?_⟩
  nlinarith [sq_nonneg u]

theorem near_rotate (hA : Accuracy u A) {d k : ℕ} {B : ℝ} {x' x : Pt d} (h : ∀ i, Near u k B (x' i) (x i)) (hB : 0 ≤ B) {R' R w : Matrix (Fin d) (Fin d) ℝ}
    (hR : ∀ i j, Near u 2 (w i j) (R' i j) (R i j)) (hw : ∀ j, ∑ i, w i j ≤ 2) (i : Fin d) :
    Near u (k + 2 + d) (2 * B) (rotateBack A R' x' i) (R.transpose.mulVec x i) := by
  have := near_dot hA (w := fun j => w j i) (a' := fun j => R' j i) (a := fun j => R j i) (fun j => hR j i) h hB (hw i)
  rw [show 2 + k + d = k + 2 + d by omega] at this
  exact this

theorem near_one (hu : 0 ≤ u) : Near u 2 1 1 1 := near_ex hu (by simp)
theorem near_nil (hu : 0 ≤ u) : Near u 2 0 0 0 := near_zero hu le_rfl

theorem near_R2 (hA : Accuracy u A) (t : ℝ) (i j : Fin 2) : Near u 2 (1 : ℝ) (R2 A t i j) (Domain.R2 t i j) := by
  fin_cases i <;> fin_cases j
  exacts [near_cos hA t, (near_sin hA t).neg, near_sin hA t, near_cos hA t]

theorem near_Rx (hA : Accuracy u A) (t : ℝ) (i j : Fin 3) : Near u 2 ((!![1, 0, 0; 0, 1, 1; 0, 1, 1] : Matrix (Fin 3) (Fin 3) ℝ) i j) (Rx A t i j) (Domain.Rx t i j) := by
  have h1 := near_one hA.nonneg
  have h0 := near_nil hA.nonneg
  fin_cases i <;> fin_cases j
  exacts [h1, h0, h0, h0, near_cos hA t, (near_sin hA t).neg, h0, near_sin hA t, near_cos hA t]

theorem near_Ry (hA : Accuracy u A) (t : ℝ) (i j : Fin 3) : Near u 2 ((!![1, 0, 1; 0, 1, 0; 1, 0, 1] : Matrix (Fin 3) (Fin 3) ℝ) i j) (Ry A t i j) (Domain.Ry t i j) := by
  have h1 := near_one hA.nonneg
  have h0 := near_nil hA.nonneg
  fin_cases i <;> fin_cases j
  exacts [near_cos hA t, h0, near_sin hA t, h0, h1, h0, (near_sin hA t).neg, h0, near_cos hA t]

theorem near_Rz (hA : Accuracy u A) (t : ℝ) (i j : Fin 3) : Near u 2 ((!![1, 1, 0; 1, 1, 0; 0, 0, 1] : Matrix (Fin 3) (Fin 3) ℝ) i j) (Rz A t i j) (Domain.Rz t i j) := by
  have h1 := near_one hA.nonneg
  have h0 := near_nil hA.nonneg
  fin_cases i <;> fin_cases j
  exacts [near_cos hA t, (near_sin hA t).neg, h0, near_sin hA t, near_cos hA t, h0, h0, h0, h1]

theorem near_back2 (hA : Accuracy u A) {k : ℕ} {B : ℝ} {x' x : Pt 2} (h : ∀ i, Near u k B (x' i) (x i)) (t : ℝ) (i : Fin 2) :
    Near u (k + 15) (2 * B) (back A (.two t) x' i) ((Rot.two t).back x i) := by
  have hu := hA.nonneg
  have hB := Near.nn (h 0)
  simp only [back, Rot.back]
  split_ifs with ht
  · exact (near_rotate hA h hB (R' := R2 A t) (R := Domain.R2 t) (w := fun _ _ => 1) (near_R2 hA t) (by intro j; norm_num) i).weaken hu (by omega) le_rfl
  · exact (h i).weaken hu (by omega) (by linarith)

theorem near_step3 (hA : Accuracy u A) {k : ℕ} {B : ℝ} {x' x : Pt 3} (h : ∀ i, Near u k B (x' i) (x i)) {R' R w : Matrix (Fin 3) (Fin 3) ℝ}
    (hR : ∀ i j, Near u 2 (w i j) (R' i j) (R i j)) (hw : ∀ j, ∑ i, w i j ≤ 2) (t : ℝ) (i : Fin 3) :
    Near u (k + 5) (2 * B) ((if t ≠ 0 then rotateBack A R' x' else x') i) ((if t ≠ 0 then R.transpose.mulVec x else x) i) := by
  have hB := Near.nn (h 0)
  split_ifs with ht
  · exact near_rotate hA h hB hR hw i
  · exact (h i).weaken hA.nonneg (by omega) (by linarith)

theorem near_back3 (hA : Accuracy u A) {k : ℕ} {B : ℝ} {x' x : Pt 3} (h : ∀ i, Near u k B (x' i) (x i)) (a b c : ℝ) (i : Fin 3) :
    Near u (k + 15) (8 * B) (back A (.three a b c) x' i) ((Rot.three a b c).back x i) := by
  have h1 := near_step3 hA h (near_Rx hA a) (by intro j; fin_cases j <;> simp [Fin.sum_univ_three] <;> norm_num) a
  have h2 := near_step3 hA h1 (near_Ry hA b) (by intro j; fin_cases j <;> simp [Fin.sum_univ_three] <;> norm_num) b
  have h3 := near_step3 hA h2 (near_Rz hA c) (by intro j; fin_cases j <;> simp [Fin.sum_univ_three] <;> norm_num) c i
  rw [show 2 * (2 * (2 * B)) = 8 * B by ring] at h3
  exact h3

theorem near_back (hA : Accuracy u A) {d k : ℕ} {B : ℝ} {x' x : Pt d} (h : ∀ i, Near u k B (x' i) (x i)) (r : Rot d) (i : Fin d) :
    Near u (k + 15) (rotFactor r * B) (back A r x' i) (r.back x i) := by
  cases r with
  | two t => exact near_back2 hA h t i
  | three a b c => exact near_back3 hA h a b c i

theorem alpha_within (hA : Accuracy u A) {d : ℕ} (v : Pt d) : BallFl.Within u (d + 1) (alpha A v) (Domain.alpha v) := by
  have hu := hA.nonneg
  have hu1 : u ≤ 1 := hA.small.trans (by norm_num)
  obtain ⟨θ, hθ, e⟩ := hA.dot v v
  have hn := Domain.dot_self_nonneg v
  have h1 : BallFl.Within u d (A.dot v v) (Domain.dot v v) := by
    rw [e]
    unfold BallFl.Within Domain.dot
    rw [Finset.mul_sum, Finset.mul_sum]
    constructor
    · refine Finset.sum_le_sum fun i _ => ?_
      have := mul_le_mul_of_nonneg_left (hθ i).1 (mul_self_nonneg (v i))
      linarith
    · refine Finset.sum_le_sum fun i _ => ?_
      have := mul_le_mul_of_nonneg_left (hθ i).2 (mul_self_nonneg (v i))
      linarith
  exact (BallFl.Within.sqrt hu hu1 (k := d) (h1.weaken hu hu1 (by omega) hn)).step hu hu1 hA.rnd (Real.sqrt_nonneg _)

theorem near_scaleBack (hA : Accuracy u A) {d k : ℕ} {B : ℝ} {x' x : Pt d} (h : ∀ i, Near u k B (x' i) (x i)) {v : Pt d} (hv : v ≠ 0) (hB : 0 ≤ B) (i : Fin d) :
    Near u (k + 7 * d + 11) ((1 + d + d / √(∑ i, v i ^ 2)) * B) (scaleBack A v x' i) (Domain.scaleBack v x i) := by
  have hu := hA.nonneg
  have hu1 : u ≤ 1 / 2 := hA.small.trans (by norm_num)
  have e : √(∑ i, v i ^ 2) = Domain.alpha v := by simp only [Domain.alpha, Domain.dot, sq]
  have hα : 0 < Domain.alpha v := by
    rw [← e, Real.sqrt_pos]
    obtain ⟨j, hj⟩ := Function.ne_iff.1 hv
    exact Finset.sum_pos' (fun _ _ => sq_nonneg _) ⟨j, Finset.mem_univ j, by have : v j ≠ 0 := hj; positivity⟩
  have hle : ∀ j, |v j| ≤ Domain.alpha v := fun j => by
    rw [← e, ← Real.sqrt_sq_eq_abs]
    exact Real.sqrt_le_sqrt (Finset.single_le_sum (f := fun i => v i ^ 2) (fun _ _ => sq_nonneg _) (Finset.mem_univ j))
  have hw := alpha_within hA v
  have h1 : ∀ j, Near u (2 * d + 3) 1 (unit A v j) (Domain.unit v j) := fun j => by
    have := near_rnd hA (near_quot hu hu1 (Near.exact (hle j)) hα hw).2
    rw [div_self hα.ne'] at this
    exact this.weaken hu (by omega) le_rfl
  have h2 := near_dot hA (W := (d : ℝ)) h1 h hB (by simp)
  have h3 := near_rnd hA (h2.mul hu (h1 i))
  have h4 := near_rnd hA (near_quot hu hu1 h3 hα hw).2
  have h5 := near_rnd hA (((h i).weaken hu (by omega : k ≤ 2 * d + 3 + k + d + (2 * d + 3) + 1) le_rfl).sub h3)
  have h6 := near_rnd hA (h4.add (h5.weaken hu (by omega : _ ≤ 2 * d + 3 + k + d + (2 * d + 3) + 1 + 2 * (d + 1) + 1) le_rfl))
  rw [e]
  refine h6.weaken hu (by omega) (le_of_eq ?_)
  rw [mul_one]
  field_simp
  ring

theorem near_trans (hA : Accuracy u A) {d : ℕ} {B : ℝ} {x : Pt d} (h : ∀ i, |x i| ≤ B) (t : Option (Pt d)) (i : Fin d) :
    Near u 1 (transSize t B) ((match t with | none => x | some t => fun j => A.rnd (x j - t j) : Pt d) i) ((match t with | none => x | some t => fun j => x j - t j : Pt d) i) := by
  cases t with
  | none => exact near_ex hA.nonneg (h i)
  | some t => exact near_rnd hA ((Near.exact (h i)).sub (Near.exact (Finset.single_le_sum (f := fun i => |t i|) (fun _ _ => abs_nonneg _) (Finset.mem_univ i))))

theorem near_manipulate (hA : Accuracy u A) {d : ℕ} (hd : d ≤ 3) {B : ℝ} {x : Pt d} (h : ∀ i, |x i| ≤ B) (hB : 0 ≤ B) {m : Manip d} (hm : StretchOk m) (i : Fin d) :
    Near u 48 (manipSize m B) (manipulate A m x i) (Domain.manipulate m x i) := by
  have hu := hA.nonneg
  obtain ⟨rot, stretch, trans⟩ := m
  have hB1 : 0 ≤ transSize trans B := by
    clear hm
    cases trans with
    | none => exact hB
    | some t => exact add_nonneg hB (Finset.sum_nonneg fun _ _ => abs_nonneg _)
  have hB2 : 0 ≤ rotFactor rot * transSize trans B := by
    clear hm
    cases rot <;> simp only [rotFactor] <;> positivity
  have step2 := near_back hA (near_trans hA h trans) rot
  unfold manipulate Domain.manipulate
  cases stretch with
  | none =>
    refine (step2 i).weaken hu (by omega) ?_
    simp only [manipSize, stretchFactor, one_mul, le_refl]
  | some v => exact (near_scaleBack hA step2 (hm v rfl) hB2 i).weaken hu (by omega) le_rfl

theorem near_prim (hA : Accuracy u A) {d : ℕ} (p : Prim d) {B : ℝ} {x : Pt d} (h : ∀ i, |x i| ≤ B) (hB : 0 ≤ B) (hp : p.StretchOk) :
    Near u 54 (p.size B) (p.eval A x) (p.obj.eval x) := by
  have hu := hA.nonneg
  cases p with
  | disk x0 r m => exact (near_disk hA (near_manipulate hA (by norm_num) h hB hp) x0 r).weaken hu (by omega) le_rfl
  | ball x0 r m => exact (near_ball hA (near_manipulate hA (by norm_num) h hB hp) x0 r).weaken hu (by omega) le_rfl
  | rectangle b m => exact (near_rectangle hA (near_manipulate hA (by norm_num) h hB hp) b).weaken hu (by omega) le_rfl
  | cube b m => exact (near_cube hA (near_manipulate hA (by norm_num) h hB hp) b).weaken hu (by omega) le_rfl
  | torus r1 r2 m => exact (near_torus hA (near_manipulate hA (by norm_num) h hB hp) r1 r2).weaken hu (by omega) le_rfl
  | prism b h0 m => exact (near_prism hA (near_manipulate hA (by norm_num) h hB hp) b h0).weaken hu (by omega) le_rfl
  | cylinder h0 r m => exact (near_cylinder hA (near_manipulate hA (by norm_num) h hB hp) h0 r).weaken hu (by omega) le_rfl

/-! ### Set operations -/

/-- The computed blend. -/
theorem blend (hA : Accuracy u A) {k a b T : ℝ} (hk : 0 < k) (ha : |a| ≤ T) (hb : |b| ≤ T) {h' h : ℝ} (e' : h' = max (A.rnd (k - |A.rnd (a - b)|)) 0) (e : h = max (k - |a - b|) 0) :
    |A.rnd (A.rnd (A.rnd (h' * h') * 0.25) / k) - h * h * 0.25 / k| ≤ u * (1.1 * T + 1.5 * k) ∧ |A.rnd (A.rnd (A.rnd (h' * h') * 0.25) / k)| ≤ 0.5 * k := by
  have hu := hA.nonneg
  have hu1 := hA.small
  have hT : 0 ≤ T := (abs_nonneg _).trans ha
  have hδ : |a - b| ≤ 2 * T := (abs_sub a b).trans (by linarith)
  have r1 := hA.rnd (a - b)
  have r2 := hA.rnd (k - |A.rnd (a - b)|)
  have hg : k - |A.rnd (a - b)| ≤ k := by linarith [abs_nonneg (A.rnd (a - b))]
  -- the rounding of the difference, with the sign kept
  have h1 : |h' - max (k - |A.rnd (a - b)|) 0| ≤ u * k := by
    rw [e']
    rcases le_total 0 (k - |A.rnd (a - b)|) with h0 | h0
    · refine (abs_max_sub_max_le_abs _ _ _).trans (r2.trans ?_)
      rw [abs_of_nonneg h0]
      exact mul_le_mul_of_nonneg_left hg hu
    · have : A.rnd (k - |A.rnd (a - b)|) ≤ 0 := by
        rw [abs_of_nonpos h0] at r2
        have := (abs_le.1 r2).2
        nlinarith
      rw [max_eq_right this, max_eq_right h0, sub_self, abs_zero]
      positivity
  have h2 : |max (k - |A.rnd (a - b)|) 0 - h| ≤ u * (2 * T) := by
    rw [e]
    refine (abs_max_sub_max_le_abs _ _ _).trans ?_
    rw [show k - |A.rnd (a - b)| - (k - |a - b|) = -(|A.rnd (a - b)| - |a - b|) by ring, abs_neg]
    exact (abs_abs_sub_abs_le _ _).trans (r1.trans (mul_le_mul_of_nonneg_left hδ hu))
  have h3 : |h' - h| ≤ u * (2 * T + k) := (abs_sub_le _ _ _).trans (by linarith)
  have h0' : 0 ≤ h' := by rw [e']; exact le_max_right _ _
  have h0 : 0 ≤ h := by rw [e]; exact le_max_right _ _
  have hhk : h ≤ k := by rw [e]; exact max_le (by linarith [abs_nonneg (a - b)]) hk.le
  have hhk' : h' ≤ (1 + u) * k := by
    have h4 : max (k - |A.rnd (a - b)|) 0 ≤ k := max_le hg hk.le
    linarith [(abs_le.1 h1).2]
  -- exact blend of the computed height
  have h4 : |h' * h' * 0.25 / k - h * h * 0.25 / k| ≤ u * (2 * T + k) * 0.516 := by
    rw [show h' * h' * 0.25 / k - h * h * 0.25 / k = (h' - h) * ((h' + h) * 0.25 / k) by ring, abs_mul, abs_of_nonneg (by positivity : 0 ≤ (h' + h) * 0.25 / k)]
    refine mul_le_mul h3 ?_ (by positivity) (by positivity)
    rw [div_le_iff₀ hk]
    nlinarith
  have h5 : 0 ≤ h' * h' * 0.25 / k ∧ h' * h' * 0.25 / k ≤ 0.2823 * k := by
    refine ⟨by positivity, ?_⟩
    rw [div_le_iff₀ hk]
    have h6 : h' * h' ≤ ((1 + u) * k) * ((1 + u) * k) := mul_le_mul hhk' hhk' h0' (by positivity)
    have h7 : (1 + u) * (1 + u) ≤ 1.129 := by nlinarith
    have h8 := mul_le_mul_of_nonneg_right h7 (mul_self_nonneg k)
    nlinarith [mul_self_nonneg k]
  -- its three roundings
  have h6 : Near u 3 (0.2823 * k) (A.rnd (A.rnd (A.rnd (h' * h') * 0.25) / k)) (h' * h' * 0.25 / k) := by
    have n1 : Near u 1 (h' * h') (A.rnd (h' * h')) (h' * h') := near_rnd hA (Near.exact (abs_of_nonneg (mul_self_nonneg _)).le)
    have n2 := near_rnd hA (n1.mul hu (Near.exact (show |(0.25 : ℝ)| ≤ 0.25 by norm_num [abs_of_pos])))
    exact (near_rnd hA (n2.div hk)).weaken hu (by norm_num) h5.2
  have h7 : (1 + u) ^ 3 - 1 ≤ 3.2 * u := by nlinarith [mul_nonneg hu hu, mul_nonneg hu (mul_nonneg hu hu), mul_nonneg hu (sub_nonneg.2 hu1), mul_nonneg (mul_nonneg hu hu) (sub_nonneg.2 hu1)]
  have h8 : ((1 + u) ^ 3 - 1) * (0.2823 * k) ≤ 3.2 * u * (0.2823 * k) := mul_le_mul_of_nonneg_right h7 (by positivity)
  have huk : 0 ≤ u * k := mul_nonneg hu hk.le
  have huT : 0 ≤ u * T := mul_nonneg hu hT
  have huk2 : u * k ≤ 1 / 16 * k := mul_le_mul_of_nonneg_right hu1 hk.le
  refine ⟨(abs_sub_le _ (h' * h' * 0.25 / k) _).trans ?_, ?_⟩
  · linarith [h6.2]
  · have := h6.size
    refine this.trans ?_
    linarith

theorem near_blend (hA : Accuracy u A) {m : ℕ} {S k T e x' y c' c y0 : ℝ} (hk : 0 < k) (hT : T = (1 + u) ^ m * S) (hx : |x'| ≤ T)
    (hc : |c' - c| ≤ u * (1.1 * T + 1.5 * k)) (hc2 : |c'| ≤ 0.5 * k) (hy0 : y0 = x' + c) (hlip : |y0 - y| ≤ e) (he : e = ((1 + u) ^ m - 1) * S) (hy : |y| ≤ S + k) :
    Near u (m + 3) (S + k) (A.rnd (x' + c')) y := by
  have hu := hA.nonneg
  have hm := one_le_pow_u hu m
  refine ⟨hy, ?_⟩
  have h1 := hA.rnd (x' + c')
  have h2 : |x' + c'| ≤ T + 0.5 * k := (abs_add_le _ _).trans (by linarith)
  have h3 := mul_le_mul_of_nonneg_left h2 hu
  have h4 : |A.rnd (x' + c') - y| ≤ |A.rnd (x' + c') - (x' + c')| + |x' + c' - y0| + |y0 - y| := by
    have a1 := abs_sub_le (A.rnd (x' + c')) (x' + c') y
    have a2 := abs_sub_le (x' + c') y0 y
    linarith
  rw [show x' + c' - y0 = c' - c by rw [hy0]; ring] at h4
  have hT0 : 0 ≤ T := (abs_nonneg _).trans hx
  have h5 : |A.rnd (x' + c') - y| ≤ 3 * u * (T + k) + e := by
    nlinarith [mul_nonneg hu hT0, mul_nonneg hu hk.le]
  have h6 : 1 + 3 * u ≤ (1 + u) ^ 3 := by nlinarith [mul_nonneg hu hu, mul_nonneg hu (mul_nonneg hu hu)]
  have h7 : (1 + u) ^ m * (1 + 3 * u) ≤ (1 + u) ^ m * (1 + u) ^ 3 := mul_le_mul_of_nonneg_left h6 (by linarith)
  have hS : 0 ≤ S := by
    by_contra hneg
    have : (1 + u) ^ m * S < 0 := mul_neg_of_pos_of_neg (by linarith) (not_le.1 hneg)
    linarith
  have h8 := mul_le_mul_of_nonneg_right h7 (by linarith : 0 ≤ S + k)
  rw [pow_add]
  have h9 := mul_le_mul_of_nonneg_right hm (mul_nonneg hu hk.le)
  have h10 := mul_le_mul_of_nonneg_right hm hk.le
  rw [he, hT] at h5
  nlinarith

theorem blend_nonneg {k h : ℝ} (hk : 0 < k) (h0 : 0 ≤ h) (hh : h ≤ k) : 0 ≤ h * h * 0.25 / k ∧ h * h * 0.25 / k ≤ k := by
  refine ⟨by positivity, ?_⟩
  rw [div_le_iff₀ hk]
  nlinarith

theorem near_smoothUnion (hA : Accuracy u A) {m : ℕ} {S k a' a b' b : ℝ} (hk : 0 < k) (h : Near u m S a' a) (g : Near u m S b' b) :
    Near u (m + 3) (S + k) (smoothUnion A k a' b') (Sdf.smoothUnion k a b) := by
  obtain ⟨c1, c2⟩ := blend hA hk h.size g.size rfl rfl
  have hb := blend_nonneg hk (le_max_right (k - |a - b|) 0) (max_le (by linarith [abs_nonneg (a - b)]) hk.le)
  have hm : |min a b| ≤ S := abs_min_le_max_abs_abs.trans (max_le h.1 g.1)
  unfold smoothUnion
  simp only
  rw [sub_eq_add_neg]
  refine near_blend hA hk rfl (abs_min_le_max_abs_abs.trans (max_le h.size g.size)) (c := -(max (k - |a' - b'|) 0 * max (k - |a' - b'|) 0 * 0.25 / k)) ?_ (by rwa [abs_neg])
    rfl (e := ((1 + u) ^ m - 1) * S) ?_ rfl ?_
  · rw [show ∀ p q : ℝ, -p - -q = -(p - q) by intro p q; ring, abs_neg]
    exact c1
  · rw [← sub_eq_add_neg]
    exact Domain.two_sided (Domain.smoothUnion_lip k) h.2 g.2
  · unfold Sdf.smoothUnion
    rw [abs_le] at hm ⊢
    constructor <;> linarith [hb.1, hb.2]

theorem near_smoothIntersection (hA : Accuracy u A) {m : ℕ} {S k a' a b' b : ℝ} (hk : 0 < k) (h : Near u m S a' a) (g : Near u m S b' b) :
    Near u (m + 3) (S + k) (smoothIntersection A k a' b') (Sdf.smoothIntersection k a b) := by
  obtain ⟨c1, c2⟩ := blend hA hk h.size g.size rfl rfl
  have hb := blend_nonneg hk (le_max_right (k - |a - b|) 0) (max_le (by linarith [abs_nonneg (a - b)]) hk.le)
  have hm : |max a b| ≤ S := abs_max_le_max_abs_abs.trans (max_le h.1 g.1)
  refine near_blend hA hk rfl (abs_max_le_max_abs_abs.trans (max_le h.size g.size)) c1 c2 rfl (e := ((1 + u) ^ m - 1) * S) ?_ rfl ?_
  · exact Domain.two_sided (Domain.smoothIntersection_lip k) h.2 g.2
  · unfold Sdf.smoothIntersection
    rw [abs_le] at hm ⊢
    constructor <;> linarith [hb.1, hb.2]

theorem near_smoothDifference (hA : Accuracy u A) {m : ℕ} {S k a' a b' b : ℝ} (hk : 0 < k) (h : Near u m S a' a) (g : Near u m S b' b) :
    Near u (m + 3) (S + k) (smoothDifference A k a' b') (Sdf.smoothDifference k a b) :=
  near_smoothIntersection hA hk h.neg g

theorem near_foldl (hA : Accuracy u A) {f' f : ℝ → ℝ → ℝ} {k : ℝ} (hk : 0 ≤ k)
    (hf : ∀ {m : ℕ} {S a' a b' b : ℝ}, Near u m S a' a → Near u m S b' b → Near u (m + 3) (S + k) (f' a' b') (f a b)) :
    ∀ (l : List (ℝ × ℝ)) (m : ℕ) (S x' x : ℝ), (∀ z ∈ l, Near u m S z.1 z.2) → Near u m S x' x →
      Near u (m + 3 * l.length) (S + l.length * k) ((l.map Prod.fst).foldl f' x') ((l.map Prod.snd).foldl f x)
  | [], m, S, x', x, _, hx => by simpa using hx
  | z :: l, m, S, x', x, h, hx => by
    have := near_foldl hA hk hf l (m + 3) (S + k) _ _ (fun w hw => (h w (by simp [hw])).weaken hA.nonneg (by omega) (by linarith)) (hf hx (h z (by simp)))
    simp only [List.map_cons, List.foldl_cons, List.length_cons]
    rw [show m + 3 * (l.length + 1) = m + 3 + 3 * l.length by ring, show S + ((l.length + 1 : ℕ) : ℝ) * k = S + k + l.length * k by push_cast; ring]
    exact this

theorem near_foldl_sharp (hA : Accuracy u A) {f : ℝ → ℝ → ℝ} {k : ℝ} (hk : 0 ≤ k)
    (hf : ∀ {m : ℕ} {S a' a b' b : ℝ}, Near u m S a' a → Near u m S b' b → Near u m S (f a' b') (f a b))
    (l : List (ℝ × ℝ)) (m : ℕ) (S x' x : ℝ) (h : ∀ z ∈ l, Near u m S z.1 z.2) (hx : Near u m S x' x) :
    Near u (m + 3 * l.length) (S + l.length * k) ((l.map Prod.fst).foldl f x') ((l.map Prod.snd).foldl f x) :=
  near_foldl hA hk (fun h1 h2 => (hf h1 h2).weaken hA.nonneg (by omega) (by linarith)) l m S x' x h hx

theorem near_unionEval (hA : Accuracy u A) {k : ℝ} (hk : 0 ≤ k) (l : List (ℝ × ℝ)) {m : ℕ} {S x' x : ℝ} (h : ∀ z ∈ l, Near u m S z.1 z.2) (hx : Near u m S x' x) :
    Near u (m + 3 * l.length) (S + l.length * k) (unionEval A k x' (l.map Prod.fst)) (Sdf.unionEval k x (l.map Prod.snd)) := by
  unfold unionEval Sdf.unionEval
  split_ifs with h0
  · exact near_foldl_sharp hA hk near_min l m S x' x h hx
  · exact near_foldl hA hk (near_smoothUnion hA (lt_of_le_of_ne hk (Ne.symm h0))) l m S x' x h hx

theorem near_interEval (hA : Accuracy u A) {k : ℝ} (hk : 0 ≤ k) (l : List (ℝ × ℝ)) {m : ℕ} {S x' x : ℝ} (h : ∀ z ∈ l, Near u m S z.1 z.2) (hx : Near u m S x' x) :
    Near u (m + 3 * l.length) (S + l.length * k) (interEval A k x' (l.map Prod.fst)) (Sdf.interEval k x (l.map Prod.snd)) := by
  unfold interEval Sdf.interEval
  split_ifs with h0
  · exact near_foldl_sharp hA hk near_max l m S x' x h hx
  · exact near_foldl hA hk (near_smoothIntersection hA (lt_of_le_of_ne hk (Ne.symm h0))) l m S x' x h hx

theorem near_diffEval (hA : Accuracy u A) {k : ℝ} (hk : 0 ≤ k) (l : List (ℝ × ℝ)) {m : ℕ} {S x' x : ℝ} (h : ∀ z ∈ l, Near u m S z.1 z.2) (hx : Near u m S x' x) :
    Near u (m + 3 * l.length) (S + l.length * k) (diffEval A k x' (l.map Prod.fst)) (Sdf.diffEval k x (l.map Prod.snd)) := by
  unfold diffEval Sdf.diffEval
  split_ifs with h0
  · have := near_foldl_sharp hA hk near_max (l.map fun z => (-z.1, -z.2)) m S x' x (fun z hz => by
      obtain ⟨w, hw, rfl⟩ := List.mem_map.1 hz
      exact (h w hw).neg) hx
    rw [List.length_map, List.map_map, List.map_map] at this
    rw [List.map_map, List.map_map]
    exact this
  · have e1 : x' :: l.map Prod.fst = ((x', x) :: l).map Prod.fst := rfl
    have e2 : x :: l.map Prod.snd = ((x', x) :: l).map Prod.snd := rfl
    rw [e1, e2, ← List.map_reverse, ← List.map_reverse]
    have hall : ∀ z ∈ ((x', x) :: l).reverse, Near u m S z.1 z.2 := fun z hz => by
      rcases List.mem_cons.1 (List.mem_reverse.1 hz) with rfl | hz
      · exact hx
      · exact h z hz
    have hlen : ((x', x) :: l).reverse.length = l.length + 1 := by simp
    match hr : ((x', x) :: l).reverse, hall, hlen with
    | [], _, hlen => simp at hlen
    | e :: es, hall, hlen =>
      have hl : es.length = l.length := by simpa using hlen
      have := near_foldl hA hk (near_smoothDifference hA (lt_of_le_of_ne hk (Ne.symm h0))) es m S e.1 e.2 (fun z hz => hall z (by simp [hz])) (hall e (by simp))
      rw [hl] at this
      exact this

theorem evals_eq {d : ℕ} (x : Pt d) (os : List (Geo d)) : evals A x os = os.map (Geo.eval A x) := by
  induction os with
  | nil => rfl
  | cons o os ih => simp [evals, ih]

theorem objs_eq {d : ℕ} (os : List (Geo d)) : objs os = os.map Geo.obj := by
  induction os with
  | nil => rfl
  | cons o os ih => simp [objs, ih]

theorem oks_iff {d : ℕ} (os : List (Geo d)) : Oks os ↔ ∀ o ∈ os, o.Ok := by
  induction os with
  | nil => simp [Oks]
  | cons o os ih => simp [Oks, ih]

theorem le_sizes {d : ℕ} {B S : ℝ} (os : List (Geo d)) : S ≤ sizes B S os ∧ ∀ o ∈ os, o.size B ≤ sizes B S os := by
  induction os with
  | nil => simp [sizes]
  | cons o os ih =>
    simp only [sizes]
    refine ⟨ih.1.trans (le_max_right _ _), fun a ha => ?_⟩
    rcases List.mem_cons.1 ha with rfl | ha
    · exact le_max_left _ _
    · exact (ih.2 a ha).trans (le_max_right _ _)

theorem le_roundings {d : ℕ} {n : ℕ} (os : List (Geo d)) : n ≤ roundingss n os ∧ ∀ o ∈ os, o.roundings ≤ roundingss n os := by
  induction os with
  | nil => simp [roundingss]
  | cons o os ih =>
    simp only [roundingss]
    refine ⟨ih.1.trans (le_max_right _ _), fun a ha => ?_⟩
    rcases List.mem_cons.1 ha with rfl | ha
    · exact le_max_left _ _
    · exact (ih.2 a ha).trans (le_max_right _ _)

/-- Induction over geometries. -/
theorem Geo.ind {d : ℕ} {M : Geo d → Prop} (hp : ∀ b, M (.prim b))
    (hu : ∀ k o os, M o → (∀ a ∈ os, M a) → M (.union k o os))
    (hi : ∀ k o os, M o → (∀ a ∈ os, M a) → M (.inter k o os))
    (hd : ∀ k o os, M o → (∀ a ∈ os, M a) → M (.diff k o os)) : ∀ g, M g
  | .prim b => hp b
  | .union k o os => hu k o os (Geo.ind hp hu hi hd o) fun a _ => Geo.ind hp hu hi hd a
  | .inter k o os => hi k o os (Geo.ind hp hu hi hd o) fun a _ => Geo.ind hp hu hi hd a
  | .diff k o os => hd k o os (Geo.ind hp hu hi hd o) fun a _ => Geo.ind hp hu hi hd a

theorem near_operands (hA : Accuracy u A) {d : ℕ} {B : ℝ} {x : Pt d} {o : Geo d} {os : List (Geo d)} (ho : Near u o.roundings (o.size B) (o.eval A x) (o.obj.eval x))
    (hos : ∀ a ∈ os, Near u a.roundings (a.size B) (a.eval A x) (a.obj.eval x)) :
    Near u (roundingss o.roundings os) (sizes B (o.size B) os) (o.eval A x) (o.obj.eval x) ∧
    (∀ z ∈ os.map fun a => (a.eval A x, a.obj.eval x), Near u (roundingss o.roundings os) (sizes B (o.size B) os) z.1 z.2) := by
  refine ⟨ho.weaken hA.nonneg (le_roundings os).1 (le_sizes os).1, fun z hz => ?_⟩
  obtain ⟨a, ha, rfl⟩ := List.mem_map.1 hz
  exact (hos a ha).weaken hA.nonneg ((le_roundings os).2 a ha) ((le_sizes os).2 a ha)

theorem near_geo (hA : Accuracy u A) {d : ℕ} {B : ℝ} {x : Pt d} (hx : ∀ i, |x i| ≤ B) (hB : 0 ≤ B) (g : Geo d) (hg : g.Ok) :
    Near u g.roundings (g.size B) (g.eval A x) (g.obj.eval x) := by
  induction g using Geo.ind with
  | hp p => exact near_prim hA p hx hB hg
  | hu k o os ho hos =>
    obtain ⟨hk, h1, h2⟩ := hg
    obtain ⟨n1, n2⟩ := near_operands hA (ho h1) fun a ha => hos a ha ((oks_iff os).1 h2 a ha)
    have := near_unionEval hA hk _ n2 n1
    simp only [List.length_map, List.map_map] at this
    simp only [Geo.eval, Geo.obj, Geo.size, Geo.roundings, Domain.mkUnion, evals_eq, objs_eq, List.map_map]
    exact this
  | hi k o os ho hos =>
    obtain ⟨hk, h1, h2⟩ := hg
    obtain ⟨n1, n2⟩ := near_operands hA (ho h1) fun a ha => hos a ha ((oks_iff os).1 h2 a ha)
    have := near_interEval hA hk _ n2 n1
    simp only [List.length_map, List.map_map] at this
    simp only [Geo.eval, Geo.obj, Geo.size, Geo.roundings, Domain.mkIntersection, evals_eq, objs_eq, List.map_map]
    exact this
  | hd k o os ho hos =>
    obtain ⟨hk, h1, h2⟩ := hg
    obtain ⟨n1, n2⟩ := near_operands hA (ho h1) fun a ha => hos a ha ((oks_iff os).1 h2 a ha)
    have := near_diffEval hA hk _ n2 n1
    simp only [List.length_map, List.map_map] at this
    simp only [Geo.eval, Geo.obj, Geo.size, Geo.roundings, Domain.mkDifference, evals_eq, objs_eq, List.map_map]
    exact this

/-! ### Theorems -/

/-- **C133 (error).** Any geometry made of the seven primitives, translated, rotated and stretched in any way, and of sharp and smooth unions, intersections and
differences: at a point with coordinates up to `B` the computed signed distance differs from the exact one by at most `(1+u)^n - 1` times the size of the geometry. The
number `n` of roundings depends on the nesting of the set operations only, not on any number in the geometry. -/
theorem C133_error (hA : Accuracy u A) {d : ℕ} (g : Geo d) (hg : g.Ok) {B : ℝ} {x : Pt d} (hx : ∀ i, |x i| ≤ B) (hB : 0 ≤ B) :
    |g.eval A x - g.obj.eval x| ≤ ((1 + u) ^ g.roundings - 1) * g.size B :=
  (near_geo hA hx hB g hg).2

theorem pow_linear (hu : 0 ≤ u) : ∀ n : ℕ, n * u ≤ 1 / 2 → (1 + u) ^ n ≤ 1 + 2 * n * u
  | 0, _ => by simp
  | n + 1, h => by
    push_cast at h ⊢
    have := pow_linear hu n (by linarith)
    have h2 := mul_le_mul_of_nonneg_right this (by linarith : 0 ≤ 1 + u)
    have h3 : u * (n * u) ≤ u * (1 / 2) := mul_le_mul_of_nonneg_left (by linarith) hu
    rw [pow_succ]
    linarith

/-- **C133 (simple form).** In other words at most `2 n u` times the size. -/
theorem C133_simple (hA : Accuracy u A) {d : ℕ} (g : Geo d) (hg : g.Ok) {B : ℝ} {x : Pt d} (hx : ∀ i, |x i| ≤ B) (hB : 0 ≤ B) (hn : g.roundings * u ≤ 1 / 2) :
    |g.eval A x - g.obj.eval x| ≤ 2 * g.roundings * u * g.size B := by
  have hs : 0 ≤ g.size B := Near.nn (near_geo hA hx hB g hg)
  have := mul_le_mul_of_nonneg_right (pow_linear hA.nonneg g.roundings hn) hs
  have := C133_error hA g hg hx hB
  linarith

/-- **C133 (classification).** A point is on the side of the boundary that its computed value says, unless its exact signed distance is within the bound. -/
theorem C133_side (hA : Accuracy u A) {d : ℕ} (g : Geo d) (hg : g.Ok) {B : ℝ} {x : Pt d} (hx : ∀ i, |x i| ≤ B) (hB : 0 ≤ B) (hn : g.roundings * u ≤ 1 / 2)
    (hfar : 2 * g.roundings * u * g.size B < |g.obj.eval x|) : (g.eval A x < 0 ↔ g.obj.eval x < 0) ∧ (0 < g.eval A x ↔ 0 < g.obj.eval x) := by
  have := abs_le.1 (C133_simple hA g hg hx hB hn)
  rcases lt_abs.1 hfar with h | h
  · exact ⟨⟨fun _ => by linarith, fun _ => by linarith⟩, fun _ => by linarith, fun _ => by linarith⟩
  · exact ⟨⟨fun _ => by linarith, fun _ => by linarith⟩, fun _ => by linarith, fun _ => by linarith⟩

/-- **C133 (model).** In exact arithmetic the evaluation is that of the other claims. -/
theorem C133_model (hA : Accuracy 0 A) {d : ℕ} (g : Geo d) (hg : g.Ok) (x : Pt d) : g.eval A x = g.obj.eval x := by
  have := C133_error hA g hg (B := ∑ i, |x i|) (x := x) (fun i => Finset.single_le_sum (f := fun i => |x i|) (fun _ _ => abs_nonneg _) (Finset.mem_univ i))
    (Finset.sum_nonneg fun _ _ => abs_nonneg _)
  simp only [add_zero, one_pow, sub_self, zero_mul] at this
  linarith [abs_nonpos_iff.1 this]

theorem tracks (hA : Accuracy u A) {d : ℕ} (g : Geo d) (hg : g.Ok) {B : ℝ} (hB : 0 ≤ B) :
    OutsideFl.Tracks (((1 + u) ^ g.roundings - 1) * g.size B) B (g.eval A) g.obj.eval := fun _ hx => C133_error hA g hg hx hB

theorem maxLip {d : ℕ} {L : ℝ} {f : Pt d → ℝ} (hL : 0 ≤ L) (h : Domain.Lip L f) : OutsideFl.MaxLip (L * d) f := fun x y δ hδ => by
  have := mul_le_mul_of_nonneg_left (OutsideFl.eucl_le_mul x y hδ) hL
  rw [mul_assoc]
  exact (h x y).trans this

/-- **C133 (returned cells).** The last step of `generate_mesh` in floating-point arithmetic, for every geometry whose stretch vectors have length `1 / L` at least: a
returned cell's exact centroid is strictly inside the exact domain as soon as the margin `h0 / 1000` of the test is not smaller than the error of the evaluation plus
`L d` times the error of the centroid; and a cell whose centroid is farther inside than the margin and that tolerance is not lost. -/
theorem C133_returned (hA : Accuracy u A) {d : ℕ} (g : Geo d) (hg : g.Ok) {L : ℝ} (hL : 1 ≤ L) (hs : Domain.Simple L g.obj) {B h0 c : ℝ} (hB : 0 ≤ B) {p : List (Pt d)}
    (hp : ∀ x ∈ p, ∀ i, |x i| ≤ B) {t t' : List (List ℕ)} (hw : ∀ r ∈ t, r.length = d + 1) (hrun : OutsideFl.lastRemoval A.rnd (g.eval A) h0 c p t = .ok t') {tol : ℝ}
    (htol : ((1 + u) ^ g.roundings - 1) * g.size ((1 + u) ^ (d + 1) * B) + L * d * (((1 + u) ^ (d + 1) - 1) * B) ≤ tol) :
    t'.Sublist t ∧ ∀ r ∈ t, ∃ vs, Np.take p r = .ok vs ∧ (tol ≤ A.rnd (h0 * c) → r ∈ t' → g.obj.eval (OutsideFl.mean vs) < 0) ∧
      (g.obj.eval (OutsideFl.mean vs) < -A.rnd (h0 * c) - tol → r ∈ t') := by
  have h1 := one_le_pow_u hA.nonneg (d + 1)
  obtain ⟨hsub, hr⟩ := OutsideFl.C130_removal hA.nonneg hA.rnd (tracks hA g hg (B := (1 + u) ^ (d + 1) * B) (by positivity)) (maxLip (by linarith) (Domain.C96_lipschitz hL hs)) hp hw hrun
  refine ⟨hsub, fun r hrt => ?_⟩
  obtain ⟨vs, hv, a, b⟩ := hr r hrt
  exact ⟨vs, hv, fun hge hr' => by linarith [a hr'], fun hlt => b (by linarith)⟩

end norms

/-! ### binary64 -/

/-- A dot product computed from left to right, without fused multiply-add. -/
def leftDot (rnd : ℝ → ℝ) : {d : ℕ} → Pt d → Pt d → ℝ
  | 0, _, _ => 0
  | 1, a, b => rnd (a 0 * b 0)
  | d + 2, a, b => rnd (leftDot rnd (Fin.init a : Pt (d + 1)) (Fin.init b) + rnd (a (Fin.last _) * b (Fin.last _)))

theorem rnd_factor {rnd : ℝ → ℝ} {u : ℝ} (hu : 0 ≤ u) (ha : Accurate rnd u) (x : ℝ) : ∃ δ, 1 - u ≤ δ ∧ δ ≤ 1 + u ∧ rnd x = x * δ := by
  by_cases hx : x = 0
  · refine ⟨1, by linarith, by linarith, ?_⟩
    have := ha x
    rw [hx] at this ⊢
    simpa using this
  · refine ⟨rnd x / x, ?_, ?_, by field_simp⟩
    all_goals
      have h := ha x
      have e : |rnd x / x - 1| ≤ u := by
        rw [show rnd x / x - 1 = (rnd x - x) / x by field_simp, abs_div, div_le_iff₀ (abs_pos.2 hx)]
        exact h
      have := abs_le.1 e
      linarith

theorem leftDot_spec {rnd : ℝ → ℝ} {u : ℝ} (hu : 0 ≤ u) (hu1 : u ≤ 1) (ha : Accurate rnd u) :
    ∀ {d : ℕ} (a b : Pt d), ∃ θ : Fin d → ℝ, (∀ i, (1 - u) ^ d ≤ θ i ∧ θ i ≤ (1 + u) ^ d) ∧ leftDot rnd a b = ∑ i, a i * b i * θ i
  | 0, a, b => ⟨fun _ => 1, fun i => i.elim0, by simp [leftDot]⟩
  | 1, a, b => by
    obtain ⟨δ, h1, h2, e⟩ := rnd_factor hu ha (a 0 * b 0)
    exact ⟨fun _ => δ, fun i => ⟨by rwa [pow_one], by rwa [pow_one]⟩, by simp [leftDot, e]⟩
  | d + 2, a, b => by
    obtain ⟨θ, hθ, e⟩ := leftDot_spec hu hu1 ha (Fin.init a : Pt (d + 1)) (Fin.init b)
    obtain ⟨δ, p1, p2, ep⟩ := rnd_factor hu ha (a (Fin.last _) * b (Fin.last _))
    obtain ⟨ε, q1, q2, eq⟩ := rnd_factor hu ha (leftDot rnd (Fin.init a : Pt (d + 1)) (Fin.init b) + rnd (a (Fin.last _) * b (Fin.last _)))
    have hm : 0 ≤ 1 - u := by linarith
    have key : ∀ {n : ℕ} {x : ℝ}, n + 1 ≤ d + 2 → (1 - u) ^ n ≤ x → x ≤ (1 + u) ^ n → (1 - u) ^ (d + 2) ≤ x * ε ∧ x * ε ≤ (1 + u) ^ (d + 2) := by
      intro n x hn hx1 hx2
      have hx0 : 0 ≤ x := (pow_nonneg hm n).trans hx1
      constructor
      · refine (pow_le_pow_of_le_one hm (by linarith) hn).trans ?_
        rw [pow_succ]
        exact mul_le_mul hx1 q1 hm hx0
      · refine le_trans ?_ (pow_le_pow_right₀ (by linarith) hn)
        rw [pow_succ]
        exact mul_le_mul hx2 q2 (by linarith) (by positivity)
    refine ⟨Fin.snoc (fun i => θ i * ε) (δ * ε), fun i => ?_, ?_⟩
    · refine Fin.lastCases ?_ (fun j => ?_) i
      · rw [Fin.snoc_last]
        exact key (n := 1) (by omega) (by rwa [pow_one]) (by rwa [pow_one])
      · rw [Fin.snoc_castSucc]
        exact key le_rfl (hθ j).1 (hθ j).2
    · rw [Fin.sum_univ_castSucc]
      simp only [Fin.snoc_castSucc, Fin.snoc_last]
      rw [leftDot, eq, e, ep, add_mul, Finset.sum_mul]
      simp only [Fin.init]
      congr 1
      · exact Finset.sum_congr rfl fun i _ => by ring
      · ring

/-- Double precision, with correctly rounded `cos` and `sin`. -/
def double : Arith := ⟨BallFl.binary64, fun t => BallFl.binary64 (Real.cos t), fun t => BallFl.binary64 (Real.sin t), leftDot BallFl.binary64⟩

/-- **C133 (double precision).** The assumptions on the arithmetic hold for rounding to 53 bits, with `u = 2^-53`. -/
theorem C133_double : Accuracy (1 / 9007199254740992) double := by
  have ha := BallFl.C123_binary64.2
  refine ⟨by norm_num, by norm_num, ha, fun t => (ha _).trans ?_, fun t => (ha _).trans ?_, leftDot_spec (by norm_num) (by norm_num) ha⟩
  · have := Real.abs_cos_le_one t
    norm_num; linarith
  · have := Real.abs_sin_le_one t
    norm_num; linarith

/-! ### A concrete case -/

/-- A rotated, shifted torus, smoothly united with a stretched cylinder, with a cube cut away. -/
def exGeo : Geo 3 :=
  .diff 0 (.union (1 / 4) (.prim (.torus 3 1 ⟨.three 1 0 2, none, some ![1, 2, 3]⟩)) [.prim (.cylinder 4 1 ⟨.three 0 0 0, some ![0, 0, 2], none⟩)])
    [.prim (.cube ⟨![0, 0, 0], ![1, 1, 1]⟩ ⟨.three 0 1 0, none, none⟩)]

theorem exGeo_ok : exGeo.Ok := by
  simp only [exGeo, Geo.Ok, Oks, Prim.StretchOk, StretchOk, and_true]
  refine ⟨le_rfl, ⟨by norm_num, by simp, ?_⟩, by simp⟩
  rintro v h
  simp only [Option.some.injEq] at h
  subst h
  intro h
  have := congrFun h 2
  simp at this

theorem exGeo_size {B : ℝ} (hB : B = 10) : exGeo.size B ≤ 3000 := by
  subst hB
  simp only [exGeo, Geo.size, sizes, Prim.size, manipSize, stretchFactor, rotFactor, transSize, List.length_cons, List.length_nil, Fin.sum_univ_three]
  have h2 : (![0, 0, 2] : Pt 3) 2 = 2 := rfl
  have h3 : (![1, 2, 3] : Pt 3) 2 = 3 := rfl
  have h1 : (![1, 1, 1] : Pt 3) 2 = 1 := rfl
  have h0 : (![0, 0, 0] : Pt 3) 2 = 0 := rfl
  simp [h0, h1, h2, h3]
  norm_num [abs_of_pos]

/-- Non-trivial instance: in the box of half-width 10 the computed value of this geometry is right to 10 decimal places. -/
example (x : Pt 3) (hx : ∀ i, |x i| ≤ 10) : |exGeo.eval double x - exGeo.obj.eval x| ≤ 1 / 10 ^ 10 := by
  have hn : exGeo.roundings = 60 := by simp [exGeo, Geo.roundings, roundingss]
  have := C133_simple C133_double exGeo exGeo_ok hx (by norm_num) (by rw [hn]; norm_num)
  rw [hn] at this
  have hs := exGeo_size rfl
  norm_num at this ⊢
  linarith

/-- It meets the hypothesis on the stretch vectors of `C133_returned`, with `L = 1`. -/
theorem exGeo_simple : Domain.Simple 1 exGeo.obj := by
  have h : (1 : ℝ) ≤ 1 * √(Domain.dot (![0, 0, 2] : Pt 3) ![0, 0, 2]) := by
    rw [one_mul, Real.le_sqrt' (by norm_num), Domain.dot, Fin.sum_univ_three]
    have h2 : (![0, 0, 2] : Pt 3) 2 = 2 := rfl
    rw [h2]
    norm_num
  refine .diff _ _ _ (.union _ _ _ (.torus _ _ _ (by simp)) ?_) ?_
  · intro o ho
    rw [objs, objs, List.mem_singleton] at ho
    subst ho
    refine .cylinder _ _ _ fun v hv => ?_
    cases hv
    exact h
  · intro o ho
    rw [objs, objs, List.mem_singleton] at ho
    subst ho
    exact .cube _ _ (by simp)

/-- Non-trivial instance of `C133_returned`: the tolerance is below the margin of the test for an edge length of `1/1000`. -/
example {p : List (Pt 3)} (hp : ∀ x ∈ p, ∀ i, |x i| ≤ 9) {t t' : List (List ℕ)} (hw : ∀ r ∈ t, r.length = 4)
    (hrun : OutsideFl.lastRemoval double.rnd (exGeo.eval double) (1 / 1000) (1 / 1000) p t = .ok t') :
    ∀ r ∈ t', ∃ vs, Np.take p r = .ok vs ∧ exGeo.obj.eval (OutsideFl.mean vs) < 0 := by
  have hn : exGeo.roundings = 60 := by simp [exGeo, Geo.roundings, roundingss]
  have hmono : exGeo.size ((1 + 1 / 9007199254740992) ^ (3 + 1) * 9) ≤ exGeo.size 10 := by
    simp only [exGeo, Geo.size, sizes, Prim.size, manipSize, stretchFactor, rotFactor, transSize]
    gcongr <;> norm_num
  have hsz := exGeo_size rfl
  have hpow : ((1 : ℝ) + 1 / 9007199254740992) ^ 60 ≤ 1 + 2 * (60 : ℕ) * (1 / 9007199254740992) := pow_linear (by norm_num) 60 (by norm_num)
  have hpow4 : ((1 : ℝ) + 1 / 9007199254740992) ^ 4 ≤ 1 + 2 * (4 : ℕ) * (1 / 9007199254740992) := pow_linear (by norm_num) 4 (by norm_num)
  obtain ⟨hs, hr⟩ := C133_returned C133_double exGeo exGeo_ok le_rfl exGeo_simple (B := 9) (by norm_num) hp hw hrun (tol := 1 / 10 ^ 9) (by
    rw [hn]
    have h1 := one_le_pow_u (u := (1 : ℝ) / 9007199254740992) (by norm_num) 60
    have h2 : ((1 + (1 : ℝ) / 9007199254740992) ^ 60 - 1) * exGeo.size ((1 + 1 / 9007199254740992) ^ (3 + 1) * 9) ≤ (2 * (60 : ℕ) * (1 / 9007199254740992)) * 3000 := by
      refine mul_le_mul (by linarith) (hmono.trans hsz) ?_ (by norm_num)
      exact Near.nn (near_geo C133_double (B := (1 + 1 / 9007199254740992) ^ (3 + 1) * 9) (x := 0) (by intro i; simp only [Pi.zero_apply, abs_zero]; positivity) (by positivity) exGeo exGeo_ok)
    norm_num at h2 hpow4 ⊢
    linarith)
  intro r hrt
  obtain ⟨vs, hv, h, -⟩ := hr r (hs.subset hrt)
  refine ⟨vs, hv, h ?_ hrt⟩
  have := (abs_le.1 (BallFl.C123_binary64.2 ((1 : ℝ) / 1000 * (1 / 1000)))).1
  rw [abs_of_pos (by norm_num)] at this
  show (1 : ℝ) / 10 ^ 9 ≤ BallFl.binary64 _
  norm_num at this ⊢
  linarith

end

end SM.ShapesFl
