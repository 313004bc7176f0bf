import Verif.Props.Domain
import Mathlib.Tactic.NormNum.Abs

/-!
# C96: no domain overestimates the distance to its boundary

Every domain object's `eval` is Lipschitz with constant one with respect to the Euclidean distance, for every
nesting of (sharp or smooth) set operations of primitives that are rotated, translated and not shrunk. Shrinking
stretches and `Repeat` of an asymmetric shape are the exceptions.
-/

namespace SM.Domain

open SM.Sdf

/-- `f` changes by at most `L` per unit of (Euclidean) length. -/
def Lip {d : ℕ} (L : ℝ) (f : Pt d → ℝ) : Prop := ∀ p q, |f p - f q| ≤ L * eucl p q

/-- `f` never overestimates the distance to the boundary: within distance `|f x|` of `x`, no point has the other
sign. -/
def NeverOverestimates {d : ℕ} (f : Pt d → ℝ) : Prop :=
  ∀ x q, eucl x q < |f x| → (0 < f x ↔ 0 < f q) ∧ (f x < 0 ↔ f q < 0)

/-- Objects built from primitives by set operations, whose stretch vectors have a length of at least `1/L`. -/
inductive Simple (L : ℝ) : {d : ℕ} → Obj d → Prop
  | disk (x0 : Pt 2) (r : ℝ) (m : Manip 2) : (∀ v, m.stretch = some v → 1 ≤ L * √(dot v v)) → Simple L (mkDisk x0 r m)
  | ball (x0 : Pt 3) (r : ℝ) (m : Manip 3) : (∀ v, m.stretch = some v → 1 ≤ L * √(dot v v)) → Simple L (mkBall x0 r m)
  | rectangle (b : Box 2) (m : Manip 2) : (∀ v, m.stretch = some v → 1 ≤ L * √(dot v v)) → Simple L (mkRectangle b m)
  | cube (b : Box 3) (m : Manip 3) : (∀ v, m.stretch = some v → 1 ≤ L * √(dot v v)) → Simple L (mkCube b m)
  | torus (r1 r2 : ℝ) (m : Manip 3) : (∀ v, m.stretch = some v → 1 ≤ L * √(dot v v)) → Simple L (mkTorus r1 r2 m)
  | prism (b h : ℝ) (m : Manip 3) : (∀ v, m.stretch = some v → 1 ≤ L * √(dot v v)) → Simple L (mkPrism b h m)
  | cylinder (h r : ℝ) (m : Manip 3) : (∀ v, m.stretch = some v → 1 ≤ L * √(dot v v)) → Simple L (mkCylinder h r m)
  | union {d : ℕ} (k : ℝ) (o : Obj d) (os : List (Obj d)) : Simple L o → (∀ o' ∈ os, Simple L o') → Simple L (mkUnion k o os)
  | inter {d : ℕ} (k : ℝ) (o : Obj d) (os : List (Obj d)) : Simple L o → (∀ o' ∈ os, Simple L o') →
      Simple L (mkIntersection k o os)
  | diff {d : ℕ} (k : ℝ) (o : Obj d) (os : List (Obj d)) : Simple L o → (∀ o' ∈ os, Simple L o') →
      Simple L (mkDifference k o os)

/-! ### Set operations -/

theorem smoothUnion_le {k : ℝ} (hk : 0 < k) {a b w : ℝ} (h0 : 0 ≤ w) (h1 : w ≤ 1) :
    smoothUnion k a b ≤ w * a + (1 - w) * b - k * (w * (1 - w)) := by
  unfold smoothUnion
  simp only
  rcases le_total a b with hab | hab
  · rw [min_eq_left hab, abs_of_nonpos (by linarith)]
    rcases le_total (k - -(a - b)) 0 with hm | hm
    · rw [max_eq_right hm]
      have : 0 ≤ (1 - w) * (b - a - k * w) := mul_nonneg (by linarith) (by nlinarith)
      norm_num; nlinarith
    · rw [max_eq_left hm]
      have e : (k - -(a - b)) * (k - -(a - b)) * 0.25 / k = k / 4 + (a - b) / 2 + (a - b) ^ 2 / (4 * k) := by
        field_simp; ring
      rw [e]
      have h2 : (w * a + (1 - w) * b - k * (w * (1 - w))) - (a - (k / 4 + (a - b) / 2 + (a - b) ^ 2 / (4 * k))) =
        (2 * k * w - k + (a - b)) ^ 2 / (4 * k) := by field_simp; ring
      have : 0 ≤ (2 * k * w - k + (a - b)) ^ 2 / (4 * k) := by positivity
      linarith
  · rw [min_eq_right hab, abs_of_nonneg (by linarith)]
    rcases le_total (k - (a - b)) 0 with hm | hm
    · rw [max_eq_right hm]
      have : 0 ≤ w * (a - b - k * (1 - w)) := mul_nonneg h0 (by nlinarith)
      norm_num; nlinarith
    · rw [max_eq_left hm]
      have e : (k - (a - b)) * (k - (a - b)) * 0.25 / k = k / 4 - (a - b) / 2 + (a - b) ^ 2 / (4 * k) := by
        field_simp; ring
      rw [e]
      have h2 : (w * a + (1 - w) * b - k * (w * (1 - w))) - (b - (k / 4 - (a - b) / 2 + (a - b) ^ 2 / (4 * k))) =
        (2 * k * w - k + (a - b)) ^ 2 / (4 * k) := by field_simp; ring
      have : 0 ≤ (2 * k * w - k + (a - b)) ^ 2 / (4 * k) := by positivity
      linarith

theorem smoothUnion_attained {k : ℝ} (hk : 0 < k) (a b : ℝ) : ∃ w, 0 ≤ w ∧ w ≤ 1 ∧
    smoothUnion k a b = w * a + (1 - w) * b - k * (w * (1 - w)) := by
  unfold smoothUnion
  simp only
  rcases le_total (k - |a - b|) 0 with hm | hm
  · rw [max_eq_right hm]
    rcases le_total a b with hab | hab
    · exact ⟨1, by norm_num, le_rfl, by rw [min_eq_left hab]; norm_num⟩
    · exact ⟨0, le_rfl, by norm_num, by rw [min_eq_right hab]; norm_num⟩
  · rw [max_eq_left hm]
    have hb := abs_le.1 (show |a - b| ≤ k by linarith)
    refine ⟨1 / 2 - (a - b) / (2 * k), ?_, ?_, ?_⟩
    · have : (a - b) / (2 * k) ≤ 1 / 2 := by rw [div_le_iff₀ (by positivity)]; linarith
      linarith
    · have : -(1 / 2) ≤ (a - b) / (2 * k) := by rw [le_div_iff₀ (by positivity)]; linarith
      linarith
    · rcases le_total a b with hab | hab
      · rw [min_eq_left hab, abs_of_nonpos (by linarith)]; field_simp; ring
      · rw [min_eq_right hab, abs_of_nonneg (by linarith)]; field_simp; ring

theorem smoothUnion_neg {k : ℝ} (hk : k ≤ 0) (a b : ℝ) : smoothUnion k a b = min a b := by
  unfold smoothUnion
  simp only
  rw [max_eq_right (by have := abs_nonneg (a - b); linarith)]; norm_num

/-- The blends are non-expansive for the maximum norm on pairs. -/
theorem smoothUnion_lip (k : ℝ) {a b a' b' e : ℝ} (ha : a ≤ a' + e) (hb : b ≤ b' + e) :
    smoothUnion k a b ≤ smoothUnion k a' b' + e := by
  rcases lt_or_ge 0 k with hk | hk
  · obtain ⟨w, h0, h1, hw⟩ := smoothUnion_attained hk a' b'
    rw [hw]
    refine (smoothUnion_le hk h0 h1).trans ?_
    have := mul_le_mul_of_nonneg_left ha h0
    have := mul_le_mul_of_nonneg_left hb (show 0 ≤ 1 - w by linarith)
    linarith
  · rw [smoothUnion_neg hk, smoothUnion_neg hk, ← min_add_add_right]
    exact min_le_min ha hb

theorem smoothIntersection_eq (k a b : ℝ) : smoothIntersection k a b = - smoothUnion k (-a) (-b) := by
  unfold smoothIntersection smoothUnion
  simp only
  rw [show -a - -b = b - a by ring, abs_sub_comm b a, min_neg_neg]; ring

theorem smoothDifference_eq (k a b : ℝ) : smoothDifference k a b = smoothIntersection k (-a) b := rfl

theorem smoothIntersection_lip (k : ℝ) {a b a' b' e : ℝ} (ha : a ≤ a' + e) (hb : b ≤ b' + e) :
    smoothIntersection k a b ≤ smoothIntersection k a' b' + e := by
  rw [smoothIntersection_eq, smoothIntersection_eq]
  have := smoothUnion_lip k (a := -a') (b := -b') (a' := -a) (b' := -b) (e := e) (by linarith) (by linarith)
  linarith

theorem smoothDifference_lip (k : ℝ) {a b a' b' e : ℝ} (ha : |a - a'| ≤ e) (hb : |b - b'| ≤ e) :
    |smoothDifference k a b - smoothDifference k a' b'| ≤ e := by
  rw [abs_le] at ha hb ⊢
  rw [smoothDifference_eq, smoothDifference_eq]
  have h1 := smoothIntersection_lip k (a := -a) (b := b) (a' := -a') (b' := b') (e := e) (by linarith) (by linarith)
  have h2 := smoothIntersection_lip k (a := -a') (b := b') (a' := -a) (b' := b) (e := e) (by linarith) (by linarith)
  constructor <;> linarith

/-- A loop with a non-expansive step is non-expansive. -/
theorem foldl_lip {α : Type} {f : ℝ → ℝ → ℝ} (hf : ∀ {a b a' b' e : ℝ}, |a - a'| ≤ e → |b - b'| ≤ e → |f a b - f a' b'| ≤ e)
    {g g' : α → ℝ} {e : ℝ} (l : List α) (hl : ∀ o ∈ l, |g o - g' o| ≤ e) {a a' : ℝ} (ha : |a - a'| ≤ e) :
    |(l.map g).foldl f a - (l.map g').foldl f a'| ≤ e := by
  induction l generalizing a a' with
  | nil => simpa using ha
  | cons o l ih =>
    simp only [List.map_cons, List.foldl_cons]
    exact ih (fun o' ho => hl o' (by simp [ho])) (hf ha (hl o (by simp)))

theorem min_lip {a b a' b' e : ℝ} (ha : |a - a'| ≤ e) (hb : |b - b'| ≤ e) : |min a b - min a' b'| ≤ e :=
  (abs_min_sub_min_le_max a b a' b').trans (max_le ha hb)

theorem max_lip {a b a' b' e : ℝ} (ha : |a - a'| ≤ e) (hb : |b - b'| ≤ e) : |max a b - max a' b'| ≤ e :=
  (abs_max_sub_max_le_max a b a' b').trans (max_le ha hb)

theorem two_sided {f : ℝ → ℝ → ℝ} (hf : ∀ {a b a' b' e : ℝ}, a ≤ a' + e → b ≤ b' + e → f a b ≤ f a' b' + e)
    {a b a' b' e : ℝ} (ha : |a - a'| ≤ e) (hb : |b - b'| ≤ e) : |f a b - f a' b'| ≤ e := by
  rw [abs_le] at ha hb ⊢
  have h1 := hf (a := a) (b := b) (a' := a') (b' := b') (e := e) (by linarith) (by linarith)
  have h2 := hf (a := a') (b := b') (a' := a) (b' := b) (e := e) (by linarith) (by linarith)
  constructor <;> linarith

theorem union_lip {d : ℕ} {L : ℝ} {k : ℝ} {o : Obj d} {os : List (Obj d)} (h : ∀ o' ∈ o :: os, Lip L o'.eval) :
    Lip L (mkUnion k o os).eval := by
  intro p q
  simp only [mkUnion, unionEval]
  split_ifs
  · exact foldl_lip min_lip os (fun o' ho => h o' (by simp [ho]) p q) (h o (by simp) p q)
  · exact foldl_lip (two_sided (smoothUnion_lip k)) os (fun o' ho => h o' (by simp [ho]) p q) (h o (by simp) p q)

theorem inter_lip {d : ℕ} {L : ℝ} {k : ℝ} {o : Obj d} {os : List (Obj d)} (h : ∀ o' ∈ o :: os, Lip L o'.eval) :
    Lip L (mkIntersection k o os).eval := by
  intro p q
  simp only [mkIntersection, interEval]
  split_ifs
  · exact foldl_lip max_lip os (fun o' ho => h o' (by simp [ho]) p q) (h o (by simp) p q)
  · exact foldl_lip (two_sided (smoothIntersection_lip k)) os (fun o' ho => h o' (by simp [ho]) p q) (h o (by simp) p q)

theorem diff_lip {d : ℕ} {L : ℝ} {k : ℝ} {o : Obj d} {os : List (Obj d)} (h : ∀ o' ∈ o :: os, Lip L o'.eval) :
    Lip L (mkDifference k o os).eval := by
  intro p q
  simp only [mkDifference, diffEval]
  split_ifs
  · rw [List.map_map, List.map_map]
    refine foldl_lip max_lip os (fun o' ho => ?_) (h o (by simp) p q)
    simp only [Function.comp]
    rw [neg_sub_neg, abs_sub_comm]
    exact h o' (by simp [ho]) p q
  · have key : ∀ x, (o.eval x :: os.map fun o => o.eval x).reverse = ((o :: os).reverse).map fun o => o.eval x := by
      intro x; rw [List.map_reverse]; rfl
    rw [key, key]
    have hne : (o :: os).reverse ≠ [] := by simp
    have hmem : ∀ o' ∈ (o :: os).reverse, Lip L o'.eval := fun o' ho => h o' (List.mem_reverse.1 ho)
    cases hr : (o :: os).reverse with
    | nil => exact absurd hr hne
    | cons e es =>
      rw [hr] at hmem
      simp only [List.map_cons]
      exact foldl_lip (smoothDifference_lip k) es (fun o' ho => hmem o' (by simp [ho]) p q) (hmem e (by simp) p q)

/-! ### Manipulations -/

theorem rot_back_isometry {d : ℕ} (r : Rot d) (x y : Pt d) : eucl (r.back x) (r.back y) = eucl x y := by
  rw [← rot_isometry r, rot_fwd_back, rot_fwd_back]

theorem dot_self_along {d : ℕ} {v : Pt d} (hv : v ≠ 0) (c : ℝ) (x : Pt d) :
    dot (along v c x) (along v c x) = dot x x + (c ^ 2 - 1) * dot (unit v) x ^ 2 := by
  have h1 := dot_unit_unit hv
  unfold along dot at *
  set s := ∑ i, unit v i * x i with hs
  have : ∀ i, (s * unit v i * c + (x i - s * unit v i)) * (s * unit v i * c + (x i - s * unit v i)) =
      x i * x i + (s * (c - 1)) ^ 2 * (unit v i * unit v i) + 2 * (s * (c - 1)) * (unit v i * x i) := fun i => by ring
  simp only [this, Finset.sum_add_distrib, ← Finset.mul_sum, h1, ← hs]
  ring

theorem dot_self_nonneg {d : ℕ} (x : Pt d) : 0 ≤ dot x x := Finset.sum_nonneg fun i _ => mul_self_nonneg _

theorem cauchy {d : ℕ} {v : Pt d} (hv : v ≠ 0) (x : Pt d) : dot (unit v) x ^ 2 ≤ dot x x := by
  have := dot_self_along hv 0 x
  have h2 := dot_self_nonneg (along v 0 x)
  nlinarith

theorem along_sub {d : ℕ} (v : Pt d) (c : ℝ) (x y : Pt d) :
    (fun i => along v c x i - along v c y i) = along v c fun i => x i - y i := by
  ext i
  unfold along dot
  simp only [mul_sub, Finset.sum_sub_distrib]; ring

theorem scaleBack_lip {d : ℕ} {L : ℝ} (hL : 1 ≤ L) {v : Pt d} (hv : 1 ≤ L * √(dot v v)) (x y : Pt d) :
    eucl (scaleBack v x) (scaleBack v y) ≤ L * eucl x y := by
  have hv0 : v ≠ 0 := by
    rintro rfl
    simp [dot] at hv
    linarith
  have hα : 0 < alpha v := alpha_pos hv0
  have hL0 : 0 < L := by linarith
  rw [eucl_eq_dot, scaleBack_eq, scaleBack_eq, along_sub, dot_self_along hv0, eucl_eq_dot]
  set z : Pt d := fun i => x i - y i
  have hc := cauchy hv0 z
  have hz := dot_self_nonneg z
  rw [Real.sqrt_le_iff]
  refine ⟨by positivity, ?_⟩
  rw [mul_pow, Real.sq_sqrt hz]
  have hinv : (alpha v)⁻¹ ≤ L := by
    rw [inv_le_iff_one_le_mul₀ hα]; exact hv
  have h2 : (alpha v)⁻¹ ^ 2 ≤ L ^ 2 := by gcongr
  have h3 : (1 : ℝ) ≤ L ^ 2 := by nlinarith
  rcases le_total ((alpha v)⁻¹ ^ 2) 1 with h | h
  · have : ((alpha v)⁻¹ ^ 2 - 1) * dot (unit v) z ^ 2 ≤ 0 := mul_nonpos_of_nonpos_of_nonneg (by linarith) (sq_nonneg _)
    nlinarith
  · have := mul_le_mul_of_nonneg_left hc (show 0 ≤ (alpha v)⁻¹ ^ 2 - 1 by linarith)
    nlinarith

theorem manipulate_lip {d : ℕ} {L : ℝ} (hL : 1 ≤ L) {m : Manip d} (hm : ∀ v, m.stretch = some v → 1 ≤ L * √(dot v v))
    (x y : Pt d) : eucl (manipulate m x) (manipulate m y) ≤ L * eucl x y := by
  obtain ⟨r, s, t⟩ := m
  have ht : ∀ t : Pt d, eucl (fun i => x i - t i) (fun i => y i - t i) = eucl x y := by
    intro t; unfold eucl; simp
  unfold manipulate
  cases t with
  | none =>
    cases s with
    | none => simp only [rot_back_isometry]; have := eucl_nonneg x y; nlinarith
    | some v => simp only; exact (scaleBack_lip hL (hm v rfl) _ _).trans (by rw [rot_back_isometry])
  | some t =>
    cases s with
    | none => simp only [rot_back_isometry, ht]; have := eucl_nonneg x y; nlinarith
    | some v => simp only; exact (scaleBack_lip hL (hm v rfl) _ _).trans (by rw [rot_back_isometry, ht])

theorem manip_lip {d : ℕ} {L : ℝ} (hL : 1 ≤ L) {m : Manip d} (hm : ∀ v, m.stretch = some v → 1 ≤ L * √(dot v v))
    {f : Pt d → ℝ} (hf : Lip 1 f) : Lip L fun x => f (manipulate m x) := by
  intro p q
  have := hf (manipulate m p) (manipulate m q)
  rw [one_mul] at this
  exact this.trans (manipulate_lip hL hm p q)

/-! ### Primitives -/

theorem ball_lip {d : ℕ} (c : Pt d) (r : ℝ) : Lip 1 fun p => eucl p c - r := by
  intro p q
  have h1 := eucl_triangle p q c
  have h2 := eucl_triangle q p c
  rw [eucl_comm q p] at h2
  rw [abs_le]; constructor <;> simp only <;> linarith

/-- The plane's Euclidean norm is 1-Lipschitz. -/
theorem length2_lip (a b a' b' : ℝ) : |length2 a b - length2 a' b'| ≤ length2 (a - a') (b - b') := by
  have := ball_lip ![0, 0] 0 ![a, b] ![a', b']
  simpa [eucl, Fin.sum_univ_two, length2_eq] using this

theorem length2_le {a b c : ℝ} (hc : 0 ≤ c) : length2 a b ≤ c ↔ a ^ 2 + b ^ 2 ≤ c ^ 2 := by
  rw [length2_eq, Real.sqrt_le_iff]; tauto

theorem length2_nonneg (a b : ℝ) : 0 ≤ length2 a b := Real.sqrt_nonneg _

theorem length2_sq (a b : ℝ) : length2 a b ^ 2 = a ^ 2 + b ^ 2 := by
  rw [length2_eq, Real.sq_sqrt (by positivity)]

theorem eucl3_sq (p q : Pt 3) : eucl p q ^ 2 = (p 0 - q 0) ^ 2 + (p 1 - q 1) ^ 2 + (p 2 - q 2) ^ 2 := by
  rw [eucl, Real.sq_sqrt (Finset.sum_nonneg fun i _ => sq_nonneg _), Fin.sum_univ_three]

theorem torus_lip (r1 r2 : ℝ) : Lip 1 (dtorus r1 r2) := by
  intro p q
  unfold dtorus
  rw [one_mul, show ∀ a b : ℝ, a - r2 - (b - r2) = a - b by intros; ring]
  refine (length2_lip _ _ _ _).trans ?_
  rw [length2_le (eucl_nonneg _ _), eucl3_sq]
  have h := length2_lip (p 0) (p 2) (q 0) (q 2)
  have h2 := sq_le_sq' (by have := abs_le.1 h; linarith [this.1]) (abs_le.1 h).2
  rw [length2_sq] at h2
  have e : length2 (p 0) (p 2) - r1 - (length2 (q 0) (q 2) - r1) = length2 (p 0) (p 2) - length2 (q 0) (q 2) := by ring
  rw [e]; linarith

theorem abs_abs_le {a b e : ℝ} (h : |a - b| ≤ e) : |(|a| - |b|)| ≤ e := (abs_abs_sub_abs_le a b).trans h

theorem prism_lip (b h : ℝ) : Lip 1 (dprism b h) := by
  intro p q
  unfold dprism
  rw [one_mul]
  have c := coord_le_eucl p q
  have he := eucl_nonneg p q
  refine max_lip ?_ ?_
  · rw [show |p 2| - h - (|q 2| - h) = |p 2| - |q 2| by ring]; exact abs_abs_le (c 2)
  · rw [show ∀ x y : ℝ, x - b * 0.5 - (y - b * 0.5) = x - y by intros; ring]
    refine max_lip ?_ ?_
    · have h0 : |(|p 0| - |q 0|)| ≤ |p 0 - q 0| := abs_abs_sub_abs_le _ _
      rw [show |p 0| * 0.866025 + p 1 * 0.5 - (|q 0| * 0.866025 + q 1 * 0.5) =
        (|p 0| - |q 0|) * 0.866025 + (p 1 - q 1) * 0.5 by ring]
      apply abs_le_of_sq_le_sq _ he
      rw [eucl3_sq]
      have h1 : (|p 0| - |q 0|) ^ 2 ≤ (p 0 - q 0) ^ 2 := sq_le_sq.2 h0
      set u := |p 0| - |q 0|
      set w := p 1 - q 1
      have : (u * 0.866025 + w * 0.5) ^ 2 ≤ u ^ 2 + w ^ 2 := by
        norm_num
        nlinarith [sq_nonneg (u * (1 / 2) - w * (866025 / 1000000)), sq_nonneg u, sq_nonneg w]
      nlinarith [sq_nonneg (p 2 - q 2)]
    · rw [neg_sub_neg, abs_sub_comm]; exact c 1

theorem quadrant_lip (u v u' v' : ℝ) :
    min (max u v) 0 + length2 (max u 0) (max v 0) ≤ min (max u' v') 0 + length2 (max u' 0) (max v' 0) + length2 (u - u') (v - v') := by
  have hd := length2_nonneg (u - u') (v - v')
  have ha : ∀ a b : ℝ, |a| ≤ length2 a b ∧ |b| ≤ length2 a b := fun a b => by
    rw [length2_eq]; exact ⟨abs_le_len_left a b, abs_le_len_right a b⟩
  have hu := abs_le.1 (ha (u - u') (v - v')).1
  have hv := abs_le.1 (ha (u - u') (v - v')).2
  rcases le_total (max u v) 0 with h | h
  · -- inside
    have hu0 := (max_le_iff.1 h).1
    have hv0 := (max_le_iff.1 h).2
    rw [min_eq_left h, max_eq_right hu0, max_eq_right hv0]
    have e0 : length2 0 0 = 0 := by simp [length2_eq]
    rw [e0]
    have hn := length2_nonneg (max u' 0) (max v' 0)
    rcases le_total (max u' v') 0 with h' | h'
    · rw [min_eq_left h']
      have : max u v ≤ max u' v' + length2 (u - u') (v - v') := by
        have := le_max_left u' v'
        have := le_max_right u' v'
        apply max_le <;> linarith
      linarith
    · rw [min_eq_right h']; linarith
  · rw [min_eq_right h]
    rcases le_total (max u' v') 0 with h' | h'
    · -- from inside to outside
      have hu0 := (max_le_iff.1 h').1
      have hv0 := (max_le_iff.1 h').2
      rw [min_eq_left h', max_eq_right hu0, max_eq_right hv0]
      have e0 : length2 0 0 = 0 := by simp [length2_eq]
      rw [e0, zero_add, add_zero]
      set m := max u' v' with hm
      have hum : u' ≤ m := le_max_left _ _
      have hvm : v' ≤ m := le_max_right _ _
      -- ‖(u⁺, v⁺)‖ - m ≤ ‖(u - u', v - v')‖
      have hs := length2_nonneg (max u 0) (max v 0)
      have hsq := length2_sq (max u 0) (max v 0)
      set s := length2 (max u 0) (max v 0) with hsd
      have hss : s ≤ max u 0 + max v 0 := by
        rw [hsd, length2_le (by positivity)]
        nlinarith [le_max_right u 0, le_max_right v 0]
      suffices hgoal : s - m ≤ length2 (u - u') (v - v') by linarith
      rw [length2_eq]
      apply Real.le_sqrt_of_sq_le
      rcases le_total u 0 with hu1 | hu1
      · rw [max_eq_right hu1] at hsq hss
        rcases le_total 0 v with hv1 | hv1
        · rw [max_eq_left hv1] at hsq hss
          have : s = v := by nlinarith
          rw [this]
          nlinarith [sq_nonneg (u - u')]
        · rw [max_eq_right hv1] at hsq hss
          have : s = 0 := by nlinarith
          rw [this]
          rcases le_max_iff.1 h with h | h
          · have : u = 0 := le_antisymm hu1 h
            nlinarith [sq_nonneg (v - v')]
          · have : v = 0 := le_antisymm hv1 h
            nlinarith [sq_nonneg (u - u')]
      · rw [max_eq_left hu1] at hsq hss
        rcases le_total v 0 with hv1 | hv1
        · rw [max_eq_right hv1] at hsq hss
          have : s = u := by nlinarith
          rw [this]
          nlinarith [sq_nonneg (v - v')]
        · rw [max_eq_left hv1] at hsq hss
          have h1 : (u - m) ^ 2 ≤ (u - u') ^ 2 := by nlinarith
          have h2 : (v - m) ^ 2 ≤ (v - v') ^ 2 := by nlinarith
          nlinarith
    · rw [min_eq_right h', zero_add, zero_add]
      have := abs_le.1 (length2_lip (max u 0) (max v 0) (max u' 0) (max v' 0))
      have h3 : length2 (max u 0 - max u' 0) (max v 0 - max v' 0) ≤ length2 (u - u') (v - v') := by
        rw [length2_le (length2_nonneg _ _), length2_sq]
        have k1 : |max u 0 - max u' 0| ≤ |u - u'| := abs_max_sub_max_le_abs u u' 0
        have k2 : |max v 0 - max v' 0| ≤ |v - v'| := abs_max_sub_max_le_abs v v' 0
        have := sq_le_sq.2 k1
        have := sq_le_sq.2 k2
        linarith
      linarith

theorem cylinder_lip (h r : ℝ) : Lip 1 (dcylinder h r) := by
  have one : ∀ p q : Pt 3, dcylinder h r p ≤ dcylinder h r q + eucl p q := by
    intro p q
    unfold dcylinder
    simp only
    refine (quadrant_lip _ _ (|length2 (q 0) (q 2)| - r) (|q 1| - h / 2.0)).trans ?_
    gcongr
    rw [length2_le (eucl_nonneg _ _), eucl3_sq, abs_of_nonneg (length2_nonneg _ _), abs_of_nonneg (length2_nonneg _ _)]
    have h1 := length2_lip (p 0) (p 2) (q 0) (q 2)
    have h2 := sq_le_sq' (by have := abs_le.1 h1; linarith [this.1]) (abs_le.1 h1).2
    rw [length2_sq] at h2
    have h3 := sq_le_sq.2 (abs_abs_sub_abs_le (p 1) (q 1))
    rw [sub_sub_sub_cancel_right, sub_sub_sub_cancel_right]; linarith
  intro p q
  have h1 := one p q
  have h2 := one q p
  rw [eucl_comm q p] at h2
  rw [abs_le, one_mul]; constructor <;> linarith

theorem lip_of_box {d : ℕ} {a b : Pt d} {f : Pt d → ℝ} (h : BoxSdf a b f) : Lip 1 f := fun p q => by
  rw [one_mul]; exact h.lipschitz p q

/-- **C96 (all nestings).** Every object built from primitives by sharp or smooth set operations changes by at most
`L ≥ 1` per unit of length, if no stretch vector is shorter than `1/L`. -/
theorem C96_lipschitz {d : ℕ} {L : ℝ} (hL : 1 ≤ L) {o : Obj d} (h : Simple L o) : Lip L o.eval := by
  induction h with
  | disk x0 r m hm => exact manip_lip hL hm (f := ddisk (x0 0) (x0 1) r) (by
      have : ddisk (x0 0) (x0 1) r = fun p => eucl p ![x0 0, x0 1] - r := funext fun p => ddisk_eq _ _ _ p
      rw [this]; exact ball_lip _ _)
  | ball x0 r m hm => exact manip_lip hL hm (f := dball (x0 0) (x0 1) (x0 2) r) (by
      have : dball (x0 0) (x0 1) (x0 2) r = fun p => eucl p ![x0 0, x0 1, x0 2] - r := funext fun p => dball_eq _ _ _ _ p
      rw [this]; exact ball_lip _ _)
  | rectangle b m hm => exact manip_lip hL hm (lip_of_box (C20_rectangle _ _ _ _))
  | cube b m hm => exact manip_lip hL hm (lip_of_box (C20_block _ _ _ _ _ _))
  | torus r1 r2 m hm => exact manip_lip hL hm (torus_lip r1 r2)
  | prism b h m hm => exact manip_lip hL hm (prism_lip b h)
  | cylinder h r m hm => exact manip_lip hL hm (cylinder_lip h r)
  | union k o os _ _ ih1 ih2 => exact union_lip (fun o' ho => by
      rcases List.mem_cons.1 ho with rfl | ho; exacts [ih1, ih2 o' ho])
  | inter k o os _ _ ih1 ih2 => exact inter_lip (fun o' ho => by
      rcases List.mem_cons.1 ho with rfl | ho; exacts [ih1, ih2 o' ho])
  | diff k o os _ _ ih1 ih2 => exact diff_lip (fun o' ho => by
      rcases List.mem_cons.1 ho with rfl | ho; exacts [ih1, ih2 o' ho])

theorem never_of_lip {d : ℕ} {f : Pt d → ℝ} (h : Lip 1 f) : NeverOverestimates f := by
  intro x q hq
  have := h x q
  rw [one_mul] at this
  have hlt := abs_lt.1 (this.trans_lt hq)
  rcases lt_trichotomy (f x) 0 with hx | hx | hx
  · rw [abs_of_neg hx] at hlt
    constructor <;> constructor <;> intro <;> linarith [hlt.1, hlt.2]
  · rw [hx, abs_zero] at hq
    have := eucl_nonneg x q; linarith
  · rw [abs_of_pos hx] at hlt
    constructor <;> constructor <;> intro <;> linarith [hlt.1, hlt.2]

/-- **C96.** If no stretch shrinks (all stretch vectors have length at least one), `eval` never overestimates the
distance to the boundary: the open ball of radius `|eval(x)|` about `x` is on one side. -/
theorem C96_never_overestimates {d : ℕ} {o : Obj d} (h : Simple 1 o) : NeverOverestimates o.eval :=
  never_of_lip (C96_lipschitz le_rfl h)

/-- A rotated disk and a translated rectangle, blended, minus a stretched disk. -/
example : Simple 1 (mkDifference (1 / 10) (mkUnion (1 / 2) (mkDisk ![0, 0] 1 ⟨.two 1, none, none⟩)
    [mkRectangle ⟨![0, 0], ![1, 1]⟩ ⟨.two 0, none, some ![3, 4]⟩]) [mkDisk ![5, 5] 1 ⟨.two 0, some ![2, 0], none⟩]) := by
  refine .diff _ _ _ (.union _ _ _ (.disk _ _ _ (by simp)) ?_) ?_
  · intro o ho; rw [List.mem_singleton.1 ho]; exact .rectangle _ _ (by simp)
  · intro o ho; rw [List.mem_singleton.1 ho]; refine .disk _ _ _ ?_
    intro v hv
    simp only [Option.some.injEq] at hv
    rw [← hv, one_mul, Real.one_le_sqrt]
    simp [dot, Fin.sum_univ_two]; norm_num

/-! ### The exceptions -/

/-- **C96 is false of shrunk shapes.** The unit disk stretched by `[0.5, 0]`: at `(2, 0)` `eval` is 3, but
`(1/4, 0)`, less than 3 away, is inside. -/
theorem C96_shrunk_false : ∃ o : Obj 2, AnyBuilt o ∧ ¬ NeverOverestimates o.eval := by
  set m : Manip 2 := ⟨.two 0, some ![1 / 2, 0], none⟩ with hm
  have hα : alpha ![(1 / 2 : ℝ), 0] = 1 / 2 := by
    rw [alpha, show dot ![(1 / 2 : ℝ), 0] ![1 / 2, 0] = (1 / 2) ^ 2 by simp [dot, Fin.sum_univ_two]; norm_num,
      Real.sqrt_sq (by norm_num)]
  have hα' : alpha ![(2 : ℝ)⁻¹, 0] = 2⁻¹ := by simpa using hα
  have hev : ∀ x : ℝ, 0 ≤ x → (mkDisk ![0, 0] 1 m).eval ![x, 0] = 2 * x - 1 := by
    intro x hx
    have e : manipulate m ![x, 0] = ![2 * x, 0] := by
      ext i
      fin_cases i <;> simp [manipulate, m, Rot.back, scaleBack, unit, hα', dot, Fin.sum_univ_two] <;> ring
    simp only [mkDisk, e]
    simp only [ddisk, Matrix.cons_val_zero, Matrix.cons_val_one]
    rw [show (2 * x - 0) ^ 2 + ((0 : ℝ) - 0) ^ 2 = (2 * x) ^ 2 by ring, Real.sqrt_sq (by linarith)]
  refine ⟨mkDisk ![0, 0] 1 m, .disk _ _ _ ?_, ?_⟩
  · intro v hv h0
    simp only [hm, Option.some.injEq] at hv
    have := congrFun (hv.trans h0) 0
    simp at this
  · intro h
    have hd : eucl ![(2 : ℝ), 0] ![1 / 4, 0] = 7 / 4 := by
      rw [eucl, Fin.sum_univ_two]
      simp only [Matrix.cons_val_zero, Matrix.cons_val_one]
      rw [show (2 - 1 / 4 : ℝ) ^ 2 + (0 - 0) ^ 2 = (7 / 4) ^ 2 by norm_num, Real.sqrt_sq (by norm_num)]
    have := (h ![2, 0] ![1 / 4, 0] (by rw [hd, hev 2 (by norm_num)]; norm_num)).1
    rw [hev 2 (by norm_num), hev (1 / 4) (by norm_num)] at this
    norm_num at this

/-- The distance to the nearest multiple of the period. -/
theorem fold_lip {P : ℝ} (hP : 0 < P) (x y : ℝ) :
    |(|npMod (x + 0.5 * P) P - 0.5 * P| - |npMod (y + 0.5 * P) P - 0.5 * P|)| ≤ |x - y| := by
  have key : ∀ x : ℝ, (∃ n : ℤ, npMod (x + 0.5 * P) P - 0.5 * P = x - n * P) ∧
      ∀ n : ℤ, |npMod (x + 0.5 * P) P - 0.5 * P| ≤ |x - n * P| := by
    intro x
    unfold npMod
    set k := ⌊(x + 0.5 * P) / P⌋ with hk
    refine ⟨⟨k, by ring⟩, fun n => ?_⟩
    have h1 := Int.floor_le ((x + 0.5 * P) / P)
    have h2 := Int.lt_floor_add_one ((x + 0.5 * P) / P)
    rw [← hk, le_div_iff₀ hP] at h1
    rw [← hk, div_lt_iff₀ hP] at h2
    norm_num at h1 h2 ⊢
    have hhalf : |x + 1 / 2 * P - P * k - 1 / 2 * P| ≤ P / 2 := by
      rw [abs_le]; constructor <;> nlinarith
    rcases eq_or_ne n k with rfl | hn
    · apply le_of_eq; congr 1; ring
    · have hz : (1 : ℝ) ≤ |(n - k : ℝ)| := by
        have : (1 : ℤ) ≤ |n - k| := Int.one_le_abs (sub_ne_zero.2 hn)
        exact_mod_cast this
      have h3 : |(n - k : ℝ)| * P ≤ |x - n * P| + |x + 1 / 2 * P - P * k - 1 / 2 * P| := by
        rw [← abs_of_pos hP, ← abs_mul, abs_of_pos hP]
        have : (n - k : ℝ) * P = -(x - n * P) + (x + 1 / 2 * P - P * k - 1 / 2 * P) := by ring
        rw [this]
        refine (abs_add_le _ _).trans ?_
        rw [abs_neg]
      nlinarith
  have one : ∀ x y : ℝ, |npMod (x + 0.5 * P) P - 0.5 * P| ≤ |npMod (y + 0.5 * P) P - 0.5 * P| + |x - y| := by
    intro x y
    obtain ⟨n, hn⟩ := (key y).1
    rw [hn]
    refine ((key x).2 n).trans ?_
    have : x - n * P = (y - n * P) + (x - y) := by ring
    rw [this]; exact abs_add_le _ _
  have h1 := one x y
  have h2 := one y x
  rw [abs_sub_comm y x] at h2
  rw [abs_le]; constructor <;> linarith

/-- **C96 (`Repeat`).** Repeating a shape that is symmetric with respect to the three coordinate planes keeps the
property. -/
theorem C96_repeat {o : Obj 3} (ho : Lip 1 o.eval) (hs : ∀ x : Pt 3, o.eval x = o.eval fun i => |x i|) (b : Box 3) {period : Pt 3}
    (hp : ∀ i, 0 < period i) : Lip 1 (mkRepeat b o period).eval ∧ NeverOverestimates (mkRepeat b o period).eval := by
  have : Lip 1 (mkRepeat b o period).eval := by
    intro p q
    simp only [mkRepeat, repeatEval]
    refine max_lip ?_ (lip_of_box (C20_block _ _ _ _ _ _) p q)
    rw [hs, hs fun i => npMod (q i + 0.5 * period i) (period i) - 0.5 * period i]
    refine (ho _ _).trans ?_
    rw [one_mul, one_mul]
    unfold eucl
    apply Real.sqrt_le_sqrt
    refine Finset.sum_le_sum fun i _ => ?_
    exact sq_le_sq.2 (fold_lip (hp i) (p i) (q i))
  exact ⟨this, never_of_lip this⟩

/-- The unit ball about the origin is such a shape. -/
example : (∀ x : Pt 3, (mkBall ![0, 0, 0] 1 Manip.id3).eval x = (mkBall ![0, 0, 0] 1 Manip.id3).eval fun i => |x i|) ∧
    Lip 1 (mkBall ![0, 0, 0] 1 Manip.id3).eval := by
  refine ⟨fun x => ?_, C96_lipschitz le_rfl (.ball _ _ _ (by simp [Manip.id3]))⟩
  simp [mkBall, manipulate_id3, dball]

/-- **C96 is false of `Repeat` in general.** A ball about `(0.4, 0, 0)` of radius 0.1 repeated with period 1: at
`(0.55, 0, 0)` `eval` is 0.75, but `(0.45, 0, 0)` is inside. -/
theorem C96_repeat_false : ∃ o : Obj 3, AnyBuilt o ∧ ¬ NeverOverestimates o.eval := by
  set b : Box 3 := ⟨fun _ => -10, fun _ => 10⟩
  set o := mkBall ![2 / 5, 0, 0] (1 / 10) Manip.id3 with ho
  have hball : ∀ t : ℝ, o.eval ![t, 0, 0] = |t - 2 / 5| - 1 / 10 := by
    intro t
    simp only [ho, mkBall, manipulate_id3, dball]
    simp [Real.sqrt_sq_eq_abs]
  have hq : ∀ t : ℝ, (fun i => npMod ((![t, 0, 0] : Pt 3) i + 0.5 * (fun _ => (1 : ℝ)) i) ((fun _ => (1 : ℝ)) i) - 0.5 * (fun _ => (1 : ℝ)) i) =
      (![t - ⌊t + 1 / 2⌋, 0, 0] : Pt 3) := by
    intro t
    have h5 : ⌊(0.5 : ℝ)⌋ = 0 := by rw [Int.floor_eq_iff]; norm_num
    ext i
    fin_cases i
    · simp [npMod]; norm_num; unfold Int.fract; ring
    · simp [npMod, h5]
    · simp [npMod, h5]
  have hev : ∀ t : ℝ, 0 ≤ t → t ≤ 1 → (mkRepeat b o fun _ => 1).eval ![t, 0, 0] = max (|t - ⌊t + 1 / 2⌋ - 2 / 5| - 1 / 10) (t - 10) := by
    intro t h0 h1
    simp only [mkRepeat, repeatEval]
    rw [hq, hball]
    congr 1
    simp only [dblock, b, Matrix.cons_val_zero, Matrix.cons_val_one, Matrix.cons_val_two, Matrix.tail_cons, Matrix.head_cons]
    rw [min_eq_right (by refine le_min (le_min (le_min (le_min ?_ ?_) ?_) ?_) ?_ <;> linarith)]
    ring
  refine ⟨mkRepeat b o fun _ => 1, .rep _ _ _ (.ball _ _ _ (by intro v hv; simp [Manip.id3] at hv)), ?_⟩
  intro h
  have hd : eucl ![(11 / 20 : ℝ), 0, 0] ![9 / 20, 0, 0] = 1 / 10 := by
    rw [eucl, Fin.sum_univ_three]
    simp only [Matrix.cons_val_zero, Matrix.cons_val_one, Matrix.cons_val_two, Matrix.tail_cons, Matrix.head_cons]
    rw [show (11 / 20 - 9 / 20 : ℝ) ^ 2 + (0 - 0) ^ 2 + (0 - 0) ^ 2 = (1 / 10) ^ 2 by norm_num, Real.sqrt_sq (by norm_num)]
  have f1 : ⌊(11 / 20 + 1 / 2 : ℝ)⌋ = 1 := by rw [Int.floor_eq_iff]; norm_num
  have f2 : ⌊(9 / 20 + 1 / 2 : ℝ)⌋ = 0 := by rw [Int.floor_eq_iff]; norm_num
  have e1 : (mkRepeat b o fun _ => 1).eval ![11 / 20, 0, 0] = 3 / 4 := by
    rw [hev _ (by norm_num) (by norm_num), f1]
    rw [abs_of_neg (by norm_num), max_eq_left (by norm_num)]; norm_num
  have e2 : (mkRepeat b o fun _ => 1).eval ![9 / 20, 0, 0] = -1 / 20 := by
    rw [hev _ (by norm_num) (by norm_num), f2]
    rw [abs_of_pos (by norm_num), max_eq_left (by norm_num)]; norm_num
  have := (h ![11 / 20, 0, 0] ![9 / 20, 0, 0] (by rw [hd, e1]; norm_num)).1
  rw [e1, e2] at this
  norm_num at this

end SM.Domain
