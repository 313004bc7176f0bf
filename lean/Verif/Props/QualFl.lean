import Verif.Model.QualFl
import Verif.Props.Quality
import Verif.Props.Adjacency
import Verif.Props.ForcesFl
import Verif.Props.DihedralFl
import Mathlib.Tactic.Linarith
import Mathlib.Tactic.Positivity
import Mathlib.Tactic.FinCases

/-!
# C138: triangle quality in floating-point arithmetic
-/

namespace SM.QualFl

open BallFl ForcesFl SdfFl

noncomputable section

/-! ### Specification -/

/-- Twice the inradius divided by the circumradius, from the side lengths. -/
def quality {d : ℕ} (p0 p1 p2 : Fin d → ℝ) : ℝ :=
  let a := Sdf.eucl p0 p1
  let b := Sdf.eucl p0 p2
  let c := Sdf.eucl p1 p2
  (b + c - a) * (c + a - b) * (a + b - c) / (a * b * c)

/-- Any two sides together are longer than the third by at least `k` times the perimeter. -/
def Slack {d : ℕ} (k : ℝ) (p0 p1 p2 : Fin d → ℝ) : Prop :=
  let a := Sdf.eucl p0 p1
  let b := Sdf.eucl p0 p2
  let c := Sdf.eucl p1 p2
  0 < a + b + c ∧ k * (a + b + c) ≤ b + c - a ∧ k * (a + b + c) ≤ c + a - b ∧ k * (a + b + c) ≤ a + b - c

/-! ### Side lengths -/

variable {u : ℝ} {rnd : ℝ → ℝ} {d : ℕ}

theorem foldl_within (hu0 : 0 ≤ u) (hu : u ≤ 1) (ha : Accurate rnd u) {k : ℕ} : ∀ {l L : List ℝ}, List.Forall₂ (fun y Y => 0 ≤ Y ∧ Within u k y Y) l L →
    ∀ {m : ℕ} {x X : ℝ}, k ≤ m → 0 ≤ X → Within u m x X → Within u (m + l.length) (l.foldl (fun s y => rnd (s + y)) x) (X + L.sum)
  | _, _, .nil, m, x, X, _, _, h => by simpa using h
  | _, _, .cons (a := y) (b := Y) (l₁ := l) (l₂ := L) ⟨hY, hy⟩ hl, m, x, X, hk, hX, h => by
    have h1 := (h.add (hy.weaken hu0 hu hk hY)).step hu0 hu ha (add_nonneg hX hY)
    have := foldl_within hu0 hu ha hl (m := m + 1) (by omega) (add_nonneg hX hY) h1
    rw [List.foldl_cons, List.length_cons, List.sum_cons, show X + (Y + L.sum) = X + Y + L.sum by ring, show m + (l.length + 1) = m + 1 + l.length by omega]
    exact this

theorem sq_rnd (hu0 : 0 ≤ u) (hu : u ≤ 1) (ha : Accurate rnd u) (x : ℝ) : Within u 3 (rnd (rnd x * rnd x)) (x * x) := by
  have h1 : Within u 1 |rnd x| |x| := by
    have := ha x
    have h2 := abs_abs_sub_abs_le (rnd x) x
    have := abs_le.1 (h2.trans this)
    constructor <;> nlinarith
  have h2 := Within.mul hu0 hu (abs_nonneg x) (abs_nonneg x) h1 h1
  rw [abs_mul_abs_self, abs_mul_abs_self] at h2
  exact h2.step hu0 hu ha (mul_self_nonneg x)

theorem sumSq_within (hu0 : 0 ≤ u) (hu : u ≤ 1) (ha : Accurate rnd u) (hd : d ≤ 4) (p0 p1 : Fin d → ℝ) :
    Within u 6 (sumSq rnd fun k => rnd (p1 k - p0 k)) (∑ k, (p1 k - p0 k) * (p1 k - p0 k)) := by
  rw [← List.sum_ofFn]
  cases d with
  | zero => simp [sumSq, BallFl.Within]
  | succ d =>
    have hF : List.Forall₂ (fun y Y => 0 ≤ Y ∧ Within u 3 y Y) (List.ofFn fun k : Fin d => rnd (rnd (p1 k.succ - p0 k.succ) * rnd (p1 k.succ - p0 k.succ)))
        (List.ofFn fun k : Fin d => (p1 k.succ - p0 k.succ) * (p1 k.succ - p0 k.succ)) := by
      rw [List.forall₂_iff_get]
      refine ⟨by simp, fun i h1 h2 => ?_⟩
      simp only [List.get_eq_getElem, List.getElem_ofFn]
      exact ⟨mul_self_nonneg _, sq_rnd hu0 hu ha _⟩
    have := foldl_within hu0 hu ha hF (m := 3) le_rfl (mul_self_nonneg (p1 0 - p0 0)) (sq_rnd hu0 hu ha _)
    simp only [sumSq, List.ofFn_succ, List.sum_cons]
    refine this.weaken hu0 hu (by simp; omega) (add_nonneg (mul_self_nonneg _) (List.sum_nonneg ?_))
    intro x hx
    rw [List.mem_ofFn] at hx
    obtain ⟨i, rfl⟩ := hx
    exact mul_self_nonneg _

theorem len_within (hu0 : 0 ≤ u) (hu : u ≤ 1) (ha : Accurate rnd u) (hd : d ≤ 4) (p0 p1 : Fin d → ℝ) :
    Within u 4 (len rnd (fun x => rnd √x) p0 p1) (Sdf.eucl p0 p1) := by
  have h := ((sumSq_within hu0 hu ha hd p0 p1).sqrt hu0 hu (k := 3)).step hu0 hu ha (Real.sqrt_nonneg _)
  have e : Sdf.eucl p0 p1 = √(∑ k, (p1 k - p0 k) * (p1 k - p0 k)) := by
    rw [Sdf.eucl]; congr 1; exact Finset.sum_congr rfl fun i _ => by ring
  rw [e]; exact h

/-! ### Accuracy of the quality -/

theorem pow_le {k : ℕ} (hu0 : 0 ≤ u) (hk : k * u ≤ 1 / 2) : (1 + u) ^ k ≤ 1 + 2 * (k * u) := by
  have h1 : (1 + u) ^ k ≤ Real.exp (k * u) := by
    rw [mul_comm, Real.exp_mul, Real.rpow_natCast]
    exact pow_le_pow_left₀ (by linarith) (by linarith [Real.add_one_le_exp u]) k
  have h0 : 0 ≤ k * u := by positivity
  have h2 := Real.exp_bound_div_one_sub_of_interval h0 (by linarith)
  refine h1.trans (h2.trans ?_)
  rw [div_le_iff₀ (by linarith)]
  nlinarith

/-- Errors counted in a coarser unit. -/
theorem coarse (hu0 : 0 ≤ u) (hu : u ≤ 1) {k : ℕ} {δ x y : ℝ} (hy : 0 ≤ y) (hδ : 2 * (k * u) ≤ δ) (hk : k * u ≤ 1 / 2) (h : Within u k x y) : Within δ 1 x y := by
  have h1 : 1 - k * u ≤ (1 - u) ^ k := by
    have := one_add_mul_le_pow (a := -u) (by linarith) k
    rw [← sub_eq_add_neg] at this; linarith
  have h2 := pow_le hu0 hk
  have h0 : 0 ≤ k * u := by positivity
  rw [BallFl.Within, pow_one, pow_one]
  exact ⟨(mul_le_mul_of_nonneg_right (by linarith) hy).trans h.1, h.2.trans (mul_le_mul_of_nonneg_right (by linarith) hy)⟩

/-- The error is at most `2 k u` of the value. -/
theorem within_abs (hu0 : 0 ≤ u) (hu : u ≤ 1) {k : ℕ} {x y : ℝ} (hy : 0 ≤ y) (hk : k * u ≤ 1 / 2) (h : Within u k x y) : |x - y| ≤ 2 * (k * u) * y := by
  have := coarse hu0 hu hy le_rfl hk h
  rw [BallFl.Within, pow_one, pow_one] at this
  rw [abs_le]
  constructor <;> nlinarith

theorem slack_within (hu0 : 0 ≤ u) (hu : u ≤ 1 / 16) (ha : Accurate rnd u) {a b c a' b' c' k : ℝ} (ka : 0 ≤ a) (kb : 0 ≤ b) (kc : 0 ≤ c)
    (ha' : Within u 4 a' a) (hb' : Within u 4 b' b) (hc' : Within u 4 c' c) (hk : 0 < k) (hX : k * (a + b + c) ≤ b + c - a) :
    Within (12 * u / k) 1 (slack rnd a' b' c') (b + c - a) := by
  have hu1 : u ≤ 1 := by linarith
  have ht := within_abs hu0 hu1 (add_nonneg kb kc) (by norm_num; linarith) ((hb'.add hc').step hu0 hu1 ha (add_nonneg kb kc))
  have hA := within_abs hu0 hu1 ka (by norm_num; linarith) ha'
  have hr := ha (rnd (b' + c') - a')
  push_cast at ht hA
  have e1 : |rnd (b' + c') - a' - (b + c - a)| ≤ 10 * u * (a + b + c) := by
    rw [abs_le] at ht hA ⊢
    have := mul_nonneg hu0 ka
    constructor <;> linarith
  have hs : 0 ≤ a + b + c := by linarith
  have hX0 : 0 ≤ b + c - a := (mul_nonneg hk.le hs).trans hX
  have e2 : |slack rnd a' b' c' - (b + c - a)| ≤ 12 * u * (a + b + c) := by
    have h3 : |rnd (b' + c') - a'| ≤ (b + c - a) + 10 * u * (a + b + c) := by
      rw [abs_le] at e1 ⊢
      constructor <;> linarith
    have h4 : u * |rnd (b' + c') - a'| ≤ u * (2 * (a + b + c)) := by
      refine mul_le_mul_of_nonneg_left (h3.trans ?_) hu0
      nlinarith
    have h5 := hr.trans h4
    unfold slack
    rw [abs_le] at e1 h5 ⊢
    constructor <;> linarith
  have e3 : 12 * u * (a + b + c) ≤ 12 * u / k * (b + c - a) := by
    have : a + b + c ≤ (b + c - a) / k := by rw [le_div_iff₀ hk]; linarith
    calc 12 * u * (a + b + c) ≤ 12 * u * ((b + c - a) / k) := mul_le_mul_of_nonneg_left this (by linarith)
      _ = _ := by ring
  have e4 := abs_le.1 (e2.trans e3)
  rw [BallFl.Within, pow_one, pow_one]
  constructor <;> linarith [e4.1, e4.2]

/-- **C138 (accuracy).** A triangle with slack `k` (relative to the perimeter) has a computed quality, and its relative error is at most `960 u / k`. -/
theorem C138_accuracy (hu0 : 0 ≤ u) (ha : Accurate rnd u) (hd : d ≤ 4) {p0 p1 p2 : Fin d → ℝ} {k : ℝ} (hk : 0 < k) (hsl : Slack k p0 p1 p2) (hku : 960 * u ≤ k) :
    ∃ q, qual rnd (fun x => rnd √x) p0 p1 p2 = some q ∧ |q - quality p0 p1 p2| ≤ 960 * u / k * quality p0 p1 p2 := by
  unfold Slack quality at *
  have na := Sdf.eucl_nonneg p0 p1
  have nb := Sdf.eucl_nonneg p0 p2
  have nc := Sdf.eucl_nonneg p1 p2
  obtain ⟨hs, h1, h2, h3⟩ := hsl
  have hk3 : k ≤ 1 / 3 := by nlinarith
  have hu : u ≤ 1 / 16 := by linarith
  have hu1 : u ≤ 1 := by linarith
  have wa := len_within hu0 hu1 ha hd p0 p1
  have wb := len_within hu0 hu1 ha hd p0 p2
  have wc := len_within hu0 hu1 ha hd p1 p2
  unfold qual
  dsimp only
  set a := Sdf.eucl p0 p1
  set b := Sdf.eucl p0 p2
  set c := Sdf.eucl p1 p2
  set a' := len rnd (fun x => rnd √x) p0 p1
  set b' := len rnd (fun x => rnd √x) p0 p2
  set c' := len rnd (fun x => rnd √x) p1 p2
  set δ := 12 * u / k with hδ
  have hδ0 : 0 ≤ δ := by positivity
  have hδu : 36 * u ≤ δ := by rw [hδ, le_div_iff₀ hk]; nlinarith
  have hδ80 : 80 * δ ≤ 1 := by rw [hδ, ← mul_div_assoc, div_le_one hk]; linarith
  have hδ1 : δ ≤ 1 := by linarith
  have hδ2 : δ ≤ 1 / 2 := by linarith
  have hA : Accurate rnd δ := fun x => (ha x).trans (mul_le_mul_of_nonneg_right (by linarith) (abs_nonneg x))
  have hX := slack_within hu0 hu ha na nb nc wa wb wc hk h1
  have hY := slack_within hu0 hu ha nb nc na wb wc wa hk (by linarith)
  have hZ := slack_within hu0 hu ha nc na nb wc wa wb hk (by linarith)
  have hS : Within δ 1 (rnd (rnd (a' + b') + c')) (a + b + c) := by
    have := (((wa.add wb).step hu0 hu1 ha (by linarith)).add (wc.weaken hu0 hu1 (by norm_num : 4 ≤ 5) nc)).step hu0 hu1 ha (by linarith)
    exact coarse hu0 hu1 hs.le (by push_cast; linarith) (by push_cast; linarith) this
  have dA : Within δ 1 a' a := coarse hu0 hu1 na (by push_cast; linarith) (by push_cast; linarith) wa
  have dB : Within δ 1 b' b := coarse hu0 hu1 nb (by push_cast; linarith) (by push_cast; linarith) wb
  have dC : Within δ 1 c' c := coarse hu0 hu1 nc (by push_cast; linarith) (by push_cast; linarith) wc
  set X := b + c - a
  set Y := c + a - b
  set Z := a + b - c
  set s := a + b + c
  set X' := slack rnd a' b' c'
  set Y' := slack rnd b' c' a'
  set Z' := slack rnd c' a' b'
  set s' := rnd (rnd (a' + b') + c')
  have pX : 0 < X := (mul_pos hk hs).trans_le h1
  have pY : 0 < Y := (mul_pos hk hs).trans_le h2
  have pZ : 0 < Z := (mul_pos hk hs).trans_le h3
  have pa : 0 < a := by show 0 < a; have : Y + Z = 2 * a := by ring
                        linarith
  have pb : 0 < b := by have : X + Z = 2 * b := by ring
                        linarith
  have pc : 0 < c := by have : X + Y = 2 * c := by ring
                        linarith
  have pos : ∀ {m : ℕ} {x y : ℝ}, 0 < y → Within δ m x y → 0 < x := fun hy h => (mul_pos (pow_pos (by linarith) _) hy).trans_le h.1
  have mulr : ∀ {m l : ℕ} {x y v w : ℝ}, 0 < y → 0 < w → Within δ m x y → Within δ l v w → Within δ (m + l + 1) (rnd (x * v)) (y * w) :=
    fun hy hw h g => (Within.mul hδ0 hδ1 hy.le hw.le h g).step hδ0 hδ1 hA (by positivity)
  have wXYZ := mulr (mul_pos pX pY) pZ (mulr pX pY hX hY) hZ
  have wg := (Within.quot hδ0 hδ2 (by positivity) hs wXYZ hS).step hδ0 hδ1 hA (by positivity)
  have wP := mulr (by positivity) pZ (mulr (by positivity) pY (mulr hs pX hS hX) hY) hZ
  have wabc := mulr (by positivity) pc (mulr pa pb dA dB) dC
  have wr := ((wg.sqrt hδ0 hδ1 (k := 4)).step hδ0 hδ1 hA (Real.sqrt_nonneg _))
  have wr2 := mulr (y := 1 / 2) (x := 1 / 2) (by norm_num) (Real.sqrt_pos.2 (by positivity)) (Within.refl (u := δ)) wr
  have wr3 := mulr (y := 2) (x := 2) (by norm_num) (mul_pos (by norm_num) (Real.sqrt_pos.2 (by positivity))) (Within.refl (u := δ)) wr2
  have wq := ((wP.weaken hδ0 hδ1 (by norm_num : _ ≤ 2 * 4) (by positivity)).sqrt hδ0 hδ1).step hδ0 hδ1 hA (Real.sqrt_nonneg _)
  have pq : 0 < √(s * X * Y * Z) := Real.sqrt_pos.2 (by positivity)
  have wR := (Within.quot hδ0 hδ2 (by positivity) pq wabc wq).step hδ0 hδ1 hA (by positivity)
  have wQ := (Within.quot hδ0 hδ2 (by positivity) (by positivity) wr3 wR).step hδ0 hδ1 hA (by positivity)
  have i1 : s' ≠ 0 := (pos hs hS).ne'
  have i2 := pos (by positivity) wg
  have i3 := pos (by positivity) wP
  have i4 := pos (by positivity) wR
  rw [if_neg (by push Not; exact ⟨i1, i2.le, i3.le⟩), if_neg i3.ne', if_neg i4.ne']
  refine ⟨_, rfl, ?_⟩
  have hv : 2 * (1 / 2 * √(X * Y * Z / s)) / (a * b * c / √(s * X * Y * Z)) = X * Y * Z / (a * b * c) := by
    have e : s * X * Y * Z = s * (X * Y * Z) := by ring
    have px : 0 < X * Y * Z := by positivity
    rw [e, Real.sqrt_div px.le, Real.sqrt_mul hs.le]
    have hq : √s ≠ 0 := by positivity
    have hx2 : √(X * Y * Z) * √(X * Y * Z) = X * Y * Z := Real.mul_self_sqrt px.le
    set w := √(X * Y * Z)
    rw [← hx2]
    field_simp
  rw [hv] at wQ
  have hfin := within_abs hδ0 hδ1 (by positivity) (by push_cast; linarith) (wQ.weaken hδ0 hδ1 (by norm_num : _ ≤ 40) (by positivity))
  refine hfin.trans (le_of_eq ?_)
  rw [hδ]
  push_cast
  ring

theorem lt_aux {q x y w v : ℝ} (hx : 0 < x) (hf : q * (x * y) ≤ w * v) (hw : w ≤ 2 * x) (hv : 0 ≤ v) : q * y ≤ 2 * v := by
  have h1 : w * v ≤ 2 * x * v := mul_le_mul_of_nonneg_right hw hv
  have : x * (q * y) ≤ x * (2 * v) := by
    rw [show x * (q * y) = q * (x * y) by ring, show x * (2 * v) = 2 * x * v by ring]
    exact hf.trans h1
  exact le_of_mul_le_mul_left this hx

theorem fin_aux {q x y z w : ℝ} (h : 0 ≤ q) (hx : 0 < x) (hy : 0 < y) (hz : 0 < z) (hf : q * (y * z) ≤ w * x) (ht : x ≤ y + z) (h1 : q * x ≤ 2 * y)
    (h2 : q * x ≤ 2 * z) : q ^ 2 / 8 * (x + y + z) ≤ w := by
  have k2 : q * x * y ≤ 2 * z * y := mul_le_mul_of_nonneg_right h2 hy.le
  have k3 : q * x * z ≤ 2 * y * z := mul_le_mul_of_nonneg_right h1 hz.le
  have k1 : q * x * x ≤ q * x * (y + z) := mul_le_mul_of_nonneg_left ht (mul_nonneg h hx.le)
  have k4 : q * (x + y + z) * x ≤ 8 * (y * z) := by linarith [k1, k2, k3]
  have k5 : q ^ 2 / 8 * (x + y + z) * x ≤ w * x := by
    refine le_trans ?_ hf
    have := mul_le_mul_of_nonneg_left k4 h
    linarith
  exact le_of_mul_le_mul_right k5 hx

/-- A triangle of quality `q > 0` has slack `q² / 8`. -/
theorem slack_of_quality {p0 p1 p2 : Fin d → ℝ} (h : 0 < quality p0 p1 p2) : Slack (quality p0 p1 p2 ^ 2 / 8) p0 p1 p2 := by
  have t1 : Sdf.eucl p0 p1 ≤ Sdf.eucl p0 p2 + Sdf.eucl p1 p2 := by
    have := Sdf.eucl_triangle p0 p2 p1; rw [Sdf.eucl_comm p2 p1] at this; exact this
  have t2 : Sdf.eucl p0 p2 ≤ Sdf.eucl p0 p1 + Sdf.eucl p1 p2 := Sdf.eucl_triangle p0 p1 p2
  have t3 : Sdf.eucl p1 p2 ≤ Sdf.eucl p0 p1 + Sdf.eucl p0 p2 := by
    have := Sdf.eucl_triangle p1 p0 p2; rw [Sdf.eucl_comm p1 p0] at this; exact this
  have na := Sdf.eucl_nonneg p0 p1
  have nb := Sdf.eucl_nonneg p0 p2
  have nc := Sdf.eucl_nonneg p1 p2
  unfold Slack quality at *
  dsimp only at h ⊢
  set a := Sdf.eucl p0 p1
  set b := Sdf.eucl p0 p2
  set c := Sdf.eucl p1 p2
  have habc : 0 < a * b * c := by
    by_contra hc
    have : a * b * c = 0 := le_antisymm (not_lt.1 hc) (by positivity)
    rw [this, div_zero] at h
    exact lt_irrefl _ h
  have pa : 0 < a := lt_of_le_of_ne na fun e => by rw [← e] at habc; simp at habc
  have pb : 0 < b := lt_of_le_of_ne nb fun e => by rw [← e] at habc; simp at habc
  have pc : 0 < c := lt_of_le_of_ne nc fun e => by rw [← e] at habc; simp at habc
  obtain ⟨X, hX⟩ : ∃ X, X = b + c - a := ⟨_, rfl⟩
  obtain ⟨Y, hY⟩ : ∃ Y, Y = c + a - b := ⟨_, rfl⟩
  obtain ⟨Z, hZ⟩ : ∃ Z, Z = a + b - c := ⟨_, rfl⟩
  rw [← hX, ← hY, ← hZ] at h ⊢
  obtain ⟨q, hq⟩ : ∃ q, q = X * Y * Z / (a * b * c) := ⟨_, rfl⟩
  rw [← hq] at h ⊢
  have hqe : q * (a * b * c) = X * Y * Z := by rw [hq]; field_simp
  have nX : 0 ≤ X := by linarith
  have nY : 0 ≤ Y := by linarith
  have nZ : 0 ≤ Z := by linarith
  have e1 : Y * Z ≤ a * a := by nlinarith [mul_self_nonneg (b - c)]
  have e2 : X * Z ≤ b * b := by nlinarith [mul_self_nonneg (a - c)]
  have e3 : X * Y ≤ c * c := by nlinarith [mul_self_nonneg (a - b)]
  have f1 : q * (b * c) ≤ X * a := by
    have : q * (b * c) * a ≤ X * a * a := by nlinarith [mul_le_mul_of_nonneg_left e1 nX]
    exact le_of_mul_le_mul_right this pa
  have f2 : q * (a * c) ≤ Y * b := by
    have : q * (a * c) * b ≤ Y * b * b := by nlinarith [mul_le_mul_of_nonneg_left e2 nY]
    exact le_of_mul_le_mul_right this pb
  have f3 : q * (a * b) ≤ Z * c := by
    have : q * (a * b) * c ≤ Z * c * c := by nlinarith [mul_le_mul_of_nonneg_left e3 nZ]
    exact le_of_mul_le_mul_right this pc
  have g1 : q * c ≤ 2 * b := lt_aux pa f2 (by linarith) nb
  have g2 : q * a ≤ 2 * b := lt_aux (w := Y) pc (by linarith) (by linarith) nb
  have g3 : q * a ≤ 2 * c := lt_aux (w := Z) pb (by linarith) (by linarith) nc
  have g4 : q * b ≤ 2 * c := lt_aux pa f3 (by linarith) nc
  have g5 : q * b ≤ 2 * a := lt_aux (w := X) pc (by linarith) (by linarith) na
  have g6 : q * c ≤ 2 * a := lt_aux pb f1 (by linarith) na
  refine ⟨by linarith, ?_, ?_, ?_⟩
  · exact fin_aux h.le pa pb pc f1 (by linarith) g2 g3
  · have := fin_aux h.le pb pa pc f2 (by linarith) g5 g4; linarith
  · have := fin_aux h.le pc pa pb f3 (by linarith) g6 g1; linarith

/-- **C138 (good triangles).** A triangle of quality `Q` with `7680 u ≤ Q²` has a computed quality with an error of at most `7680 u / Q`. -/
theorem C138_good (hu0 : 0 ≤ u) (ha : Accurate rnd u) (hd : d ≤ 4) {p0 p1 p2 : Fin d → ℝ} (hQ : 0 < quality p0 p1 p2) (hu : 7680 * u ≤ quality p0 p1 p2 ^ 2) :
    ∃ q, qual rnd (fun x => rnd √x) p0 p1 p2 = some q ∧ |q - quality p0 p1 p2| ≤ 7680 * u / quality p0 p1 p2 := by
  obtain ⟨q, hq, he⟩ := C138_accuracy hu0 ha hd (by positivity) (slack_of_quality hQ) (by linarith)
  refine ⟨q, hq, he.trans (le_of_eq ?_)⟩
  field_simp
  ring

/-- The triangle with sides 3, 4 and 5. -/
theorem sides345 : Sdf.eucl (![0, 0] : Fin 2 → ℝ) ![3, 0] = 3 ∧ Sdf.eucl (![0, 0] : Fin 2 → ℝ) ![0, 4] = 4 ∧ Sdf.eucl (![3, 0] : Fin 2 → ℝ) ![0, 4] = 5 := by
  refine ⟨?_, ?_, ?_⟩ <;> rw [Sdf.eucl, Real.sqrt_eq_iff_mul_self_eq (Finset.sum_nonneg fun _ _ => sq_nonneg _) (by norm_num)] <;>
    simp [Fin.sum_univ_succ] <;> norm_num

theorem quality345 : quality (![0, 0] : Fin 2 → ℝ) ![3, 0] ![0, 4] = 4 / 5 := by
  rw [quality, sides345.1, sides345.2.1, sides345.2.2]
  norm_num

/-- The hypotheses of `C138_accuracy` and `C138_good` are met: the triangle (0,0), (3,0), (0,4) in double precision. -/
example : Accurate BallFl.binary64 (1 / 9007199254740992) ∧ Slack (1 / 6) (![0, 0] : Fin 2 → ℝ) ![3, 0] ![0, 4] ∧ (960 : ℝ) * (1 / 9007199254740992) ≤ 1 / 6 ∧
    0 < quality (![0, 0] : Fin 2 → ℝ) ![3, 0] ![0, 4] ∧ 7680 * (1 / 9007199254740992 : ℝ) ≤ quality (![0, 0] : Fin 2 → ℝ) ![3, 0] ![0, 4] ^ 2 := by
  refine ⟨C123_binary64.2, ?_, by norm_num, ?_, ?_⟩
  · rw [Slack, sides345.1, sides345.2.1, sides345.2.2]
    norm_num
  · rw [quality345]; norm_num
  · rw [quality345]; norm_num

/-- In double precision the computed quality of that triangle is 4/5 up to 1.1e-12. -/
theorem quality345_binary64 : ∃ q, qual BallFl.binary64 (fun x => BallFl.binary64 √x) (![0, 0] : Fin 2 → ℝ) ![3, 0] ![0, 4] = some q ∧ |q - 4 / 5| ≤ 11 / 10 ^ 13 := by
  obtain ⟨q, h1, h2⟩ := C138_good (u := 1 / 9007199254740992) (by norm_num) C123_binary64.2 (by norm_num) (p0 := (![0, 0] : Fin 2 → ℝ)) (p1 := ![3, 0]) (p2 := ![0, 4])
    (by rw [quality345]; norm_num) (by rw [quality345]; norm_num)
  rw [quality345] at h2
  exact ⟨q, h1, h2.trans (by norm_num)⟩

/-! ### Deletion of poor boundary triangles -/

/-- The row is kept or deleted by comparing this with the threshold. -/
def Survives {d : ℕ} (m ε : ℝ) : List (Fin d → ℝ) → Prop
  | p0 :: p1 :: p2 :: _ => m + ε ≤ quality p0 p1 p2
  | _ => False

/-- The triangle has slack `k`, and its quality is below `m` even when enlarged by the factor `1 + ε`. -/
def Fails {d : ℕ} (k m ε : ℝ) : List (Fin d → ℝ) → Prop
  | p0 :: p1 :: p2 :: _ => Slack k p0 p1 p2 ∧ (1 + ε) * quality p0 p1 p2 < m
  | _ => False

open SM.Topology SM.FixMesh

/-- **C138 (clean-up).** `delete_boundary_entities` with a bound `m` on the quality, in arithmetic of relative precision `u` with `7680 u ≤ m²`: every entity that does not touch the
boundary, and every entity of quality at least `m + 7680 u / m`, survives; and no boundary entity survives whose slack is `k ≥ 960 u` and whose quality is below
`m / (1 + 960 u / k)`. Nothing is added. -/
theorem C138_delete_partial {κ ρ : Type} [LinearOrder κ] [LinearOrder ρ] (hu0 : 0 ≤ u) (ha : Accurate rnd u) {m k : ℝ} (hm : 0 < m) (hum : 7680 * u ≤ m ^ 2) (hk : 0 < k)
    (hku : 960 * u ≤ k) (hd : d = 2 ∨ d = 3) (key : (Fin d → ℝ) → κ) {rk : List ℕ → ρ} (hrk : Function.Injective rk) (vol : List (Fin d → ℝ) → ℝ)
    {srt : List (ℕ × ℕ) → List (ℕ × ℕ)} (hsrt : IsArgsort srt) {p : List (Fin d → ℝ)} (hp : p ≠ []) {t : List (List ℕ)} (h : Simplices (d + 1) t)
    (hocc : ∀ v, v < p.length ↔ ∃ r ∈ t, v ∈ r) (hkey : ∀ x ∈ p, ∀ y ∈ p, key x = key y → x = y) :
    ∃ p' t', deleteBoundary rnd (fun x => rnd √x) key rk vol srt p t m = .ok (p', t') ∧
      (∀ r' ∈ t', ∃ r ∈ t, (r'.map fun i => p'[i]?).Perm (r.map fun i => p[i]?) ∧
        ¬ ((∃ v ∈ r, OnBoundary d t v) ∧ ∃ vs, r.map (fun i => p[i]?) = vs.map some ∧ Fails k m (960 * u / k) vs)) ∧
      ∀ r ∈ t, ((∀ v ∈ r, ¬ OnBoundary d t v) ∨ ∃ vs, r.map (fun i => p[i]?) = vs.map some ∧ Survives m (7680 * u / m) vs) →
        ∃ r' ∈ t', (r'.map fun i => p'[i]?).Perm (r.map fun i => p[i]?) := by
  have hd4 : d ≤ 4 := by omega
  have hinj : ∀ {vs ws : List (Fin d → ℝ)}, vs.map some = ws.map some → vs = ws := fun e => List.map_injective_iff.2 (Option.some_injective _) e
  obtain ⟨p', t', e, h1, h2⟩ := C37_exact (K := WithTop ℝ) key hrk (fun vs => (vol vs : WithTop ℝ)) (rowQual rnd fun x => rnd √x) hsrt hp hd h hocc hkey (m : WithTop ℝ)
  refine ⟨p', t', e, fun r' hr' => ?_, fun r hr hs => h2 r hr ?_⟩
  · obtain ⟨r, hr, hn, hperm⟩ := h1 r' hr'
    refine ⟨r, hr, hperm, fun ⟨hb, vs, hvs, hf⟩ => hn ⟨hb, vs, hvs, ?_⟩⟩
    match vs, hf with
    | p0 :: p1 :: p2 :: _, ⟨hsl, hq⟩ =>
      obtain ⟨q, hq1, hq2⟩ := C138_accuracy hu0 ha hd4 hk hsl hku
      simp only [rowQual, hq1]
      rw [WithTop.coe_lt_coe]
      have := (abs_le.1 hq2).2
      linarith
  · rintro ⟨⟨v, hv, hb⟩, vs, hvs, hlt⟩
    rcases hs with hs | ⟨ws, hws, hs⟩
    · exact hs v hv hb
    rw [hvs] at hws
    rw [← hinj hws] at hs
    match vs, hs with
    | p0 :: p1 :: p2 :: _, hs =>
      have hε : 0 ≤ 7680 * u / m := by positivity
      change m + 7680 * u / m ≤ quality p0 p1 p2 at hs
      have hmq : m ≤ quality p0 p1 p2 := by linarith
      obtain ⟨q, hq1, hq2⟩ := C138_good hu0 ha hd4 (hm.trans_le hmq) (hum.trans (pow_le_pow_left₀ hm.le hmq 2))
      simp only [rowQual, hq1] at hlt
      rw [WithTop.coe_lt_coe] at hlt
      have h3 : 7680 * u / quality p0 p1 p2 ≤ 7680 * u / m := div_le_div_of_nonneg_left (by positivity) hm hmq
      have := (abs_le.1 hq2).1
      linarith

/-! ### Flat triangles -/

section map
variable {L M : Type} [Field L] [LinearOrder L] [Field M] [LinearOrder M]

theorem foldl_map (f : L →+* M) {rnd : L → L} {rnd' : M → M} (h : ∀ x, rnd' (f x) = f (rnd x)) : ∀ (l : List L) (x : L),
    (l.map f).foldl (fun s y => rnd' (s + y)) (f x) = f (l.foldl (fun s y => rnd (s + y)) x)
  | [], _ => rfl
  | y :: l, x => by
    rw [List.map_cons, List.foldl_cons, List.foldl_cons, ← map_add, h, foldl_map f h l]

/-- The computation commutes with an embedding of number systems that respects rounding and order. -/
theorem qual_map (f : L →+* M) (hlt : ∀ x, f x < 0 ↔ x < 0) {rnd rsq : L → L} {rnd' rsq' : M → M} (h : ∀ x, rnd' (f x) = f (rnd x)) (h' : ∀ x, rsq' (f x) = f (rsq x))
    (p0 p1 p2 : Fin d → L) : qual rnd' rsq' (fun j => f (p0 j)) (fun j => f (p1 j)) (fun j => f (p2 j)) = (qual rnd rsq p0 p1 p2).map f := by
  have hs : ∀ v : Fin d → L, sumSq rnd' (fun j => f (v j)) = f (sumSq rnd v) := by
    intro v
    cases d with
    | zero => simp [sumSq]
    | succ d =>
      simp only [sumSq, List.ofFn_succ, ← map_mul, h]
      rw [← foldl_map f h]
      congr 1
      rw [List.map_ofFn]
      rfl
  have hl : ∀ p q : Fin d → L, len rnd' rsq' (fun j => f (p j)) (fun j => f (q j)) = f (len rnd rsq p q) := by
    intro p q
    simp only [len, ← map_sub, h]
    rw [hs, h']
  have h0 : ∀ x, f x = 0 ↔ x = 0 := fun x => map_eq_zero f
  have e2 : (2 : M) = f 2 := (map_ofNat f 2).symm
  have e3 : (1 / 2 : M) = f (1 / 2) := by rw [map_div₀, map_one, map_ofNat]
  have hsl : ∀ x y z : L, slack rnd' (f x) (f y) (f z) = f (slack rnd x y z) := by
    intro x y z
    simp only [slack, ← map_add, ← map_sub, h]
  unfold qual
  simp only [hl, hsl, e3]
  simp only [e2, ← map_mul, ← map_add, ← map_sub, ← map_div₀, h, h', h0, hlt]
  split_ifs <;> first | rfl | exact congrArg some (map_zero f).symm

end map

/-- The corners (0,0), (1,1), (4,4) and (4,0). -/
def cornersQ : List (Fin 2 → ℚ) := [![0, 0], ![1, 1], ![4, 4], ![4, 0]]

/-- The same with real coordinates. -/
def corners : List (Fin 2 → ℝ) := cornersQ.map fun v j => (v j : ℝ)

theorem flat_nan : qual BallFl.binary64 (fun x => BallFl.binary64 √x) (fun j => (((![0, 0] : Fin 2 → ℚ) j : ℚ) : ℝ)) (fun j => (((![1, 1] : Fin 2 → ℚ) j : ℚ) : ℝ))
    (fun j => (((![4, 4] : Fin 2 → ℚ) j : ℚ) : ℝ)) = none := by
  have key : qual Fl.binary64 Fl.sqrt64 (![0, 0] : Fin 2 → ℚ) ![1, 1] ![4, 4] = none := by decide +kernel
  have := qual_map (Rat.castHom ℝ) (fun x => by change (x : ℝ) < 0 ↔ x < 0; exact_mod_cast Iff.rfl) (rnd := Fl.binary64) (rsq := Fl.sqrt64) (rnd' := BallFl.binary64)
    (rsq' := fun x => BallFl.binary64 √x) (fun x => Fl.binary64_cast x) (fun x => Fl.sqrt64_cast x) (![0, 0] : Fin 2 → ℚ) ![1, 1] ![4, 4]
  rw [key] at this
  exact this

/-- **C138 (finding): flat boundary triangles survive.** In double precision the quality of the flat triangle (0,0), (1,1), (4,4) is NaN, since the computed lengths of its two short sides add up
to less than that of the long side. So `delete_boundary_entities` keeps it, whatever the bound, although its quality is 0 and it is at the boundary. -/
theorem C138_flat_kept {κ ρ : Type} [LinearOrder κ] [LinearOrder ρ] (m : ℝ) (key : (Fin 2 → ℝ) → κ) (hkey : ∀ x ∈ corners, ∀ y ∈ corners, key x = key y → x = y)
    {rk : List ℕ → ρ} (hrk : Function.Injective rk) (vol : List (Fin 2 → ℝ) → ℝ) {srt : List (ℕ × ℕ) → List (ℕ × ℕ)} (hsrt : IsArgsort srt) :
    ∃ p' t', deleteBoundary BallFl.binary64 (fun x => BallFl.binary64 √x) key rk vol srt corners [[0, 1, 2], [0, 3, 2]] m = .ok (p', t') ∧
      (∃ r' ∈ t', (r'.map fun i => p'[i]?).Perm ([0, 1, 2].map fun i => corners[i]?)) ∧
      OnBoundary 2 [[0, 1, 2], [0, 3, 2]] 1 ∧ quality (corners.getD 0 0) (corners.getD 1 0) (corners.getD 2 0) = 0 := by
  have hs : Simplices (2 + 1) [[0, 1, 2], [0, 3, 2]] := by intro r hr; fin_cases hr <;> decide
  have hocc : ∀ v, v < corners.length ↔ ∃ r ∈ [[0, 1, 2], [0, 3, 2]], v ∈ r := fun v => by
    simp only [corners, cornersQ, List.length_map, List.length_cons, List.length_nil, List.mem_cons, List.not_mem_nil, or_false, exists_eq_or_imp, exists_eq_left]
    omega
  obtain ⟨p', t', e, h1, h2⟩ := C37_exact (K := WithTop ℝ) key hrk (fun vs => (vol vs : WithTop ℝ)) (rowQual BallFl.binary64 fun x => BallFl.binary64 √x) hsrt
    (p := corners) (by simp [corners, cornersQ]) (.inl rfl) hs hocc hkey (m : WithTop ℝ)
  refine ⟨p', t', e, h2 [0, 1, 2] (by simp) ?_, ⟨0, by decide, by decide⟩, ?_⟩
  · rintro ⟨-, vs, hvs, hlt⟩
    have : vs = [fun j => (((![0, 0] : Fin 2 → ℚ) j : ℚ) : ℝ), fun j => (((![1, 1] : Fin 2 → ℚ) j : ℚ) : ℝ), fun j => (((![4, 4] : Fin 2 → ℚ) j : ℚ) : ℝ)] := by
      refine List.map_injective_iff.2 (Option.some_injective _) ?_
      rw [← hvs]
      rfl
    rw [this] at hlt
    simp only [rowQual, flat_nan] at hlt
    exact absurd hlt not_top_lt
  · have g0 : corners.getD 0 0 = ![0, 0] := by funext j; fin_cases j <;> simp [corners, cornersQ]
    have g1 : corners.getD 1 0 = ![1, 1] := by funext j; fin_cases j <;> simp [corners, cornersQ]
    have g2 : corners.getD 2 0 = ![4, 4] := by funext j; fin_cases j <;> simp [corners, cornersQ]
    have r : ∀ x : ℝ, 0 ≤ x → √(x * x + x * x) = x * √2 := fun x hx => by
      rw [← two_mul, mul_comm, Real.sqrt_mul (mul_self_nonneg x), Real.sqrt_mul_self hx]
    have l0 : Sdf.eucl (![0, 0] : Fin 2 → ℝ) ![1, 1] = 1 * √2 := by
      rw [← r 1 (by norm_num), Sdf.eucl]; congr 1; simp [Fin.sum_univ_succ]
    have l1 : Sdf.eucl (![0, 0] : Fin 2 → ℝ) ![4, 4] = 4 * √2 := by
      rw [← r 4 (by norm_num), Sdf.eucl]; congr 1; simp [Fin.sum_univ_succ]; norm_num
    have l2 : Sdf.eucl (![1, 1] : Fin 2 → ℝ) ![4, 4] = 3 * √2 := by
      rw [← r 3 (by norm_num), Sdf.eucl]; congr 1; simp [Fin.sum_univ_succ]; norm_num
    rw [g0, g1, g2, quality]
    simp only [l0, l1, l2]
    have : 3 * √2 + 1 * √2 - 4 * √2 = 0 := by ring
    rw [this]
    simp

end

end SM.QualFl
