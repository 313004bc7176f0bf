import Verif.Model.SizingFl
import Verif.Model.Sizing
import Verif.Props.LimgradFl
import Verif.Lemmas.Rounding
import Mathlib.Tactic.FieldSimp
import Mathlib.Tactic.NormNum

/-!
# C109: size limits and time step in floating-point arithmetic
-/

set_option linter.unusedSectionVars false

namespace SM.SizingFl

open SM.Round
open SM.LimgradFl (Rounding Repr arith_rounded)
open SM.Limgrad (InGrid at3 IsMin)

/-! ## Specification -/

/-- A statement about every node of a `d0 × d1 × d2` grid. -/
def AllNodes (d0 d1 d2 : ℕ) (P : ℕ → ℕ → ℕ → Prop) : Prop := ∀ i < d0, ∀ j < d1, ∀ k < d2, P i j k

variable {K : Type} [Field K] [LinearOrder K] [IsStrictOrderedRing K]

/-- Rounded arithmetic on the representable numbers; `h1`: 1 is representable. -/
def arith {rnd : K → K} (h : Rounding rnd) (h1 : rnd 1 = 1) : Arith (Repr rnd) where
  lim := LimgradFl.arith h
  one := ⟨1, h1⟩
  div x y := ⟨rnd (x.1 / y.1), h.idem _⟩

/-! ## Proofs -/

theorem clamp_range {F : Type} [LinearOrder F] {hmin hmax : F} (h : hmin ≤ hmax) (x : F) :
    hmin ≤ clamp hmin hmax x ∧ clamp hmin hmax x ≤ hmax := by
  unfold clamp
  simp only
  split_ifs with h1 h2 h2
  · exact ⟨h, le_rfl⟩
  · exact ⟨le_rfl, h⟩
  · exact ⟨h, le_rfl⟩
  · exact ⟨not_lt.1 h1, not_lt.1 h2⟩

theorem isMin_exists {F : Type} [LinearOrder F] {d0 d1 d2 : ℕ} (hN : 0 < d0 * d1 * d2) (A : Arr F) : ∃ m, IsMin d0 d1 d2 A m := by
  refine ⟨LimgradFl.minElement (d0 * d1 * d2) (Limgrad.flattenF d0 d1 A), ?_, ?_⟩
  · rintro ⟨i, j, k⟩ ⟨hi, hj, hk⟩
    have := LimgradFl.minElement_le (f := Limgrad.flattenF d0 d1 A) (Limgrad.lin_lt hi hj hk)
    rwa [Limgrad.flatten_lin hi hj] at this
  · obtain ⟨n, hn, h⟩ := LimgradFl.exists_minElement hN (Limgrad.flattenF d0 d1 A)
    obtain ⟨i, j, k, hi, hj, hk, rfl⟩ := Limgrad.exists_lin hn
    exact ⟨(i, j, k), ⟨hi, hj, hk⟩, by rw [h, Limgrad.flatten_lin hi hj]; rfl⟩

variable {rnd : K → K} {h : Rounding rnd} {h1 : rnd 1 = 1}

theorem courant_ok {dim : Repr rnd} {vp cell out : Arr (Repr rnd)} {crMax dt so : Repr rnd}
    (hc : courant (arith h h1) dim vp cell crMax dt so = .ok out) :
    ((crMax.1 = 0 ∨ dt.1 = 0 ∨ so.1 = 0) ∧ out = cell) ∨
    (0 < crMax.1 ∧ 0 < dt.1 ∧ 1 ≤ so.1 ∧ ∀ i j k,
      (rnd (rnd ((vp i j k).1 * dt.1) / rnd (dim.1 * (cell i j k).1)) > rnd (crMax.1 / rnd (dim.1 * so.1)) ∧
        (out i j k).1 = rnd (rnd ((vp i j k).1 * dt.1) / rnd (dim.1 * rnd (crMax.1 / rnd (dim.1 * so.1))))) ∨
      (rnd (rnd ((vp i j k).1 * dt.1) / rnd (dim.1 * (cell i j k).1)) ≤ rnd (crMax.1 / rnd (dim.1 * so.1)) ∧
        (out i j k).1 = (cell i j k).1)) := by
  unfold courant at hc
  have e0 : ∀ x : Repr rnd, x = (arith h h1).lim.zero ↔ x.1 = 0 := fun x => Subtype.ext_iff
  simp only [e0] at hc
  split_ifs at hc with a b c d
  · cases hc
    exact Or.inl ⟨a, rfl⟩
  · cases hc
    push Not at a
    have b' : (0 : K) ≤ crMax.1 := not_lt.1 b
    have c' : (0 : K) ≤ dt.1 := not_lt.1 c
    have d' : (1 : K) ≤ so.1 := not_lt.1 d
    refine Or.inr ⟨lt_of_le_of_ne b' (Ne.symm a.1), lt_of_le_of_ne c' (Ne.symm a.2.1), d', fun i j k => ?_⟩
    dsimp only
    split_ifs with hh
    · exact Or.inl ⟨hh, rfl⟩
    · exact Or.inr ⟨not_lt.1 hh, rfl⟩

theorem sizes_ok {imax d0 d1 d2 : ℕ} {seps dim : Repr rnd} {vp req : Arr (Repr rnd)} {hmin hmax crMax dt so grade elen : Repr rnd}
    {out : Arr (Repr rnd)} {c : Bool}
    (hr : sizes (arith h h1) imax d0 d1 d2 seps dim vp req hmin hmax crMax dt so grade elen = .ok (out, c)) :
    ∃ cell, courant (arith h h1) dim vp (fun i j k => clamp hmin hmax (req i j k)) crMax dt so = .ok cell ∧
      LimgradFl.enforceGradation (LimgradFl.arith h) imax d0 d1 d2 seps cell grade elen = .ok (out, c) := by
  unfold sizes at hr
  split at hr
  · cases hr
  · rename_i cell hc
    refine ⟨cell, hc, ?_⟩
    split at hr
    · cases hr
    · rename_i r hg
      cases hr
      exact hg

/-- The gradation stage keeps lower bounds, and does not increase. -/
theorem stage {imax d0 d1 d2 : ℕ} {seps grade elen : Repr rnd} {cell out : Arr (Repr rnd)} {c : Bool} (hs : 0 ≤ seps.1) (he : 0 ≤ elen.1)
    (hp : AllNodes d0 d1 d2 fun i j k => 0 ≤ (cell i j k).1)
    (hg : LimgradFl.enforceGradation (LimgradFl.arith h) imax d0 d1 d2 seps cell grade elen = .ok (out, c)) :
    (∀ b : K, (AllNodes d0 d1 d2 fun i j k => b ≤ (cell i j k).1) → AllNodes d0 d1 d2 fun i j k => b ≤ (out i j k).1) ∧
    AllNodes d0 d1 d2 fun i j k => (out i j k).1 ≤ (cell i j k).1 := by
  have key : ∀ {i j k : ℕ}, i < d0 → j < d1 → k < d2 → ∃ i' < d0, ∃ j' < d1, ∃ k' < d2,
      (cell i' j' k').1 ≤ (out i j k).1 ∧ (out i j k).1 ≤ (cell i j k).1 := by
    intro i j k hi hj hk
    have hN : 0 < d0 * d1 * d2 := Nat.mul_pos (Nat.mul_pos (by omega) (by omega)) (by omega)
    obtain ⟨m, hm⟩ := isMin_exists hN cell
    obtain ⟨⟨i', j', k'⟩, ⟨hi', hj', hk'⟩, e⟩ := hm.2
    have hm0 : (0 : K) ≤ m.1 := by rw [← e]; exact hp i' hi' j' hj' k' hk'
    have := LimgradFl.C106_only_refines (arith_rounded h) hs he hm hm0 hg (i, j, k) ⟨hi, hj, hk⟩
    refine ⟨i', hi', j', hj', k', hk', ?_, this.2⟩
    have h2 := this.1
    rw [← e] at h2
    exact h2
  constructor
  · intro b hb i hi j hj k hk
    obtain ⟨i', hi', j', hj', k', hk', h1, -⟩ := key hi hj hk
    exact (hb i' hi' j' hj' k' hk').trans h1
  · intro i hi j hj k hk
    obtain ⟨i', hi', j', hj', k', hk', -, h2⟩ := key hi hj hk
    exact h2

/-- **C109a.** Without a time step: between `hmin` and `hmax` exactly, in any rounded arithmetic and any dimension. -/
theorem C109_limits {imax d0 d1 d2 : ℕ} {seps dim : Repr rnd} {vp req : Arr (Repr rnd)} {hmin hmax crMax dt so grade elen : Repr rnd}
    {out : Arr (Repr rnd)} {c : Bool} (hs : 0 ≤ seps.1) (he : 0 ≤ elen.1) (hp : 0 ≤ hmin.1) (hle : hmin.1 ≤ hmax.1)
    (hoff : crMax.1 = 0 ∨ dt.1 = 0 ∨ so.1 = 0)
    (hr : sizes (arith h h1) imax d0 d1 d2 seps dim vp req hmin hmax crMax dt so grade elen = .ok (out, c)) :
    AllNodes d0 d1 d2 fun i j k => hmin.1 ≤ (out i j k).1 ∧ (out i j k).1 ≤ hmax.1 := by
  obtain ⟨cell, hc, hg⟩ := sizes_ok hr
  have hcell : cell = fun i j k => clamp hmin hmax (req i j k) := by
    rcases courant_ok hc with ⟨-, e⟩ | ⟨a, b, c, -⟩
    · exact e
    · rcases hoff with e | e | e
      · exact absurd e a.ne'
      · exact absurd e b.ne'
      · exact absurd e (by linarith)
  subst hcell
  have hl : ∀ i j k, hmin.1 ≤ (clamp hmin hmax (req i j k)).1 ∧ (clamp hmin hmax (req i j k)).1 ≤ hmax.1 := fun i j k =>
    clamp_range (F := Repr rnd) hle _
  obtain ⟨s1, s2⟩ := stage hs he (fun i _ j _ k _ => hp.trans (hl i j k).1) hg
  intro i hi j hj k hk
  exact ⟨s1 hmin.1 (fun i _ j _ k _ => (hl i j k).1) i hi j hj k hk, (s2 i hi j hj k hk).trans (hl i j k).2⟩

theorem rnd_pos {u : K} (hu1 : u < 1) (ha : Accurate rnd u) {x : K} (hx : 0 < x) : 0 < rnd x := by
  have h2 := (abs_le.1 (ha x)).1
  rw [abs_of_pos hx] at h2
  have : 0 < (1 - u) * x := mul_pos (by linarith) hx
  linarith

theorem rnd_low {u : K} (ha : Accurate rnd u) {x : K} (hx : 0 ≤ x) : (1 - u) * x ≤ rnd x := by
  have h2 := (abs_le.1 (ha x)).1
  rw [abs_of_nonneg hx] at h2
  linarith

theorem rnd_up {u : K} (ha : Accurate rnd u) {x : K} (hx : 0 ≤ x) : rnd x ≤ (1 + u) * x := by
  have h2 := (abs_le.1 (ha x)).2
  rw [abs_of_nonneg hx] at h2
  linarith

/-- The time-step stage enlarges, up to rounding of the multiplication by the dimension. -/
theorem courant_low {dim : Repr rnd} {vp cell out : Arr (Repr rnd)} {crMax dt so : Repr rnd} {f : K} (hf : f ≤ 1) (hd : 0 < dim.1)
    (hpos : ∀ x, 0 < x → 0 < rnd x)
    (hfac : ∀ x y : K, rnd x = x → rnd y = y → 0 < x → 0 < y → f * x ≤ rnd (y * rnd (dim.1 * x) / rnd (dim.1 * y)))
    (hc : courant (arith h h1) dim vp cell crMax dt so = .ok out) {i j k : ℕ} (hp : 0 < (cell i j k).1) :
    f * (cell i j k).1 ≤ (out i j k).1 := by
  rcases courant_ok hc with ⟨-, e⟩ | ⟨a, b, c, e⟩
  · rw [e]
    nlinarith
  · rcases e i j k with ⟨e1, e2⟩ | ⟨-, e2⟩
    · have hcr : 0 < rnd (crMax.1 / rnd (dim.1 * so.1)) := hpos _ (div_pos a (hpos _ (mul_pos hd (by linarith))))
      have hcr' := h.idem (crMax.1 / rnd (dim.1 * so.1))
      rw [e2]
      generalize rnd (crMax.1 / rnd (dim.1 * so.1)) = cr at e1 hcr hcr' ⊢
      have hB : 0 < rnd (dim.1 * (cell i j k).1) := hpos _ (mul_pos hd hp)
      have hC : 0 < rnd (dim.1 * cr) := hpos _ (mul_pos hd hcr)
      have h2 : cr < rnd ((vp i j k).1 * dt.1) / rnd (dim.1 * (cell i j k).1) := by
        by_contra hcon
        have := h.mono (not_lt.1 hcon)
        rw [hcr'] at this
        exact absurd e1 (not_lt.2 this)
      rw [lt_div_iff₀ hB] at h2
      refine (hfac _ _ (cell i j k).2 hcr' hp hcr).trans (h.mono ?_)
      exact div_le_div_of_nonneg_right h2.le hC.le
    · rw [e2]
      nlinarith

theorem limits_low {imax d0 d1 d2 : ℕ} {seps dim : Repr rnd} {vp req : Arr (Repr rnd)} {hmin hmax crMax dt so grade elen : Repr rnd}
    {out : Arr (Repr rnd)} {c : Bool} {f : K} (hf0 : 0 ≤ f) (hf : f ≤ 1) (hd : 0 < dim.1) (hpos : ∀ x, 0 < x → 0 < rnd x)
    (hfac : ∀ x y : K, rnd x = x → rnd y = y → 0 < x → 0 < y → f * x ≤ rnd (y * rnd (dim.1 * x) / rnd (dim.1 * y)))
    (hs : 0 ≤ seps.1) (he : 0 ≤ elen.1) (hp : 0 < hmin.1) (hle : hmin.1 ≤ hmax.1)
    (hr : sizes (arith h h1) imax d0 d1 d2 seps dim vp req hmin hmax crMax dt so grade elen = .ok (out, c)) :
    AllNodes d0 d1 d2 fun i j k => f * hmin.1 ≤ (out i j k).1 := by
  obtain ⟨cell, hc, hg⟩ := sizes_ok hr
  have hl : ∀ i j k, hmin.1 ≤ (clamp hmin hmax (req i j k)).1 ∧ (clamp hmin hmax (req i j k)).1 ≤ hmax.1 := fun i j k =>
    clamp_range (F := Repr rnd) hle _
  have hlow : ∀ i j k, f * hmin.1 ≤ (cell i j k).1 := by
    intro i j k
    have h2 := courant_low hf hd hpos hfac hc (i := i) (j := j) (k := k) (hp.trans_le (hl i j k).1)
    exact (mul_le_mul_of_nonneg_left (hl i j k).1 hf0).trans h2
  obtain ⟨s1, -⟩ := stage hs he (fun i _ j _ k _ => (mul_nonneg hf0 hp.le).trans (hlow i j k)) hg
  exact s1 _ (fun i _ j _ k _ => hlow i j k)

/-- **C109b.** Two-dimensional models: never below `hmin`, with any time step, in any rounded arithmetic in which doubling is exact and
positive numbers do not round to zero. -/
theorem C109_hmin_2d {imax d0 d1 d2 : ℕ} {seps dim : Repr rnd} {vp req : Arr (Repr rnd)} {hmin hmax crMax dt so grade elen : Repr rnd}
    {out : Arr (Repr rnd)} {c : Bool} (hdim : dim.1 = 2) (hdouble : ∀ x, rnd (2 * x) = 2 * rnd x) (hpos : ∀ x, 0 < x → 0 < rnd x)
    (hs : 0 ≤ seps.1) (he : 0 ≤ elen.1) (hp : 0 < hmin.1) (hle : hmin.1 ≤ hmax.1)
    (hr : sizes (arith h h1) imax d0 d1 d2 seps dim vp req hmin hmax crMax dt so grade elen = .ok (out, c)) :
    AllNodes d0 d1 d2 fun i j k => hmin.1 ≤ (out i j k).1 := by
  have := limits_low (f := 1) zero_le_one le_rfl (by rw [hdim]; exact zero_lt_two) hpos ?_ hs he hp hle hr
  · simpa using this
  · intro x y hx hy hx0 hy0
    rw [hdim, hdouble, hdouble, hx, hy]
    have e : y * (2 * x) / (2 * y) = x := by field_simp
    rw [e, hx, one_mul]

/-- **C109c.** Any dimension: at most three roundings below `hmin`. -/
theorem C109_hmin {imax d0 d1 d2 : ℕ} {seps dim : Repr rnd} {vp req : Arr (Repr rnd)} {hmin hmax crMax dt so grade elen : Repr rnd}
    {out : Arr (Repr rnd)} {c : Bool} {u : K} (hu : 0 ≤ u) (hu1 : u < 1) (ha : Accurate rnd u) (hd : 0 < dim.1)
    (hs : 0 ≤ seps.1) (he : 0 ≤ elen.1) (hp : 0 < hmin.1) (hle : hmin.1 ≤ hmax.1)
    (hr : sizes (arith h h1) imax d0 d1 d2 seps dim vp req hmin hmax crMax dt so grade elen = .ok (out, c)) :
    AllNodes d0 d1 d2 fun i j k => (1 - u) ^ 2 / (1 + u) * hmin.1 ≤ (out i j k).1 := by
  have h1u : 0 < 1 + u := by linarith
  refine limits_low (by positivity) ?_ hd (fun x hx => rnd_pos hu1 ha hx) ?_ hs he hp hle hr
  · rw [div_le_one h1u]
    nlinarith
  · intro x y hx hy hx0 hy0
    have a1 := rnd_low ha (mul_pos hd hx0).le
    have a2 := rnd_up ha (mul_pos hd hy0).le
    have p2 := rnd_pos hu1 ha (mul_pos hd hy0)
    have p1 := rnd_pos hu1 ha (mul_pos hd hx0)
    have a3 := rnd_low ha (x := y * rnd (dim.1 * x) / rnd (dim.1 * y)) (by positivity)
    refine le_trans ?_ a3
    have e : (1 - u) / (1 + u) * x ≤ y * rnd (dim.1 * x) / rnd (dim.1 * y) := by
      rw [div_mul_eq_mul_div, div_le_div_iff₀ h1u p2]
      have b1 : (1 - u) * x * rnd (dim.1 * y) ≤ (1 - u) * x * ((1 + u) * (dim.1 * y)) :=
        mul_le_mul_of_nonneg_left a2 (mul_nonneg (by linarith) hx0.le)
      have b2 : y * ((1 - u) * (dim.1 * x)) * (1 + u) ≤ y * rnd (dim.1 * x) * (1 + u) :=
        mul_le_mul_of_nonneg_right (mul_le_mul_of_nonneg_left a1 hy0.le) h1u.le
      linarith
    have e2 := mul_le_mul_of_nonneg_left e (show 0 ≤ 1 - u by linarith)
    refine le_trans (le_of_eq ?_) e2
    ring

/-- **C109d.** The time step: the Courant number the returned sizes give is at most `cr_max`, up to the rounding of five operations. -/
theorem C109_courant {imax d0 d1 d2 : ℕ} {seps dim : Repr rnd} {vp req : Arr (Repr rnd)} {hmin hmax crMax dt so grade elen : Repr rnd}
    {out : Arr (Repr rnd)} {c : Bool} {u : K} (hu : 0 ≤ u) (hu1 : u < 1) (ha : Accurate rnd u) (hd : 0 < dim.1)
    (hp : 0 < hmin.1) (hle : hmin.1 ≤ hmax.1) (hcr : 0 < crMax.1) (hdt : 0 < dt.1) (hso : 1 ≤ so.1)
    (hv : AllNodes d0 d1 d2 fun i j k => 0 < (vp i j k).1) (hgr : grade.1 = 0)
    (hr : sizes (arith h h1) imax d0 d1 d2 seps dim vp req hmin hmax crMax dt so grade elen = .ok (out, c)) :
    AllNodes d0 d1 d2 fun i j k =>
      (vp i j k).1 * dt.1 * so.1 / (out i j k).1 ≤ crMax.1 * ((1 + u) ^ 2 / (1 - u) ^ 3) := by
  obtain ⟨cell, hc, hg⟩ := sizes_ok hr
  have hcell : out = cell := by
    unfold LimgradFl.enforceGradation at hg
    rw [if_pos (Subtype.ext hgr)] at hg
    cases hg
    rfl
  subst hcell
  intro i hi j hj k hk
  have hl : hmin.1 ≤ (clamp hmin hmax (req i j k)).1 := (clamp_range (F := Repr rnd) hle _).1
  have hcl := hp.trans_le hl
  have hv' := hv i hi j hj k hk
  have hw : 0 < 1 - u := by linarith
  have h1u : 0 < 1 + u := by linarith
  have hA := rnd_low ha (mul_pos hv' hdt).le
  have pA := rnd_pos hu1 ha (mul_pos hv' hdt)
  have pD := rnd_pos hu1 ha (mul_pos hd (show 0 < so.1 by linarith))
  have hD := rnd_low ha (mul_pos hd (show 0 < so.1 by linarith)).le
  have pcr := rnd_pos hu1 ha (div_pos hcr pD)
  have ucr := rnd_up ha (div_pos hcr pD).le
  rw [← mul_div_assoc, le_div_iff₀ pD] at ucr
  have hsop : 0 < so.1 := by linarith
  -- the bound of the divisor
  have kcr : rnd (crMax.1 / rnd (dim.1 * so.1)) * ((1 - u) * (dim.1 * so.1)) ≤ (1 + u) * crMax.1 :=
    (mul_le_mul_of_nonneg_left hD pcr.le).trans ucr
  rcases courant_ok hc with ⟨e, -⟩ | ⟨-, -, -, e⟩
  · rcases e with e | e | e
    · exact absurd e hcr.ne'
    · exact absurd e hdt.ne'
    · exact absurd e (by linarith)
  · generalize rnd (crMax.1 / rnd (dim.1 * so.1)) = cr at *
    have key : ∀ s : K, 0 < s → (1 - u) * ((1 - u) * ((vp i j k).1 * dt.1)) ≤ cr * ((1 + u) * (dim.1 * s)) →
        (vp i j k).1 * dt.1 * so.1 / s ≤ crMax.1 * ((1 + u) ^ 2 / (1 - u) ^ 3) := by
      intro s hs0 hb
      rw [← mul_div_assoc, div_le_div_iff₀ hs0 (by positivity)]
      have c1 := mul_le_mul_of_nonneg_right hb (show 0 ≤ (1 - u) * so.1 by positivity)
      have c2 := mul_le_mul_of_nonneg_right kcr (show 0 ≤ (1 + u) * s by positivity)
      nlinarith
    rcases e i j k with ⟨-, e2⟩ | ⟨e1, e2⟩
    · have pC := rnd_pos hu1 ha (mul_pos hd pcr)
      have uC := rnd_up ha (mul_pos hd pcr).le
      have px := div_pos pA pC
      have lx := rnd_low ha px.le
      have ps := rnd_pos hu1 ha px
      rw [e2]
      refine key _ ps ?_
      rw [← mul_div_assoc, div_le_iff₀ pC] at lx
      have c1 := mul_le_mul_of_nonneg_left hA hw.le
      have c2 := mul_le_mul_of_nonneg_left uC ps.le
      nlinarith
    · have pB := rnd_pos hu1 ha (mul_pos hd hcl)
      have uB := rnd_up ha (mul_pos hd hcl).le
      have lx := rnd_low ha (div_pos pA pB).le
      rw [e2]
      refine key _ hcl ?_
      have c0 := lx.trans e1
      rw [← mul_div_assoc, div_le_iff₀ pB] at c0
      have c1 := mul_le_mul_of_nonneg_left hA hw.le
      have c2 := mul_le_mul_of_nonneg_left uB pcr.le
      linarith

/-! ## Exact arithmetic -/

/-- Exact operations. -/
def exact : Arith K := ⟨LimgradFl.exact, 1, (· / ·)⟩

/-- **C109e.** With exact operations these are the stages of `Model/Sizing.lean`. -/
theorem C109_exact (dim : ℕ) (vp cell : Arr K) (crMax dt so hmin hmax x : K) :
    Sizing.clamp hmin hmax (.fin x) = .fin (clamp hmin hmax x) ∧
    Sizing.courant dim vp cell crMax dt so = (match courant exact (dim : K) vp cell crMax dt so with
      | .ok r => .ok r
      | .error .crNeg => .error .crNeg
      | .error .dtNeg => .error .dtNeg
      | .error .orderSmall => .error .orderSmall
      | .error .gradeNeg => .error .gradeNeg) := by
  constructor
  · unfold Sizing.clamp clamp
    by_cases a : x < hmin
    · have a' : Sizing.fltK (.fin x) hmin := a
      simp only [if_pos a, if_pos a']
      by_cases b : hmin > hmax
      · have b' : Sizing.fgtK (.fin hmin) hmax := b
        rw [if_pos b, if_pos b']
      · have b' : ¬ Sizing.fgtK (.fin hmin) hmax := b
        rw [if_neg b, if_neg b']
    · have a' : ¬ Sizing.fltK (.fin x) hmin := a
      simp only [if_neg a, if_neg a']
      by_cases b : x > hmax
      · have b' : Sizing.fgtK (.fin x) hmax := b
        rw [if_pos b, if_pos b']
      · have b' : ¬ Sizing.fgtK (.fin x) hmax := b
        rw [if_neg b, if_neg b']
  · have e : courant exact (dim : K) vp cell crMax dt so =
        if crMax = 0 ∨ dt = 0 ∨ so = 0 then .ok cell
        else if crMax < 0 then .error .crNeg
        else if dt < 0 then .error .dtNeg
        else if so < 1 then .error .orderSmall
        else .ok fun i j k => if (vp i j k * dt) / (dim * cell i j k) > crMax / (dim * so) then
          (vp i j k * dt) / (dim * (crMax / (dim * so))) else cell i j k := rfl
    rw [e]
    unfold Sizing.courant
    by_cases a : crMax = 0 ∨ dt = 0 ∨ so = 0
    · rw [if_pos a, if_pos a]
    · rw [if_neg a, if_neg a]
      by_cases b : crMax < 0
      · rw [if_pos b, if_pos b]
      · rw [if_neg b, if_neg b]
        by_cases c : dt < 0
        · rw [if_pos c, if_pos c]
        · rw [if_neg c, if_neg c]
          by_cases d : so < 1
          · rw [if_pos d, if_pos d]
          · rw [if_neg d, if_neg d]

/-! ## binary64 -/

theorem double {x : ℚ} : Fl.binary64 (2 * x) = 2 * Fl.binary64 x := by
  have hpos : ∀ x : ℚ, 0 < x → Fl.pos53 (2 * x) = 2 * Fl.pos53 x := by
    intro x hx
    have hl : Int.log 2 (2 * x) = Int.log 2 x + 1 := by
      apply le_antisymm
      · by_contra hc
        have h3 : (2 : ℚ) ^ (Int.log 2 x + 1 + 1) ≤ (2 : ℚ) ^ (Int.log 2 (2 * x)) := zpow_le_zpow_right₀ (by norm_num) (by omega)
        have h4 := h3.trans (Fl.log_le (by linarith))
        have h5 := Fl.lt_log x
        rw [zpow_add_one₀ (by norm_num)] at h4
        linarith
      · by_contra hc
        have h3 : (2 : ℚ) ^ (Int.log 2 (2 * x) + 1) ≤ (2 : ℚ) ^ (Int.log 2 x + 1) := zpow_le_zpow_right₀ (by norm_num) (by omega)
        have h4 := (Fl.lt_log (2 * x)).trans_le h3
        have h5 := Fl.log_le hx
        rw [zpow_add_one₀ (by norm_num)] at h4
        linarith
    unfold Fl.pos53
    rw [hl]
    have e : (2 : ℚ) ^ (52 - Int.log 2 x) = 2 * (2 : ℚ) ^ (52 - (Int.log 2 x + 1)) := by
      rw [← zpow_one_add₀ (by norm_num)]
      congr 1
      ring
    have e1 : 2 * x * (2 : ℚ) ^ (52 - (Int.log 2 x + 1)) = x * (2 : ℚ) ^ (52 - Int.log 2 x) := by rw [e]; ring
    rw [e1, e]
    have : (2 : ℚ) ^ (52 - (Int.log 2 x + 1)) ≠ 0 := by positivity
    field_simp
  rcases lt_trichotomy x 0 with h | rfl | h
  · have e : Fl.binary64 x = -Fl.pos53 (-x) := if_neg (not_le.2 h)
    have e2 : Fl.binary64 (2 * x) = -Fl.pos53 (-(2 * x)) := if_neg (by linarith)
    rw [e, e2, show -(2 * x) = 2 * -x by ring, hpos _ (by linarith)]
    ring
  · simp [Fl.binary64_zero]
  · have e : Fl.binary64 x = Fl.pos53 x := if_pos h.le
    have e2 : Fl.binary64 (2 * x) = Fl.pos53 (2 * x) := if_pos (by linarith)
    rw [e, e2, hpos _ h]

/-- **C109f.** Rounding to 53 bits meets the hypotheses of C109a-d. -/
theorem C109_binary64 : Rounding Fl.binary64 ∧ Fl.binary64 1 = 1 ∧ (∀ x, Fl.binary64 (2 * x) = 2 * Fl.binary64 x) ∧
    (∀ x, 0 < x → 0 < Fl.binary64 x) ∧ Accurate Fl.binary64 (1 / 2 ^ 53) := by
  refine ⟨LimgradFl.C106_binary64.1, ?_, fun x => double, fun x hx => ?_, LimgradFl.C106_binary64.2⟩
  · have := Fl.binary64_int (n := 1) (by norm_num) (by norm_num)
    simpa using this
  · have e : Fl.binary64 x = Fl.pos53 x := if_pos hx.le
    rw [e]
    exact Fl.pos53_pos hx

/-- binary64 arithmetic. -/
abbrev b64 : Arith (Repr Fl.binary64) := arith C109_binary64.1 C109_binary64.2.1

/-- A binary64 number given by its value. -/
def num (q : ℚ) (h : Fl.binary64 q = q) : Repr Fl.binary64 := ⟨q, h⟩

theorem of_check {e : Except Err (Arr (Repr Fl.binary64) × Bool)} {P : ℚ → Prop} [DecidablePred P]
    (h : (match e with | .ok r => decide (P (r.1 0 0 0).1) | .error _ => false) = true) : ∃ out c, e = .ok (out, c) ∧ P (out 0 0 0).1 := by
  match e with
  | .ok (out, c) => exact ⟨out, c, rfl, of_decide_eq_true h⟩
  | .error _ => cases h

/-- **C109g.** In three dimensions the limit is really missed: one node, `hmin` = 119.48.. requested, `dt` = 1/128; the returned size is
smaller than `hmin`. -/
theorem C109_below_hmin : ∃ out c,
    sizes b64 10000 1 1 1 (num 0 (by decide +kernel)) (num 3 (by decide +kernel))
      (fun _ _ _ => num (286399526487377 / 137438953472) (by decide +kernel))
      (fun _ _ _ => num (8407749158088899 / 70368744177664) (by decide +kernel))
      (num (8407749158088899 / 70368744177664) (by decide +kernel)) (num 1000 (by decide +kernel))
      (num (1534095245368641 / 2251799813685248) (by decide +kernel)) (num (1 / 128) (by decide +kernel))
      (num 5 (by decide +kernel)) (num 0 (by decide +kernel)) (num 1 (by decide +kernel)) = .ok (out, c) ∧
    (out 0 0 0).1 < 8407749158088899 / 70368744177664 := by
  apply of_check (P := fun x => x < 8407749158088899 / 70368744177664)
  decide +kernel

/-- A case that meets the hypotheses of C109a: one node, no time step. -/
example : ∃ out c,
    sizes b64 10000 1 1 1 (num 0 (by decide +kernel)) (num 2 (by decide +kernel)) (fun _ _ _ => num 1500 (by decide +kernel))
      (fun _ _ _ => num 10 (by decide +kernel)) (num 50 (by decide +kernel)) (num 1000 (by decide +kernel)) (num 1 (by decide +kernel))
      (num 0 (by decide +kernel)) (num 5 (by decide +kernel)) (num (1 / 4) (by decide +kernel)) (num 1 (by decide +kernel)) = .ok (out, c) ∧
    (out 0 0 0).1 = 50 := by
  apply of_check (P := fun x => x = 50)
  decide +kernel

/-- A case that meets the hypotheses of C109b and C109d: one node, the time step asks for a size above the requested one. -/
example : ∃ out c,
    sizes b64 10000 1 1 1 (num 0 (by decide +kernel)) (num 2 (by decide +kernel)) (fun _ _ _ => num 1500 (by decide +kernel))
      (fun _ _ _ => num 10 (by decide +kernel)) (num 50 (by decide +kernel)) (num 1000 (by decide +kernel)) (num (1 / 4) (by decide +kernel))
      (num (1 / 64) (by decide +kernel)) (num 4 (by decide +kernel)) (num 0 (by decide +kernel)) (num 1 (by decide +kernel)) = .ok (out, c) ∧
    (out 0 0 0).1 = 375 := by
  apply of_check (P := fun x => x = 375)
  decide +kernel

end SM.SizingFl
