import Verif.Props.Sizing
import Mathlib.Tactic.Linarith
import Mathlib.Tactic.Ring
import Mathlib.Tactic.FieldSimp
import Mathlib.Tactic.Positivity
import Mathlib.Tactic.NormNum

/-!
# C91: the gradation of the sizing function that is returned

`grade` is documented as "maximum allowable variation in mesh size in decimal percent"
(mesh_size_function.py:66-67). C03 is about the limiter; here the whole of
`get_sizing_function_from_segy` is composed: request, clamp, timestep stage, limiter, padding, and the node
spacing of the interpolant built on the resulting grid.

* sizes at neighbouring nodes differ by at most `(z1 - z0)/nz * grade` (plus the limiter's tolerance) if the
  size range is within 9999 such steps and the padding is absent or of style `edge`;
* per unit of length this is `grade` along depth, and along the other axes if their spacing is not smaller;
* with a smaller spacing along `x`, or with `constant`/`linear_ramp` padding, it is false.
-/

namespace SM.Sizing

open Limgrad (InGrid Adjacent GradedBy at3 IsMin)

variable {K : Type*} [Field K] [LinearOrder K] [IsStrictOrderedRing K]

/-- Distance of neighbouring nodes of `np.linspace(lo, hi, n)`, the axes of the interpolant
(sizing/mesh_size_function.py:391-405, 514-523). -/
def spacing (lo hi : K) (n : ℕ) : K := (hi - lo) / ((n : K) - 1)

variable [FloorSemiring K]

/-- Clamping an index to a block keeps neighbours equal or adjacent. -/
theorem clampIdx_step (b n i : ℕ) :
    min (i + 1 - b) (n - 1) = min (i - b) (n - 1) ∨ min (i + 1 - b) (n - 1) = min (i - b) (n - 1) + 1 := by
  omega

theorem graded_edge {d0 d1 d2 b0 b1 b2 : ℕ} (h0 : 0 < d0) (h1 : 0 < d1) (h2 : 0 < d2) {A : Arr K}
    {bound m : K} (hb : 0 ≤ bound) (hA : GradedBy d0 d1 d2 bound A) (D0 D1 D2 : ℕ) :
    GradedBy D0 D1 D2 bound (pad3 .edge m d0 d1 d2 b0 b1 b2 A) := by
  have e : ∀ i j k, pad3 .edge m d0 d1 d2 b0 b1 b2 A i j k =
      A (min (i - b0) (d0 - 1)) (min (j - b1) (d1 - 1)) (min (k - b2) (d2 - 1)) := by
    intro i j k
    simp only [pad3, pad1_edge _ _ h0, pad1_edge _ _ h1, pad1_edge _ _ h2]
  have inb : ∀ i b n : ℕ, 0 < n → min (i - b) (n - 1) < n := by intros; omega
  have key : ∀ p q : Limgrad.Node, Limgrad.Succ p q →
      |at3 (pad3 .edge m d0 d1 d2 b0 b1 b2 A) p - at3 (pad3 .edge m d0 d1 d2 b0 b1 b2 A) q| ≤ bound := by
    rintro ⟨i, j, k⟩ q hq
    simp only [at3, e]
    rcases hq with rfl | rfl | rfl
    · rcases clampIdx_step b0 d0 i with h | h
      · simp only [h, sub_self, abs_zero]; exact hb
      · have := hA (min (i - b0) (d0 - 1), min (j - b1) (d1 - 1), min (k - b2) (d2 - 1))
          (min (i + 1 - b0) (d0 - 1), min (j - b1) (d1 - 1), min (k - b2) (d2 - 1))
          ⟨inb _ _ _ h0, inb _ _ _ h1, inb _ _ _ h2⟩ ⟨inb _ _ _ h0, inb _ _ _ h1, inb _ _ _ h2⟩
          (.inl (.inl (by simp only [h])))
        exact this
    · rcases clampIdx_step b1 d1 j with h | h
      · simp only [h, sub_self, abs_zero]; exact hb
      · have := hA (min (i - b0) (d0 - 1), min (j - b1) (d1 - 1), min (k - b2) (d2 - 1))
          (min (i - b0) (d0 - 1), min (j + 1 - b1) (d1 - 1), min (k - b2) (d2 - 1))
          ⟨inb _ _ _ h0, inb _ _ _ h1, inb _ _ _ h2⟩ ⟨inb _ _ _ h0, inb _ _ _ h1, inb _ _ _ h2⟩
          (.inl (.inr (.inl (by simp only [h]))))
        exact this
    · rcases clampIdx_step b2 d2 k with h | h
      · simp only [h, sub_self, abs_zero]; exact hb
      · have := hA (min (i - b0) (d0 - 1), min (j - b1) (d1 - 1), min (k - b2) (d2 - 1))
          (min (i - b0) (d0 - 1), min (j - b1) (d1 - 1), min (k + 1 - b2) (d2 - 1))
          ⟨inb _ _ _ h0, inb _ _ _ h1, inb _ _ _ h2⟩ ⟨inb _ _ _ h0, inb _ _ _ h1, inb _ _ _ h2⟩
          (.inl (.inr (.inr (by simp only [h]))))
        exact this
  intro p q _ _ hpq
  rcases hpq with h | h
  · exact key p q h
  · rw [abs_sub_comm]; exact key q p h

/-- The limiter's output inside the pipeline. -/
theorem graded_interior {seps : K} {d0 d1 d2 : ℕ} {o : Opts K} {bbox : List K} {bb : Bbox K} {vp : Arr K}
    {req : Arr (Fl K)} {cell cell1 cell2 : Arr K}
    (h0 : 0 < d0) (h1 : 0 < d1) (h2 : 0 < d2) (hs : 0 ≤ seps) (hb : OrderedBbox bbox)
    (hp : 0 < o.hmin) (hle : o.hmin ≤ o.hmax) (hgr : 0 < o.grade)
    (hdt : o.dt = 0 ∨ AllNodes d0 d1 d2 fun i j k => vp i j k * o.dt * o.spaceOrder / o.crMax ≤ o.hmax)
    (hbb : parseBbox bbox = .ok bb)
    (hrange : o.hmax - o.hmin ≤ 9999 * (bb.zLen / d0 * o.grade))
    (hf : finite d0 d1 d2 (fun i j k => clamp o.hmin o.hmax (req i j k)) = some cell)
    (hc : courant bb.dim vp cell o.crMax o.dt o.spaceOrder = .ok cell1)
    (hg : gradation Limgrad.shippedCap seps d0 d1 d2 cell1 o.grade (bb.zLen / d0) = .ok cell2) :
    GradedBy d0 d1 d2 (bb.zLen / d0 * o.grade + o.hmax * seps) cell2 := by
  have hst := cell_stages h0 h1 h2 hs hb hp hle hbb hf hc hg
  have hdim : 0 < bb.dim := by cases bb <;> simp [Bbox.dim]
  have hup : AllNodes d0 d1 d2 fun i j k => cell1 i j k ≤ o.hmax := by
    intro i hi j hj k hk
    obtain ⟨a1, a2, a3, a4, a5⟩ := hst i hi j hj k hk
    rcases courant_ok hc with ⟨-, rfl⟩ | ⟨hcr, hd, hso, e⟩
    · exact a2
    · rw [e, courant_max hdim (lt_of_lt_of_le hp a1) hcr hso]
      rcases hdt with hdt | hdt
      · exact absurd hdt hd.ne'
      · exact max_le a2 (hdt i hi j hj k hk)
  have hlo : AllNodes d0 d1 d2 fun i j k => o.hmin ≤ cell1 i j k := by
    intro i hi j hj k hk
    obtain ⟨a1, a2, a3, a4, a5⟩ := hst i hi j hj k hk
    exact a1.trans a3
  obtain ⟨i', hi', j', hj', k', hk', e⟩ := amin_attained cell1 h0 h1 h2
  have hmin : IsMin d0 d1 d2 cell1 (amin d0 d1 d2 cell1) :=
    ⟨fun p hp => amin_le cell1 hp.1 hp.2.1 hp.2.2, (i', j', k'), ⟨hi', hj', hk'⟩, e.symm⟩
  have hma : o.hmin ≤ amin d0 d1 d2 cell1 := le_amin cell1 h0 h1 h2 hlo
  have hmM : amin d0 d1 d2 cell1 ≤ o.hmax := (amin_le cell1 h0 h1 h2).trans (hup 0 h0 0 h1 0 h2)
  obtain ⟨R, hR, hG⟩ := Limgrad.C03_shipped (M := o.hmax) (elen := bb.zLen / d0) (grade := o.grade) hs
    (div_nonneg (zLen_nonneg hb hbb) (by positivity)) hmin (hp.le.trans hma) hgr
    (fun p hp => hup _ hp.1 _ hp.2.1 _ hp.2.2) (by linarith)
  obtain ⟨c, hc'⟩ := gradation_ok hg
  rw [hR] at hc'
  cases hc'
  intro p q hp hq hpq
  refine (hG p q hp hq hpq).trans ?_
  have : amin d0 d1 d2 cell1 * seps ≤ o.hmax * seps := mul_le_mul_of_nonneg_right hmM hs
  linarith

/-! ### C11, end to end -/

/-- `m` is the minimum of `A`. -/
def IsMinArr (d0 d1 d2 : ℕ) (A : Arr K) (m : K) : Prop :=
  (AllNodes d0 d1 d2 fun i j k => m ≤ A i j k) ∧ ∃ i < d0, ∃ j < d1, ∃ k < d2, A i j k = m

/-- The value of the gradient request: `grad / ((s² - min s²)/max s² + 1/10)`. -/
theorem gradientSizing_value {d0 d1 d2 : ℕ} {w : ℕ × ℕ × ℕ} {vp : Arr K} {grad lo hi : K} (hg : 0 < grad)
    (h0 : 0 < d0) (h1 : 0 < d1) (h2 : 0 < d2) (hlo : IsMinArr d0 d1 d2 (winVar d0 d1 d2 w vp) lo)
    (hhi : IsMax d0 d1 d2 (winVar d0 d1 d2 w vp) hi) (hpos : hi ≠ 0) :
    ∃ F, gradientSizing d0 d1 d2 w vp grad = .ok F ∧ AllNodes d0 d1 d2 fun i j k =>
      F i j k = .fin (grad / ((winVar d0 d1 d2 w vp i j k - lo) / hi + 1 / 10)) := by
  have ehi : amax d0 d1 d2 (winVar d0 d1 d2 w vp) = hi := by
    obtain ⟨i, hi', j, hj, k, hk, e⟩ := hhi.2
    refine le_antisymm (amax_le _ h0 h1 h2 hhi.1) ?_
    rw [← e]; exact le_amax _ hi' hj hk
  have hhi0 : 0 < hi := by
    obtain ⟨i, hi', j, hj, k, hk, e⟩ := hhi.2
    have := winVar_nonneg d0 d1 d2 w vp hi' hj hk
    rw [e] at this
    exact lt_of_le_of_ne this (Ne.symm hpos)
  have elo : amin d0 d1 d2 (fun i j k => winVar d0 d1 d2 w vp i j k / hi) = lo / hi := by
    refine le_antisymm ?_ (le_amin _ h0 h1 h2 fun i hi' j hj k hk =>
      div_le_div_of_nonneg_right (hlo.1 i hi' j hj k hk) hhi0.le)
    obtain ⟨i, hi', j, hj, k, hk, e⟩ := hlo.2
    rw [← e]
    exact amin_le (fun i j k => winVar d0 d1 d2 w vp i j k / hi) hi' hj hk
  refine ⟨fun i j k => fdiv grad (winVar d0 d1 d2 w vp i j k / hi - lo / hi + 1 / 10), ?_, ?_⟩
  · unfold gradientSizing
    rw [if_neg hg.ne', if_neg (not_lt.2 hg.le)]
    simp only [ehi, elo]
    rw [if_neg hpos]
  · intro i hi' j hj k hk
    have hd : 0 < winVar d0 d1 d2 w vp i j k / hi - lo / hi + 1 / 10 := by
      have := div_le_div_of_nonneg_right (hlo.1 i hi' j hj k hk) hhi0.le
      linarith
    simp only
    unfold fdiv
    rw [if_neg hd.ne', sub_div]

/-- **C11 (returned sizes).** With `grad > 0`, no timestep option and a window variance `s²` with minimum
`lo` and maximum `hi ≠ 0`, every node of the unpadded block of the returned grid has a size of at most
`max hmin (grad / ((s² - lo)/hi + 0.1))`, whatever the other options are. -/
theorem C11_returned {imax : ℕ} {seps : K} {d0 d1 d2 : ℕ} {o : Opts K} {names : List String}
    {bbox : List K} {vp0 V : Arr K} {out : Out K} {lo hi : K}
    (h0 : 0 < d0) (h1 : 0 < d1) (h2 : 0 < d2) (hs : 0 ≤ seps) (hb : OrderedBbox bbox)
    (hp : 0 < o.hmin) (hle : o.hmin ≤ o.hmax) (hgr : 0 < o.grad) (hdt : o.dt = 0)
    (hV : Prepared d0 d1 d2 o vp0 V)
    (hlo : IsMinArr d0 d1 d2 (winVar d0 d1 d2 o.window V) lo)
    (hhi : IsMax d0 d1 d2 (winVar d0 d1 d2 o.window V) hi) (hpos : hi ≠ 0)
    (h : sizing imax seps d0 d1 d2 o names bbox vp0 = .ok (some out)) :
    ∃ b0 b1 b2, out.d0 = b0 + d0 ∧ out.d1 = b1 + d1 + b1 ∧ out.d2 = b2 + d2 + b2 ∧
      AllNodes d0 d1 d2 fun i j k => out.cell (b0 + i) (b1 + j) (b2 + k) ≤
        max o.hmin (o.grad / ((winVar d0 d1 d2 o.window V i j k - lo) / hi + 1 / 10)) := by
  obtain ⟨vp, bb, req, cell, cell1, cell2, hvp, hbb, -, hreq, hf, hc, hg, hpad⟩ := sizing_some h
  have : vp = V := by unfold Prepared at hV; rw [hV] at hvp; cases hvp; rfl
  subst this
  have hst := cell_stages h0 h1 h2 hs hb hp hle hbb hf hc hg
  obtain ⟨F, hF, hFv⟩ := gradientSizing_value hgr h0 h1 h2 hlo hhi hpos
  have hcells : AllNodes d0 d1 d2 fun i j k => cell2 i j k ≤
      max o.hmin (o.grad / ((winVar d0 d1 d2 o.window vp i j k - lo) / hi + 1 / 10)) := by
    intro i hi' j hj k hk
    obtain ⟨a1, a2, a3, a4, a5⟩ := hst i hi' j hj k hk
    have e1 : cell1 i j k = cell i j k := by
      rcases courant_ok hc with ⟨-, rfl⟩ | ⟨-, hd, -, -⟩
      · rfl
      · exact absurd hdt hd.ne'
    refine le_trans a5 (e1 ▸ ?_)
    have hfin := finite_some hf hi' hj hk
    unfold requested at hreq
    rw [if_pos (Or.inr hgr), hF] at hreq
    split at hreq
    · cases hreq
    · rename_i a ha
      cases hreq
      simp only [hFv i hi' j hj k hk] at hfin
      cases hx : a i j k with
      | nan => rw [hx] at hfin; simp only [fmin, clamp_nan] at hfin; cases hfin
      | ninf => rw [hx] at hfin; exact clamp_le (.inl rfl) hfin
      | pinf => rw [hx] at hfin; exact clamp_le (.inr ⟨_, le_rfl, rfl⟩) hfin
      | fin y => rw [hx] at hfin; exact clamp_le (.inr ⟨_, min_le_right _ _, rfl⟩) hfin
  rcases buildPad_ok hpad with ⟨-, rfl⟩ | ⟨-, st, b0, b1, b2, -, e0, e1, e2, ec, -⟩
  · exact ⟨0, 0, 0, by simp, by simp, by simp, by simpa using hcells⟩
  · refine ⟨b0, b1, b2, by omega, by omega, by omega, fun i hi' j hj k hk => ?_⟩
    simp only [ec, pad3_block _ _ _ _ _ _ _ _ _ hi' hj hk]
    exact hcells i hi' j hj k hk

/-- The hypotheses are met: two columns of velocity 1 and 3; the window variances are 0 and 1. -/
example : IsMinArr 1 2 1 (winVar 1 2 1 (1, 2, 1) (fun _ j _ => 1 + 2 * (j : ℚ))) 0 ∧
    IsMax 1 2 1 (winVar 1 2 1 (1, 2, 1) (fun _ j _ => 1 + 2 * (j : ℚ))) 1 ∧
    okAnd (K := ℚ) (sizing Limgrad.shippedCap (1 / 67108864) 1 2 1
      { Opts.default with hmin := 1 / 10, hmax := 100, grad := 2, window := (1, 2, 1) } [] [0, 1, 0, 1]
      (fun _ j _ => 1 + 2 * (j : ℚ)))
      (fun out => decide (out.cell 0 0 0 = 20 ∧ out.cell 0 1 0 = 2 / (11 / 10))) = true := by
  refine ⟨⟨?_, ?_⟩, ⟨?_, ?_⟩, ?_⟩ <;> first | decide +kernel | skip
  · unfold AllNodes; decide +kernel
  · unfold AllNodes; decide +kernel

/-- Depth extent of a bbox as the user passes it. -/
def depthOf : List K → K
  | z0 :: z1 :: _ => z1 - z0
  | _ => 0

theorem depthOf_parse {bbox : List K} {bb : Bbox K} (hp : parseBbox bbox = .ok bb) :
    bb.zLen = depthOf bbox := by
  unfold parseBbox at hp
  split at hp <;> cases hp <;> rfl

/-- **C91 (a), partial.** With `grade > 0`, `0 < hmin ≤ hmax`, a size range of at most 9999 steps, a timestep
stage that is off or asks for nothing above `hmax`, and no padding or padding of style `edge`: the sizes at
neighbouring nodes of the returned grid differ by at most `depth/nz * grade`, plus `hmax * eps` for the
tolerance of the limiter. Missing: the other two styles (`C91_constant_pad_false`, `C91_ramp_pad_false`). -/
theorem C91_nodes_partial {seps : K} {d0 d1 d2 : ℕ} {o : Opts K} {names : List String} {bbox : List K}
    {vp0 V : Arr K} {out : Out K} (h0 : 0 < d0) (h1 : 0 < d1) (h2 : 0 < d2) (hs : 0 ≤ seps)
    (hb : OrderedBbox bbox) (hp : 0 < o.hmin) (hle : o.hmin ≤ o.hmax) (hgr : 0 < o.grade)
    (hV : Prepared d0 d1 d2 o vp0 V)
    (hdt : o.dt = 0 ∨ AllNodes d0 d1 d2 fun i j k => V i j k * o.dt * o.spaceOrder / o.crMax ≤ o.hmax)
    (hrange : o.hmax - o.hmin ≤ 9999 * (depthOf bbox / d0 * o.grade))
    (hst : o.domainPad = 0 ∨ o.padStyle = "edge")
    (h : sizing Limgrad.shippedCap seps d0 d1 d2 o names bbox vp0 = .ok (some out)) :
    GradedBy out.d0 out.d1 out.d2 (depthOf bbox / d0 * o.grade + o.hmax * seps) out.cell := by
  obtain ⟨vp, bb, req, cell, cell1, cell2, hvp, hbb, -, -, hf, hc, hg, hpad⟩ := sizing_some h
  have : vp = V := by unfold Prepared at hV; rw [hV] at hvp; cases hvp; rfl
  subst this
  rw [← depthOf_parse hbb] at hrange ⊢
  have hG := graded_interior h0 h1 h2 hs hb hp hle hgr hdt hbb hrange hf hc hg
  have hnn : 0 ≤ bb.zLen / d0 * o.grade + o.hmax * seps := by
    have := zLen_nonneg hb hbb
    have := hp.le.trans hle
    positivity
  rcases buildPad_ok hpad with ⟨-, rfl⟩ | ⟨hpp, st, b0, b1, b2, hps, e0, e1, e2, ec, -⟩
  · exact hG
  · rcases hst with hst | hst
    · rw [hst] at hpp; exact absurd hpp (lt_irrefl _)
    · rw [hst] at hps
      have : st = .edge := by
        have h' : parseStyle "edge" = .ok .edge := rfl
        rw [h'] at hps; cases hps; rfl
      subst this
      rw [ec]
      exact graded_edge h0 h1 h2 hnn hG _ _ _

/-- **C91 (b).** Whatever the padding style, the unpadded part of the returned grid is graded. -/
theorem C91_interior {seps : K} {d0 d1 d2 : ℕ} {o : Opts K} {names : List String} {bbox : List K}
    {vp0 V : Arr K} {out : Out K} (h0 : 0 < d0) (h1 : 0 < d1) (h2 : 0 < d2) (hs : 0 ≤ seps)
    (hb : OrderedBbox bbox) (hp : 0 < o.hmin) (hle : o.hmin ≤ o.hmax) (hgr : 0 < o.grade)
    (hV : Prepared d0 d1 d2 o vp0 V)
    (hdt : o.dt = 0 ∨ AllNodes d0 d1 d2 fun i j k => V i j k * o.dt * o.spaceOrder / o.crMax ≤ o.hmax)
    (hrange : o.hmax - o.hmin ≤ 9999 * (depthOf bbox / d0 * o.grade))
    (h : sizing Limgrad.shippedCap seps d0 d1 d2 o names bbox vp0 = .ok (some out)) :
    ∃ b0 b1 b2, out.d0 = b0 + d0 ∧ out.d1 = b1 + d1 + b1 ∧ out.d2 = b2 + d2 + b2 ∧
      GradedBy d0 d1 d2 (depthOf bbox / d0 * o.grade + o.hmax * seps)
        (fun i j k => out.cell (b0 + i) (b1 + j) (b2 + k)) := by
  obtain ⟨vp, bb, req, cell, cell1, cell2, hvp, hbb, -, -, hf, hc, hg, hpad⟩ := sizing_some h
  have : vp = V := by unfold Prepared at hV; rw [hV] at hvp; cases hvp; rfl
  subst this
  rw [← depthOf_parse hbb] at hrange ⊢
  have hG := graded_interior h0 h1 h2 hs hb hp hle hgr hdt hbb hrange hf hc hg
  rcases buildPad_ok hpad with ⟨-, rfl⟩ | ⟨hpp, st, b0, b1, b2, hps, e0, e1, e2, ec, -⟩
  · exact ⟨0, 0, 0, by simp, by simp, by simp, by simpa using hG⟩
  · refine ⟨b0, b1, b2, by omega, by omega, by omega, ?_⟩
    intro p q hp' hq' hpq
    have := hG p q hp' hq' hpq
    simp only [at3, ec] at this ⊢
    rwa [pad3_block _ _ _ _ _ _ _ _ _ hp'.1 hp'.2.1 hp'.2.2,
      pad3_block _ _ _ _ _ _ _ _ _ hq'.1 hq'.2.1 hq'.2.2]

/-- The nodes of the padded axis are not closer than `len/n`. -/
theorem spacing_ge {len pad lo hi : K} {n b c : ℕ} (hlen : 0 < len) (hpad : 0 ≤ pad) (hn : 0 < n)
    (hb : b ≤ padCells pad len n) (he : hi - lo = len + c * pad) (h1 : 1 < n + c * b) :
    len / n ≤ spacing lo hi (n + c * b) := by
  have hn' : (0 : K) < n := by exact_mod_cast hn
  have hd : (0 : K) < ((n + c * b : ℕ) : K) - 1 := by
    have : (1 : K) < ((n + c * b : ℕ) : K) := by exact_mod_cast h1
    linarith
  have hfl : (b : K) * (len / n) ≤ pad := by
    have hq : 0 < len / (n : K) := div_pos hlen hn'
    have := Nat.floor_le (R := K) (a := pad / (len / n)) (div_nonneg hpad hq.le)
    have hb' : (b : K) ≤ (padCells pad len n : ℕ) := by exact_mod_cast hb
    have := hb'.trans this
    rwa [le_div_iff₀ hq] at this
  unfold spacing
  rw [he, le_div_iff₀ hd]
  push_cast
  have e1 : len / n * (n + c * b - 1) = len + c * (b * (len / n)) - len / n := by
    field_simp
  rw [e1]
  have : (c : K) * (b * (len / n)) ≤ c * pad := mul_le_mul_of_nonneg_left hfl (by positivity)
  have : 0 < len / (n : K) := div_pos hlen hn'
  linarith

/-- The returned bbox and shape, and a lower bound for the node distances (2-D). -/
theorem spacing_2d {d0 d1 d2 : ℕ} {cell vp : Arr K} {z0 z1 x0 x1 pad : K} {style : String} {out : Out K}
    (h0 : 0 < d0) (h1 : 0 < d1) (hz : z0 < z1) (hx : x0 < x1)
    (h : buildPad d0 d1 d2 cell vp (.two z0 z1 x0 x1) pad style = .ok out) :
    ∃ Z0 Z1 X0 X1, out.bbox.toList = [Z0, Z1, X0, X1] ∧
      (1 < out.d0 → (z1 - z0) / d0 ≤ spacing Z0 Z1 out.d0) ∧
      (1 < out.d1 → (x1 - x0) / d1 ≤ spacing X0 X1 out.d1) := by
  unfold buildPad at h
  split_ifs at h with g1 g2
  · split at h
    · cases h
    · cases h
      refine ⟨_, _, _, _, rfl, fun hh => ?_, fun hh => ?_⟩
      · have := spacing_ge (c := 1) (lo := z0 - pad) (hi := z1) (sub_pos.2 hz) g2.le h0 (le_refl _)
          (by push_cast; ring) (by simpa using hh)
        simpa using this
      · exact spacing_ge (c := 2) (lo := x0 - pad) (hi := x1 + pad) (sub_pos.2 hx) g2.le h1 (le_refl _)
          (by push_cast; ring) hh
  · cases h
    refine ⟨_, _, _, _, rfl, fun hh => ?_, fun hh => ?_⟩
    · have := spacing_ge (c := 0) (b := 0) (pad := 0) (lo := z0) (hi := z1) (sub_pos.2 hz) le_rfl h0
        (Nat.zero_le _) (by ring) (by simpa using hh)
      simpa using this
    · have := spacing_ge (c := 0) (b := 0) (pad := 0) (lo := x0) (hi := x1) (sub_pos.2 hx) le_rfl h1
        (Nat.zero_le _) (by ring) (by simpa using hh)
      simpa using this

/-- The same in 3-D. -/
theorem spacing_3d {d0 d1 d2 : ℕ} {cell vp : Arr K} {z0 z1 x0 x1 y0 y1 pad : K} {style : String}
    {out : Out K} (h0 : 0 < d0) (h1 : 0 < d1) (h2 : 0 < d2) (hz : z0 < z1) (hx : x0 < x1) (hy : y0 < y1)
    (h : buildPad d0 d1 d2 cell vp (.three z0 z1 x0 x1 y0 y1) pad style = .ok out) :
    ∃ Z0 Z1 X0 X1 Y0 Y1, out.bbox.toList = [Z0, Z1, X0, X1, Y0, Y1] ∧
      (1 < out.d0 → (z1 - z0) / d0 ≤ spacing Z0 Z1 out.d0) ∧
      (1 < out.d1 → (x1 - x0) / d1 ≤ spacing X0 X1 out.d1) ∧
      (1 < out.d2 → (y1 - y0) / d2 ≤ spacing Y0 Y1 out.d2) := by
  unfold buildPad at h
  split_ifs at h with g1 g2
  · split at h
    · cases h
    · cases h
      refine ⟨_, _, _, _, _, _, rfl, fun hh => ?_, fun hh => ?_, fun hh => ?_⟩
      · have := spacing_ge (c := 1) (lo := z0 - pad) (hi := z1) (sub_pos.2 hz) g2.le h0 (le_refl _)
          (by push_cast; ring) (by simpa using hh)
        simpa using this
      · exact spacing_ge (c := 2) (lo := x0 - pad) (hi := x1 + pad) (sub_pos.2 hx) g2.le h1 (le_refl _)
          (by push_cast; ring) hh
      · exact spacing_ge (c := 2) (lo := y0 - pad) (hi := y1 + pad) (sub_pos.2 hy) g2.le h2 (le_refl _)
          (by push_cast; ring) hh
  · cases h
    refine ⟨_, _, _, _, _, _, rfl, fun hh => ?_, fun hh => ?_, fun hh => ?_⟩
    · have := spacing_ge (c := 0) (b := 0) (pad := 0) (lo := z0) (hi := z1) (sub_pos.2 hz) le_rfl h0
        (Nat.zero_le _) (by ring) (by simpa using hh)
      simpa using this
    · have := spacing_ge (c := 0) (b := 0) (pad := 0) (lo := x0) (hi := x1) (sub_pos.2 hx) le_rfl h1
        (Nat.zero_le _) (by ring) (by simpa using hh)
      simpa using this
    · have := spacing_ge (c := 0) (b := 0) (pad := 0) (lo := y0) (hi := y1) (sub_pos.2 hy) le_rfl h2
        (Nat.zero_le _) (by ring) (by simpa using hh)
      simpa using this

/-- What the documentation promises along one axis of `n` nodes between `lo` and `hi`: sizes at two
neighbouring nodes differ by at most `grade` times their distance, up to `tol`. -/
def SlopeZ (out : Out K) (lo hi grade tol : K) : Prop :=
  ∀ i j k, i + 1 < out.d0 → j < out.d1 → k < out.d2 →
    |out.cell (i + 1) j k - out.cell i j k| ≤ grade * spacing lo hi out.d0 + tol
def SlopeX (out : Out K) (lo hi grade tol : K) : Prop :=
  ∀ i j k, i < out.d0 → j + 1 < out.d1 → k < out.d2 →
    |out.cell i (j + 1) k - out.cell i j k| ≤ grade * spacing lo hi out.d1 + tol
def SlopeY (out : Out K) (lo hi grade tol : K) : Prop :=
  ∀ i j k, i < out.d0 → j < out.d1 → k + 1 < out.d2 →
    |out.cell i j (k + 1) - out.cell i j k| ≤ grade * spacing lo hi out.d2 + tol

/-- **C91 (c), partial, 2-D.** Under the hypotheses of (a), the returned size function changes by at most
`grade` per unit of length along depth, for every aspect ratio; along `x` it does if the cells are not
narrower than high. Missing: narrower cells (`C91_x_false`). -/
theorem C91_slope_2d_partial {seps : K} {d0 d1 d2 : ℕ} {o : Opts K} {names : List String}
    {z0 z1 x0 x1 : K} {vp0 V : Arr K} {out : Out K} (h0 : 0 < d0) (h1 : 0 < d1) (h2 : 0 < d2) (hs : 0 ≤ seps)
    (hz : z0 < z1) (hx : x0 < x1) (hp : 0 < o.hmin) (hle : o.hmin ≤ o.hmax) (hgr : 0 < o.grade)
    (hV : Prepared d0 d1 d2 o vp0 V)
    (hdt : o.dt = 0 ∨ AllNodes d0 d1 d2 fun i j k => V i j k * o.dt * o.spaceOrder / o.crMax ≤ o.hmax)
    (hrange : o.hmax - o.hmin ≤ 9999 * ((z1 - z0) / d0 * o.grade))
    (hst : o.domainPad = 0 ∨ o.padStyle = "edge")
    (h : sizing Limgrad.shippedCap seps d0 d1 d2 o names [z0, z1, x0, x1] vp0 = .ok (some out)) :
    ∃ Z0 Z1 X0 X1, out.bbox.toList = [Z0, Z1, X0, X1] ∧
      SlopeZ out Z0 Z1 o.grade (o.hmax * seps) ∧
      ((z1 - z0) / d0 ≤ (x1 - x0) / d1 → SlopeX out X0 X1 o.grade (o.hmax * seps)) := by
  have hG := C91_nodes_partial h0 h1 h2 hs (bbox := [z0, z1, x0, x1]) ⟨hz.le, hx.le⟩ hp hle hgr hV hdt
    hrange hst h
  obtain ⟨vp, bb, req, cell, cell1, cell2, -, hbb, -, -, -, -, -, hpad⟩ := sizing_some h
  cases hbb
  obtain ⟨Z0, Z1, X0, X1, hbx, sz, sx⟩ := spacing_2d h0 h1 hz hx hpad
  refine ⟨Z0, Z1, X0, X1, hbx, ?_, ?_⟩
  · intro i j k hi hj hk
    refine (hG (i + 1, j, k) (i, j, k) ⟨hi, hj, hk⟩ ⟨Nat.lt_of_succ_lt hi, hj, hk⟩ (.inr (.inl rfl))).trans ?_
    have := mul_le_mul_of_nonneg_right (sz (by omega)) hgr.le
    simp only [depthOf]; linarith
  · intro hw i j k hi hj hk
    refine (hG (i, j + 1, k) (i, j, k) ⟨hi, hj, hk⟩ ⟨hi, Nat.lt_of_succ_lt hj, hk⟩ (.inr (.inr (.inl rfl)))).trans ?_
    have := mul_le_mul_of_nonneg_right (hw.trans (sx (by omega))) hgr.le
    simp only [depthOf]; linarith

/-- **C91 (c), partial, 3-D.** -/
theorem C91_slope_3d_partial {seps : K} {d0 d1 d2 : ℕ} {o : Opts K} {names : List String}
    {z0 z1 x0 x1 y0 y1 : K} {vp0 V : Arr K} {out : Out K} (h0 : 0 < d0) (h1 : 0 < d1) (h2 : 0 < d2)
    (hs : 0 ≤ seps) (hz : z0 < z1) (hx : x0 < x1) (hy : y0 < y1) (hp : 0 < o.hmin) (hle : o.hmin ≤ o.hmax)
    (hgr : 0 < o.grade) (hV : Prepared d0 d1 d2 o vp0 V)
    (hdt : o.dt = 0 ∨ AllNodes d0 d1 d2 fun i j k => V i j k * o.dt * o.spaceOrder / o.crMax ≤ o.hmax)
    (hrange : o.hmax - o.hmin ≤ 9999 * ((z1 - z0) / d0 * o.grade))
    (hst : o.domainPad = 0 ∨ o.padStyle = "edge")
    (h : sizing Limgrad.shippedCap seps d0 d1 d2 o names [z0, z1, x0, x1, y0, y1] vp0 = .ok (some out)) :
    ∃ Z0 Z1 X0 X1 Y0 Y1, out.bbox.toList = [Z0, Z1, X0, X1, Y0, Y1] ∧
      SlopeZ out Z0 Z1 o.grade (o.hmax * seps) ∧
      ((z1 - z0) / d0 ≤ (x1 - x0) / d1 → SlopeX out X0 X1 o.grade (o.hmax * seps)) ∧
      ((z1 - z0) / d0 ≤ (y1 - y0) / d2 → SlopeY out Y0 Y1 o.grade (o.hmax * seps)) := by
  have hG := C91_nodes_partial h0 h1 h2 hs (bbox := [z0, z1, x0, x1, y0, y1]) ⟨hz.le, hx.le, hy.le⟩ hp hle
    hgr hV hdt hrange hst h
  obtain ⟨vp, bb, req, cell, cell1, cell2, -, hbb, -, -, -, -, -, hpad⟩ := sizing_some h
  cases hbb
  obtain ⟨Z0, Z1, X0, X1, Y0, Y1, hbx, sz, sx, sy⟩ := spacing_3d h0 h1 h2 hz hx hy hpad
  refine ⟨Z0, Z1, X0, X1, Y0, Y1, hbx, ?_, ?_, ?_⟩
  · intro i j k hi hj hk
    refine (hG (i + 1, j, k) (i, j, k) ⟨hi, hj, hk⟩ ⟨Nat.lt_of_succ_lt hi, hj, hk⟩ (.inr (.inl rfl))).trans ?_
    have := mul_le_mul_of_nonneg_right (sz (by omega)) hgr.le
    simp only [depthOf]; linarith
  · intro hw i j k hi hj hk
    refine (hG (i, j + 1, k) (i, j, k) ⟨hi, hj, hk⟩ ⟨hi, Nat.lt_of_succ_lt hj, hk⟩ (.inr (.inr (.inl rfl)))).trans ?_
    have := mul_le_mul_of_nonneg_right (hw.trans (sx (by omega))) hgr.le
    simp only [depthOf]; linarith
  · intro hw i j k hi hj hk
    refine (hG (i, j, k + 1) (i, j, k) ⟨hi, hj, hk⟩ ⟨hi, hj, Nat.lt_of_succ_lt hk⟩ (.inr (.inr (.inr rfl)))).trans ?_
    have := mul_le_mul_of_nonneg_right (hw.trans (sy (by omega))) hgr.le
    simp only [depthOf]; linarith

/-! ### where it fails -/

/-- Sizes 1 and 10 are requested at `x = 0` and `x = 1`; two layers over a depth of 100. -/
def steepOpts : Opts ℚ :=
  { Opts.default with hmin := 1, hmax := 10, wl := 1, freq := 1, grade := 1 / 10 }
def steepV : Arr ℚ := fun _ j _ => if j = 0 then 1 else 10

/-- **C91, negation (x direction).** `grade = 0.1`, nodes at `x = 0` and `x = 1`: the returned sizes differ
by 5 over a distance of 1, since the limiter takes `depth/nz = 50` for the distance of all neighbours. -/
theorem C91_x_false :
    ∃ out, sizing Limgrad.shippedCap (1 / 67108864) 2 2 1 steepOpts [] [0, 100, 0, 1] steepV = .ok (some out) ∧
      out.bbox.toList = [0, 100, 0, 1] ∧ out.cell 0 1 0 - out.cell 0 0 0 = 5 ∧
      ¬ SlopeX out 0 1 steepOpts.grade (steepOpts.hmax * (1 / 67108864)) := by
  have key : okAnd (K := ℚ) (sizing Limgrad.shippedCap (1 / 67108864) 2 2 1 steepOpts [] [0, 100, 0, 1] steepV)
      (fun out => decide (out.d0 = 2 ∧ out.d1 = 2 ∧ out.d2 = 1 ∧ out.bbox.toList = [0, 100, 0, 1] ∧
        out.cell 0 1 0 - out.cell 0 0 0 = 5)) = true := by decide +kernel
  obtain ⟨out, h1, h2⟩ := okAnd_spec key
  obtain ⟨e0, e1, e2, eb, ec⟩ := of_decide_eq_true h2
  refine ⟨out, h1, eb, ec, fun hsl => ?_⟩
  have := hsl 0 0 0 (by omega) (by omega) (by omega)
  rw [show (0 + 1 : ℕ) = 1 from rfl, ec, e1] at this
  norm_num [spacing, steepOpts] at this

/-- As `steepOpts`, on square cells, with padding. -/
def padOpts (style : String) : Opts ℚ :=
  { Opts.default with hmin := 1, hmax := 10, wl := 1, freq := 1, grade := 1 / 10, domainPad := 50,
                      padStyle := style }

/-- **C91, negation (padding).** Square cells of 50 x 50, `grade = 0.1`, so neighbouring sizes may differ by 5.
With `constant` padding the node next to the outermost `x` node of size 1 has the maximal size 10: a
difference of 9. -/
theorem C91_constant_pad_false :
    ∃ out, sizing Limgrad.shippedCap (1 / 67108864) 3 3 1 (padOpts "constant") [] [0, 150, 0, 150]
        (fun _ j _ => if j = 0 then 1 else 10) = .ok (some out) ∧
      out.cell 0 0 0 - out.cell 1 1 0 = 9 ∧ out.cell 1 0 0 - out.cell 1 1 0 = 9 ∧
      ¬ GradedBy out.d0 out.d1 out.d2 (50 * (1 / 10) + 10 * (1 / 67108864)) out.cell := by
  have key : okAnd (K := ℚ) (sizing Limgrad.shippedCap (1 / 67108864) 3 3 1 (padOpts "constant") []
      [0, 150, 0, 150] (fun _ j _ => if j = 0 then 1 else 10))
      (fun out => decide (out.d0 = 4 ∧ out.d1 = 5 ∧ out.d2 = 1 ∧ out.cell 0 0 0 - out.cell 1 1 0 = 9 ∧
        out.cell 1 0 0 - out.cell 1 1 0 = 9)) = true := by decide +kernel
  obtain ⟨out, h1, h2⟩ := okAnd_spec key
  obtain ⟨e0, e1, e2, ec, ed⟩ := of_decide_eq_true h2
  refine ⟨out, h1, ec, ed, fun hG => ?_⟩
  have := hG (1, 0, 0) (1, 1, 0) (by simp [InGrid, e0, e1, e2]) (by simp [InGrid, e0, e1, e2])
    (.inl (.inr (.inl rfl)))
  simp only [at3, ed] at this
  norm_num at this

/-- **C91, negation (padding).** With `linear_ramp` padding of one cell the same happens: the ramp from the
maximum has no intermediate node. -/
theorem C91_ramp_pad_false :
    ∃ out, sizing Limgrad.shippedCap (1 / 67108864) 3 3 1 (padOpts "linear_ramp") [] [0, 150, 0, 150]
        (fun _ j _ => if j = 0 then 1 else 10) = .ok (some out) ∧
      out.cell 1 0 0 - out.cell 1 1 0 = 9 ∧
      ¬ GradedBy out.d0 out.d1 out.d2 (50 * (1 / 10) + 10 * (1 / 67108864)) out.cell := by
  have key : okAnd (K := ℚ) (sizing Limgrad.shippedCap (1 / 67108864) 3 3 1 (padOpts "linear_ramp") []
      [0, 150, 0, 150] (fun _ j _ => if j = 0 then 1 else 10))
      (fun out => decide (out.d0 = 4 ∧ out.d1 = 5 ∧ out.d2 = 1 ∧
        out.cell 1 0 0 - out.cell 1 1 0 = 9)) = true := by decide +kernel
  obtain ⟨out, h1, h2⟩ := okAnd_spec key
  obtain ⟨e0, e1, e2, ed⟩ := of_decide_eq_true h2
  refine ⟨out, h1, ed, fun hG => ?_⟩
  have := hG (1, 0, 0) (1, 1, 0) (by simp [InGrid, e0, e1, e2]) (by simp [InGrid, e0, e1, e2])
    (.inl (.inr (.inl rfl)))
  simp only [at3, ed] at this
  norm_num at this

/-- The hypotheses of C91 (a)-(c) are met: the call of `C91_constant_pad_false` with style `edge` succeeds
and the limiter did act (the sizes rise 1, 6, 10 along `x`). -/
example : okAnd (K := ℚ) (sizing Limgrad.shippedCap (1 / 67108864) 3 3 1 (padOpts "edge") []
      [0, 150, 0, 150] (fun _ j _ => if j = 0 then 1 else 10))
      (fun out => decide (out.d0 = 4 ∧ out.d1 = 5 ∧ out.d2 = 1 ∧ out.cell 0 0 0 = 1 ∧ out.cell 1 1 0 = 1 ∧
        out.cell 1 2 0 = 6 ∧ out.cell 1 3 0 = 10 ∧ out.cell 1 4 0 = 10)) = true ∧
    (padOpts "edge").hmax - (padOpts "edge").hmin ≤ 9999 * ((150 - 0) / (3 : ℕ) * (padOpts "edge").grade) ∧
    (padOpts "edge").dt = 0 ∧ ((150 : ℚ) - 0) / (3 : ℕ) ≤ (150 - 0) / (3 : ℕ) ∧
    Prepared 3 3 1 (padOpts "edge") (fun _ j _ => if j = 0 then 1 else 10)
      (fun _ j _ => if j = 0 then 1 else 10) := by
  refine ⟨by decide +kernel, by norm_num [padOpts], rfl, le_rfl, ?_⟩
  unfold Prepared
  have h1 : convertUnits (padOpts "edge").units (fun _ j _ => if j = 0 then (1 : ℚ) else 10) =
      fun _ j _ => if j = 0 then (1 : ℚ) else 10 := by
    simp [convertUnits, padOpts, Opts.default]
  rw [h1]
  simp [replaceWater, padOpts, Opts.default, waterGuard]
  intro _ _ j _ hlt
  split_ifs at hlt <;> norm_num at hlt

end SM.Sizing
