import Verif.Lemmas.Sizing
import Mathlib.Tactic.NormNum
import Mathlib.Data.Rat.Floor

/-!
# C07 - C15, C75: the mesh-size pipeline

Statements are about `sizing`, the rank-0 computation from the velocity array to the grid
behind the returned `SizeFunction`: `out.cell` are the grid sizes, `out.vp` the (converted,
padded) velocities on the same grid of shape `(out.d0, out.d1, out.d2)`, `out.bbox` the bbox.
`vp0` is the array as passed or read.
-/

set_option linter.unusedSectionVars false

namespace SM.Sizing

variable {K : Type*} [Field K] [LinearOrder K] [IsStrictOrderedRing K]

/-- `P` holds at all positions of an array of shape `(d0,d1,d2)`. -/
def AllNodes (d0 d1 d2 : ℕ) (P : ℕ → ℕ → ℕ → Prop) : Prop :=
  ∀ i < d0, ∀ j < d1, ∀ k < d2, P i j k

/-- The velocities used for sizing: after unit conversion and replacement of zeros. -/
def Prepared (d0 d1 d2 : ℕ) (o : Opts K) (vp0 V : Arr K) : Prop :=
  replaceWater d0 d1 d2 o.vpWater (convertUnits o.units vp0) = .ok V

/-- A bbox with ordered entries. -/
def OrderedBbox : List K → Prop
  | [z0, z1, x0, x1] => z0 ≤ z1 ∧ x0 ≤ x1
  | [z0, z1, x0, x1, y0, y1] => z0 ≤ z1 ∧ x0 ≤ x1 ∧ y0 ≤ y1
  | _ => False

theorem zLen_nonneg {bbox : List K} {bb : Bbox K} (h : OrderedBbox bbox)
    (hp : parseBbox bbox = .ok bb) : 0 ≤ bb.zLen := by
  unfold OrderedBbox at h
  split at h
  · simp only [parseBbox, Except.ok.injEq] at hp; subst hp; exact sub_nonneg.2 h.1
  · simp only [parseBbox, Except.ok.injEq] at hp; subst hp; exact sub_nonneg.2 h.1
  · exact h.elim

/-- The call returned grids satisfying `P`. -/
def okAnd (r : Except Err (Option (Out K))) (P : Out K → Bool) : Bool :=
  match r with
  | .ok (some out) => P out
  | _ => false

theorem okAnd_spec {r : Except Err (Option (Out K))} {P : Out K → Bool} (h : okAnd r P = true) :
    ∃ out, r = .ok (some out) ∧ P out = true := by
  unfold okAnd at h
  split at h
  · exact ⟨_, rfl, h⟩
  · cases h

variable [FloorSemiring K]

/-- Nonneg sizes, lower bound kept by the limiter. -/
theorem gradation_bounds {imax : ℕ} {seps : K} {d0 d1 d2 : ℕ} (h0 : 0 < d0) (h1 : 0 < d1)
    (h2 : 0 < d2) {A R : Arr K} {grade elen m : K} (hs : 0 ≤ seps) (he : 0 ≤ elen) (hm : 0 ≤ m)
    (hA : AllNodes d0 d1 d2 fun i j k => m ≤ A i j k)
    (h : gradation imax seps d0 d1 d2 A grade elen = .ok R) :
    AllNodes d0 d1 d2 fun i j k => m ≤ R i j k ∧ R i j k ≤ A i j k := by
  obtain ⟨c, hc⟩ := gradation_ok h
  obtain ⟨i', hi', j', hj', k', hk', e⟩ := amin_attained A h0 h1 h2
  have hmin : Limgrad.IsMin d0 d1 d2 A (amin d0 d1 d2 A) :=
    ⟨fun p hp => amin_le A hp.1 hp.2.1 hp.2.2, (i', j', k'), ⟨hi', hj', hk'⟩, e.symm⟩
  have hma : m ≤ amin d0 d1 d2 A := le_amin A h0 h1 h2 hA
  intro i hi j hj k hk
  have := Limgrad.C01_gradation_only_refines hs he hmin (le_trans hm hma) hc (i, j, k) ⟨hi, hj, hk⟩
  exact ⟨le_trans hma this.1, this.2⟩

/-! ### C07 -/

theorem cell_stages {imax : ℕ} {seps : K} {d0 d1 d2 : ℕ} {o : Opts K}
    {bbox : List K} {bb : Bbox K} {vp : Arr K} {req : Arr (Fl K)} {cell cell1 cell2 : Arr K}
    (h0 : 0 < d0) (h1 : 0 < d1) (h2 : 0 < d2) (hs : 0 ≤ seps) (hb : OrderedBbox bbox)
    (hp : 0 < o.hmin) (hle : o.hmin ≤ o.hmax) (hbb : parseBbox bbox = .ok bb)
    (hf : finite d0 d1 d2 (fun i j k => clamp o.hmin o.hmax (req i j k)) = some cell)
    (hc : courant bb.dim vp cell o.crMax o.dt o.spaceOrder = .ok cell1)
    (hg : gradation imax seps d0 d1 d2 cell1 o.grade (bb.zLen / d0) = .ok cell2) :
    AllNodes d0 d1 d2 fun i j k => o.hmin ≤ cell i j k ∧ cell i j k ≤ o.hmax ∧
      cell i j k ≤ cell1 i j k ∧ o.hmin ≤ cell2 i j k ∧ cell2 i j k ≤ cell1 i j k := by
  have hcell : AllNodes d0 d1 d2 fun i j k => o.hmin ≤ cell i j k ∧ cell i j k ≤ o.hmax := by
    intro i hi j hj k hk
    have := clamp_bounds (finite_some hf hi hj hk)
    exact ⟨this.2 hle, this.1⟩
  have hdim : 0 < bb.dim := by cases bb <;> simp [Bbox.dim]
  have hcell1 : AllNodes d0 d1 d2 fun i j k => cell i j k ≤ cell1 i j k := by
    intro i hi j hj k hk
    rcases courant_ok hc with ⟨-, rfl⟩ | ⟨hcr, hdt, hso, e⟩
    · exact le_rfl
    · rw [e, courant_max hdim (lt_of_lt_of_le hp (hcell i hi j hj k hk).1) hcr hso]
      exact le_max_left _ _
  have hg' := gradation_bounds h0 h1 h2 hs
    (div_nonneg (zLen_nonneg hb hbb) (by positivity)) hp.le
    (fun i hi j hj k hk => le_trans (hcell i hi j hj k hk).1 (hcell1 i hi j hj k hk)) hg
  intro i hi j hj k hk
  exact ⟨(hcell i hi j hj k hk).1, (hcell i hi j hj k hk).2, hcell1 i hi j hj k hk,
    (hg' i hi j hj k hk).1, (hg' i hi j hj k hk).2⟩

/-- **C07.** For all options with `0 < hmin ≤ hmax`, every velocity array, every ordered bbox:
every grid value of the resulting sizing function is at least `hmin` (padding included). -/
theorem C07_hmin_lower_bound {imax : ℕ} {seps : K} {d0 d1 d2 : ℕ} {o : Opts K}
    {names : List String} {bbox : List K} {vp0 : Arr K} {out : Out K}
    (h0 : 0 < d0) (h1 : 0 < d1) (h2 : 0 < d2) (hs : 0 ≤ seps) (hb : OrderedBbox bbox)
    (hp : 0 < o.hmin) (hle : o.hmin ≤ o.hmax)
    (h : sizing imax seps d0 d1 d2 o names bbox vp0 = .ok (some out)) :
    AllNodes out.d0 out.d1 out.d2 fun i j k => o.hmin ≤ out.cell i j k := by
  obtain ⟨vp, bb, req, cell, cell1, cell2, -, hbb, -, -, hf, hc, hg, hpad⟩ := sizing_some h
  have hst := cell_stages h0 h1 h2 hs hb hp hle hbb hf hc hg
  rcases buildPad_ok hpad with ⟨-, rfl⟩ | ⟨-, st, b0, b1, b2, -, e0, e1, e2, ec, -⟩
  · exact fun i hi j hj k hk => (hst i hi j hj k hk).2.2.2.1
  · intro i hi j hj k hk
    rw [e0] at hi; rw [e1] at hj; rw [e2] at hk
    have hcells : AllNodes d0 d1 d2 fun i j k => o.hmin ≤ cell2 i j k :=
      fun i hi j hj k hk => (hst i hi j hj k hk).2.2.2.1
    have hmx : o.hmin ≤ amax d0 d1 d2 cell2 := le_trans (hcells 0 h0 0 h1 0 h2) (le_amax _ h0 h1 h2)
    have := pad3_lin_le (st := st) (a := 1) (b := 1) (m := o.hmin) (A := fun _ _ _ => o.hmin)
      (b0 := b0) (b1 := b1) (b2 := b2) (by linarith) h0 h1 h2
      (fun i hi j hj k hk => by have := hcells i hi j hj k hk; linarith) hi hj hk
    rw [pad3_const, one_mul, one_mul] at this
    rw [ec]; exact this

/-! ### C08 -/

/-- **C08, negation.** `hmax = 1`, one node of velocity 10, `dt = 1`: the returned size is 10. -/
theorem C08_hmax_false :
    ∃ (o : Opts ℚ) (out : Out ℚ), o.hmin ≤ o.hmax ∧
      sizing Limgrad.shippedCap 0 1 1 1 o [] [0, 1, 0, 1] (fun _ _ _ => 10) = .ok (some out) ∧
      o.hmax < out.cell 0 0 0 := by
  have key : okAnd (K := ℚ) (sizing Limgrad.shippedCap 0 1 1 1
      { Opts.default with hmin := 1, hmax := 1, dt := 1 } [] [0, 1, 0, 1] (fun _ _ _ => (10 : ℚ)))
      (fun out => decide (1 < out.cell 0 0 0)) = true := by decide +kernel
  obtain ⟨out, h1, h2⟩ := okAnd_spec key
  exact ⟨_, out, le_rfl, h1, of_decide_eq_true h2⟩

/-- **C08 (partial).** The upper bound holds if the timestep stage is switched off or asks for
no size above `hmax`. Missing: with `dt` given, sizes can exceed `hmax` (`C08_hmax_false`). -/
theorem C08_hmax_upper_bound_partial {imax : ℕ} {seps : K} {d0 d1 d2 : ℕ} {o : Opts K}
    {names : List String} {bbox : List K} {vp0 V : Arr K} {out : Out K}
    (h0 : 0 < d0) (h1 : 0 < d1) (h2 : 0 < d2) (hs : 0 ≤ seps) (hb : OrderedBbox bbox)
    (hp : 0 < o.hmin) (hle : o.hmin ≤ o.hmax) (hV : Prepared d0 d1 d2 o vp0 V)
    (hdt : o.dt = 0 ∨ AllNodes d0 d1 d2 fun i j k => V i j k * o.dt * o.spaceOrder / o.crMax ≤ o.hmax)
    (h : sizing imax seps d0 d1 d2 o names bbox vp0 = .ok (some out)) :
    AllNodes out.d0 out.d1 out.d2 fun i j k => out.cell i j k ≤ o.hmax := by
  obtain ⟨vp, bb, req, cell, cell1, cell2, hvp, hbb, -, -, hf, hc, hg, hpad⟩ := sizing_some h
  have : vp = V := by
    unfold Prepared at hV; rw [hV] at hvp; cases hvp; rfl
  subst this
  have hst := cell_stages h0 h1 h2 hs hb hp hle hbb hf hc hg
  have hdim : 0 < bb.dim := by cases bb <;> simp [Bbox.dim]
  have hcells : AllNodes d0 d1 d2 fun i j k => cell2 i j k ≤ o.hmax := by
    intro i hi j hj k hk
    obtain ⟨a1, a2, a3, a4, a5⟩ := hst i hi j hj k hk
    refine le_trans a5 ?_
    rcases courant_ok hc with ⟨-, rfl⟩ | ⟨hcr, hd, hso, e⟩
    · exact a2
    · rw [e, courant_max hdim (lt_of_lt_of_le hp a1) hcr hso]
      rcases hdt with hdt | hdt
      · exact absurd hdt hd.ne'
      · exact max_le a2 (hdt i hi j hj k hk)
  rcases buildPad_ok hpad with ⟨-, rfl⟩ | ⟨-, st, b0, b1, b2, -, e0, e1, e2, ec, -⟩
  · exact hcells
  · intro i hi j hj k hk
    rw [e0] at hi; rw [e1] at hj; rw [e2] at hk
    have hmx : amax d0 d1 d2 cell2 ≤ o.hmax := amax_le _ h0 h1 h2 hcells
    have := pad3_lin_le (st := st) (a := 1) (b := 1) (m' := o.hmax) (B := fun _ _ _ => o.hmax)
      (b0 := b0) (b1 := b1) (b2 := b2) (by linarith) h0 h1 h2
      (fun i hi j hj k hk => by have := hcells i hi j hj k hk; linarith) hi hj hk
    rw [pad3_const, one_mul, one_mul] at this
    rw [ec]; exact this

/-! ### C09 -/

/-- **C09 (partial).** Without gradation the Courant number `vp*dt*space_order/h` of every grid
node, also in the padded region, is at most `cr_max`. Missing: gradation (`grade > 0`) can
reduce sizes afterwards (`C09_courant_false`). -/
theorem C09_courant_partial {imax : ℕ} {seps : K} {d0 d1 d2 : ℕ} {o : Opts K}
    {names : List String} {bbox : List K} {vp0 : Arr K} {out : Out K}
    (h0 : 0 < d0) (h1 : 0 < d1) (h2 : 0 < d2) (hs : 0 ≤ seps) (hb : OrderedBbox bbox)
    (hp : 0 < o.hmin) (hle : o.hmin ≤ o.hmax) (hdt : 0 < o.dt) (hcr : 0 < o.crMax)
    (hso : 1 ≤ o.spaceOrder) (hgrade : o.grade = 0)
    (h : sizing imax seps d0 d1 d2 o names bbox vp0 = .ok (some out)) :
    AllNodes out.d0 out.d1 out.d2 fun i j k =>
      out.vp i j k * o.dt * o.spaceOrder / out.cell i j k ≤ o.crMax := by
  have hlow := C07_hmin_lower_bound h0 h1 h2 hs hb hp hle h
  obtain ⟨vp, bb, req, cell, cell1, cell2, hvp, hbb, -, -, hf, hc, hg, hpad⟩ := sizing_some h
  have hst := cell_stages h0 h1 h2 hs hb hp hle hbb hf hc hg
  have hdim : 0 < bb.dim := by cases bb <;> simp [Bbox.dim]
  have h21 : cell2 = cell1 := by
    obtain ⟨c, hc⟩ := gradation_ok hg
    rcases Limgrad.enforce_ok hc with ⟨-, e, -⟩ | ⟨hpos, -, -⟩
    · exact e
    · rw [hgrade] at hpos; exact absurd hpos (lt_irrefl _)
  have hcells : AllNodes d0 d1 d2 fun i j k =>
      (o.dt * o.spaceOrder) * vp i j k ≤ o.crMax * cell2 i j k := by
    intro i hi j hj k hk
    obtain ⟨a1, a2, a3, a4, a5⟩ := hst i hi j hj k hk
    rw [h21]
    rcases courant_ok hc with ⟨h', -⟩ | ⟨-, -, -, e⟩
    · rcases h' with h' | h' | h'
      · exact absurd h' hcr.ne'
      · exact absurd h' hdt.ne'
      · rw [h'] at hso; exact absurd hso (by norm_num)
    · rw [e, courant_max hdim (lt_of_lt_of_le hp a1) hcr hso]
      have := le_max_right (cell i j k) (vp i j k * o.dt * o.spaceOrder / o.crMax)
      rw [div_le_iff₀ hcr] at this
      linarith
  rcases buildPad_ok hpad with ⟨-, rfl⟩ | ⟨-, st, b0, b1, b2, -, e0, e1, e2, ec, ev⟩
  · intro i hi j hj k hk
    rw [div_le_iff₀ (lt_of_lt_of_le hp (hlow i hi j hj k hk))]
    have := hcells i hi j hj k hk
    simp only; linarith
  · intro i hi j hj k hk
    have hpos := lt_of_lt_of_le hp (hlow i hi j hj k hk)
    rw [e0] at hi; rw [e1] at hj; rw [e2] at hk
    have hmx : (o.dt * o.spaceOrder) * amax d0 d1 d2 vp ≤ o.crMax * amax d0 d1 d2 cell2 := by
      obtain ⟨i', hi', j', hj', k', hk', e⟩ := amax_attained vp h0 h1 h2
      rw [e]
      refine le_trans (hcells i' hi' j' hj' k' hk') ?_
      exact mul_le_mul_of_nonneg_left (le_amax _ hi' hj' hk') hcr.le
    have := pad3_lin_le (st := st) (b0 := b0) (b1 := b1) (b2 := b2) hmx h0 h1 h2 hcells hi hj hk
    rw [← ec, ← ev] at this
    rw [div_le_iff₀ hpos]; linarith

/-- **C09, negation.** Two nodes with velocities 1 and 100, `dt = 1`, `cr_max = 1`,
`grade = 1`: the second node ends with size 3/2 (`elen = 1/2`), Courant number 200/3. -/
theorem C09_courant_false :
    ∃ (o : Opts ℚ) (out : Out ℚ), 0 < o.dt ∧ 0 < o.crMax ∧ 1 ≤ o.spaceOrder ∧ o.hmin ≤ o.hmax ∧
      sizing Limgrad.shippedCap (1 / 67108864) 2 1 1 o [] [0, 1, 0, 1]
        (fun i _ _ => if i = 0 then 1 else 100) = .ok (some out) ∧
      o.crMax < out.vp 1 0 0 * o.dt * o.spaceOrder / out.cell 1 0 0 := by
  have key : okAnd (K := ℚ) (sizing Limgrad.shippedCap (1 / 67108864) 2 1 1
      { Opts.default with hmin := 1, hmax := 10, dt := 1, grade := 1 } [] [0, 1, 0, 1]
      (fun i _ _ => if i = 0 then (1 : ℚ) else 100))
      (fun out => decide (1 < out.vp 1 0 0 * 1 * 1 / out.cell 1 0 0)) = true := by decide +kernel
  obtain ⟨out, h1, h2⟩ := okAnd_spec key
  exact ⟨_, out, by norm_num, by norm_num [Opts.default], by norm_num [Opts.default], by norm_num,
    h1, of_decide_eq_true h2⟩

/-! ### C10 -/

/-- The size requested at a node when `wl > 0`, `freq > 0`: at most `vp/(freq*wl)`. -/
theorem requested_wl {d0 d1 d2 : ℕ} {o : Opts K} {vp : Arr K} {req : Arr (Fl K)} (hwl : 0 < o.wl)
    (hfr : 0 < o.freq) (h : requested d0 d1 d2 o vp = .ok req) (i j k : ℕ) :
    req i j k = .nan ∨ req i j k = .ninf ∨ ∃ w ≤ vp i j k / (o.freq * o.wl), req i j k = .fin w := by
  unfold requested at h
  rw [if_pos (Or.inl hwl)] at h
  have hw : wavelengthSizing vp o.wl o.freq =
      .ok fun i j k => .fin (vp i j k / (o.freq * o.wl)) := by
    unfold wavelengthSizing
    rw [if_neg hwl.ne', if_neg (not_lt.2 hwl.le), if_neg (not_lt.2 hfr.le)]
    congr 1; funext i j k
    unfold fdiv; rw [if_neg (mul_pos hfr hwl).ne']
  rw [hw] at h
  simp only at h
  split at h
  · cases h
  · rename_i b hb
    cases h
    simp only
    cases b i j k with
    | nan => left; rfl
    | ninf => right; left; rfl
    | pinf => right; right; exact ⟨_, le_rfl, rfl⟩
    | fin y => right; right; exact ⟨_, min_le_left _ _, rfl⟩

/-- **C10 (partial).** With `wl > 0`, `freq > 0` and no timestep, every grid size is at most
`max hmin (vp/(freq*wl))`, after clamping, gradation and padding in the styles `edge` and
`constant`; with `linear_ramp` at every node of the unpadded block. Missing: nodes inside a
linear ramp (`C10_ramp_false`). -/
theorem C10_wavelength_partial {imax : ℕ} {seps : K} {d0 d1 d2 : ℕ} {o : Opts K}
    {names : List String} {bbox : List K} {vp0 : Arr K} {out : Out K}
    (h0 : 0 < d0) (h1 : 0 < d1) (h2 : 0 < d2) (hs : 0 ≤ seps) (hb : OrderedBbox bbox)
    (hp : 0 < o.hmin) (hle : o.hmin ≤ o.hmax) (hwl : 0 < o.wl) (hfr : 0 < o.freq) (hdt : o.dt = 0)
    (h : sizing imax seps d0 d1 d2 o names bbox vp0 = .ok (some out)) :
    (o.padStyle ≠ "linear_ramp" → AllNodes out.d0 out.d1 out.d2 fun i j k =>
      out.cell i j k ≤ max o.hmin (out.vp i j k / (o.freq * o.wl))) ∧
    (∃ b0 b1 b2, out.d0 = d0 + b0 ∧ out.d1 = d1 + 2 * b1 ∧ out.d2 = d2 + 2 * b2 ∧
      AllNodes d0 d1 d2 fun i j k => out.cell (b0 + i) (b1 + j) (b2 + k) ≤
        max o.hmin (out.vp (b0 + i) (b1 + j) (b2 + k) / (o.freq * o.wl))) := by
  obtain ⟨vp, bb, req, cell, cell1, cell2, hvp, hbb, -, hreq, hf, hc, hg, hpad⟩ := sizing_some h
  have hst := cell_stages h0 h1 h2 hs hb hp hle hbb hf hc hg
  have hcells : AllNodes d0 d1 d2 fun i j k =>
      cell2 i j k ≤ max o.hmin (vp i j k / (o.freq * o.wl)) := by
    intro i hi j hj k hk
    obtain ⟨a1, a2, a3, a4, a5⟩ := hst i hi j hj k hk
    have e1 : cell1 i j k = cell i j k := by
      rcases courant_ok hc with ⟨-, rfl⟩ | ⟨-, hd, -, -⟩
      · rfl
      · exact absurd hdt hd.ne'
    refine le_trans a5 (e1 ▸ ?_)
    have hfin := finite_some hf hi hj hk
    rcases requested_wl hwl hfr hreq i j k with e | e
    · rw [e, clamp_nan] at hfin; cases hfin
    · exact clamp_le e hfin
  rcases buildPad_ok hpad with ⟨-, rfl⟩ | ⟨-, st, b0, b1, b2, hsty, e0, e1, e2, ec, ev⟩
  · refine ⟨fun _ => hcells, 0, 0, 0, rfl, rfl, rfl, ?_⟩
    simpa using hcells
  · constructor
    · intro hne i hi j hj k hk
      rw [e0] at hi; rw [e1] at hj; rw [e2] at hk
      have hstl : st ≠ .linearRamp := by
        rintro rfl
        unfold parseStyle at hsty
        split_ifs at hsty with q1 q2
        all_goals first | exact hne ‹_› | cases hsty
      rw [ec, ev]
      rcases pad3_select (K := K) hstl (b0 := b0) (b1 := b1) (b2 := b2) h0 h1 h2 hi hj hk with
        ⟨i', hi', j', hj', k', hk', e⟩ | e
      · rw [e, e]; exact hcells i' hi' j' hj' k' hk'
      · rw [e, e]
        obtain ⟨i', hi', j', hj', k', hk', e'⟩ := amax_attained cell2 h0 h1 h2
        rw [e']
        refine le_trans (hcells i' hi' j' hj' k' hk') (max_le_max le_rfl ?_)
        exact div_le_div_of_nonneg_right (le_amax _ hi' hj' hk') (mul_pos hfr hwl).le
    · refine ⟨b0, b1, b2, e0, e1, e2, fun i hi j hj k hk => ?_⟩
      simp only [ec, ev, pad3_block _ _ _ _ _ _ _ _ _ hi hj hk]
      exact hcells i hi j hj k hk

/-- **C10, negation in a linear ramp.** Velocities 1 and 4 in x-direction, `wl = freq = 1`,
`hmin = 3`: in the ramp the size exceeds both `hmin` and the local `vp/(freq*wl)`. -/
theorem C10_ramp_false :
    ∃ (o : Opts ℚ) (out : Out ℚ), 0 < o.wl ∧ 0 < o.freq ∧ o.dt = 0 ∧ o.hmin ≤ o.hmax ∧
      sizing Limgrad.shippedCap (1 / 67108864) 1 2 1 o [] [0, 1, 0, 1]
        (fun _ j _ => if j = 0 then 1 else 4) = .ok (some out) ∧
      ∃ i < out.d0, ∃ j < out.d1, ∃ k < out.d2,
        max o.hmin (out.vp i j k / (o.freq * o.wl)) < out.cell i j k := by
  have key : okAnd (K := ℚ) (sizing Limgrad.shippedCap (1 / 67108864) 1 2 1
      { Opts.default with
        hmin := 3, hmax := 10, wl := 1, freq := 1, domainPad := 1, padStyle := "linear_ramp" }
      [] [0, 1, 0, 1] (fun _ j _ => if j = 0 then (1 : ℚ) else 4))
      (fun out => decide (∃ i < out.d0, ∃ j < out.d1, ∃ k < out.d2,
        max 3 (out.vp i j k / (1 * 1)) < out.cell i j k)) = true := by decide +kernel
  obtain ⟨out, h1, h2⟩ := okAnd_spec key
  exact ⟨_, out, by norm_num, by norm_num, rfl, by norm_num, h1, of_decide_eq_true h2⟩

/-! ### C11, C75: the gradient option -/

/-- `win_var` is the window variance: the window mean of the squared deviation from the
window mean at the node. -/
theorem C11_variance (d0 d1 d2 : ℕ) (w : ℕ × ℕ × ℕ) (vp : Arr K) (i j k : ℕ) :
    winVar d0 d1 d2 w vp i j k =
      ufilt d0 d1 d2 w (fun a b c => (vp a b c - ufilt d0 d1 d2 w vp i j k) ^ 2) i j k := by
  set m := ufilt d0 d1 d2 w vp i j k with hm
  have e : (fun a b c => (vp a b c - m) ^ 2 : Arr K) =
      fun a b c => vp a b c ^ 2 + ((-2 * m) * vp a b c + m ^ 2) := by
    funext a b c; ring
  rw [e, ufilt_add, ufilt_add, ufilt_smul, ufilt_const]
  simp only [winVar]
  rw [← hm]; ring

/-- Hence it is nowhere negative. -/
theorem winVar_nonneg (d0 d1 d2 : ℕ) (w : ℕ × ℕ × ℕ) (vp : Arr K) {i j k : ℕ} (hi : i < d0)
    (hj : j < d1) (hk : k < d2) : 0 ≤ winVar d0 d1 d2 w vp i j k := by
  rw [C11_variance]
  exact ufilt_nonneg (fun _ _ _ _ _ _ => sq_nonneg _) hi hj hk

/-- **C11.** If the window variance `s²` is positive somewhere, the size requested by
`grad > 0` is, at every node, a number between `grad/1.1` and `10*grad`; it is `10*grad` exactly
where `s²` is minimal over the grid; and it decreases as `s²` increases. -/
theorem C11_gradient_range {d0 d1 d2 : ℕ} {w : ℕ × ℕ × ℕ} {vp : Arr K} {grad : K} (hg : 0 < grad)
    (h0 : 0 < d0) (h1 : 0 < d1) (h2 : 0 < d2)
    (hpos : ∃ i < d0, ∃ j < d1, ∃ k < d2, winVar d0 d1 d2 w vp i j k ≠ 0) :
    ∃ (F : Arr (Fl K)) (R : Arr K), gradientSizing d0 d1 d2 w vp grad = .ok F ∧
      (AllNodes d0 d1 d2 fun i j k => F i j k = .fin (R i j k)) ∧
      (AllNodes d0 d1 d2 fun i j k => grad / (11 / 10) ≤ R i j k ∧ R i j k ≤ 10 * grad ∧
        (R i j k = 10 * grad ↔ AllNodes d0 d1 d2 fun i' j' k' =>
          winVar d0 d1 d2 w vp i j k ≤ winVar d0 d1 d2 w vp i' j' k')) ∧
      (AllNodes d0 d1 d2 fun i j k => AllNodes d0 d1 d2 fun i' j' k' =>
        (R i' j' k' < R i j k ↔ winVar d0 d1 d2 w vp i j k < winVar d0 d1 d2 w vp i' j' k')) := by
  set v := winVar d0 d1 d2 w vp with hv
  have hv0 : AllNodes d0 d1 d2 fun i j k => 0 ≤ v i j k :=
    fun i hi j hj k hk => winVar_nonneg _ _ _ _ _ hi hj hk
  set mx := amax d0 d1 d2 v with hmx
  have hmx0 : 0 < mx := by
    obtain ⟨i, hi, j, hj, k, hk, hne⟩ := hpos
    exact lt_of_lt_of_le (lt_of_le_of_ne (hv0 i hi j hj k hk) (Ne.symm hne)) (le_amax _ hi hj hk)
  set nv : Arr K := fun i j k => v i j k / mx with hnv
  set mn := amin d0 d1 d2 nv with hmn
  have hmnv : AllNodes d0 d1 d2 fun i j k => mn ≤ nv i j k :=
    fun i hi j hj k hk => amin_le _ hi hj hk
  have hmn0 : 0 ≤ mn := le_amin _ h0 h1 h2 fun i hi j hj k hk =>
    div_nonneg (hv0 i hi j hj k hk) hmx0.le
  have hn1 : AllNodes d0 d1 d2 fun i j k => nv i j k ≤ 1 := fun i hi j hj k hk => by
    simp only [hnv]; rw [div_le_one hmx0]; exact le_amax _ hi hj hk
  obtain ⟨im, him, jm, hjm, km, hkm, em⟩ := amin_attained nv h0 h1 h2
  have hden : AllNodes d0 d1 d2 fun i j k => 1 / 10 ≤ nv i j k - mn + 1 / 10 :=
    fun i hi j hj k hk => by have := hmnv i hi j hj k hk; simp only at this ⊢; linarith
  have hvn : ∀ i j k i' j' k', (nv i j k < nv i' j' k' ↔ v i j k < v i' j' k') := by
    intro i j k i' j' k'
    simp only [hnv]; exact div_lt_div_iff_of_pos_right hmx0
  refine ⟨fun i j k => fdiv grad (nv i j k - mn + 1 / 10),
    fun i j k => grad / (nv i j k - mn + 1 / 10), ?_, ?_, ?_, ?_⟩
  · unfold gradientSizing
    rw [if_neg hg.ne', if_neg (not_lt.2 hg.le)]
    simp only [← hv, ← hmx]
    rw [if_neg hmx0.ne']
  · intro i hi j hj k hk
    have hd := hden i hi j hj k hk
    simp only at hd ⊢
    unfold fdiv
    rw [if_neg]
    intro e; rw [e] at hd; norm_num at hd
  · intro i hi j hj k hk
    have hd := hden i hi j hj k hk
    have hn := hn1 i hi j hj k hk
    simp only at hd hn
    have hd0 : 0 < nv i j k - mn + 1 / 10 := by linarith
    refine ⟨?_, ?_, ?_, ?_⟩
    · exact div_le_div_of_nonneg_left hg.le hd0 (by linarith)
    · rw [div_le_iff₀ hd0]
      nlinarith
    · intro e i' hi' j' hj' k' hk'
      rw [div_eq_iff hd0.ne'] at e
      have e1 : nv i j k = mn := by
        have : grad * (10 * (nv i j k - mn)) = 0 := by linarith
        rcases mul_eq_zero.1 this with h | h
        · exact absurd h hg.ne'
        · linarith
      have := hmnv i' hi' j' hj' k' hk'
      rw [← e1] at this
      by_contra hcon
      exact absurd ((hvn _ _ _ _ _ _).2 (not_le.1 hcon)) (not_lt.2 this)
    · intro hmin
      have e1 : nv i j k = mn := by
        refine le_antisymm ?_ (hmnv i hi j hj k hk)
        rw [hmn, em]
        exact not_lt.1 fun h => absurd ((hvn _ _ _ _ _ _).1 h) (not_lt.2 (hmin im him jm hjm km hkm))
      simp only [e1]; rw [div_eq_iff (by norm_num)]; ring
  · intro i hi j hj k hk i' hi' j' hj' k' hk'
    have hd := hden i hi j hj k hk
    have hd' := hden i' hi' j' hj' k' hk'
    simp only at hd hd'
    rw [← hvn, div_lt_div_iff_of_pos_left hg (by linarith) (by linarith)]
    constructor <;> intro h <;> linarith

/-- **C11/C75, negation at the excluded point.** If the window variance vanishes at every node
(for instance: a uniform velocity model), `grad > 0` requests NaN at every node. -/
theorem C11_zero_variance_nan {d0 d1 d2 : ℕ} {w : ℕ × ℕ × ℕ} {vp : Arr K} {grad : K} (hg : 0 < grad)
    (h0 : 0 < d0) (h1 : 0 < d1) (h2 : 0 < d2)
    (hz : AllNodes d0 d1 d2 fun i j k => winVar d0 d1 d2 w vp i j k = 0) :
    gradientSizing d0 d1 d2 w vp grad = .ok fun _ _ _ => .nan := by
  have : amax d0 d1 d2 (winVar d0 d1 d2 w vp) = 0 := by
    obtain ⟨i, hi, j, hj, k, hk, e⟩ := amax_attained (winVar d0 d1 d2 w vp) h0 h1 h2
    rw [e]; exact hz i hi j hj k hk
  unfold gradientSizing
  rw [if_neg hg.ne', if_neg (not_lt.2 hg.le)]
  simp only [this, if_true]

theorem winVar_const (d0 d1 d2 : ℕ) (w : ℕ × ℕ × ℕ) (c : K) (i j k : ℕ) :
    winVar d0 d1 d2 w (fun _ _ _ => c) i j k = 0 := by
  simp only [winVar, ufilt_const]; ring

/-- The pipeline's result when no NaN is requested. -/
theorem sizing_not_none {imax : ℕ} {seps : K} {d0 d1 d2 : ℕ} {o : Opts K} {names : List String}
    {bbox : List K} {vp0 V : Arr K} (hV : Prepared d0 d1 d2 o vp0 V)
    {req : Arr (Fl K)} (hreq : requested d0 d1 d2 o V = .ok req)
    (hn : AllNodes d0 d1 d2 fun i j k => req i j k ≠ .nan) :
    sizing imax seps d0 d1 d2 o names bbox vp0 ≠ .ok none := by
  intro h
  obtain ⟨cell, hcell⟩ := finite_isSome (d0 := d0) (d1 := d1) (d2 := d2)
    (A := fun i j k => clamp o.hmin o.hmax (req i j k)) (by
      intro i hi j hj k hk
      rcases clamp_cases o.hmin o.hmax (req i j k) with ⟨-, e⟩ | ⟨e, -⟩
      · exact absurd e (hn i hi j hj k hk)
      · exact e)
  unfold sizing at h
  unfold Prepared at hV
  rw [hV] at h
  simp only [hreq, hcell, Option.map_some] at h
  repeat' (split at h <;> try cases h)

/-- **C75 (partial).** If the gradient option is off or the velocity varies inside some window,
and the wavelength option is off or `freq > 0` or no velocity is 0, the result contains no NaN. Missing: uniform
velocity with `grad > 0` (`C75_uniform_velocity_nan`). -/
theorem C75_sizes_are_numbers_partial {imax : ℕ} {seps : K} {d0 d1 d2 : ℕ} {o : Opts K}
    {names : List String} {bbox : List K} {vp0 V : Arr K} (hV : Prepared d0 d1 d2 o vp0 V)
    (h0 : 0 < d0) (h1 : 0 < d1) (h2 : 0 < d2)
    (hg : o.grad ≤ 0 ∨ ∃ i < d0, ∃ j < d1, ∃ k < d2, winVar d0 d1 d2 o.window V i j k ≠ 0)
    (hf : o.wl ≤ 0 ∨ 0 < o.freq ∨ AllNodes d0 d1 d2 fun i j k => V i j k ≠ 0) :
    sizing imax seps d0 d1 d2 o names bbox vp0 ≠ .ok none := by
  cases hreq : requested d0 d1 d2 o V with
  | error e =>
    intro h
    unfold sizing at h; unfold Prepared at hV
    rw [hV] at h
    simp only [hreq] at h
    repeat' (split at h <;> try cases h)
  | ok req =>
    refine sizing_not_none hV hreq ?_
    intro i hi j hj k hk
    unfold requested at hreq
    split_ifs at hreq with hact
    · cases hw : wavelengthSizing V o.wl o.freq with
      | error e => rw [hw] at hreq; cases hreq
      | ok a =>
      rw [hw] at hreq
      cases hgr : gradientSizing d0 d1 d2 o.window V o.grad with
      | error e => simp only [hgr] at hreq; cases hreq
      | ok b =>
      simp only [hgr] at hreq
      cases hreq
      have ha : a i j k ≠ .nan := by
        unfold wavelengthSizing at hw
        split_ifs at hw with c1 c2 c3
        · cases hw; simp
        · cases hw
          have hwl : 0 < o.wl := lt_of_le_of_ne (not_lt.1 c2) (Ne.symm c1)
          rcases hf with hf | hf | hf
          · exact absurd hwl (not_lt.2 hf)
          · simp only [fdiv]; rw [if_neg (mul_pos hf hwl).ne']; simp
          · simp only [fdiv]; rw [if_neg (hf i hi j hj k hk)]; split_ifs <;> simp
      have hb : ∃ x, b i j k = .fin x := by
        by_cases hgz : o.grad = 0
        · unfold gradientSizing at hgr; rw [if_pos hgz] at hgr; cases hgr; exact ⟨_, rfl⟩
        · by_cases hgn : o.grad < 0
          · unfold gradientSizing at hgr; rw [if_neg hgz, if_pos hgn] at hgr; cases hgr
          · have hgp : 0 < o.grad := lt_of_le_of_ne (not_lt.1 hgn) (Ne.symm hgz)
            rcases hg with hg | hg
            · exact absurd hgp (not_lt.2 hg)
            · obtain ⟨F, R, e, hF, -⟩ := C11_gradient_range hgp h0 h1 h2 hg
              rw [e] at hgr; cases hgr
              exact ⟨_, hF i hi j hj k hk⟩
      obtain ⟨y, hy⟩ := hb
      simp only [hy]
      cases hx : a i j k with
      | nan => exact absurd hx ha
      | _ => simp [fmin]
    · cases hreq; simp

/-- **C75, no frequency.** With `wl > 0` and `freq = 0` the division by zero is harmless where the velocity is positive: the size there is `hmax`. -/
theorem C75_zero_frequency {d0 d1 d2 : ℕ} {o : Opts K} (hwl : 0 < o.wl) (hf : o.freq = 0) (hg : o.grad = 0) {V : Arr K} (hmax : o.hmax < 99999) (hmin : o.hmin ≤ 99999) :
    ∃ req, requested d0 d1 d2 o V = .ok req ∧ ∀ i j k, 0 < V i j k → clamp o.hmin o.hmax (req i j k) = .fin o.hmax := by
  unfold requested wavelengthSizing gradientSizing
  rw [if_pos (Or.inl hwl), if_neg hwl.ne', if_neg (not_lt.2 hwl.le), hf, if_neg (lt_irrefl _), if_pos hg]
  refine ⟨_, rfl, fun i j k hV => ?_⟩
  simp only [fdiv, zero_mul, if_true, if_neg hV.ne', if_pos hV, fmin, clamp, fltK, if_neg (not_lt.2 hmin), fgtK]
  rw [if_pos hmax]

/-- The default options with a wavelength option and no frequency meet the hypotheses of `C75_zero_frequency`. -/
example : (0 : ℚ) < { (Opts.default : Opts ℚ) with wl := 5, freq := 0 }.wl ∧ { (Opts.default : Opts ℚ) with wl := 5, freq := 0 }.grad = 0 ∧
    { (Opts.default : Opts ℚ) with wl := 5, freq := 0 }.hmax < 99999 ∧ { (Opts.default : Opts ℚ) with wl := 5, freq := 0 }.hmin ≤ 99999 := by
  norm_num [Opts.default]

/-- **C75, negation.** For every uniform velocity model in range, every `grad > 0` and every
window: the call returns NaN sizes. -/
theorem C75_uniform_velocity_nan {imax : ℕ} {seps : K} {d0 d1 d2 : ℕ} (h0 : 0 < d0) (h1 : 0 < d1)
    (h2 : 0 < d2) {c grad : K} (hc : 1 ≤ c) (hg : 0 < grad) :
    sizing imax seps d0 d1 d2 { Opts.default with grad := grad } ["grad"] [0, 1, 0, 1]
      (fun _ _ _ => c) = .ok none := by
  have hw : replaceWater d0 d1 d2 (some 1500) (fun _ _ _ => c) = .ok fun _ _ _ => c := by
    unfold replaceWater
    rw [if_neg]
    have : ¬ c < 1000⁻¹ := by
      have : (1000 : K)⁻¹ ≤ 1 := by norm_num
      exact not_lt.2 (le_trans this hc)
    simp [waterGuard, this]
  have hu : convertUnits "m-s" (fun _ _ _ => c : Arr K) = fun _ _ _ => c := by
    simp [convertUnits]
  have hreq : requested d0 d1 d2 ({ (Opts.default : Opts K) with grad := grad } : Opts K)
      (fun _ _ _ => c) = .ok fun _ _ _ => .nan := by
    unfold requested
    rw [if_pos (Or.inr hg)]
    have e1 : wavelengthSizing (fun _ _ _ => c : Arr K) (0 : K) 2 = .ok fun _ _ _ => .fin 99999 := by
      simp [wavelengthSizing]
    simp only [Opts.default, e1, C11_zero_variance_nan hg h0 h1 h2
      (fun i _ j _ k _ => winVar_const d0 d1 d2 _ c i j k)]
    rfl
  have hnone : finite d0 d1 d2 (fun _ _ _ => (.nan : Fl K)) = none := by
    cases hf : finite d0 d1 d2 (fun _ _ _ => (.nan : Fl K)) with
    | none => rfl
    | some B => have := finite_some hf h0 h1 h2; cases this
  have hnames : checkNames ["grad"] = .ok () := by decide
  generalize ho : ({ (Opts.default : Opts K) with grad := grad } : Opts K) = o at hreq
  have f1 : o.units = "m-s" := by rw [← ho]; rfl
  have f2 : o.vpWater = some 1500 := by rw [← ho]; rfl
  have f3 : o.dt = 0 := by rw [← ho]; rfl
  have f4 : o.grade = 0 := by rw [← ho]; rfl
  have f5 : o.domainPad = 0 := by rw [← ho]; rfl
  unfold sizing
  simp only [f1, f2, f3, f4, f5, hu, hw, parseBbox, hnames, hreq, clamp_nan, hnone, courant,
    gradation, Limgrad.enforceGradation, buildPad]
  simp

/-! ### C12 -/

/-- `vp` has a node of velocity below 1e-3 outside row 0. -/
def HasZeroOffRow0 (d0 d1 d2 : ℕ) (vp : Arr K) : Prop :=
  ∃ i < d0, ∃ j < d1, ∃ k < d2, i ≠ 0 ∧ vp i j k < 1 / 1000

theorem waterGuard_iff {d0 d1 d2 : ℕ} {vp : Arr K} :
    waterGuard d0 d1 d2 vp = true ↔ HasZeroOffRow0 d0 d1 d2 vp := by
  unfold waterGuard HasZeroOffRow0
  simp only [List.any_eq_true, List.mem_range, Bool.and_eq_true, decide_eq_true_eq]
  constructor
  · rintro ⟨i, hi, j, hj, k, hk, h1, h2⟩; exact ⟨i, hi, j, hj, k, hk, h2, h1⟩
  · rintro ⟨i, hi, j, hj, k, hk, h1, h2⟩; exact ⟨i, hi, j, hj, k, hk, h2, h1⟩

/-- `vp_water` is given and within [1300, 1800]. -/
def WaterOk (w : Option K) : Prop := ∃ x, w = some x ∧ 1300 ≤ x ∧ x ≤ 1800

theorem replaceWater_error {d0 d1 d2 : ℕ} {w : Option K} {vp : Arr K} :
    (∃ e, replaceWater d0 d1 d2 w vp = .error e) ↔ HasZeroOffRow0 d0 d1 d2 vp ∧ ¬ WaterOk w := by
  rw [← waterGuard_iff]
  unfold replaceWater WaterOk
  cases w with
  | none => split_ifs with h <;> simp [h]
  | some x =>
    split_ifs with h
    · simp only [h, true_and, Option.some.injEq, exists_eq_left', not_and, not_le]
      split_ifs with h1
      · refine iff_of_true ⟨_, rfl⟩ ?_
        intro h2; exact h1.resolve_left (not_lt.2 h2)
      · push Not at h1
        refine iff_of_false (by rintro ⟨e, h⟩; cases h) ?_
        intro h2; exact absurd (h2 h1.1) (not_lt.2 h1.2)
    · simp [h]

/-- The option names documented in the docstring (
mesh_size_function.py:49-93), in alphabetical order. -/
def documentedOptions : List String :=
  ["axes_order", "axes_order_sort", "byte_order", "cr_max", "domain_pad", "dt", "dtype", "freq", "grad",
   "grade", "hmax", "hmin", "nx", "ny", "nz", "pad_style", "space_order", "stencil_size", "units",
   "velocity_data", "vp_water", "wl"]

/-- The conditions under which the code raises, in words of the options. -/
def Rejected (d0 d1 d2 : ℕ) (o : Opts K) (names : List String) (bbox : List K) (vp0 : Arr K) : Prop :=
  (HasZeroOffRow0 d0 d1 d2 (convertUnits o.units vp0) ∧ ¬ WaterOk o.vpWater) ∨
  (bbox.length ≠ 4 ∧ bbox.length ≠ 6) ∨
  (∃ n ∈ names, n ∉ documentedOptions) ∨
  ((0 < o.wl ∨ 0 < o.grad) ∧ (o.wl < 0 ∨ (o.wl ≠ 0 ∧ o.freq < 0) ∨ o.grad < 0)) ∨
  (o.crMax ≠ 0 ∧ o.dt ≠ 0 ∧ o.spaceOrder ≠ 0 ∧ (o.crMax < 0 ∨ o.dt < 0 ∨ o.spaceOrder < 1)) ∨
  o.grade < 0 ∨ o.domainPad < 0 ∨
  (0 < o.domainPad ∧ o.padStyle ∉ ["edge", "constant", "linear_ramp"])

theorem parseBbox_error {bbox : List K} :
    (∃ e, parseBbox bbox = .error e) ↔ bbox.length ≠ 4 ∧ bbox.length ≠ 6 := by
  unfold parseBbox
  split
  · simp
  · simp
  · rename_i h1 h2
    refine iff_of_true ⟨_, rfl⟩ ?_
    constructor
    · intro h
      match bbox, h with
      | [a, b, c, d], _ => exact h1 a b c d rfl
    · intro h
      match bbox, h with
      | [a, b, c, d, e, f], _ => exact h2 a b c d e f rfl

theorem checkNames_error {names : List String} :
    (∃ e, checkNames names = .error e) ↔ ∃ n ∈ names, n ∉ documentedOptions := by
  have hk : ∀ n, n ∈ documentedOptions ↔ n ∈ knownOptions := fun n =>
    (show documentedOptions.Perm knownOptions by decide).mem_iff
  simp only [hk]
  unfold checkNames
  split_ifs with h
  · simp only [List.all_eq_true, decide_eq_true_eq] at h
    refine iff_of_false (by rintro ⟨e, h⟩; cases h) ?_
    rintro ⟨n, hn, hn'⟩; exact hn' (h n hn)
  · simp only [List.all_eq_true, decide_eq_true_eq, not_forall] at h
    obtain ⟨x, hx, hn⟩ := h
    exact iff_of_true ⟨_, rfl⟩ ⟨x, hx, hn⟩

theorem requested_error {d0 d1 d2 : ℕ} {o : Opts K} {vp : Arr K} :
    (∃ e, requested d0 d1 d2 o vp = .error e) ↔
      ((0 < o.wl ∨ 0 < o.grad) ∧ (o.wl < 0 ∨ (o.wl ≠ 0 ∧ o.freq < 0) ∨ o.grad < 0)) := by
  have hw : (∃ e, wavelengthSizing vp o.wl o.freq = .error e) ↔
      (o.wl < 0 ∨ (o.wl ≠ 0 ∧ o.freq < 0)) := by
    unfold wavelengthSizing
    split_ifs with h1 h2 h3
    · simp [h1]
    · simp [h2]
    · simp [h1, h3]
    · simp [h2, h3]
  have hg : (∃ e, gradientSizing d0 d1 d2 o.window vp o.grad = .error e) ↔ o.grad < 0 := by
    unfold gradientSizing
    simp only
    split_ifs with h1 h2 h3
    · simp [h1]
    · simp [h2]
    · simp [h2]
    · simp [h2]
  unfold requested
  split_ifs with h
  · simp only [h, true_and]
    rw [← or_assoc, ← hw, ← hg]
    cases wavelengthSizing vp o.wl o.freq with
    | error e => simp
    | ok a =>
      simp only
      cases gradientSizing d0 d1 d2 o.window vp o.grad with
      | error e => simp
      | ok b => simp
  · simp [h]

theorem courant_error {dim : ℕ} {vp cell : Arr K} {crMax dt so : K} :
    (∃ e, courant dim vp cell crMax dt so = .error e) ↔
      (crMax ≠ 0 ∧ dt ≠ 0 ∧ so ≠ 0 ∧ (crMax < 0 ∨ dt < 0 ∨ so < 1)) := by
  unfold courant
  split_ifs with h1 h2 h3 h4
  · refine iff_of_false (by rintro ⟨e, h⟩; cases h) ?_
    rintro ⟨a, b, c, -⟩
    rcases h1 with h | h | h
    · exact a h
    · exact b h
    · exact c h
  all_goals push Not at h1
  · simp [h1, h2]
  · simp [h1, h3]
  · simp [h1, h4]
  · simp [h2, h3, h4]

theorem gradation_error {imax : ℕ} {seps : K} {d0 d1 d2 : ℕ} {A : Arr K} {grade elen : K} :
    (∃ e, gradation imax seps d0 d1 d2 A grade elen = .error e) ↔ grade < 0 := by
  rw [← Limgrad.C01_rejects_negative (imax := imax) (d0 := d0) (d1 := d1) (d2 := d2) (seps := seps)
    (elen := elen) (A := A)]
  unfold gradation
  split
  · rename_i r hr; simp [hr]
  · rename_i e hr; cases e; simp [hr]

theorem buildPad_error {d0 d1 d2 : ℕ} {cell vp : Arr K} {bb : Bbox K} {pad : K} {style : String} :
    (∃ e, buildPad d0 d1 d2 cell vp bb pad style = .error e) ↔
      pad < 0 ∨ (0 < pad ∧ style ∉ ["edge", "constant", "linear_ramp"]) := by
  have hs : (∃ e, parseStyle style = .error e) ↔ style ∉ ["edge", "constant", "linear_ramp"] := by
    unfold parseStyle
    split_ifs with h1 h2 h3 <;> simp [*]
  unfold buildPad
  split_ifs with h1 h2
  · simp [h1]
  · rw [← hs]
    simp only [h1, h2, true_and, false_or]
    cases parseStyle style with
    | error e => simp
    | ok st => cases bb <;> simp
  · simp [h1, h2]

/-- **C12 (partial).** Exactly which calls raise on rank 0: the documented rejections hold only
under the stated side conditions. Missing: negative `wl`, `freq`, `cr_max`, `dt`, `space_order`
and unknown pad styles are silently accepted when the corresponding stage is inactive
(`C12_negative_accepted`), and only rank 0 validates (`C12_only_rank0`). -/
theorem C12_raises_partial (imax : ℕ) (seps : K) (d0 d1 d2 : ℕ) (o : Opts K) (names : List String)
    (bbox : List K) (vp0 : Arr K) :
    (∃ e, sizing imax seps d0 d1 d2 o names bbox vp0 = .error e) ↔
      Rejected d0 d1 d2 o names bbox vp0 := by
  unfold Rejected
  rw [← replaceWater_error, ← parseBbox_error, ← checkNames_error]
  unfold sizing
  cases replaceWater d0 d1 d2 o.vpWater (convertUnits o.units vp0) with
  | error e => simp
  | ok vp =>
  cases parseBbox bbox with
  | error e => simp
  | ok bb =>
  cases checkNames names with
  | error e => simp
  | ok u =>
  simp only [reduceCtorEq]
  rw [← requested_error (d0 := d0) (d1 := d1) (d2 := d2) (vp := vp)]
  cases requested d0 d1 d2 o vp with
  | error e => simp
  | ok req =>
  simp only [reduceCtorEq]
  rw [← courant_error (dim := bb.dim) (vp := vp)
    (cell := (finite d0 d1 d2 fun i j k => clamp o.hmin o.hmax (req i j k)).getD fun _ _ _ => 0)]
  cases courant bb.dim vp ((finite d0 d1 d2 fun i j k => clamp o.hmin o.hmax (req i j k)).getD
    fun _ _ _ => 0) o.crMax o.dt o.spaceOrder with
  | error e => simp
  | ok cell1 =>
  simp only [reduceCtorEq]
  rw [← gradation_error (imax := imax) (seps := seps) (d0 := d0) (d1 := d1) (d2 := d2) (A := cell1)
    (elen := bb.zLen / d0)]
  cases gradation imax seps d0 d1 d2 cell1 o.grade (bb.zLen / d0) with
  | error e => simp
  | ok cell2 =>
  simp only [reduceCtorEq]
  rw [← buildPad_error (d0 := d0) (d1 := d1) (d2 := d2) (cell := cell2) (vp := vp) (bb := bb)]
  cases buildPad d0 d1 d2 cell2 vp bb o.domainPad o.padStyle with
  | error e => simp
  | ok out => simp

/-- **C12, negation.** Negative cells-per-wavelength, frequency, Courant number or timestep and
an unknown pad style: accepted when the stage is not active. -/
theorem C12_negative_accepted :
    (∀ o ∈ ([{ Opts.default with wl := -5 }, { Opts.default with freq := -2 },
        { Opts.default with crMax := -1 }, { Opts.default with dt := -1, crMax := 0 },
        { Opts.default with spaceOrder := -1 }, { Opts.default with spaceOrder := 0, dt := -1 },
        { Opts.default with padStyle := "no such style" }] : List (Opts ℚ)),
      ¬ ∃ e, sizing 10 0 1 1 1 o ["wl"] [0, 1, 0, 1] (fun _ _ _ => 2000) = .error e) := by
  intro o ho
  rw [C12_raises_partial]
  have hz : ∀ u, u = "m-s" → ¬ HasZeroOffRow0 1 1 1 (convertUnits u (fun _ _ _ => (2000 : ℚ))) := by
    rintro u rfl ⟨i, hi, j, hj, k, hk, h, -⟩
    omega
  have hn : ¬ ∃ n ∈ ["wl"], n ∉ documentedOptions := by decide
  simp only [List.mem_cons, List.not_mem_nil, or_false] at ho
  rcases ho with rfl | rfl | rfl | rfl | rfl | rfl | rfl <;>
    simp only [Rejected, hn, Opts.default, hz _ rfl] <;> norm_num

/-- Only rank 0 validates: every other rank accepts everything. -/
theorem C12_only_rank0 {rank imax : ℕ} (hr : rank ≠ 0) (seps : K) (d0 d1 d2 : ℕ) (o : Opts K)
    (names : List String) (bbox : List K) (vp0 : Arr K) :
    ¬ ∃ e, sizingOnRank rank imax seps d0 d1 d2 o names bbox vp0 = .error e := by
  unfold sizingOnRank; rw [if_neg hr]; simp

/-! ### C13 -/

/-- **C13 (partial).** Nodes with velocity at least 1e-3 are never changed. If some node of
velocity below 1e-3 is not in row 0 (the deepest row), then all nodes below 1e-3 get `vp_water`,
which is in [1300,1800], or the call raises. Missing: when all such nodes are in row 0 nothing
is replaced (`C13_row0_false`). -/
theorem C13_water_partial {d0 d1 d2 : ℕ} {w : Option K} {vp : Arr K} :
    (∀ V, replaceWater d0 d1 d2 w vp = .ok V → ∀ i j k, 1 / 1000 ≤ vp i j k → V i j k = vp i j k) ∧
    (HasZeroOffRow0 d0 d1 d2 vp →
      (∃ e, replaceWater d0 d1 d2 w vp = .error e) ∧ ¬ WaterOk w ∨
      ∃ x V, w = some x ∧ 1300 ≤ x ∧ x ≤ 1800 ∧ replaceWater d0 d1 d2 w vp = .ok V ∧
        ∀ i j k, vp i j k < 1 / 1000 → V i j k = x) := by
  constructor
  · intro V h i j k hv
    unfold replaceWater at h
    split_ifs at h
    · split at h
      · cases h
      · split_ifs at h; cases h
        unfold fillWater; rw [if_neg (not_lt.2 hv)]
    · cases h; rfl
  · intro hz
    by_cases hw : WaterOk w
    · right
      obtain ⟨x, rfl, h1, h2⟩ := hw
      refine ⟨x, fillWater x vp, rfl, h1, h2, ?_, ?_⟩
      · unfold replaceWater
        rw [if_pos (waterGuard_iff.2 hz)]
        simp only
        rw [if_neg]
        push Not; exact ⟨h1, h2⟩
      · intro i j k hv; unfold fillWater; rw [if_pos hv]
    · left; exact ⟨replaceWater_error.2 ⟨hz, hw⟩, hw⟩

/-- **C13, negation.** Whenever all nodes below 1e-3 are in row 0, none of them is replaced,
and an invalid `vp_water` is not reported. -/
theorem C13_row0_false {d0 d1 d2 : ℕ} {w : Option K} {vp : Arr K}
    (h : ∀ i < d0, ∀ j < d1, ∀ k < d2, vp i j k < 1 / 1000 → i = 0) :
    replaceWater d0 d1 d2 w vp = .ok vp := by
  unfold replaceWater
  rw [if_neg]
  rw [waterGuard_iff]
  rintro ⟨i, hi, j, hj, k, hk, hne, hv⟩
  exact hne (h i hi j hj k hk hv)

/-- Both cases occur: a zero in row 1 is replaced, a zero in row 0 stays. -/
example : (∃ V, replaceWater 2 1 1 (some 1500) (fun i _ _ => if i = 1 then (0 : ℚ) else 2000) = .ok V ∧
    V 1 0 0 = 1500) ∧
    (∃ V, replaceWater 2 1 1 (some 1500) (fun i _ _ => if i = 0 then (0 : ℚ) else 2000) = .ok V ∧
    V 0 0 0 = 0) := by
  constructor
  · rcases (C13_water_partial (d0 := 2) (d1 := 1) (d2 := 1) (w := some (1500 : ℚ))
      (vp := fun i _ _ => if i = 1 then (0 : ℚ) else 2000)).2
      ⟨1, by norm_num, 0, by norm_num, 0, by norm_num, by norm_num, by norm_num⟩ with
      ⟨-, h⟩ | ⟨x, V, hx, -, -, hV, h⟩
    · exact absurd ⟨1500, rfl, by norm_num, by norm_num⟩ h
    · cases hx
      exact ⟨V, hV, h 1 0 0 (by norm_num)⟩
  · refine ⟨_, C13_row0_false ?_, by norm_num⟩
    intro i hi j _ k _ hv
    by_contra hne
    rw [if_neg hne] at hv; norm_num at hv

/-! ### C14 -/

/-- **C14 (partial).** The caller's array is unchanged if no unit conversion is requested and
no zero velocity is replaced. Missing: both operations write into the caller's array
(`C14_caller_array_false`). -/
theorem C14_caller_array_partial {d0 d1 d2 : ℕ} {o : Opts K} {vp : Arr K}
    (hu : o.units ≠ "km-s" ∧ o.units ≠ "ft-s") (hz : ¬ HasZeroOffRow0 d0 d1 d2 vp) :
    callerArrayAfter d0 d1 d2 o vp = vp := by
  unfold callerArrayAfter convertUnits
  rw [if_neg hu.1, if_neg hu.2]
  unfold replaceWater
  rw [if_neg (by rwa [waterGuard_iff])]

/-- **C14, negation.** With `units = km-s` every non-zero velocity of the caller's array is
changed; and calling twice with the same array gives different sizing functions. -/
theorem C14_caller_array_false :
    (∀ (d0 d1 d2 : ℕ) (o : Opts K) (vp : Arr K) (i j k : ℕ), o.units = "km-s" →
      1 / 1000 ≤ vp i j k → callerArrayAfter d0 d1 d2 o vp i j k = 1000 * vp i j k) ∧
    ∃ (o : Opts ℚ) (vp : Arr ℚ) (out out' : Out ℚ),
      sizing Limgrad.shippedCap 0 1 1 1 o [] [0, 1, 0, 1] vp = .ok (some out) ∧
      sizing Limgrad.shippedCap 0 1 1 1 o [] [0, 1, 0, 1] (callerArrayAfter 1 1 1 o vp) =
        .ok (some out') ∧ out.cell 0 0 0 ≠ out'.cell 0 0 0 := by
  constructor
  · intro d0 d1 d2 o vp i j k hu hv
    have hc : convertUnits o.units vp i j k = 1000 * vp i j k := by
      unfold convertUnits; rw [if_pos hu]; ring
    unfold callerArrayAfter
    cases hV : replaceWater d0 d1 d2 o.vpWater (convertUnits o.units vp) with
    | ok V => exact (C13_water_partial.1 V hV i j k (by rw [hc]; linarith)).trans hc
    | error e => exact hc
  · have k1 : okAnd (K := ℚ) (sizing Limgrad.shippedCap 0 1 1 1
        { Opts.default with wl := 1, freq := 1, units := "km-s" } [] [0, 1, 0, 1] (fun _ _ _ => 2))
        (fun out => decide (out.cell 0 0 0 = 2000)) = true := by decide +kernel
    have k2 : okAnd (K := ℚ) (sizing Limgrad.shippedCap 0 1 1 1
        { Opts.default with wl := 1, freq := 1, units := "km-s" } [] [0, 1, 0, 1]
        (callerArrayAfter 1 1 1 { Opts.default with wl := 1, freq := 1, units := "km-s" }
          (fun _ _ _ => 2)))
        (fun out => decide (out.cell 0 0 0 = 10000)) = true := by decide +kernel
    obtain ⟨o1, e1, h1⟩ := okAnd_spec k1
    obtain ⟨o2, e2, h2⟩ := okAnd_spec k2
    refine ⟨_, _, o1, o2, e1, e2, ?_⟩
    rw [of_decide_eq_true h1, of_decide_eq_true h2]; norm_num

/-! ### C15 -/

/-- What padding array `A` (shape `d`) by `b0` cells before axis 0 and `b1`, `b2` cells on both
sides of axes 1, 2 must produce, for the fill value `m`; `R` is the result. -/
structure PadSpec (st : Style) (m : K) (d0 d1 d2 b0 b1 b2 : ℕ) (A R : Arr K) : Prop where
  /-- the unpadded array is a block of the result -/
  block : AllNodes d0 d1 d2 fun i j k => R (b0 + i) (b1 + j) (b2 + k) = A i j k
  /-- `edge`: the value at the nearest node of the block -/
  edge : st = .edge → AllNodes (b0 + d0) (b1 + d1 + b1) (b2 + d2 + b2) fun i j k =>
    R i j k = A (min (i - b0) (d0 - 1)) (min (j - b1) (d1 - 1)) (min (k - b2) (d2 - 1))
  /-- `constant`: `m` outside the block -/
  constant : st = .constant → AllNodes (b0 + d0) (b1 + d1 + b1) (b2 + d2 + b2) fun i j k =>
    (i < b0 ∨ j < b1 ∨ b1 + d1 ≤ j ∨ k < b2 ∨ b2 + d2 ≤ k) → R i j k = m
  /-- `linear_ramp`: along axis 0, linear from `m` at the outermost node to the border value -/
  ramp0 : st = .linearRamp → AllNodes b0 d1 d2 fun i j k =>
    R i (b1 + j) (b2 + k) = m + (i / b0) * (A 0 j k - m)
  /-- along axis 1, at distance `s` from the outermost node, on both sides -/
  ramp1 : st = .linearRamp → AllNodes (b0 + d0) b1 d2 fun i s k =>
    R i s (b2 + k) = m + (s / b1) * (R i b1 (b2 + k) - m) ∧
    R i (b1 + d1 + b1 - 1 - s) (b2 + k) = m + (s / b1) * (R i (b1 + d1 - 1) (b2 + k) - m)
  /-- along axis 2 -/
  ramp2 : st = .linearRamp → AllNodes (b0 + d0) (b1 + d1 + b1) b2 fun i j s =>
    R i j s = m + (s / b2) * (R i j b2 - m) ∧
    R i j (b2 + d2 + b2 - 1 - s) = m + (s / b2) * (R i j (b2 + d2 - 1) - m)

theorem pad1_in (st : Style) (m : K) (n p q : ℕ) (f : ℕ → K) {x : ℕ} (hx : x < n) :
    pad1 st m n p q f (p + x) = f x := by
  unfold pad1
  rw [if_neg (by omega), if_pos (by omega)]
  congr 1; omega

theorem pad1_ramp (m : K) (n p q : ℕ) (f : ℕ → K) (hn : 0 < n) :
    (∀ s < p, pad1 .linearRamp m n p q f s = m + (s / p) * (pad1 .linearRamp m n p q f p - m)) ∧
    (∀ s < q, pad1 .linearRamp m n p q f (p + n + q - 1 - s) =
      m + (s / q) * (pad1 .linearRamp m n p q f (p + n - 1) - m)) := by
  have e0 : pad1 .linearRamp m n p q f p = f 0 := by
    have := pad1_in .linearRamp m n p q f hn; rwa [add_zero] at this
  have e1 : pad1 .linearRamp m n p q f (p + n - 1) = f (n - 1) := by
    have := pad1_in .linearRamp m n p q f (x := n - 1) (by omega)
    rwa [show p + (n - 1) = p + n - 1 by omega] at this
  refine ⟨fun s hs => ?_, fun s hs => ?_⟩
  · rw [e0]; unfold pad1; rw [if_pos hs]; simp only; ring
  · rw [e1]; unfold pad1
    rw [if_neg (by omega), if_neg (by omega)]
    simp only
    rw [show q - 1 - (p + n + q - 1 - s - p - n) = s by omega]; ring

theorem pad1_edge (m : K) {n p q : ℕ} (f : ℕ → K) (hn : 0 < n) {i : ℕ} :
    pad1 .edge m n p q f i = f (min (i - p) (n - 1)) := by
  unfold pad1
  split_ifs with h1 h2
  · simp only; congr 1; omega
  · congr 1; omega
  · simp only; congr 1; omega

theorem pad3_spec (st : Style) (m : K) {d0 d1 d2 : ℕ} (b0 b1 b2 : ℕ) (A : Arr K) (h0 : 0 < d0)
    (h1 : 0 < d1) (h2 : 0 < d2) :
    PadSpec st m d0 d1 d2 b0 b1 b2 A (pad3 st m d0 d1 d2 b0 b1 b2 A) := by
  refine ⟨fun i hi j hj k hk => pad3_block _ _ _ _ _ _ _ _ _ hi hj hk, ?_, ?_, ?_, ?_, ?_⟩
  · rintro rfl i hi j hj k hk
    simp only [pad3, pad1_edge _ _ h0, pad1_edge _ _ h1, pad1_edge _ _ h2]
  · rintro rfl i hi j hj k hk hout
    have c : ∀ (n p q x : ℕ) (f : ℕ → K), (x < p ∨ p + n ≤ x) → pad1 .constant m n p q f x = m := by
      intro n p q x f hx
      unfold pad1
      split_ifs with g1 g2 <;> first | rfl | omega
    simp only [pad3]
    by_cases hk' : k < b2 ∨ b2 + d2 ≤ k
    · rw [c _ _ _ _ _ hk']
    push Not at hk'
    obtain ⟨k, rfl⟩ := Nat.exists_eq_add_of_le hk'.1
    rw [pad1_in _ _ _ _ _ _ (by omega)]
    by_cases hj' : j < b1 ∨ b1 + d1 ≤ j
    · rw [c _ _ _ _ _ hj']
    push Not at hj'
    obtain ⟨j, rfl⟩ := Nat.exists_eq_add_of_le hj'.1
    rw [pad1_in _ _ _ _ _ _ (by omega)]
    exact c _ _ _ _ _ (by omega)
  · rintro rfl i hi j hj k hk
    simp only [pad3, pad1_in _ _ _ _ _ _ hk, pad1_in _ _ _ _ _ _ hj]
    have := (pad1_ramp m d0 b0 0 (fun i' => A i' j k) h0).1 i hi
    have e0 := pad1_in .linearRamp m d0 b0 0 (fun i' => A i' j k) h0
    rw [add_zero] at e0
    rw [this, e0]
  · rintro rfl i hi s hs k hk
    simp only [pad3, pad1_in _ _ _ _ _ _ hk]
    exact ⟨(pad1_ramp m d1 b1 b1 _ h1).1 s hs, (pad1_ramp m d1 b1 b1 _ h1).2 s hs⟩
  · rintro rfl i hi j hj s hs
    simp only [pad3]
    exact ⟨(pad1_ramp m d2 b2 b2 _ h2).1 s hs, (pad1_ramp m d2 b2 b2 _ h2).2 s hs⟩

/-- `m` is the maximum of `A`. -/
def IsMax (d0 d1 d2 : ℕ) (A : Arr K) (m : K) : Prop :=
  (AllNodes d0 d1 d2 fun i j k => A i j k ≤ m) ∧ ∃ i < d0, ∃ j < d1, ∃ k < d2, A i j k = m

theorem isMax_amax {d0 d1 d2 : ℕ} (A : Arr K) (h0 : 0 < d0) (h1 : 0 < d1) (h2 : 0 < d2) :
    IsMax d0 d1 d2 A (amax d0 d1 d2 A) := by
  refine ⟨fun i hi j hj k hk => le_amax _ hi hj hk, ?_⟩
  obtain ⟨i, hi, j, hj, k, hk, e⟩ := amax_attained A h0 h1 h2
  exact ⟨i, hi, j, hj, k, hk, e.symm⟩

/-- **C15 (2-D).** Padding by `pad > 0` in a supported style: the new bbox, the new shape
(`⌊pad/dz⌋`, `⌊pad/dx⌋` cells with `dz = Lz/nz`, `dx = Lx/nx`), and size and velocity arrays
padded with their own maxima. -/
theorem C15_pad_2d {d0 d1 : ℕ} (h0 : 0 < d0) (h1 : 0 < d1) {cell vp : Arr K} {z0 z1 x0 x1 pad : K}
    {style : String} {st : Style} (hst : parseStyle style = .ok st) (hp : 0 < pad) :
    ∃ (out : Out K) (b0 b1 : ℕ) (mc mv : K),
      buildPad d0 d1 1 cell vp (.two z0 z1 x0 x1) pad style = .ok out ∧
      out.bbox.toList = [z0 - pad, z1, x0 - pad, x1 + pad] ∧
      out.d0 = b0 + d0 ∧ out.d1 = b1 + d1 + b1 ∧ out.d2 = 1 ∧
      b0 = ⌊pad / ((z1 - z0) / d0)⌋₊ ∧ b1 = ⌊pad / ((x1 - x0) / d1)⌋₊ ∧
      IsMax d0 d1 1 cell mc ∧ IsMax d0 d1 1 vp mv ∧
      PadSpec st mc d0 d1 1 b0 b1 0 cell out.cell ∧ PadSpec st mv d0 d1 1 b0 b1 0 vp out.vp := by
  refine ⟨⟨d0 + padCells pad (z1 - z0) d0, d1 + 2 * padCells pad (x1 - x0) d1, 1,
    pad3 st (amax d0 d1 1 cell) d0 d1 1 (padCells pad (z1 - z0) d0) (padCells pad (x1 - x0) d1) 0 cell,
    pad3 st (amax d0 d1 1 vp) d0 d1 1 (padCells pad (z1 - z0) d0) (padCells pad (x1 - x0) d1) 0 vp,
    .two (z0 - pad) z1 (x0 - pad) (x1 + pad)⟩,
    padCells pad (z1 - z0) d0, padCells pad (x1 - x0) d1, amax d0 d1 1 cell,
    amax d0 d1 1 vp, ?_, rfl, Nat.add_comm _ _, ?_, rfl, rfl, rfl, isMax_amax _ h0 h1 one_pos,
    isMax_amax _ h0 h1 one_pos, pad3_spec _ _ _ _ _ _ h0 h1 one_pos,
    pad3_spec _ _ _ _ _ _ h0 h1 one_pos⟩
  · unfold buildPad
    rw [if_neg (not_lt.2 hp.le), if_pos hp, hst]
  · simp only; omega

/-- **C15 (3-D).** -/
theorem C15_pad_3d {d0 d1 d2 : ℕ} (h0 : 0 < d0) (h1 : 0 < d1) (h2 : 0 < d2) {cell vp : Arr K}
    {z0 z1 x0 x1 y0 y1 pad : K} {style : String} {st : Style} (hst : parseStyle style = .ok st)
    (hp : 0 < pad) :
    ∃ (out : Out K) (b0 b1 b2 : ℕ) (mc mv : K),
      buildPad d0 d1 d2 cell vp (.three z0 z1 x0 x1 y0 y1) pad style = .ok out ∧
      out.bbox.toList = [z0 - pad, z1, x0 - pad, x1 + pad, y0 - pad, y1 + pad] ∧
      out.d0 = b0 + d0 ∧ out.d1 = b1 + d1 + b1 ∧ out.d2 = b2 + d2 + b2 ∧
      b0 = ⌊pad / ((z1 - z0) / d0)⌋₊ ∧ b1 = ⌊pad / ((x1 - x0) / d1)⌋₊ ∧
      b2 = ⌊pad / ((y1 - y0) / d2)⌋₊ ∧
      IsMax d0 d1 d2 cell mc ∧ IsMax d0 d1 d2 vp mv ∧
      PadSpec st mc d0 d1 d2 b0 b1 b2 cell out.cell ∧ PadSpec st mv d0 d1 d2 b0 b1 b2 vp out.vp := by
  refine ⟨⟨d0 + padCells pad (z1 - z0) d0, d1 + 2 * padCells pad (x1 - x0) d1,
    d2 + 2 * padCells pad (y1 - y0) d2,
    pad3 st (amax d0 d1 d2 cell) d0 d1 d2 (padCells pad (z1 - z0) d0) (padCells pad (x1 - x0) d1)
      (padCells pad (y1 - y0) d2) cell,
    pad3 st (amax d0 d1 d2 vp) d0 d1 d2 (padCells pad (z1 - z0) d0) (padCells pad (x1 - x0) d1)
      (padCells pad (y1 - y0) d2) vp,
    .three (z0 - pad) z1 (x0 - pad) (x1 + pad) (y0 - pad) (y1 + pad)⟩,
    padCells pad (z1 - z0) d0, padCells pad (x1 - x0) d1, padCells pad (y1 - y0) d2,
    amax d0 d1 d2 cell, amax d0 d1 d2 vp, ?_, rfl, Nat.add_comm _ _, ?_, ?_, rfl, rfl, rfl,
    isMax_amax _ h0 h1 h2, isMax_amax _ h0 h1 h2, pad3_spec _ _ _ _ _ _ h0 h1 h2,
    pad3_spec _ _ _ _ _ _ h0 h1 h2⟩
  · unfold buildPad
    rw [if_neg (not_lt.2 hp.le), if_pos hp, hst]
  · simp only; omega
  · simp only; omega

/-- **C15**: `pad = 0` changes nothing, `pad < 0` raises, the supported styles are three. -/
theorem C15_pad_edges {d0 d1 d2 : ℕ} {cell vp : Arr K} {bb : Bbox K} {pad : K} {style : String} :
    (pad = 0 → buildPad d0 d1 d2 cell vp bb pad style = .ok ⟨d0, d1, d2, cell, vp, bb⟩) ∧
    (pad < 0 → buildPad d0 d1 d2 cell vp bb pad style = .error .padNeg) ∧
    (parseStyle "edge" = .ok .edge ∧ parseStyle "constant" = .ok .constant ∧
      parseStyle "linear_ramp" = .ok .linearRamp) := by
  refine ⟨?_, ?_, rfl, rfl, rfl⟩
  · rintro rfl; simp [buildPad]
  · intro h; simp [buildPad, h]

/-! ### non-vacuity of the pipeline hypotheses -/

/-- All options at once: the hypotheses of C07, C08 (second alternative), C09 are met by a
successful call with padding; the resulting grid has shape (3, 6, 1). -/
example : okAnd (K := ℚ) (sizing Limgrad.shippedCap (1 / 67108864) 2 2 1
    { Opts.default with
      hmin := 1, hmax := 10, wl := 1, freq := 1, grad := 3, dt := 1, window := (2, 2, 1),
      domainPad := 1, padStyle := "linear_ramp" }
    ["hmin", "hmax", "wl", "freq", "grad", "dt", "domain_pad"] [0, 2, 0, 1]
    (fun i j _ => 1 + i + 2 * j))
    (fun out => decide (out.d0 = 3 ∧ out.d1 = 6 ∧ out.d2 = 1)) = true := by decide +kernel

example : OrderedBbox ([0, 2, 0, 1] : List ℚ) := by simp [OrderedBbox]

end SM.Sizing
