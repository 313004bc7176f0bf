import Verif.Props.SizingGrade

/-!
# C09 with gradation

The velocity condition under which the gradation limiter cannot undo the timestep stage: the sizes the timestep
asks for are themselves graded, i.e. neighbouring velocities differ by at most `grade * (depth/nz) * cr_max /
(dt * space_order)`.
-/

namespace SM.Sizing

open Limgrad (GradedBy InGrid IsMin at3 Adjacent)

variable {K : Type} [Field K] [LinearOrder K] [IsStrictOrderedRing K] [FloorSemiring K]

/-- **C09, with gradation, partial.** If neighbouring velocities differ by at most
`grade * (depth/nz) * cr_max / (dt * space_order)`, then also with `grade > 0` the Courant number
`vp*dt*space_order/h` of every node, padding included, is at most `cr_max`; for every cap of the limiter. Missing:
steeper velocities (`C09_courant_false`). -/
theorem C09_graded_partial {imax : ℕ} {seps : K} {d0 d1 d2 : ℕ} {o : Opts K}
    {names : List String} {bbox : List K} {vp0 V : Arr K} {out : Out K}
    (h0 : 0 < d0) (h1 : 0 < d1) (h2 : 0 < d2) (hs : 0 ≤ seps) (hb : OrderedBbox bbox)
    (hp : 0 < o.hmin) (hle : o.hmin ≤ o.hmax) (hdt : 0 < o.dt) (hcr : 0 < o.crMax)
    (hso : 1 ≤ o.spaceOrder) (hV : Prepared d0 d1 d2 o vp0 V)
    (hflat : GradedBy d0 d1 d2 (o.grade * (depthOf bbox / d0) * o.crMax / (o.dt * o.spaceOrder)) V)
    (h : sizing imax seps d0 d1 d2 o names bbox vp0 = .ok (some out)) :
    AllNodes out.d0 out.d1 out.d2 fun i j k =>
      out.vp i j k * o.dt * o.spaceOrder / out.cell i j k ≤ o.crMax := by
  have hlow := C07_hmin_lower_bound h0 h1 h2 hs hb hp hle h
  obtain ⟨vp, bb, req, cell, cell1, cell2, hvp, hbb, -, -, hf, hc, hg, hpad⟩ := sizing_some h
  have hVv : V = vp := by
    unfold Prepared at hV
    rw [hV] at hvp
    cases hvp; rfl
  subst hVv
  have hst := cell_stages h0 h1 h2 hs hb hp hle hbb hf hc hg
  have hdim : 0 < bb.dim := by cases bb <;> simp [Bbox.dim]
  have hz : depthOf bbox = bb.zLen := (depthOf_parse hbb).symm
  have hds : 0 < o.dt * o.spaceOrder := mul_pos hdt (by linarith)
  have hG : GradedBy d0 d1 d2 (bb.zLen / d0 * o.grade)
      (fun i j k => V i j k * o.dt * o.spaceOrder / o.crMax) := by
    intro p q hp' hq' hpq
    have := hflat p q hp' hq' hpq
    rw [hz, le_div_iff₀ hds] at this
    have e : at3 (fun i j k => V i j k * o.dt * o.spaceOrder / o.crMax) p -
        at3 (fun i j k => V i j k * o.dt * o.spaceOrder / o.crMax) q =
        (at3 V p - at3 V q) * (o.dt * o.spaceOrder / o.crMax) := by
      simp only [at3]; ring
    rw [e, abs_mul, abs_of_pos (div_pos hds hcr), ← mul_div_assoc, div_le_iff₀ hcr]
    linarith
  have hcells1 : ∀ p, InGrid d0 d1 d2 p →
      at3 (fun i j k => V i j k * o.dt * o.spaceOrder / o.crMax) p ≤ at3 cell1 p := by
    rintro ⟨i, j, k⟩ ⟨hi, hj, hk⟩
    obtain ⟨a1, a2, a3, a4, a5⟩ := hst i hi j hj k hk
    simp only [at3]
    rcases courant_ok hc with ⟨h', -⟩ | ⟨-, -, -, e⟩
    · rcases h' with h' | h' | h'
      · exact absurd h' hcr.ne'
      · exact absurd h' hdt.ne'
      · rw [h'] at hso; exact absurd hso (by norm_num)
    · rw [e, courant_max hdim (lt_of_lt_of_le hp a1) hcr hso]
      exact le_max_right _ _
  obtain ⟨c, hc'⟩ := gradation_ok hg
  have hcells2 := Limgrad.C04_never_over_refines hcells1 hG
    (div_nonneg (zLen_nonneg hb hbb) (by positivity)) hc'
  have hcells : AllNodes d0 d1 d2 fun i j k =>
      (o.dt * o.spaceOrder) * V i j k ≤ o.crMax * cell2 i j k := by
    intro i hi j hj k hk
    have := hcells2 (i, j, k) ⟨hi, hj, hk⟩
    simp only [at3] at this
    rw [div_le_iff₀ hcr] at this
    linarith
  rcases buildPad_ok hpad with ⟨-, rfl⟩ | ⟨-, st, b0, b1, b2, -, e0, e1, e2, ec, ev⟩
  · intro i hi j hj k hk
    rw [div_le_iff₀ (lt_of_lt_of_le hp (hlow i hi j hj k hk))]
    have := hcells i hi j hj k hk
    simp only; linarith
  · intro i hi j hj k hk
    have hpos := lt_of_lt_of_le hp (hlow i hi j hj k hk)
    rw [e0] at hi; rw [e1] at hj; rw [e2] at hk
    have hmx : (o.dt * o.spaceOrder) * amax d0 d1 d2 V ≤ o.crMax * amax d0 d1 d2 cell2 := by
      obtain ⟨i', hi', j', hj', k', hk', e⟩ := amax_attained V h0 h1 h2
      rw [e]
      refine le_trans (hcells i' hi' j' hj' k' hk') ?_
      exact mul_le_mul_of_nonneg_left (le_amax _ hi' hj' hk') hcr.le
    have := pad3_lin_le (st := st) (b0 := b0) (b1 := b1) (b2 := b2) hmx h0 h1 h2 hcells hi hj hk
    rw [← ec, ← ev] at this
    rw [div_le_iff₀ hpos]; linarith

/-- Options of the example: `dt = 1`, `cr_max = 1`, `grade = 2`, depth 2 over 2 nodes, so neighbouring velocities
may differ by 2. -/
def flatOpts : Opts ℚ := { Opts.default with hmin := 1, hmax := 2, dt := 1, grade := 2 }

/-- Velocities 3 and 5. -/
def flatV : Arr ℚ := fun i _ _ => if i = 0 then 3 else 5

/-- The hypotheses are met by a call in which the timestep stage raises both sizes (to 3 and 5, above `hmax`). -/
example : ∃ out, sizing Limgrad.shippedCap (1 / 67108864) 2 1 1 flatOpts [] [0, 2, 0, 1] flatV = .ok (some out) ∧
    out.cell 0 0 0 = 3 ∧ out.cell 1 0 0 = 5 ∧
    AllNodes out.d0 out.d1 out.d2 fun i j k =>
      out.vp i j k * flatOpts.dt * flatOpts.spaceOrder / out.cell i j k ≤ flatOpts.crMax := by
  have key : okAnd (K := ℚ) (sizing Limgrad.shippedCap (1 / 67108864) 2 1 1 flatOpts [] [0, 2, 0, 1] flatV)
      (fun out => decide (out.cell 0 0 0 = 3 ∧ out.cell 1 0 0 = 5)) = true := by decide +kernel
  obtain ⟨out, e1, e2⟩ := okAnd_spec key
  have e2 := of_decide_eq_true e2
  refine ⟨out, e1, e2.1, e2.2, ?_⟩
  refine C09_graded_partial (V := flatV) (by norm_num) (by norm_num) (by norm_num) (by norm_num)
    (by norm_num [OrderedBbox]) (by norm_num [flatOpts]) (by norm_num [flatOpts]) (by norm_num [flatOpts])
    (by norm_num [flatOpts, Opts.default]) (by norm_num [flatOpts, Opts.default]) ?_ ?_ e1
  · have e : convertUnits "m-s" flatV = flatV := by
      unfold convertUnits
      rw [if_neg (by decide), if_neg (by decide)]
    have g : waterGuard 2 1 1 flatV = false := by decide +kernel
    change replaceWater 2 1 1 _ (convertUnits "m-s" flatV) = _
    rw [e]
    simp only [replaceWater, g]
    rfl
  · rintro ⟨i, j, k⟩ ⟨i', j', k'⟩ - - -
    simp only [at3, flatV, flatOpts, Opts.default, depthOf]
    split_ifs <;> norm_num [abs_le]

end SM.Sizing
