import Verif.Props.SizingMono

/-!
# C113: slower rock never gets larger cells
-/

namespace SM.Sizing

variable {K : Type} [Field K] [LinearOrder K] [IsStrictOrderedRing K]

theorem finer_refl (o : Opts K) : Finer o o where
  water := rfl
  units := rfl
  window := rfl
  order := rfl
  cr := rfl
  style := rfl
  pad := rfl
  hmin := le_rfl
  hmax := le_rfl
  freq := le_rfl
  wl := le_rfl
  grad := .inl rfl
  dt := le_rfl
  grade := .inl rfl
  switchWl h h' := absurd h h'
  switchGrad h h' := absurd h h'

/-- The velocity in m/s that a value of the file stands for, for each value of `units`. -/
def metresPerSecond (units : String) (v : K) : K :=
  if units = "km-s" then v * 1000 else if units = "ft-s" then v * (3 / 10) else v

/-- The velocity model `vp` is nowhere faster than `vp'` and both have water or air (below 1 mm/s) at the same nodes. -/
structure Slower (d0 d1 d2 : ℕ) (units : String) (vp vp' : Arr K) : Prop where
  le : AllNodes d0 d1 d2 fun i j k => vp i j k ≤ vp' i j k
  zero : AllNodes d0 d1 d2 fun i j k => metresPerSecond units (vp i j k) < 1 / 1000 ↔ metresPerSecond units (vp' i j k) < 1 / 1000

theorem convertUnits_eq (units : String) (vp : Arr K) : convertUnits units vp = fun i j k => metresPerSecond units (vp i j k) := by
  unfold convertUnits metresPerSecond
  split_ifs <;> rfl

theorem metresPerSecond_mono (units : String) {v w : K} (h : v ≤ w) : metresPerSecond units v ≤ metresPerSecond units w := by
  unfold metresPerSecond
  split_ifs
  · exact mul_le_mul_of_nonneg_right h (by norm_num)
  · exact mul_le_mul_of_nonneg_right h (by norm_num)
  · exact h

theorem waterGuard_congr {d0 d1 d2 : ℕ} {vp vp' : Arr K} (h : AllNodes d0 d1 d2 fun i j k => vp i j k < 1 / 1000 ↔ vp' i j k < 1 / 1000) :
    waterGuard d0 d1 d2 vp = waterGuard d0 d1 d2 vp' := by
  unfold waterGuard
  rw [Bool.eq_iff_iff]
  simp only [List.any_eq_true, List.mem_range, Bool.and_eq_true, decide_eq_true_eq]
  constructor
  · rintro ⟨i, hi, j, hj, k, hk, h1, h2⟩
    exact ⟨i, hi, j, hj, k, hk, (h i hi j hj k hk).1 h1, h2⟩
  · rintro ⟨i, hi, j, hj, k, hk, h1, h2⟩
    exact ⟨i, hi, j, hj, k, hk, (h i hi j hj k hk).2 h1, h2⟩

/-- Preparation keeps the order. -/
theorem prepared_mono {d0 d1 d2 : ℕ} {o : Opts K} {vp0 vp0' V V' : Arr K} (hsl : Slower d0 d1 d2 o.units vp0 vp0') (hV : Prepared d0 d1 d2 o vp0 V)
    (hV' : Prepared d0 d1 d2 o vp0' V') : AllNodes d0 d1 d2 fun i j k => V i j k ≤ V' i j k := by
  unfold Prepared at hV hV'
  rw [convertUnits_eq] at hV hV'
  unfold replaceWater at hV hV'
  rw [← waterGuard_congr hsl.zero] at hV'
  split at hV
  · rename_i hg
    rw [if_pos hg] at hV'
    cases hw : o.vpWater with
    | none => rw [hw] at hV; cases hV
    | some w =>
      rw [hw] at hV hV'
      simp only at hV hV'
      split at hV
      · cases hV
      rename_i hr
      rw [if_neg hr] at hV'
      cases hV; cases hV'
      intro i hi j hj k hk
      simp only [fillWater]
      by_cases h1 : metresPerSecond o.units (vp0 i j k) < 1 / 1000
      · rw [if_pos h1, if_pos ((hsl.zero i hi j hj k hk).1 h1)]
      · rw [if_neg h1, if_neg fun h => h1 ((hsl.zero i hi j hj k hk).2 h)]
        exact metresPerSecond_mono _ (hsl.le i hi j hj k hk)
  · rename_i hg
    rw [if_neg hg] at hV'
    cases hV; cases hV'
    intro i hi j hj k hk
    exact metresPerSecond_mono _ (hsl.le i hi j hj k hk)

variable [FloorSemiring K]

/-- **C113.** Two calls with the same options and bbox, without the gradient criterion: if the first velocity model is nowhere faster than the second (and has
water at the same nodes), its sizes are nowhere larger, up to the tolerance of the limiter. -/
theorem C113_slower {seps : K} {d0 d1 d2 : ℕ} {o : Opts K} {names names' : List String} {bbox : List K} {vp0 vp0' V V' : Arr K} {out out' : Out K}
    (h0 : 0 < d0) (h1 : 0 < d1) (h2 : 0 < d2) (hs : 0 ≤ seps) (hb : OrderedBbox bbox) (hp : 0 < o.hmin) (hle : o.hmin ≤ o.hmax) (hf : 0 < o.freq)
    (hw : 0 ≤ o.wl) (hgrad : o.grad = 0) (hsl : Slower d0 d1 d2 o.units vp0 vp0') (hV : Prepared d0 d1 d2 o vp0 V) (hV' : Prepared d0 d1 d2 o vp0' V')
    (hVp : AllNodes d0 d1 d2 fun i j k => 0 ≤ V i j k)
    (hrange : o.grade ≠ 0 → o.hmax - o.hmin ≤ 9999 * (depthOf bbox / d0 * o.grade) ∧
      (o.dt = 0 ∨ AllNodes d0 d1 d2 fun i j k => V i j k * o.dt * o.spaceOrder / o.crMax ≤ o.hmax))
    (h : sizing Limgrad.shippedCap seps d0 d1 d2 o names bbox vp0 = .ok (some out))
    (h' : sizing Limgrad.shippedCap seps d0 d1 d2 o names' bbox vp0' = .ok (some out')) :
    out.d0 = out'.d0 ∧ out.d1 = out'.d1 ∧ out.d2 = out'.d2 ∧ out.bbox = out'.bbox ∧
    AllNodes out.d0 out.d1 out.d2 fun i j k => out.cell i j k ≤ out'.cell i j k + tolerance seps d0 d1 d2 o :=
  finer_core (finer_refl o) h0 h1 h2 hs hb hp hle hle hf hw hV hV' (.inr ⟨hgrad, hgrad, prepared_mono hsl hV hV'⟩) hVp hrange h h'

/-- **C113, everywhere.** The same at every point of the bbox. -/
theorem C113_everywhere {seps : K} {d0 d1 d2 : ℕ} {o : Opts K} {names names' : List String} {bbox : List K} {vp0 vp0' V V' : Arr K} {out out' : Out K}
    (h0 : 0 < d0) (h1 : 0 < d1) (h2 : 0 < d2) (hs : 0 ≤ seps) (hb : OrderedBbox bbox) (hp : 0 < o.hmin) (hle : o.hmin ≤ o.hmax) (hf : 0 < o.freq)
    (hw : 0 ≤ o.wl) (hgrad : o.grad = 0) (hsl : Slower d0 d1 d2 o.units vp0 vp0') (hV : Prepared d0 d1 d2 o vp0 V) (hV' : Prepared d0 d1 d2 o vp0' V')
    (hVp : AllNodes d0 d1 d2 fun i j k => 0 ≤ V i j k)
    (hrange : o.grade ≠ 0 → o.hmax - o.hmin ≤ 9999 * (depthOf bbox / d0 * o.grade) ∧
      (o.dt = 0 ∨ AllNodes d0 d1 d2 fun i j k => V i j k * o.dt * o.spaceOrder / o.crMax ≤ o.hmax))
    (h : sizing Limgrad.shippedCap seps d0 d1 d2 o names bbox vp0 = .ok (some out))
    (h' : sizing Limgrad.shippedCap seps d0 d1 d2 o names' bbox vp0' = .ok (some out'))
    (hpr : Interp.Proper out) {x : List K} (hin : Interp.InBbox out.bbox x) :
    Interp.sizeEval out x ≤ Interp.sizeEval out' x + tolerance seps d0 d1 d2 o :=
  nodes_everywhere (C113_slower h0 h1 h2 hs hb hp hle hf hw hgrad hsl hV hV' hVp hrange h h') hpr hin

/-! ### Examples -/

/-- Rows at 1000, 1000, 2000, 2000 m/s. -/
def rowsV : Arr ℚ := fun i _ _ => if i < 2 then 1000 else 2000

/-- The last row twice as fast. -/
def fastV : Arr ℚ := fun i _ _ => if i < 2 then 1000 else if i = 2 then 2000 else 4000

/-- Gradient criterion only. -/
def gradOnly : Opts ℚ := { Opts.default with hmin := 1, hmax := 200, grad := 10, window := (2, 2, 2) }

/-- Wavelength criterion with gradation. -/
def wlGraded : Opts ℚ := { Opts.default with hmin := 1, hmax := 400, wl := 5, freq := 2, grade := 150 }

theorem rows_slower : Slower 4 2 1 "m-s" rowsV fastV where
  le i hi j hj k hk := by
    simp only [rowsV, fastV]
    split_ifs <;> norm_num
  zero i hi j hj k hk := by
    have e1 : metresPerSecond "m-s" (rowsV i j k) = rowsV i j k := by
      unfold metresPerSecond
      rw [if_neg (by decide), if_neg (by decide)]
    have e2 : metresPerSecond "m-s" (fastV i j k) = fastV i j k := by
      unfold metresPerSecond
      rw [if_neg (by decide), if_neg (by decide)]
    change metresPerSecond "m-s" (rowsV i j k) < 1 / 1000 ↔ metresPerSecond "m-s" (fastV i j k) < 1 / 1000
    rw [e1, e2]
    simp only [rowsV, fastV]
    split_ifs <;> norm_num

/-- **C113, the gradient criterion.** With the gradient criterion this does not hold: where the last row becomes faster the sizes there drop from 100 to
100/11. -/
theorem C113_gradient : ∃ out out', sizing Limgrad.shippedCap (1 / 67108864) 4 2 1 gradOnly [] [0, 3, 0, 2] rowsV = .ok (some out) ∧
    sizing Limgrad.shippedCap (1 / 67108864) 4 2 1 gradOnly [] [0, 3, 0, 2] fastV = .ok (some out') ∧ Slower 4 2 1 gradOnly.units rowsV fastV ∧
    out.cell 3 0 0 = 100 ∧ out'.cell 3 0 0 = 100 / 11 := by
  have key : okAnd (K := ℚ) (sizing Limgrad.shippedCap (1 / 67108864) 4 2 1 gradOnly [] [0, 3, 0, 2] rowsV)
      (fun out => decide (out.cell 3 0 0 = 100)) = true := by decide +kernel
  have key' : okAnd (K := ℚ) (sizing Limgrad.shippedCap (1 / 67108864) 4 2 1 gradOnly [] [0, 3, 0, 2] fastV)
      (fun out => decide (out.cell 3 0 0 = 100 / 11)) = true := by decide +kernel
  obtain ⟨out, e1, e2⟩ := okAnd_spec key
  obtain ⟨out', e1', e2'⟩ := okAnd_spec key'
  exact ⟨out, out', e1, e1', rows_slower, of_decide_eq_true e2, of_decide_eq_true e2'⟩

theorem rows_prepared (o : Opts ℚ) (hu : o.units = "m-s") : Prepared 4 2 1 o rowsV rowsV ∧ Prepared 4 2 1 o fastV fastV := by
  have e : ∀ v : Arr ℚ, convertUnits "m-s" v = v := fun v => by
    unfold convertUnits
    rw [if_neg (by decide), if_neg (by decide)]
  have g : waterGuard 4 2 1 rowsV = false := by decide +kernel
  have g' : waterGuard 4 2 1 fastV = false := by decide +kernel
  unfold Prepared
  rw [hu, e, e]
  simp only [replaceWater, g, g']
  exact ⟨rfl, rfl⟩

/-- The hypotheses of `C113_slower` are met; the last row has size 200 in the slower and 312.5 in the faster model. -/
example : ∃ out out', sizing Limgrad.shippedCap (1 / 67108864) 4 2 1 wlGraded [] [0, 3, 0, 2] rowsV = .ok (some out) ∧
    sizing Limgrad.shippedCap (1 / 67108864) 4 2 1 wlGraded [] [0, 3, 0, 2] fastV = .ok (some out') ∧ out.cell 3 0 0 < out'.cell 3 0 0 ∧
    AllNodes out.d0 out.d1 out.d2 fun i j k => out.cell i j k ≤ out'.cell i j k + tolerance (1 / 67108864) 4 2 1 wlGraded := by
  have key : okAnd (K := ℚ) (sizing Limgrad.shippedCap (1 / 67108864) 4 2 1 wlGraded [] [0, 3, 0, 2] rowsV)
      (fun out => decide (out.cell 3 0 0 < 250)) = true := by decide +kernel
  have key' : okAnd (K := ℚ) (sizing Limgrad.shippedCap (1 / 67108864) 4 2 1 wlGraded [] [0, 3, 0, 2] fastV)
      (fun out => decide (250 < out.cell 3 0 0)) = true := by decide +kernel
  obtain ⟨out, e1, e2⟩ := okAnd_spec key
  obtain ⟨out', e1', e2'⟩ := okAnd_spec key'
  refine ⟨out, out', e1, e1', (of_decide_eq_true e2).trans (of_decide_eq_true e2'), ?_⟩
  have hpr := rows_prepared wlGraded rfl
  refine (C113_slower (o := wlGraded) (by norm_num) (by norm_num) (by norm_num) (by norm_num) (by norm_num [OrderedBbox]) (by norm_num [wlGraded])
    (by norm_num [wlGraded]) (by norm_num [wlGraded]) (by norm_num [wlGraded]) rfl rows_slower hpr.1 hpr.2 ?_ ?_ e1 e1').2.2.2.2
  · intro i _ j _ k _
    simp only [rowsV]; split_ifs <;> norm_num
  · intro _
    exact ⟨by norm_num [wlGraded, depthOf], .inl rfl⟩

end SM.Sizing
