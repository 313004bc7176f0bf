import Verif.Props.Velocity
import Mathlib.Tactic.Positivity
import Mathlib.Tactic.LinearCombination

/-!
# C119: what a sizing option means when it is left out
-/

namespace SM.Sizing

open SM.Velocity

variable {K : Type} [Field K] [LinearOrder K] [IsStrictOrderedRing K] [FloorSemiring K]

/-- Clamping at 150 and 10000 leaves finite numbers. -/
theorem finite_ex {d0 d1 d2 : ℕ} {hmin hmax : K} (f : Arr K) :
    ∃ cell : Arr K, finite d0 d1 d2 (fun i j k => clamp hmin hmax (.fin (f i j k))) = some cell ∧
      AllNodes d0 d1 d2 fun i j k => cell i j k = min hmax (max hmin (f i j k)) := by
  obtain ⟨cell, hcell⟩ := finite_isSome (d0 := d0) (d1 := d1) (d2 := d2)
    (A := fun i j k => clamp hmin hmax (.fin (f i j k))) (fun i _ j _ k _ => ⟨_, clamp_fin _ _ _⟩)
  refine ⟨cell, hcell, fun i hi j hj k hk => ?_⟩
  have := finite_some hcell hi hj hk
  rw [clamp_fin] at this
  simp only [Fl.fin.injEq] at this
  exact this.symm

/-- **C119 (no option).** Called without options the function succeeds on every velocity model without zeros and every
box of four or six numbers, and the size is 150 at every node. -/
theorem C119_none {imax : ℕ} {seps : K} {d0 d1 d2 : ℕ} {bbox : List K} {vp : Arr K} (hb : bbox.length = 4 ∨ bbox.length = 6)
    (hv : AllNodes d0 d1 d2 fun i j k => 1 / 1000 ≤ vp i j k) :
    ∃ out, sizing imax seps d0 d1 d2 Opts.default [] bbox vp = .ok (some out) ∧ out.d0 = d0 ∧ out.d1 = d1 ∧ out.d2 = d2 ∧ out.bbox.toList = bbox ∧
      AllNodes d0 d1 d2 fun i j k => out.cell i j k = 150 := by
  have hp : ∃ bb, parseBbox bbox = .ok bb ∧ bb.toList = bbox := by
    rcases hb with hb | hb
    · obtain ⟨a, b, c, e, rfl⟩ := List.length_eq_four.1 hb
      exact ⟨_, rfl, rfl⟩
    · match bbox, hb with
      | [a, b, c, e, f, g], _ => exact ⟨_, rfl, rfl⟩
  obtain ⟨bb, hpb, hbl⟩ := hp
  have hu : (Opts.default : Opts K).units = "m-s" := rfl
  have hw : replaceWater d0 d1 d2 (Opts.default : Opts K).vpWater (convertUnits (Opts.default : Opts K).units vp) = .ok vp := by
    have : convertUnits "m-s" vp = vp := by simp [convertUnits]
    rw [hu, this]
    refine replaceWater_none ?_
    rintro ⟨i, hi, j, hj, k, hk, -, h⟩
    exact absurd (hv i hi j hj k hk) (not_le.2 h)
  have hreq : requested d0 d1 d2 (Opts.default : Opts K) vp = .ok fun _ _ _ => .fin 150 := by
    simp [requested, Opts.default]
  obtain ⟨cell, hcell, hc⟩ := finite_ex (d0 := d0) (d1 := d1) (d2 := d2) (hmin := (150 : K)) (hmax := 10000) fun _ _ _ => 150
  refine ⟨⟨d0, d1, d2, cell, vp, bb⟩, ?_, rfl, rfl, rfl, hbl, ?_⟩
  · have hcell' : finite d0 d1 d2 (fun _ _ _ => clamp (Opts.default : Opts K).hmin (Opts.default : Opts K).hmax (.fin 150)) = some cell := hcell
    unfold sizing
    simp only [hw, hpb, checkNames_ok (names := []) (by simp), hreq, hcell', Option.getD_some]
    simp [courant, gradation, Limgrad.enforceGradation, buildPad, Opts.default]
  · intro i hi j hj k hk
    show cell i j k = 150
    rw [hc i hi j hj k hk]; norm_num

/-- **C119 (only `wl`).** With `wl` as the only option the size at a node is `v / (2 wl)` (at most 99999, which the cut at 10000 hides), kept
within 150 and 10000: frequency 2 Hz, velocities in m/s, no gradation, no timestep, no pad. -/
theorem C119_wl {imax : ℕ} {seps : K} {d0 d1 d2 : ℕ} {bbox : List K} {bb : Bbox K} {vp : Arr K} {wl : K} (hwl : 0 < wl) (hb : parseBbox bbox = .ok bb)
    (hv : AllNodes d0 d1 d2 fun i j k => 1 / 1000 ≤ vp i j k) :
    ∃ out, sizing imax seps d0 d1 d2 { Opts.default with wl := wl } ["wl"] bbox vp = .ok (some out) ∧ out.d0 = d0 ∧ out.d1 = d1 ∧ out.d2 = d2 ∧
      AllNodes d0 d1 d2 fun i j k => out.cell i j k = min 10000 (max 150 (vp i j k / (2 * wl))) := by
  have hu : ∀ v : K, v * unitFactor (Opts.default : Opts K).units = v := fun v => by simp [unitFactor, Opts.default]
  obtain ⟨cell, h, hc⟩ := sizing_wl (imax := imax) (seps := seps) (d0 := d0) (d1 := d1) (d2 := d2) (o := { Opts.default with wl := wl }) (names := ["wl"]) (vp := vp)
    ⟨hwl, by norm_num [Opts.default], rfl, rfl, rfl, rfl⟩ (by simp [knownOptions]) hb
    (fun i hi j hj k hk => by show 1 / 1000 ≤ vp i j k * unitFactor (Opts.default : Opts K).units; rw [hu]; exact hv i hi j hj k hk)
  refine ⟨_, h, rfl, rfl, rfl, fun i hi j hj k hk => ?_⟩
  show cell i j k = _
  rw [hc i hi j hj k hk]
  show min (10000 : K) (max 150 (min (vp i j k * unitFactor (Opts.default : Opts K).units / (2 * wl)) 99999)) = _
  rw [hu]
  rcases le_total (vp i j k / (2 * wl)) 99999 with hle | hle
  · rw [min_eq_left hle]
  · have h1 : (10000 : K) ≤ max 150 (vp i j k / (2 * wl)) := le_max_of_le_right (le_trans (by norm_num) hle)
    rw [min_eq_right hle, min_eq_left h1, min_eq_left (le_max_of_le_right (by norm_num))]

/-- **C119 (only `dt`).** With `dt` as the only option the size is 150, or the distance `v dt` covered in one step where that is larger
(Courant number 1, first-order elements). -/
theorem C119_dt {imax : ℕ} {seps : K} {d0 d1 d2 : ℕ} {bbox : List K} {bb : Bbox K} {vp : Arr K} {dt : K} (hdt : 0 < dt) (hb : parseBbox bbox = .ok bb)
    (hv : AllNodes d0 d1 d2 fun i j k => 1 / 1000 ≤ vp i j k) :
    ∃ out, sizing imax seps d0 d1 d2 { Opts.default with dt := dt } ["dt"] bbox vp = .ok (some out) ∧ out.d0 = d0 ∧ out.d1 = d1 ∧ out.d2 = d2 ∧
      AllNodes d0 d1 d2 fun i j k => out.cell i j k = max 150 (vp i j k * dt) := by
  set o : Opts K := { Opts.default with dt := dt } with ho
  have hw : replaceWater d0 d1 d2 o.vpWater (convertUnits o.units vp) = .ok vp := by
    have : convertUnits o.units vp = vp := by simp [convertUnits, ho, Opts.default]
    rw [this]
    refine replaceWater_none ?_
    rintro ⟨i, hi, j, hj, k, hk, -, h⟩
    exact absurd (hv i hi j hj k hk) (not_le.2 h)
  have hreq : requested d0 d1 d2 o vp = .ok fun _ _ _ => .fin 150 := by
    simp [requested, ho, Opts.default]
  obtain ⟨cell, hcell, hc⟩ := finite_ex (d0 := d0) (d1 := d1) (d2 := d2) (hmin := (150 : K)) (hmax := 10000) fun _ _ _ => 150
  have hcell' : finite d0 d1 d2 (fun _ _ _ => clamp o.hmin o.hmax (.fin 150)) = some cell := hcell
  have hdim : (0 : K) < bb.dim := by cases bb <;> simp [Bbox.dim]
  have hdt' : o.dt = dt := rfl
  have hcr : o.crMax = 1 := rfl
  have hso : o.spaceOrder = 1 := rfl
  have hg : o.grade = 0 := rfl
  have hpd : o.domainPad = 0 := rfl
  refine ⟨⟨d0, d1, d2, fun i j k => if (vp i j k * dt) / (bb.dim * cell i j k) > 1 / (bb.dim * 1) then (vp i j k * dt) / (bb.dim * (1 / (bb.dim * 1))) else cell i j k, vp, bb⟩,
    ?_, rfl, rfl, rfl, ?_⟩
  · unfold sizing
    simp only [hw, hb, checkNames_ok (names := ["dt"]) (by simp [knownOptions]), hreq, hcell', Option.getD_some, hdt', hcr, hso, hg, hpd]
    simp [courant, gradation, Limgrad.enforceGradation, buildPad, hdt.ne', not_lt.2 hdt.le, not_lt.2 (zero_le_one' K)]
  · intro i hi j hj k hk
    have e : cell i j k = 150 := by rw [hc i hi j hj k hk]; norm_num
    show (if (vp i j k * dt) / (bb.dim * cell i j k) > 1 / (bb.dim * 1) then (vp i j k * dt) / (bb.dim * (1 / (bb.dim * 1))) else cell i j k) = _
    have e1 : (vp i j k * dt) / (bb.dim * (1 / (bb.dim * 1))) = vp i j k * dt := by field_simp
    have e2 : (vp i j k * dt) / (bb.dim * cell i j k) > 1 / (bb.dim * 1) ↔ 150 < vp i j k * dt := by
      rw [e, gt_iff_lt, div_lt_div_iff₀ (by positivity) (by positivity), mul_one, one_mul, mul_comm (vp i j k * dt) (bb.dim : K)]
      exact mul_lt_mul_iff_right₀ hdim
    rw [e1, e]
    rw [e] at e2
    by_cases h : 150 < vp i j k * dt
    · rw [if_pos (e2.2 h), max_eq_right h.le]
    · rw [if_neg (fun hh => h (e2.1 hh)), max_eq_left (not_lt.1 h)]

/-- A two-layer model: 1500 m/s above, 6000 m/s below, on a 2 × 2 grid (one node thick in y). -/
def layers : Arr ℚ := fun i _ _ => if i = 0 then 1500 else 6000

example : parseBbox [(0 : ℚ), 1, 0, 1] = .ok (.two 0 1 0 1) ∧ AllNodes 2 2 1 fun i j k => (1 : ℚ) / 1000 ≤ layers i j k := by
  refine ⟨rfl, fun i _ j _ k _ => ?_⟩
  show (1 : ℚ) / 1000 ≤ if i = 0 then 1500 else 6000
  split <;> norm_num

/-- The three calls on it: 150 everywhere; 150 (cut) and 300 for `wl = 10`; 150 and 600 for `dt = 0.1`. -/
example : min 10000 (max 150 (layers 0 0 0 / (2 * 10))) = 150 ∧ min 10000 (max 150 (layers 1 0 0 / (2 * 10))) = 300 ∧
    max 150 (layers 0 0 0 * (1 / 10)) = 150 ∧ max 150 (layers 1 0 0 * (1 / 10)) = 600 := by
  norm_num [layers]

end SM.Sizing
