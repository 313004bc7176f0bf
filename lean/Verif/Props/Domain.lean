import Verif.Model.Domain
import Verif.Props.Sdf

/-!
# C27, C28, C29: bounding boxes, manipulations and corners of domain objects
-/

namespace SM.Domain

open SM.Sdf

/-! ### Specification vocabulary -/

/-- A point lies in a bounding box. -/
def Box.Mem {d : ℕ} (b : Box d) (x : Pt d) : Prop := InBox b.lo b.hi x

/-- The advertised box encloses the shape. -/
def Encloses {d : ℕ} (o : Obj d) : Prop := ∀ x, o.eval x ≤ 0 → o.bbox.Mem x

/-- A stretch vector must be non-zero (otherwise `0/0`). -/
def Manip.Valid {d : ℕ} (m : Manip d) : Prop := ∀ v, m.stretch = some v → v ≠ 0

/-- Rotation about at most one axis. -/
def Rot.SingleAxis : {d : ℕ} → Rot d → Prop
  | _, .two _ => True
  | _, .three a b c => (b = 0 ∧ c = 0) ∨ (a = 0 ∧ c = 0) ∨ (a = 0 ∧ b = 0)

/-- Objects a user can build; `okM` restricts the manipulations, `okU` the smoothness of
unions. -/
inductive Built (okM : ∀ d, Manip d → Prop) (okU : ℝ → Prop) : {d : ℕ} → Obj d → Prop
  | disk (x0 : Pt 2) (r : ℝ) (m : Manip 2) : okM 2 m → Built okM okU (mkDisk x0 r m)
  | ball (x0 : Pt 3) (r : ℝ) (m : Manip 3) : okM 3 m → Built okM okU (mkBall x0 r m)
  | rectangle (b : Box 2) (m : Manip 2) : okM 2 m → Built okM okU (mkRectangle b m)
  | cube (b : Box 3) (m : Manip 3) : okM 3 m → Built okM okU (mkCube b m)
  | torus (r1 r2 : ℝ) (m : Manip 3) : 0 < r1 → 0 < r2 → okM 3 m → Built okM okU (mkTorus r1 r2 m)
  | prism (b h : ℝ) (m : Manip 3) : okM 3 m → Built okM okU (mkPrism b h m)
  | cylinder (h r : ℝ) (m : Manip 3) : 0 < h → 0 < r → okM 3 m → Built okM okU (mkCylinder h r m)
  | rep (b : Box 3) (o : Obj 3) (period : Pt 3) : Built okM okU o → Built okM okU (mkRepeat b o period)
  | union {d : ℕ} (k : ℝ) (o : Obj d) (os : List (Obj d)) : okU k → Built okM okU o →
      (∀ o' ∈ os, Built okM okU o') → Built okM okU (mkUnion k o os)
  | inter {d : ℕ} (k : ℝ) (o : Obj d) (os : List (Obj d)) : Built okM okU o →
      (∀ o' ∈ os, Built okM okU o') → Built okM okU (mkIntersection k o os)
  | diff {d : ℕ} (k : ℝ) (o : Obj d) (os : List (Obj d)) : Built okM okU o →
      (∀ o' ∈ os, Built okM okU o') → Built okM okU (mkDifference k o os)

/-- Everything a user can build. -/
abbrev AnyBuilt {d : ℕ} (o : Obj d) : Prop := Built (fun _ m => m.Valid) (fun _ => True) o

/-! ### Lemmas on corners and hulls -/

theorem mem_corners {d : ℕ} {b : Box d} {q : Pt d} :
    q ∈ corners d b ↔ ∀ i, q i = b.lo i ∨ q i = b.hi i := by
  induction d with
  | zero => simp only [corners, List.mem_singleton]; constructor
            · intro _ i; exact i.elim0
            · intro _; ext i; exact i.elim0
  | succ d ih =>
    simp only [corners, List.mem_flatMap, List.mem_map, List.mem_cons, List.not_mem_nil, or_false]
    constructor
    · rintro ⟨x, hx, c, hc, rfl⟩ i
      rw [ih] at hc
      refine Fin.cases ?_ (fun j => ?_) i
      · simpa using hx
      · simpa using hc j
    · intro h
      refine ⟨q 0, h 0, fun i => q i.succ, ?_, ?_⟩
      · rw [ih]; intro i; exact h i.succ
      · ext i; refine Fin.cases ?_ (fun j => ?_) i <;> simp

theorem npMin_le {l : List ℝ} {x : ℝ} (hx : x ∈ l) : npMin l ≤ x := by
  cases l with
  | nil => simp at hx
  | cons a l => exact foldl_min_le.2 ⟨x, hx, le_rfl⟩

theorem le_npMax {l : List ℝ} {x : ℝ} (hx : x ∈ l) : x ≤ npMax l := by
  cases l with
  | nil => simp at hx
  | cons a l => exact (foldl_max_le.1 le_rfl) x hx

theorem npMax_le {l : List ℝ} (hl : l ≠ []) {c : ℝ} (h : ∀ x ∈ l, x ≤ c) : npMax l ≤ c := by
  cases l with
  | nil => exact absurd rfl hl
  | cons a l => exact foldl_max_le.2 h

/-- A linear form on a box is bounded by its values at the corners. -/
theorem exists_corner_ge {d : ℕ} {b : Box d} {p : Pt d} (hp : b.Mem p) (w : Pt d) :
    (∃ q ∈ corners d b, dot w p ≤ dot w q) ∧ (∃ q ∈ corners d b, dot w q ≤ dot w p) := by
  constructor
  · refine ⟨fun i => if 0 ≤ w i then b.hi i else b.lo i, ?_, ?_⟩
    · rw [mem_corners]; intro i; split_ifs
      · exact Or.inr rfl
      · exact Or.inl rfl
    · apply Finset.sum_le_sum; intro i _; simp only; split_ifs with h
      · exact mul_le_mul_of_nonneg_left (hp i).2 h
      · exact mul_le_mul_of_nonpos_left (hp i).1 (not_le.1 h).le
  · refine ⟨fun i => if 0 ≤ w i then b.lo i else b.hi i, ?_, ?_⟩
    · rw [mem_corners]; intro i; split_ifs
      · exact Or.inl rfl
      · exact Or.inr rfl
    · apply Finset.sum_le_sum; intro i _; simp only; split_ifs with h
      · exact mul_le_mul_of_nonneg_left (hp i).1 h
      · exact mul_le_mul_of_nonpos_left (hp i).2 (not_le.1 h).le

/-- The hull of the images of the corners contains the image of the box. -/
theorem hull_linear {d : ℕ} {b : Box d} {p : Pt d} (hp : b.Mem p) {F : Pt d → Pt d}
    (hF : ∀ i, ∃ w : Pt d, ∀ x, F x i = dot w x) :
    (hull ((corners d b).map F)).Mem (F p) := by
  intro i
  obtain ⟨w, hw⟩ := hF i
  obtain ⟨⟨q, hq, h1⟩, q', hq', h2⟩ := exists_corner_ge hp w
  constructor
  · refine le_trans (npMin_le (x := F q' i) ?_) ?_
    · exact List.mem_map.2 ⟨F q', List.mem_map.2 ⟨q', hq', rfl⟩, rfl⟩
    · rw [hw, hw]; exact h2
  · refine le_trans ?_ (le_npMax (x := F q i) ?_)
    · rw [hw, hw]; exact h1
    · exact List.mem_map.2 ⟨F q, List.mem_map.2 ⟨q, hq, rfl⟩, rfl⟩

theorem dot_add {d : ℕ} (v x y : Pt d) : dot v (fun i => x i + y i) = dot v x + dot v y := by
  simp only [dot, mul_add, Finset.sum_add_distrib]

theorem dot_smul {d : ℕ} (v x : Pt d) (c : ℝ) : dot v (fun i => c * x i) = c * dot v x := by
  simp only [dot, Finset.mul_sum]; refine Finset.sum_congr rfl fun i _ => by ring

theorem alpha_pos {d : ℕ} {v : Pt d} (hv : v ≠ 0) : 0 < alpha v := by
  unfold alpha dot
  apply Real.sqrt_pos.2
  obtain ⟨i, hi⟩ : ∃ i, v i ≠ 0 := by
    by_contra h; push Not at h; exact hv (funext h)
  have : 0 < v i * v i := mul_self_pos.2 hi
  refine lt_of_lt_of_le this ?_
  exact Finset.single_le_sum (f := fun i => v i * v i) (fun j _ => mul_self_nonneg _) (Finset.mem_univ i)

theorem dot_unit_unit {d : ℕ} {v : Pt d} (hv : v ≠ 0) : dot (unit v) (unit v) = 1 := by
  have h := alpha_pos hv
  have : dot (unit v) (unit v) = dot v v / alpha v ^ 2 := by
    unfold dot unit; rw [Finset.sum_div]
    refine Finset.sum_congr rfl fun i _ => by field_simp
  rw [this]
  have h2 : alpha v ^ 2 = dot v v := by
    unfold alpha; rw [Real.sq_sqrt]
    exact Finset.sum_nonneg fun i _ => mul_self_nonneg _
  rw [h2, div_self]
  rw [← h2]; positivity

/-- Component along `v` multiplied by `c`, the rest kept. -/
noncomputable def along {d : ℕ} (v : Pt d) (c : ℝ) (x : Pt d) : Pt d :=
  fun i => dot (unit v) x * unit v i * c + (x i - dot (unit v) x * unit v i)

theorem dot_along {d : ℕ} {v : Pt d} (hv : v ≠ 0) (c : ℝ) (x : Pt d) :
    dot (unit v) (along v c x) = c * dot (unit v) x := by
  set s := dot (unit v) x with hs
  have : along v c x = fun i => (fun i => (s * (c - 1)) * unit v i) i + x i := by
    ext i; unfold along; rw [← hs]; ring
  rw [this, dot_add, dot_smul, dot_unit_unit hv, ← hs]; ring

theorem along_along {d : ℕ} {v : Pt d} (hv : v ≠ 0) (c e : ℝ) (hce : c * e = 1) (x : Pt d) :
    along v c (along v e x) = x := by
  ext i
  have h := dot_along hv e x
  unfold along at h ⊢
  simp only [h]
  have : e * dot (unit v) x * unit v i * c = dot (unit v) x * unit v i := by
    calc e * dot (unit v) x * unit v i * c = (c * e) * (dot (unit v) x * unit v i) := by ring
      _ = _ := by rw [hce, one_mul]
  rw [this]; ring

theorem stretchFwd_eq {d : ℕ} (v x : Pt d) : stretchFwd v x = along v (alpha v) x := rfl

theorem scaleBack_eq {d : ℕ} (v x : Pt d) : scaleBack v x = along v (alpha v)⁻¹ x := by
  ext i; unfold scaleBack along; rw [div_eq_mul_inv]

theorem stretch_linear {d : ℕ} (v : Pt d) : ∀ i, ∃ w : Pt d, ∀ x, stretchFwd v x i = dot w x := by
  intro i
  refine ⟨fun j => (unit v i * (alpha v - 1)) * unit v j + (if j = i then 1 else 0), fun x => ?_⟩
  have : dot (fun j => (unit v i * (alpha v - 1)) * unit v j + (if j = i then 1 else 0)) x
      = (unit v i * (alpha v - 1)) * dot (unit v) x + x i := by
    unfold dot
    simp only [add_mul, Finset.sum_add_distrib, Finset.mul_sum]
    congr 1
    · refine Finset.sum_congr rfl fun j _ => by ring
    · simp
  rw [this]; unfold stretchFwd; ring

theorem mulVec_linear {d : ℕ} (R : Matrix (Fin d) (Fin d) ℝ) :
    ∀ i, ∃ w : Pt d, ∀ x, R.mulVec x i = dot w x := by
  intro i; exact ⟨fun j => R i j, fun x => rfl⟩

/-! ### Rotations -/

theorem R2_mul (t : ℝ) : (R2 t).transpose * R2 t = 1 := by
  ext i j; fin_cases i <;> fin_cases j <;>
    simp [R2, Matrix.mul_apply, Fin.sum_univ_two] <;> nlinarith [Real.sin_sq_add_cos_sq t]

theorem Rx_mul (t : ℝ) : (Rx t).transpose * Rx t = 1 := by
  ext i j; fin_cases i <;> fin_cases j <;>
    simp [Rx, Matrix.mul_apply, Fin.sum_univ_three] <;> nlinarith [Real.sin_sq_add_cos_sq t]

theorem Ry_mul (t : ℝ) : (Ry t).transpose * Ry t = 1 := by
  ext i j; fin_cases i <;> fin_cases j <;>
    simp [Ry, Matrix.mul_apply, Fin.sum_univ_three] <;> nlinarith [Real.sin_sq_add_cos_sq t]

theorem Rz_mul (t : ℝ) : (Rz t).transpose * Rz t = 1 := by
  ext i j; fin_cases i <;> fin_cases j <;>
    simp [Rz, Matrix.mul_apply, Fin.sum_univ_three] <;> nlinarith [Real.sin_sq_add_cos_sq t]

theorem orth_left {d : ℕ} {R : Matrix (Fin d) (Fin d) ℝ} (h : R.transpose * R = 1) (x : Pt d) :
    R.transpose.mulVec (R.mulVec x) = x := by
  rw [Matrix.mulVec_mulVec, h, Matrix.one_mulVec]

theorem orth_right {d : ℕ} {R : Matrix (Fin d) (Fin d) ℝ} (h : R.transpose * R = 1) (x : Pt d) :
    R.mulVec (R.transpose.mulVec x) = x := by
  rw [Matrix.mulVec_mulVec, mul_eq_one_comm.1 h, Matrix.one_mulVec]

theorem dot_mulVec_orth {d : ℕ} {R : Matrix (Fin d) (Fin d) ℝ} (h : R.transpose * R = 1) (x : Pt d) :
    dot (R.mulVec x) (R.mulVec x) = dot x x := by
  have e : ∀ a b : Pt d, dot a b = dotProduct a b := fun a b => rfl
  rw [e, e, Matrix.dotProduct_mulVec, Matrix.vecMul_mulVec, h, Matrix.vecMul_one]

theorem eucl_eq_dot {d : ℕ} (p q : Pt d) : eucl p q = √(dot (fun i => p i - q i) (fun i => p i - q i)) := by
  unfold eucl dot; congr 1; refine Finset.sum_congr rfl fun i _ => by ring

theorem orth_isometry {d : ℕ} {R : Matrix (Fin d) (Fin d) ℝ} (h : R.transpose * R = 1) (p q : Pt d) :
    eucl (R.mulVec p) (R.mulVec q) = eucl p q := by
  rw [eucl_eq_dot, eucl_eq_dot]
  have : (fun i => R.mulVec p i - R.mulVec q i) = R.mulVec (fun i => p i - q i) := by
    have : (fun i => p i - q i) = p - q := rfl
    rw [this, Matrix.mulVec_sub]; rfl
  rw [this, dot_mulVec_orth h]

/-! ### C28: the forward maps (specification) -/

/-- The documented rotation: by `t` in the plane; about x by `a`, y by `b`, z by `c` in
space, composed as `Rx Ry Rz`. -/
noncomputable def Rot.fwd : {d : ℕ} → Rot d → Pt d → Pt d
  | _, .two t, x => (R2 t).mulVec x
  | _, .three a b c, x => (Rx a).mulVec ((Ry b).mulVec ((Rz c).mulVec x))

/-- Stretch: the component of `x` along `v` is multiplied by `|v|`, the component
perpendicular to `v` is kept (for `v = 0`: undefined in the code). -/
def IsStretch {d : ℕ} (v : Pt d) (S : Pt d → Pt d) : Prop :=
  ∀ (s : ℝ) (w : Pt d), dot v w = 0 →
    S (fun i => s * v i + w i) = fun i => √(dot v v) * (s * v i) + w i

/-- Stretch, then rotate, then translate. -/
noncomputable def Manip.fwd {d : ℕ} (m : Manip d) (y : Pt d) : Pt d :=
  let y := match m.stretch with
    | none => y
    | some v => stretchFwd v y
  let y := m.rot.fwd y
  match m.trans with
  | none => y
  | some t => fun i => y i + t i

/-- The stretch used in `Manip.fwd` is the documented one. -/
theorem C28_stretch_is_documented {d : ℕ} {v : Pt d} (hv : v ≠ 0) : IsStretch v (stretchFwd v) := by
  intro s w hw
  have ha := alpha_pos hv
  have hv2 : dot v v = alpha v ^ 2 := by
    unfold alpha; rw [Real.sq_sqrt]
    exact Finset.sum_nonneg fun i _ => mul_self_nonneg _
  have hu : ∀ x, dot (unit v) x = dot v x / alpha v := by
    intro x; unfold dot unit; rw [Finset.sum_div]
    refine Finset.sum_congr rfl fun i _ => by ring
  have hd : dot (unit v) (fun i => s * v i + w i) = s * alpha v := by
    rw [hu, dot_add v (fun i => s * v i) w, dot_smul, hw, hv2]; field_simp; ring
  ext i
  unfold stretchFwd
  rw [hd]
  have : unit v i = v i / alpha v := rfl
  rw [this, show √(dot v v) = alpha v from rfl]
  field_simp
  ring

/-- `f` turns the plane counter-clockwise by `t`. -/
def Turns2 (t : ℝ) (f : Pt 2 → Pt 2) : Prop :=
  ∀ r φ : ℝ, f ![r * Real.cos φ, r * Real.sin φ] = ![r * Real.cos (φ + t), r * Real.sin (φ + t)]

/-- `f` turns space by `t` about the x axis, counter-clockwise when seen from its positive end. -/
def TurnsX (t : ℝ) (f : Pt 3 → Pt 3) : Prop :=
  ∀ r φ h : ℝ, f ![h, r * Real.cos φ, r * Real.sin φ] = ![h, r * Real.cos (φ + t), r * Real.sin (φ + t)]
/-- The same about the y axis. -/
def TurnsY (t : ℝ) (f : Pt 3 → Pt 3) : Prop :=
  ∀ r φ h : ℝ, f ![r * Real.sin φ, h, r * Real.cos φ] = ![r * Real.sin (φ + t), h, r * Real.cos (φ + t)]
/-- The same about the z axis. -/
def TurnsZ (t : ℝ) (f : Pt 3 → Pt 3) : Prop :=
  ∀ r φ h : ℝ, f ![r * Real.cos φ, r * Real.sin φ, h] = ![r * Real.cos (φ + t), r * Real.sin (φ + t), h]

/-- The rotation used in `Manip.fwd` is the documented one: counter-clockwise by the given angles, about the z axis first, then the
y axis, then the x axis. -/
theorem C28_rotation_is_documented (a b c t : ℝ) :
    Turns2 t (Rot.two t).fwd ∧
    ∃ fx fy fz, TurnsX a fx ∧ TurnsY b fy ∧ TurnsZ c fz ∧ (Rot.three a b c).fwd = fx ∘ fy ∘ fz := by
  refine ⟨?_, (Rx a).mulVec, (Ry b).mulVec, (Rz c).mulVec, ?_, ?_, ?_, rfl⟩
  · intro r φ
    ext i
    fin_cases i <;> simp [Rot.fwd, R2, Matrix.mulVec, dotProduct, Fin.sum_univ_two, Real.cos_add, Real.sin_add] <;> ring
  · intro r φ h
    ext i
    fin_cases i <;> simp [Rx, Matrix.mulVec, dotProduct, Fin.sum_univ_three, Real.cos_add, Real.sin_add] <;> ring
  · intro r φ h
    ext i
    fin_cases i <;> simp [Ry, Matrix.mulVec, dotProduct, Fin.sum_univ_three, Real.cos_add, Real.sin_add] <;> ring
  · intro r φ h
    ext i
    fin_cases i <;> simp [Rz, Matrix.mulVec, dotProduct, Fin.sum_univ_three, Real.cos_add, Real.sin_add] <;> ring

theorem R2_zero : R2 0 = 1 := by
  ext i j; fin_cases i <;> fin_cases j <;> simp [R2]
theorem Rx_zero : Rx 0 = 1 := by
  ext i j; fin_cases i <;> fin_cases j <;> simp [Rx]
theorem Ry_zero : Ry 0 = 1 := by
  ext i j; fin_cases i <;> fin_cases j <;> simp [Ry]
theorem Rz_zero : Rz 0 = 1 := by
  ext i j; fin_cases i <;> fin_cases j <;> simp [Rz]

theorem fwd_three (a b c : ℝ) (x : Pt 3) : (Rot.three a b c).fwd x =
    (Rx a).mulVec ((Ry b).mulVec ((Rz c).mulVec x)) := rfl
theorem fwd_two (t : ℝ) (x : Pt 2) : (Rot.two t).fwd x = (R2 t).mulVec x := rfl

theorem build_two (t : ℝ) (b : Box 2) (cs : Option (List (Pt 2))) : (Rot.two t).build (b, cs) =
    if t ≠ 0 then (hull ((corners 2 b).map fun c => (R2 t).mulVec c),
      some (corners 2 (hull ((corners 2 b).map fun c => (R2 t).mulVec c)))) else (b, cs) := rfl

/-- The guards `!= 0` make no difference. -/
theorem back_eq_three (a b c : ℝ) (x : Pt 3) : (Rot.three a b c).back x =
    (Rz c).transpose.mulVec ((Ry b).transpose.mulVec ((Rx a).transpose.mulVec x)) := by
  unfold Rot.back
  by_cases ha : a = 0 <;> by_cases hb : b = 0 <;> by_cases hc : c = 0 <;>
    simp [ha, hb, hc, Rx_zero, Ry_zero, Rz_zero]

theorem back_eq_two (t : ℝ) (x : Pt 2) : (Rot.two t).back x = (R2 t).transpose.mulVec x := by
  unfold Rot.back
  by_cases ht : t = 0 <;> simp [ht, R2_zero]

theorem rot_back_fwd {d : ℕ} (r : Rot d) (x : Pt d) : r.back (r.fwd x) = x := by
  cases r with
  | two t => rw [back_eq_two]; exact orth_left (R2_mul t) x
  | three a b c =>
    rw [back_eq_three, fwd_three]
    rw [orth_left (Rx_mul a), orth_left (Ry_mul b), orth_left (Rz_mul c)]

theorem rot_fwd_back {d : ℕ} (r : Rot d) (x : Pt d) : r.fwd (r.back x) = x := by
  cases r with
  | two t => rw [back_eq_two]; exact orth_right (R2_mul t) x
  | three a b c =>
    rw [back_eq_three, fwd_three]
    rw [orth_right (Rz_mul c), orth_right (Ry_mul b), orth_right (Rx_mul a)]

theorem rot_isometry {d : ℕ} (r : Rot d) (x y : Pt d) : eucl (r.fwd x) (r.fwd y) = eucl x y := by
  cases r with
  | two t => exact orth_isometry (R2_mul t) x y
  | three a b c =>
    rw [fwd_three, fwd_three]
    rw [orth_isometry (Rx_mul a), orth_isometry (Ry_mul b), orth_isometry (Rz_mul c)]

theorem scaleBack_stretch {d : ℕ} {v : Pt d} (hv : v ≠ 0) (x : Pt d) :
    scaleBack v (stretchFwd v x) = x := by
  rw [scaleBack_eq, stretchFwd_eq]
  exact along_along hv _ _ (inv_mul_cancel₀ (alpha_pos hv).ne') x

theorem stretch_scaleBack {d : ℕ} {v : Pt d} (hv : v ≠ 0) (x : Pt d) :
    stretchFwd v (scaleBack v x) = x := by
  rw [scaleBack_eq, stretchFwd_eq]
  exact along_along hv _ _ (mul_inv_cancel₀ (alpha_pos hv).ne') x

/-- **C28 (inverse maps).** The map applied before evaluation undoes the documented forward
map, and conversely. -/
theorem C28_inverse {d : ℕ} (m : Manip d) (hm : m.Valid) (y : Pt d) :
    manipulate m (m.fwd y) = y ∧ m.fwd (manipulate m y) = y := by
  obtain ⟨r, s, t⟩ := m
  constructor
  · unfold manipulate Manip.fwd
    cases t with
    | none =>
      cases s with
      | none => simp only [rot_back_fwd]
      | some v => simp only [rot_back_fwd]; exact scaleBack_stretch (hm v rfl) y
    | some t =>
      cases s with
      | none => simp only [add_sub_cancel_right, rot_back_fwd]
      | some v => simp only [add_sub_cancel_right, rot_back_fwd]; exact scaleBack_stretch (hm v rfl) y
  · unfold manipulate Manip.fwd
    cases t with
    | none =>
      cases s with
      | none => simp only [rot_fwd_back]
      | some v => simp only [stretch_scaleBack (hm v rfl), rot_fwd_back]
    | some t =>
      cases s with
      | none => simp only [rot_fwd_back, sub_add_cancel]
      | some v => simp only [stretch_scaleBack (hm v rfl), rot_fwd_back, sub_add_cancel]

/-- No manipulation. -/
def Manip.id2 : Manip 2 := ⟨.two 0, none, none⟩
def Manip.id3 : Manip 3 := ⟨.three 0 0 0, none, none⟩

theorem manipulate_id2 (x : Pt 2) : manipulate Manip.id2 x = x := by
  simp [manipulate, Manip.id2, Rot.back]
theorem manipulate_id3 (x : Pt 3) : manipulate Manip.id3 x = x := by
  simp [manipulate, Manip.id3, Rot.back]

/-- **C28 (evaluation).** For each primitive, the manipulated shape at the image of `y`
evaluates exactly as the unmanipulated shape at `y`. -/
theorem C28_eval :
    (∀ x0 r m, m.Valid → ∀ y, (mkDisk x0 r m).eval (m.fwd y) = (mkDisk x0 r Manip.id2).eval y) ∧
    (∀ b m, m.Valid → ∀ y, (mkRectangle b m).eval (m.fwd y) = (mkRectangle b Manip.id2).eval y) ∧
    (∀ x0 r m, m.Valid → ∀ y, (mkBall x0 r m).eval (m.fwd y) = (mkBall x0 r Manip.id3).eval y) ∧
    (∀ b m, m.Valid → ∀ y, (mkCube b m).eval (m.fwd y) = (mkCube b Manip.id3).eval y) ∧
    (∀ r1 r2 m, m.Valid → ∀ y, (mkTorus r1 r2 m).eval (m.fwd y) = (mkTorus r1 r2 Manip.id3).eval y) ∧
    (∀ b h m, m.Valid → ∀ y, (mkPrism b h m).eval (m.fwd y) = (mkPrism b h Manip.id3).eval y) ∧
    (∀ h r m, m.Valid → ∀ y, (mkCylinder h r m).eval (m.fwd y) = (mkCylinder h r Manip.id3).eval y) := by
  refine ⟨?_, ?_, ?_, ?_, ?_, ?_, ?_⟩ <;> intro _ _ <;> intros
  · rename_i hm y
    simp only [mkDisk, (C28_inverse _ hm y).1, manipulate_id2]
  · rename_i hm y
    simp only [mkRectangle, (C28_inverse _ hm y).1, manipulate_id2]
  · rename_i hm y
    simp only [mkBall, (C28_inverse _ hm y).1, manipulate_id3]
  · rename_i hm y
    simp only [mkCube, (C28_inverse _ hm y).1, manipulate_id3]
  · rename_i hm y
    simp only [mkTorus, (C28_inverse _ hm y).1, manipulate_id3]
  · rename_i hm y
    simp only [mkPrism, (C28_inverse _ hm y).1, manipulate_id3]
  · rename_i hm y
    simp only [mkCylinder, (C28_inverse _ hm y).1, manipulate_id3]

/-- **C28 (isometry).** Without stretch the map preserves distances. -/
theorem C28_isometry {d : ℕ} (m : Manip d) (hs : m.stretch = none) (x y : Pt d) :
    eucl (m.fwd x) (m.fwd y) = eucl x y := by
  obtain ⟨r, s, t⟩ := m
  simp only at hs
  subst hs
  unfold Manip.fwd
  cases t with
  | none => exact rot_isometry r x y
  | some t =>
    simp only
    rw [← rot_isometry r x y]
    unfold eucl
    congr 1
    refine Finset.sum_congr rfl fun i _ => by ring

/-! ### C27 -/

/-- The box built by the manipulations contains the image of the original box. -/
theorem configure_mem {d : ℕ} {m : Manip d} (hr : m.rot.SingleAxis) {b : Box d}
    {cs : Option (List (Pt d))} {y : Pt d} (hy : b.Mem y) : (configure m (b, cs)).1.Mem (m.fwd y) := by
  obtain ⟨r, s, t⟩ := m
  simp only at hr
  have h1 : (buildStretch s (b, cs)).1.Mem (match s with | none => y | some v => stretchFwd v y) := by
    cases s with
    | none => exact hy
    | some v => exact hull_linear hy (stretch_linear v)
  set y1 := (match s with | none => y | some v => stretchFwd v y) with hy1
  have h2 : (r.build (buildStretch s (b, cs))).1.Mem (r.fwd y1) := by
    generalize buildStretch s (b, cs) = a at h1
    obtain ⟨b1, cs1⟩ := a
    simp only at h1
    cases r with
    | two t =>
      rw [build_two, fwd_two]
      split_ifs with ht
      · exact hull_linear h1 (mulVec_linear _)
      · push Not at ht; rw [ht, R2_zero, Matrix.one_mulVec]; exact h1
    | three ax ay az =>
      have hid : ∀ (z : Pt 3), b1.Mem z → b1.Mem z := fun z h => h
      have mono : ∀ (bx by' bz : Box 3) (z : Pt 3), bx.Mem z ∨ by'.Mem z ∨ bz.Mem z →
          Box.Mem ⟨fun i => min (min (bx.lo i) (by'.lo i)) (bz.lo i),
            fun i => max (max (bx.hi i) (by'.hi i)) (bz.hi i)⟩ z := by
        intro bx by' bz z hz i
        rcases hz with hz | hz | hz
        · exact ⟨((min_le_left _ _).trans (min_le_left _ _)).trans (hz i).1,
            (hz i).2.trans ((le_max_left _ _).trans (le_max_left _ _))⟩
        · exact ⟨((min_le_left _ _).trans (min_le_right _ _)).trans (hz i).1,
            (hz i).2.trans ((le_max_right _ _).trans (le_max_left _ _))⟩
        · exact ⟨(min_le_right _ _).trans (hz i).1, (hz i).2.trans (le_max_right _ _)⟩
      rw [fwd_three]
      by_cases hany : ax ≠ 0 ∨ ay ≠ 0 ∨ az ≠ 0
      · rcases hr with ⟨hb, hc⟩ | ⟨ha, hc⟩ | ⟨ha, hb⟩
        · subst hb hc
          have ha : ax ≠ 0 := by simpa using hany
          rw [Ry_zero, Rz_zero, Matrix.one_mulVec, Matrix.one_mulVec]
          simp only [Rot.build, if_pos hany, if_pos ha]
          exact mono _ _ _ _ (Or.inl (hull_linear h1 (mulVec_linear _)))
        · subst ha hc
          have hb : ay ≠ 0 := by simpa using hany
          rw [Rx_zero, Rz_zero, Matrix.one_mulVec, Matrix.one_mulVec]
          simp only [Rot.build, if_pos hany, if_pos hb]
          exact mono _ _ _ _ (Or.inr (Or.inl (hull_linear h1 (mulVec_linear _))))
        · subst ha hb
          have hc : az ≠ 0 := by simpa using hany
          rw [Rx_zero, Ry_zero, Matrix.one_mulVec, Matrix.one_mulVec]
          simp only [Rot.build, if_pos hany, if_pos hc]
          exact mono _ _ _ _ (Or.inr (Or.inr (hull_linear h1 (mulVec_linear _))))
      · push Not at hany
        obtain ⟨ha, hb, hc⟩ := hany
        subst ha hb hc
        rw [Rx_zero, Ry_zero, Rz_zero, Matrix.one_mulVec, Matrix.one_mulVec, Matrix.one_mulVec]
        simpa [Rot.build] using h1
  unfold configure Manip.fwd
  simp only
  rw [← hy1]
  cases t with
  | none => exact h2
  | some t =>
    simp only [buildTranslation]
    intro i
    have := h2 i
    exact ⟨by simp only; linarith [this.1], by simp only; linarith [this.2]⟩

/-- If the unmanipulated shape lies in `b`, the manipulated one lies in the built box. -/
theorem encl_of_base {d : ℕ} {m : Manip d} (hv : m.Valid) (hr : m.rot.SingleAxis) {b : Box d}
    {cs : Option (List (Pt d))} {f : Pt d → ℝ} (hf : ∀ y, f y ≤ 0 → b.Mem y) (x : Pt d)
    (hx : f (manipulate m x) ≤ 0) : (configure m (b, cs)).1.Mem x := by
  have := configure_mem hr (cs := cs) (hf _ hx)
  rwa [(C28_inverse m hv x).2] at this

theorem abs_le_len_left (a b : ℝ) : |a| ≤ √(a ^ 2 + b ^ 2) :=
  Real.abs_le_sqrt (by nlinarith [sq_nonneg b])
theorem abs_le_len_right (a b : ℝ) : |b| ≤ √(a ^ 2 + b ^ 2) :=
  Real.abs_le_sqrt (by nlinarith [sq_nonneg a])

theorem hullBoxes_mem {d : ℕ} {o o' : Obj d} {os : List (Obj d)} (ho : o' ∈ o :: os) {x : Pt d}
    (hx : o'.bbox.Mem x) : (hullBoxes o os).Mem x := by
  intro i
  exact ⟨(npMin_le (List.mem_map.2 ⟨o', ho, rfl⟩) :
      npMin ((o :: os).map fun o => o.bbox.lo i) ≤ o'.bbox.lo i).trans (hx i).1,
    (hx i).2.trans (le_npMax (List.mem_map.2 ⟨o', ho, rfl⟩) :
      o'.bbox.hi i ≤ npMax ((o :: os).map fun o => o.bbox.hi i))⟩

theorem smooth_inter_ge {k a b : ℝ} : (0 < k → max a b ≤ smoothIntersection k a b) ∧
    (k < 0 → smoothIntersection k a b = max a b) := by
  constructor
  · intro h; exact (smoothIntersection_bounds h a b).1
  · intro h
    unfold smoothIntersection
    simp only
    rw [max_eq_right (by linarith [abs_nonneg (a - b)] : k - |a - b| ≤ 0)]; simp

theorem inter_ge_first {k : ℝ} : ∀ (ds : List ℝ) (d0 : ℝ), d0 ≤ interEval k d0 ds := by
  intro ds d0
  unfold interEval
  split_ifs with hk
  · exact (foldl_max_le.1 le_rfl) d0 (by simp)
  · unfold loopCall
    induction ds generalizing d0 with
    | nil => simp
    | cons d ds ih =>
      rw [List.foldl_cons]
      refine le_trans ?_ (ih _)
      rcases lt_or_gt_of_ne hk with h | h
      · rw [smooth_inter_ge.2 h]; exact le_max_left _ _
      · exact (le_max_left _ _).trans (smooth_inter_ge.1 h)

theorem diff_ge_first {k : ℝ} (ds : List ℝ) (d0 : ℝ) : d0 ≤ diffEval k d0 ds := by
  by_cases hk : k = 0
  · unfold diffEval; rw [if_pos hk]
    exact (foldl_max_le.1 le_rfl) d0 (by simp)
  · rcases lt_or_gt_of_ne hk with h | h
    · unfold diffEval
      rw [if_neg hk, List.reverse_cons]
      have hs : ∀ a b : ℝ, smoothDifference k a b = max (-a) b := by
        intro a b
        unfold smoothDifference
        simp only
        rw [max_eq_right (by linarith [abs_nonneg (-a - b)] : k - |-a - b| ≤ 0)]; simp
      cases hB : ds.reverse with
      | nil => simp [loopCall]
      | cons e es =>
        simp only [List.cons_append, loopCall, List.foldl_append, List.foldl_cons, List.foldl_nil]
        rw [hs (List.foldl _ _ _)]
        exact le_max_right _ _
    · exact (C26_smooth_difference_partial h d0).1 ds

theorem union_mem {k : ℝ} (hk : k ≤ 0) {d0 : ℝ} {ds : List ℝ} (h : unionEval k d0 ds ≤ 0) :
    ∃ d ∈ d0 :: ds, d ≤ 0 := by
  rw [← foldl_min_le]
  unfold unionEval at h
  split_ifs at h with h0
  · exact h
  · have hs : smoothUnion k = min := by
      funext a b
      unfold smoothUnion
      simp only
      rw [max_eq_right (by linarith [abs_nonneg (a - b)] : k - |a - b| ≤ 0)]; simp
    rw [hs] at h; exact h

/-- **C27 (partial).** The advertised box encloses the shape for every nesting of set
operations and every manipulation, provided that 3-D rotations are about one axis only and
unions have smoothness 0 (or negative). Missing: multi-axis rotations and smooth unions,
where the claim is false (`C27_rotation_false`, `C27_smooth_union_false`). -/
theorem C27_bbox_encloses_partial {d : ℕ} {o : Obj d}
    (h : Built (fun _ m => m.Valid ∧ m.rot.SingleAxis) (fun k => k ≤ 0) o) : Encloses o := by
  induction h with
  | disk x0 r m hm =>
    intro x hx
    refine encl_of_base hm.1 hm.2 (f := ddisk (x0 0) (x0 1) r) ?_ x hx
    intro y hy i
    rw [ddisk_eq, sub_nonpos] at hy
    have := abs_le.1 ((coord_le_eucl y ![x0 0, x0 1] i).trans hy)
    have e : (![x0 0, x0 1] : Pt 2) i = x0 i := by fin_cases i <;> rfl
    rw [e] at this
    exact ⟨by simp only; linarith [this.1], by simp only; linarith [this.2]⟩
  | ball x0 r m hm =>
    intro x hx
    refine encl_of_base hm.1 hm.2 (f := dball (x0 0) (x0 1) (x0 2) r) ?_ x hx
    intro y hy i
    rw [dball_eq, sub_nonpos] at hy
    have := abs_le.1 ((coord_le_eucl y ![x0 0, x0 1, x0 2] i).trans hy)
    have e : (![x0 0, x0 1, x0 2] : Pt 3) i = x0 i := by fin_cases i <;> rfl
    rw [e] at this
    exact ⟨by simp only; linarith [this.1], by simp only; linarith [this.2]⟩
  | rectangle b m hm =>
    intro x hx
    refine encl_of_base hm.1 hm.2 (f := drectangle (b.lo 0) (b.hi 0) (b.lo 1) (b.hi 1)) ?_ x hx
    intro y hy i
    have := ((C20_rectangle _ _ _ _).closed y).1 hy i
    fin_cases i <;> exact this
  | cube b m hm =>
    intro x hx
    refine encl_of_base hm.1 hm.2
      (f := dblock (b.lo 0) (b.hi 0) (b.lo 1) (b.hi 1) (b.lo 2) (b.hi 2)) ?_ x hx
    intro y hy i
    have := ((C20_block _ _ _ _ _ _).closed y).1 hy i
    fin_cases i <;> exact this
  | torus r1 r2 m h1 h2 hm =>
    intro x hx
    refine encl_of_base hm.1 hm.2 (f := dtorus r1 r2) ?_ x hx
    intro y hy i
    unfold dtorus at hy
    rw [length2_eq, length2_eq, sub_nonpos] at hy
    have a1 := (abs_le_len_left (√(y 0 ^ 2 + y 2 ^ 2) - r1) (y 1)).trans hy
    have a2 := (abs_le_len_right (√(y 0 ^ 2 + y 2 ^ 2) - r1) (y 1)).trans hy
    have a3 := (abs_le.1 a1).2
    have m1 := le_max_left r1 r2
    have m2 := le_max_right r1 r2
    have key : |y i| ≤ 2 * (2 * max r1 r2) := by
      have b0 := abs_le_len_left (y 0) (y 2)
      have b2 := abs_le_len_right (y 0) (y 2)
      fin_cases i
      · change |y 0| ≤ _; linarith
      · change |y 1| ≤ _; linarith
      · change |y 2| ≤ _; linarith
    have := abs_le.1 key
    exact ⟨by simp only; linarith [this.1], this.2⟩
  | prism b h m hm =>
    intro x hx
    refine encl_of_base hm.1 hm.2 (f := dprism b h) ?_ x hx
    intro y hy i
    unfold dprism at hy
    rw [max_le_iff, sub_nonpos, sub_nonpos, max_le_iff] at hy
    obtain ⟨hz, hxy, hyy⟩ := hy
    have hz' := abs_le.1 hz
    have h0 := abs_nonneg (y 0)
    have hx1 := le_abs_self (y 0)
    have hx2 := neg_le_abs (y 0)
    fin_cases i
    · change -b ≤ y 0 ∧ y 0 ≤ b
      constructor <;> nlinarith
    · change -b ≤ y 1 ∧ y 1 ≤ b
      constructor <;> nlinarith
    · exact hz'
  | cylinder h r m h1 h2 hm =>
    intro x hx
    refine encl_of_base hm.1 hm.2 (f := dcylinder h r) ?_ x hx
    intro y hy i
    obtain ⟨hr, hh⟩ := (C23_cylinder h r y).1.1 hy
    have m1 := le_max_left (h / 2) r
    have m2 := le_max_right (h / 2) r
    have key : |y i| ≤ 2 * max (h / 2) r := by
      have b0 := abs_le_len_left (y 0) (y 2)
      have b2 := abs_le_len_right (y 0) (y 2)
      fin_cases i
      · change |y 0| ≤ _; linarith
      · change |y 1| ≤ _; linarith
      · change |y 2| ≤ _; linarith
    have := abs_le.1 key
    exact ⟨by simp only; linarith [this.1], this.2⟩
  | rep b o period _ _ =>
    intro x hx
    have := ((C20_block _ _ _ _ _ _).closed x).1 (max_le_iff.1 hx).2
    intro i
    have := this i
    fin_cases i <;> exact this
  | union k o os hk _ _ iho ihos =>
    intro x hx
    obtain ⟨d, hd, hd0⟩ := union_mem hk hx
    rw [← List.map_cons (f := fun o : Obj _ => o.eval x), List.mem_map] at hd
    obtain ⟨o', ho', rfl⟩ := hd
    refine hullBoxes_mem ho' ?_
    rcases List.mem_cons.1 ho' with rfl | ho''
    · exact iho x hd0
    · exact ihos o' ho'' x hd0
  | inter k o os _ _ iho _ =>
    intro x hx
    exact hullBoxes_mem (List.mem_cons_self ..) (iho x ((inter_ge_first _ _).trans hx))
  | diff k o os _ _ iho _ =>
    intro x hx
    exact hullBoxes_mem (List.mem_cons_self ..) (iho x ((diff_ge_first _ _).trans hx))

/-- **C27, negation (a).** A cube rotated about two axes leaves its bounding box: the point
`(0,0,4)` belongs to `Cube((0,4,0,1,0,1), rotate=[pi/2, 0, pi/2])`, whose box ends at `z = 1`. -/
theorem C27_rotation_false : ∃ o : Obj 3, AnyBuilt o ∧ ¬ Encloses o := by
  set b : Box 3 := ⟨![0, 0, 0], ![4, 1, 1]⟩ with hb
  set m : Manip 3 := ⟨.three (Real.pi / 2) 0 (Real.pi / 2), none, none⟩ with hm
  have hval : m.Valid := by intro v hv; simp [m] at hv
  have hpi : Real.pi / 2 ≠ 0 := by have := Real.pi_pos; positivity
  refine ⟨mkCube b m, .cube b m hval, ?_⟩
  intro henc
  have hpt : m.fwd ![4, 0, 0] = ![0, 0, 4] := by
    ext i
    fin_cases i <;>
      simp [Manip.fwd, m, Rot.fwd, Rx, Ry, Rz, dotProduct, Fin.sum_univ_three]
  have hin : (mkCube b m).eval ![0, 0, 4] ≤ 0 := by
    rw [← hpt]
    simp only [mkCube, (C28_inverse m hval _).1]
    rw [(C20_block _ _ _ _ _ _).closed]
    intro i; fin_cases i <;> simp [b]
  have h2 := (henc _ hin 2).2
  have hmx : (mkCube b m).bbox.hi 2 ≤ 1 := by
    have hc : ∀ c ∈ corners 3 b, ∀ i, 0 ≤ c i ∧ c i ≤ (![4, 1, 1] : Pt 3) i := by
      intro c hc i
      rcases mem_corners.1 hc i with h | h <;> rw [h] <;> fin_cases i <;> simp [b]
    have hne : corners 3 b ≠ [] := by simp [corners]
    have hx : (hull ((corners 3 b).map fun c => (Rx (Real.pi / 2)).mulVec c)).hi 2 ≤ 1 := by
      refine npMax_le (l := List.map (fun q : Pt 3 => q 2)
        (List.map (fun c => (Rx (Real.pi / 2)).mulVec c) (corners 3 b))) (by simpa using hne) ?_
      intro z hz
      simp only [List.mem_map] at hz
      obtain ⟨q, ⟨c, hcc, rfl⟩, rfl⟩ := hz
      have := (hc c hcc 1).2
      simpa [Rx, Matrix.mulVec, dotProduct, Fin.sum_univ_three] using this
    have hz : (hull ((corners 3 b).map fun c => (Rz (Real.pi / 2)).mulVec c)).hi 2 ≤ 1 := by
      refine npMax_le (l := List.map (fun q : Pt 3 => q 2)
        (List.map (fun c => (Rz (Real.pi / 2)).mulVec c) (corners 3 b))) (by simpa using hne) ?_
      intro z hz
      simp only [List.mem_map] at hz
      obtain ⟨q, ⟨c, hcc, rfl⟩, rfl⟩ := hz
      have := (hc c hcc 2).2
      simpa [Rz, Matrix.mulVec, dotProduct, Fin.sum_univ_three] using this
    have hb2 : b.hi 2 ≤ 1 := by simp [b]
    simp only [mkCube, configure, m, buildStretch, buildTranslation, Rot.build]
    simp only [ne_eq, hpi, not_false_eq_true, true_or, if_true, not_true_eq_false, if_false]
    exact max_le (max_le hx hb2) hz
  have h4 : ((![0, 0, 4] : Pt 3) 2) = 4 := rfl
  rw [h4] at h2
  linarith

/-- **C27, negation (b).** A smooth union of unit squares reaches outside its box. -/
theorem C27_smooth_union_false : ∃ o : Obj 2, AnyBuilt o ∧ ¬ Encloses o := by
  set b : Box 2 := ⟨![0, 0], ![1, 1]⟩ with hb
  set r := mkRectangle b Manip.id2 with hr
  have hval : Manip.id2.Valid := by intro v hv; simp [Manip.id2] at hv
  have hbr : AnyBuilt r := .rectangle b _ hval
  refine ⟨mkUnion 1 r [r], .union 1 r [r] trivial hbr (by intro o' ho; rw [List.mem_singleton.1 ho]; exact hbr), ?_⟩
  intro henc
  have hev : r.eval ![11 / 10, 1 / 2] = 1 / 10 := by
    simp only [r, mkRectangle, manipulate_id2, b, drectangle]
    norm_num
  have hin : (mkUnion 1 r [r]).eval ![11 / 10, 1 / 2] ≤ 0 := by
    simp only [mkUnion, List.map_cons, List.map_nil, hev]
    norm_num [unionEval, loopCall, smoothUnion]
  have h2 := (henc _ hin 0).2
  have e1 : (mkUnion 1 r [r]).bbox.hi 0 = 1 := by
    have : r.bbox = b := by
      simp [r, mkRectangle, configure, Manip.id2, buildStretch, buildTranslation, Rot.build]
    simp [mkUnion, hullBoxes, npMax, this, b]
  have e2 : ((![11 / 10, 1 / 2] : Pt 2) 0) = 11 / 10 := rfl
  rw [e1, e2] at h2
  norm_num at h2

/-- Non-vacuity of the partial theorem: a rotated, stretched and translated disk minus a
rectangle, united with a rectangle. -/
example : Built (fun _ m => m.Valid ∧ m.rot.SingleAxis) (fun k => k ≤ 0)
    (mkUnion 0 (mkDifference 1 (mkDisk ![0, 0] 1 ⟨.two 1, some ![2, 0], some ![5, 5]⟩)
      [mkRectangle ⟨![0, 0], ![1, 1]⟩ Manip.id2]) [mkRectangle ⟨![0, 0], ![1, 1]⟩ Manip.id2]) := by
  have hid : Manip.id2.Valid ∧ Manip.id2.rot.SingleAxis := by
    refine ⟨?_, trivial⟩; intro v hv; simp [Manip.id2] at hv
  refine .union _ _ _ le_rfl (.diff _ _ _ (.disk _ _ _ ⟨?_, trivial⟩) ?_) ?_
  · intro v hv h0
    simp only [Option.some.injEq] at hv
    have := congrFun (hv.trans h0) 0
    simp at this
  · intro o ho; rw [List.mem_singleton.1 ho]; exact .rectangle _ _ hid
  · intro o ho; rw [List.mem_singleton.1 ho]; exact .rectangle _ _ hid

/-! ### C29 -/

/-- Rectangles and cubes with ordered bounds and no manipulation, and sharp unions of such. -/
inductive PlainUnion : {d : ℕ} → Obj d → Prop
  | rectangle (b : Box 2) : (∀ i, b.lo i ≤ b.hi i) → PlainUnion (mkRectangle b Manip.id2)
  | cube (b : Box 3) : (∀ i, b.lo i ≤ b.hi i) → PlainUnion (mkCube b Manip.id3)
  | disk (x0 : Pt 2) (r : ℝ) (m : Manip 2) : PlainUnion (mkDisk x0 r m)
  | ball (x0 : Pt 3) (r : ℝ) (m : Manip 3) : PlainUnion (mkBall x0 r m)
  | union {d : ℕ} (o : Obj d) (os : List (Obj d)) : PlainUnion o → (∀ o' ∈ os, PlainUnion o') →
      PlainUnion (mkUnion 0 o os)

theorem corners_le {d : ℕ} {o : Obj d} (h : PlainUnion o) :
    ∀ cs, o.corners = some cs → ∀ c ∈ cs, o.eval c ≤ 0 := by
  induction h with
  | rectangle b hb =>
    intro cs hcs c hc
    simp only [mkRectangle, configure, Manip.id2, buildStretch, buildTranslation, Rot.build, ne_eq,
      not_true_eq_false, if_false, Option.some.injEq] at hcs
    subst hcs
    have hm := mem_corners.1 hc
    change drectangle _ _ _ _ (manipulate Manip.id2 c) ≤ 0
    rw [manipulate_id2, (C20_rectangle _ _ _ _).closed]
    intro i
    have := hb i
    have := hm i
    fin_cases i <;> simp at * <;> constructor <;> rcases this with h | h <;> rw [h] <;> first | exact le_rfl | assumption
  | cube b hb =>
    intro cs hcs c hc
    simp only [mkCube, configure, Manip.id3, buildStretch, buildTranslation, Rot.build, ne_eq,
      not_true_eq_false, or_self, if_false, Option.some.injEq] at hcs
    subst hcs
    have hm := mem_corners.1 hc
    change dblock _ _ _ _ _ _ (manipulate Manip.id3 c) ≤ 0
    rw [manipulate_id3, (C20_block _ _ _ _ _ _).closed]
    intro i
    have := hb i
    have := hm i
    fin_cases i <;> simp at * <;> constructor <;> rcases this with h | h <;> rw [h] <;> first | exact le_rfl | assumption
  | disk => intro cs hcs; simp [mkDisk] at hcs
  | ball => intro cs hcs; simp [mkBall] at hcs
  | union o os _ _ iho ihos =>
    intro cs hcs c hc
    have hcs' : gatherCorners (o :: os) = some cs := hcs
    unfold gatherCorners at hcs'
    simp only at hcs'
    split_ifs at hcs'
    simp only [Option.some.injEq] at hcs'
    subst hcs'
    rw [List.mem_flatten] at hc
    obtain ⟨l, hl, hcl⟩ := hc
    rw [List.mem_filterMap] at hl
    obtain ⟨o', ho', hl'⟩ := hl
    have h0 : o'.eval c ≤ 0 := by
      rcases List.mem_cons.1 ho' with rfl | ho''
      · exact iho l hl' c hcl
      · exact ihos o' ho'' l hl' c hcl
    change unionEval 0 (o.eval c) (os.map fun o => o.eval c) ≤ 0
    unfold unionEval
    rw [if_pos rfl, foldl_min_le, ← List.map_cons (f := fun o : Obj _ => o.eval c)]
    exact ⟨o'.eval c, List.mem_map.2 ⟨o', ho', rfl⟩, h0⟩

/-- **C29 (partial).** For rectangles, cubes, disks, balls without manipulated boxes, and
sharp unions of such, every corner added to the fixed points satisfies
`|eval| ≤ 1000 deps`. Missing: translated/rotated/stretched boxes, intersections and
differences, where it is false (`C29_corners_false`, `C29_difference_false`). -/
theorem C29_corners_partial {d : ℕ} {o : Obj d} (h : PlainUnion o) {deps : ℝ} :
    ∀ c ∈ keptCorners o deps, |o.eval c| ≤ 1000 * deps := by
  intro c hc
  unfold keptCorners at hc
  cases hcs : o.corners with
  | none => rw [hcs] at hc; simp at hc
  | some cs =>
    rw [hcs] at hc
    simp only [List.mem_filter, decide_eq_true_eq] at hc
    have := corners_le h cs hcs c hc.1
    rw [abs_le]; constructor <;> linarith [hc.2]

/-- An unmanipulated rectangle keeps all its four corners. -/
theorem C29_plain_rectangle_keeps_all {b : Box 2} {deps : ℝ}
    (hd : 0 < deps) (c : Pt 2) :
    c ∈ keptCorners (mkRectangle b Manip.id2) deps ↔ ∀ i, c i = b.lo i ∨ c i = b.hi i := by
  have hcs : (mkRectangle b Manip.id2).corners = some (corners 2 b) := by
    simp [mkRectangle, configure, Manip.id2, buildStretch, buildTranslation, Rot.build]
  unfold keptCorners
  rw [hcs]
  simp only [List.mem_filter, decide_eq_true_eq]
  rw [mem_corners]
  constructor
  · exact fun h => h.1
  · intro h
    refine ⟨h, ?_⟩
    have hev : 0 ≤ (mkRectangle b Manip.id2).eval c := by
      by_contra hneg
      change ¬ 0 ≤ drectangle _ _ _ _ (manipulate Manip.id2 c) at hneg
      rw [manipulate_id2] at hneg
      have := ((C20_rectangle _ _ _ _).interior c).1 (not_le.1 hneg) 0
      simp at this
      rcases h 0 with h' | h' <;> rw [h'] at this <;> simp at this
    linarith

/-- **C29, negation (translate).** `Rectangle((0,1,0,1), translate=[10,0])` keeps the
untranslated corner `(0,0)`, which is at distance 10 outside the domain. -/
theorem C29_corners_false {deps : ℝ} (hd : 0 ≤ deps) :
    ∃ c ∈ keptCorners (mkRectangle ⟨![0, 0], ![1, 1]⟩ ⟨.two 0, none, some ![10, 0]⟩) deps,
      (mkRectangle ⟨![0, 0], ![1, 1]⟩ ⟨.two 0, none, some ![10, 0]⟩).eval c = 10 := by
  set o := mkRectangle ⟨![0, 0], ![1, 1]⟩ ⟨.two 0, none, some ![10, 0]⟩ with ho
  have hev : o.eval ![0, 0] = 10 := by
    simp [o, mkRectangle, manipulate, Rot.back, drectangle]
    norm_num
  refine ⟨![0, 0], ?_, hev⟩
  have hcs : o.corners = some (corners 2 ⟨![0, 0], ![1, 1]⟩) := by
    simp [o, mkRectangle, configure, buildStretch, buildTranslation, Rot.build]
  unfold keptCorners
  rw [hcs]
  simp only [List.mem_filter, decide_eq_true_eq, hev]
  refine ⟨?_, by linarith⟩
  rw [mem_corners]; intro i; left; fin_cases i <;> rfl

/-- **C29, negation (difference).** In `Difference([[0,1]^2, [5,6]^2])` the corner `(5,5)` of
the subtracted square is kept although it is at distance 4 outside the domain. -/
theorem C29_difference_false {deps : ℝ} (hd : 0 ≤ deps) :
    let o := mkDifference 0 (mkRectangle ⟨![0, 0], ![1, 1]⟩ Manip.id2)
      [mkRectangle ⟨![5, 5], ![6, 6]⟩ Manip.id2]
    ![5, 5] ∈ keptCorners o deps ∧ o.eval ![5, 5] = 4 := by
  intro o
  have hev : o.eval ![5, 5] = 4 := by
    simp only [o, mkDifference, mkRectangle, manipulate_id2, diffEval, drectangle, List.map_cons,
      List.map_nil]
    norm_num
  refine ⟨?_, hev⟩
  have hc1 : ∀ b : Box 2, (mkRectangle b Manip.id2).corners = some (corners 2 b) := by
    intro b; simp [mkRectangle, configure, Manip.id2, buildStretch, buildTranslation, Rot.build]
  have hcs : o.corners = some (corners 2 ⟨![0, 0], ![1, 1]⟩ ++ corners 2 ⟨![5, 5], ![6, 6]⟩) := by
    simp [o, mkDifference, gatherCorners, hc1]
  unfold keptCorners
  rw [hcs]
  simp only [List.mem_filter, decide_eq_true_eq, hev, List.mem_append]
  refine ⟨Or.inr ?_, by linarith⟩
  rw [mem_corners]; intro i; left; fin_cases i <;> rfl

end SM.Domain
