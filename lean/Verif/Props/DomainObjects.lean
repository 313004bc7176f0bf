import Verif.Props.Domain

/-!
# C20, C22, C23 for the classes

The statements about the distance formulas (`Props/Sdf.lean`), for the `eval` of the objects built by the constructors with the user's arguments and without
manipulations; with manipulations `C28_eval` applies.
-/

namespace SM.Domain

open SM.Sdf

theorem pt2_eta (x : Pt 2) : (![x 0, x 1] : Pt 2) = x := by ext i; fin_cases i <;> rfl
theorem pt3_eta (x : Pt 3) : (![x 0, x 1, x 2] : Pt 3) = x := by ext i; fin_cases i <;> rfl

/-- **C20 (`Rectangle`).** `Rectangle(bbox).eval` is negative inside `bbox`, with the exact distance to its boundary, and nowhere overestimates the distance. -/
theorem C20_rectangle_object (b : Box 2) : BoxSdf b.lo b.hi (mkRectangle b Manip.id2).eval := by
  have h := C20_rectangle (b.lo 0) (b.hi 0) (b.lo 1) (b.hi 1)
  rw [pt2_eta, pt2_eta] at h
  have e : (mkRectangle b Manip.id2).eval = drectangle (b.lo 0) (b.hi 0) (b.lo 1) (b.hi 1) := by
    funext x; simp only [mkRectangle, manipulate_id2]
  rw [e]; exact h

/-- **C20 (`Cube`).** -/
theorem C20_cube_object (b : Box 3) : BoxSdf b.lo b.hi (mkCube b Manip.id3).eval := by
  have h := C20_block (b.lo 0) (b.hi 0) (b.lo 1) (b.hi 1) (b.lo 2) (b.hi 2)
  rw [pt3_eta, pt3_eta] at h
  have e : (mkCube b Manip.id3).eval = dblock (b.lo 0) (b.hi 0) (b.lo 1) (b.hi 1) (b.lo 2) (b.hi 2) := by
    funext x; simp only [mkCube, manipulate_id3]
  rw [e]; exact h

/-- **C22 (`Disk`).** `Disk(x0, r).eval` is the signed distance to the circle of radius `r` about `x0`. -/
theorem C22_disk_object (x0 : Pt 2) {r : ℝ} (hr : 0 ≤ r) : BallSdf x0 r (mkDisk x0 r Manip.id2).eval := by
  have h := C22_disk (x0 0) (x0 1) hr
  rw [pt2_eta] at h
  have e : (mkDisk x0 r Manip.id2).eval = ddisk (x0 0) (x0 1) r := by funext x; simp only [mkDisk, manipulate_id2]
  rw [e]; exact h

/-- **C22 (`Ball`).** -/
theorem C22_ball_object (x0 : Pt 3) {r : ℝ} (hr : 0 ≤ r) : BallSdf x0 r (mkBall x0 r Manip.id3).eval := by
  have h := C22_ball (x0 0) (x0 1) (x0 2) hr
  rw [pt3_eta] at h
  have e : (mkBall x0 r Manip.id3).eval = dball (x0 0) (x0 1) (x0 2) r := by funext x; simp only [mkBall, manipulate_id3]
  rw [e]; exact h

/-- **C23 (the classes).** `Torus(r1, r2)`, `Cylinder(h, r)` and `Prism(b, h)` are the documented solids. -/
theorem C23_objects (p : Pt 3) :
    (∀ r1 r2 : ℝ, 0 ≤ r1 → ∃ m, IsDist p (CoreCircle r1) m ∧ (mkTorus r1 r2 Manip.id3).eval p = m - r2) ∧
    (∀ h r : ℝ, ((mkCylinder h r Manip.id3).eval p ≤ 0 ↔ InCylinder h r p) ∧ ((mkCylinder h r Manip.id3).eval p = 0 ↔ OnCylinder h r p)) ∧
    (∀ b h : ℝ, 0 < b → ((mkPrism b h Manip.id3).eval p ≤ 0 ↔ |p 2| ≤ h ∧
      InTriangle 0 b (-prismHalf b) (-b / 2) (prismHalf b) (-b / 2) (p 0) (p 1))) := by
  refine ⟨fun r1 r2 hr => ?_, fun h r => ?_, fun b h hb => ?_⟩
  · obtain ⟨m, h1, h2, -⟩ := C23_torus r2 hr p
    exact ⟨m, h1, by simpa only [mkTorus, manipulate_id3] using h2⟩
  · simpa only [mkCylinder, manipulate_id3] using C23_cylinder h r p
  · simpa only [mkPrism, manipulate_id3] using C23_prism h hb p

/-- Concrete cases: a disk away from the origin, evaluated at its centre and outside. -/
example : (mkDisk ![3, 4] 5 Manip.id2).eval ![3, 4] = -5 ∧ (mkDisk ![3, 4] 5 Manip.id2).eval ![3, 10] = 1 := by
  have e : ∀ x, (mkDisk ![3, 4] 5 Manip.id2).eval x = ddisk 3 4 5 x := by intro x; simp [mkDisk, manipulate_id2]
  constructor
  · rw [e]; simp [ddisk]
  · rw [e]; simp [ddisk]; rw [Real.sqrt_sq (by norm_num)]; norm_num

/-! ### Set operations -/

/-- **C24 (the classes).** `Union`, `Intersection` and `Difference` of any number of domain objects with smoothness 0. -/
theorem C24_objects {d : ℕ} (o : Obj d) (os : List (Obj d)) (x : Pt d) :
    ((mkUnion 0 o os).eval x < 0 ↔ ∃ c ∈ o :: os, c.eval x < 0) ∧ ((mkUnion 0 o os).eval x ≤ 0 ↔ ∃ c ∈ o :: os, c.eval x ≤ 0) ∧
    ((mkIntersection 0 o os).eval x < 0 ↔ ∀ c ∈ o :: os, c.eval x < 0) ∧ ((mkIntersection 0 o os).eval x ≤ 0 ↔ ∀ c ∈ o :: os, c.eval x ≤ 0) ∧
    ((mkDifference 0 o os).eval x < 0 ↔ o.eval x < 0 ∧ ∀ c ∈ os, 0 < c.eval x) ∧
    ((mkDifference 0 o os).eval x ≤ 0 ↔ o.eval x ≤ 0 ∧ ∀ c ∈ os, ¬ c.eval x < 0) := by
  have e : os.map (fun o => o.eval x) = (os.map fun o => o.eval).map (· x) := by simp
  have mem : ∀ {Q : (Pt d → ℝ) → Prop}, (∃ D ∈ o.eval :: os.map (fun o => o.eval), Q D) ↔ ∃ c ∈ o :: os, Q c.eval := by intro Q; simp
  have all : ∀ {Q : (Pt d → ℝ) → Prop}, (∀ D ∈ o.eval :: os.map (fun o => o.eval), Q D) ↔ ∀ c ∈ o :: os, Q c.eval := by intro Q; simp
  have all' : ∀ {Q : (Pt d → ℝ) → Prop}, (∀ D ∈ os.map (fun o => o.eval), Q D) ↔ ∀ c ∈ os, Q c.eval := by intro Q; simp
  have h1 := C24_union (A := o.eval) (Bs := os.map fun o => o.eval) (x := x)
  have h2 := C24_intersection (A := o.eval) (Bs := os.map fun o => o.eval) (x := x)
  have h3 := C24_difference (A := o.eval) (Bs := os.map fun o => o.eval) (x := x)
  simp only [mkUnion, mkIntersection, mkDifference, e]
  refine ⟨h1.1.trans mem, h1.2.trans mem, h2.1.trans all, h2.2.trans all, ?_, ?_⟩
  · rw [h3.1, all']
  · rw [h3.2, all']

theorem listMin_isLeast (d0 : ℝ) (ds : List ℝ) : IsLeast {v | v ∈ d0 :: ds} (listMin d0 ds) := by
  induction ds generalizing d0 with
  | nil => simp [listMin, IsLeast, lowerBounds]
  | cons e es ih =>
    obtain ⟨h1, h2⟩ := ih (min d0 e)
    have h0 : listMin d0 (e :: es) = listMin (min d0 e) es := rfl
    rw [h0]
    refine ⟨?_, ?_⟩
    · rcases List.mem_cons.1 h1 with h | h
      · rcases min_choice d0 e with h' | h' <;> rw [h'] at h <;> simp [h, h']
      · simp [h]
    · intro v hv
      have hm := h2 (show min d0 e ∈ min d0 e :: es by simp)
      rcases List.mem_cons.1 hv with rfl | hv
      · exact hm.trans (min_le_left _ _)
      · rcases List.mem_cons.1 hv with rfl | hv
        · exact hm.trans (min_le_right _ _)
        · exact h2 (show v ∈ min d0 e :: es by simp [hv])

theorem listMax_isGreatest (d0 : ℝ) (ds : List ℝ) : IsGreatest {v | v ∈ d0 :: ds} (listMax d0 ds) := by
  induction ds generalizing d0 with
  | nil => simp [listMax, IsGreatest, upperBounds]
  | cons e es ih =>
    obtain ⟨h1, h2⟩ := ih (max d0 e)
    have h0 : listMax d0 (e :: es) = listMax (max d0 e) es := rfl
    rw [h0]
    refine ⟨?_, ?_⟩
    · rcases List.mem_cons.1 h1 with h | h
      · rcases max_choice d0 e with h' | h' <;> rw [h'] at h <;> simp [h, h']
      · simp [h]
    · intro v hv
      have hm := h2 (show max d0 e ∈ max d0 e :: es by simp)
      rcases List.mem_cons.1 hv with rfl | hv
      · exact (le_max_left _ _).trans hm
      · rcases List.mem_cons.1 hv with rfl | hv
        · exact (le_max_right _ _).trans hm
        · exact h2 (show v ∈ max d0 e :: es by simp [hv])

/-- **C25 (the classes).** Smooth `Union` and `Intersection` of `n + 1` objects. -/
theorem C25_objects {d : ℕ} {k : ℝ} (hk : 0 < k) (o : Obj d) (os : List (Obj d)) (x : Pt d) :
    (∃ m, IsLeast {v | ∃ c ∈ o :: os, v = c.eval x} m ∧ m - os.length * (k / 4) ≤ (mkUnion k o os).eval x ∧ (mkUnion k o os).eval x ≤ m) ∧
    (∃ m, IsGreatest {v | ∃ c ∈ o :: os, v = c.eval x} m ∧ m ≤ (mkIntersection k o os).eval x ∧
      (mkIntersection k o os).eval x ≤ m + os.length * (k / 4)) := by
  have h1 := C25_smooth_union hk (o.eval x) (os.map fun o => o.eval x)
  have h2 := C25_smooth_intersection hk (o.eval x) (os.map fun o => o.eval x)
  simp only [List.length_map] at h1 h2
  refine ⟨⟨_, ?_, h1⟩, ⟨_, ?_, h2⟩⟩
  · have := listMin_isLeast (o.eval x) (os.map fun o => o.eval x)
    convert this using 1
    ext v; simp [eq_comm]
  · have := listMax_isGreatest (o.eval x) (os.map fun o => o.eval x)
    convert this using 1
    ext v; simp [eq_comm]

/-- **C25 (the classes, two objects).** Sharp where the distances differ by at least `k`, and independent of the order. -/
theorem C25_objects_two {d : ℕ} {k : ℝ} (hk : 0 < k) (o c : Obj d) (x : Pt d) :
    (k ≤ |o.eval x - c.eval x| → (mkUnion k o [c]).eval x = (mkUnion 0 o [c]).eval x ∧ (mkIntersection k o [c]).eval x = (mkIntersection 0 o [c]).eval x) ∧
    (mkUnion k o [c]).eval x = (mkUnion k c [o]).eval x ∧ (mkIntersection k o [c]).eval x = (mkIntersection k c [o]).eval x :=
  ⟨fun h => C25_sharp_far hk h, (C25_symmetric k _ _).1, (C25_symmetric k _ _).2⟩

/-- **C26 (the class; partial).** `Difference([A, B1, ...], smoothness=k)` keeps nothing outside `A`; of two domains it keeps nothing inside `B`, and
is at least the sharp difference and at most `k/4` more. Missing: three or more domains (`C26_smooth_difference_false`). -/
theorem C26_objects_partial {d : ℕ} {k : ℝ} (hk : 0 < k) (o : Obj d) (x : Pt d) :
    (∀ os : List (Obj d), o.eval x ≤ (mkDifference k o os).eval x) ∧
    (∀ c : Obj d, max (o.eval x) (-c.eval x) ≤ (mkDifference k o [c]).eval x ∧ (mkDifference k o [c]).eval x ≤ max (o.eval x) (-c.eval x) + k / 4 ∧
      ((mkDifference k o [c]).eval x ≤ 0 → o.eval x ≤ 0 ∧ ¬ c.eval x < 0) ∧
      (o.eval x = -c.eval x → (mkDifference k o [c]).eval x = o.eval x + k / 4)) := by
  have two : ∀ c : Obj d, (mkDifference k o [c]).eval x = max (-c.eval x) (o.eval x) +
      (max (k - |(-c.eval x) - o.eval x|) 0) * (max (k - |(-c.eval x) - o.eval x|) 0) * 0.25 / k := by
    intro c
    simp only [mkDifference, List.map_cons, List.map_nil, diffEval, if_neg hk.ne']
    simp [loopCall, smoothDifference]
  refine ⟨fun os => (C26_smooth_difference_partial hk _).1 _, fun c => ⟨?_, ?_, (C26_smooth_difference_partial hk _).2 _, ?_⟩⟩
  · rw [two c]
    have : 0 ≤ (max (k - |(-c.eval x) - o.eval x|) 0) * (max (k - |(-c.eval x) - o.eval x|) 0) * 0.25 / k := by positivity
    rw [max_comm]; linarith
  · rw [two c]
    have h1 : max (k - |(-c.eval x) - o.eval x|) 0 ≤ k := max_le (by linarith [abs_nonneg ((-c.eval x) - o.eval x)]) hk.le
    have h0 : 0 ≤ max (k - |(-c.eval x) - o.eval x|) 0 := le_max_right _ _
    have : (max (k - |(-c.eval x) - o.eval x|) 0) * (max (k - |(-c.eval x) - o.eval x|) 0) * 0.25 / k ≤ k / 4 := by
      rw [div_le_div_iff₀ hk (by norm_num)]
      nlinarith [mul_le_mul h1 h1 h0 hk.le]
    rw [max_comm (o.eval x)]; linarith
  · intro e
    rw [two c, ← e]
    simp only [sub_self, abs_zero, sub_zero, max_self, max_eq_left hk.le]
    field_simp
    norm_num
    ring

/-- **C30 (the class).** -/
theorem C30_object (b : Box 3) (o : Obj 3) {period : Pt 3} (hp : ∀ i, 0 < period i) :
    (mkRepeat b o period).bbox = b ∧ (∀ x, (mkRepeat b o period).eval x ≤ 0 → InBox b.lo b.hi x) ∧
    (∀ x y : Pt 3, InBox b.lo b.hi x → InBox b.lo b.hi y → (∀ i, ∃ n : ℤ, y i = x i + n * period i) →
      ((mkRepeat b o period).eval x ≤ 0 ↔ (mkRepeat b o period).eval y ≤ 0)) ∧
    (∀ x, InBox b.lo b.hi x → (∀ i, -(period i / 2) ≤ x i ∧ x i < period i / 2) → ((mkRepeat b o period).eval x ≤ 0 ↔ o.eval x ≤ 0)) := by
  have h := C30_repeat (b.lo 0) (b.hi 0) (b.lo 1) (b.hi 1) (b.lo 2) (b.hi 2) o.eval period fun i => (hp i).ne'
  have h' := fun x => C30_central_cell (b.lo 0) (b.hi 0) (b.lo 1) (b.hi 1) (b.lo 2) (b.hi 2) o.eval period x hp
  rw [pt3_eta, pt3_eta] at h
  simp only [pt3_eta] at h'
  exact ⟨rfl, h.1, h.2, h'⟩

end SM.Domain
