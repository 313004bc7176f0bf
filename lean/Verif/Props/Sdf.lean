import Verif.Lemmas.Euclid
import Mathlib.Tactic.Linarith
import Mathlib.Tactic.Ring
import Mathlib.Tactic.FieldSimp
import Mathlib.Tactic.NormNum
import Mathlib.Tactic.FinCases
import Mathlib.Order.Bounds.Basic

/-!
# C20 - C26, C30: signed distance functions and set operations
-/

namespace SM.Sdf

/-! ### Specification vocabulary -/

/-- The closed axis-aligned box with lower corner `a` and upper corner `b`. -/
def InBox {d : ℕ} (a b p : Pt d) : Prop := ∀ i, a i ≤ p i ∧ p i ≤ b i

/-- Its interior. -/
def InOpenBox {d : ℕ} (a b p : Pt d) : Prop := ∀ i, a i < p i ∧ p i < b i

/-- Its boundary. -/
def OnBoxBoundary {d : ℕ} (a b p : Pt d) : Prop := InBox a b p ∧ ∃ i, p i = a i ∨ p i = b i

/-- `m` is the distance from `p` to the set `S` (attained). -/
def IsDist {d : ℕ} (p : Pt d) (S : Set (Pt d)) (m : ℝ) : Prop :=
  IsLeast {x | ∃ q ∈ S, x = eucl p q} m

/-! ### C20 -/

theorem drectangle_le {x1 x2 y1 y2 : ℝ} {p : Pt 2} {c : ℝ} :
    drectangle x1 x2 y1 y2 p ≤ c ↔
      ∀ i, (![x1, y1] : Pt 2) i - p i ≤ c ∧ p i - (![x2, y2] : Pt 2) i ≤ c := by
  unfold drectangle
  rw [Fin.forall_fin_two, neg_le]
  simp only [le_min_iff, Matrix.cons_val_zero, Matrix.cons_val_one]
  constructor
  · rintro ⟨⟨⟨h1, h2⟩, h3⟩, h4⟩; refine ⟨⟨?_, ?_⟩, ?_, ?_⟩ <;> linarith
  · rintro ⟨⟨h1, h2⟩, h3, h4⟩; refine ⟨⟨⟨?_, ?_⟩, ?_⟩, ?_⟩ <;> linarith

theorem drectangle_lt {x1 x2 y1 y2 : ℝ} {p : Pt 2} {c : ℝ} :
    drectangle x1 x2 y1 y2 p < c ↔
      ∀ i, (![x1, y1] : Pt 2) i - p i < c ∧ p i - (![x2, y2] : Pt 2) i < c := by
  unfold drectangle
  rw [Fin.forall_fin_two, neg_lt]
  simp only [lt_min_iff, Matrix.cons_val_zero, Matrix.cons_val_one]
  constructor
  · rintro ⟨⟨⟨h1, h2⟩, h3⟩, h4⟩; refine ⟨⟨?_, ?_⟩, ?_, ?_⟩ <;> linarith
  · rintro ⟨⟨h1, h2⟩, h3, h4⟩; refine ⟨⟨⟨?_, ?_⟩, ?_⟩, ?_⟩ <;> linarith

theorem forall_fin3 {P : Fin 3 → Prop} : (∀ i, P i) ↔ P 0 ∧ P 1 ∧ P 2 := by
  constructor
  · intro h; exact ⟨h 0, h 1, h 2⟩
  · rintro ⟨h0, h1, h2⟩ i; fin_cases i <;> assumption

theorem dblock_le {x1 x2 y1 y2 z1 z2 : ℝ} {p : Pt 3} {c : ℝ} :
    dblock x1 x2 y1 y2 z1 z2 p ≤ c ↔
      ∀ i, (![x1, y1, z1] : Pt 3) i - p i ≤ c ∧ p i - (![x2, y2, z2] : Pt 3) i ≤ c := by
  unfold dblock
  rw [forall_fin3, neg_le]
  simp only [le_min_iff, Matrix.cons_val]
  constructor
  · rintro ⟨⟨⟨⟨⟨h1, h2⟩, h3⟩, h4⟩, h5⟩, h6⟩; refine ⟨⟨?_, ?_⟩, ⟨?_, ?_⟩, ?_, ?_⟩ <;> linarith
  · rintro ⟨⟨h1, h2⟩, ⟨h3, h4⟩, h5, h6⟩; refine ⟨⟨⟨⟨⟨?_, ?_⟩, ?_⟩, ?_⟩, ?_⟩, ?_⟩ <;> linarith

theorem dblock_lt {x1 x2 y1 y2 z1 z2 : ℝ} {p : Pt 3} {c : ℝ} :
    dblock x1 x2 y1 y2 z1 z2 p < c ↔
      ∀ i, (![x1, y1, z1] : Pt 3) i - p i < c ∧ p i - (![x2, y2, z2] : Pt 3) i < c := by
  unfold dblock
  rw [forall_fin3, neg_lt]
  simp only [lt_min_iff, Matrix.cons_val]
  constructor
  · rintro ⟨⟨⟨⟨⟨h1, h2⟩, h3⟩, h4⟩, h5⟩, h6⟩; refine ⟨⟨?_, ?_⟩, ⟨?_, ?_⟩, ?_, ?_⟩ <;> linarith
  · rintro ⟨⟨h1, h2⟩, ⟨h3, h4⟩, h5, h6⟩; refine ⟨⟨⟨⟨⟨?_, ?_⟩, ?_⟩, ?_⟩, ?_⟩, ?_⟩ <;> linarith

/-- What C20 says of a function `f` and a box. -/
structure BoxSdf {d : ℕ} (a b : Pt d) (f : Pt d → ℝ) : Prop where
  closed : ∀ p, f p ≤ 0 ↔ InBox a b p
  interior : ∀ p, f p < 0 ↔ InOpenBox a b p
  depth : ∀ p, InBox a b p → IsDist p {q | OnBoxBoundary a b q} (-f p)
  lipschitz : ∀ p q, |f p - f q| ≤ eucl p q

theorem boxSdf_of {d : ℕ} {a b : Pt d} {f : Pt d → ℝ}
    (hle : ∀ p c, f p ≤ c ↔ ∀ i, a i - p i ≤ c ∧ p i - b i ≤ c)
    (hlt : ∀ p c, f p < c ↔ ∀ i, a i - p i < c ∧ p i - b i < c) : BoxSdf a b f := by
  have lip : ∀ p q, f p ≤ f q + eucl p q := by
    intro p q
    rw [hle]
    intro i
    have h1 := (hle q (f q)).1 le_rfl i
    have h2 := abs_le.1 (coord_le_eucl p q i)
    constructor <;> linarith [h1.1, h1.2, h2.1, h2.2]
  refine ⟨?_, ?_, ?_, ?_⟩
  · intro p; rw [hle]; unfold InBox; simp only [sub_nonpos]
  · intro p; rw [hlt]; unfold InOpenBox; simp only [sub_neg]
  · intro p hp
    have hb := (hle p (f p)).1 le_rfl
    constructor
    · have : ¬ f p < f p := lt_irrefl _
      rw [hlt] at this
      push Not at this
      obtain ⟨i, hi⟩ := this
      by_cases h1 : a i - p i < f p
      · have h2 := hi h1
        have e : p i - b i = f p := le_antisymm (hb i).2 h2
        refine ⟨Function.update p i (b i), ⟨?_, i, Or.inr (by simp)⟩, ?_⟩
        · intro j
          by_cases hj : j = i
          · subst hj; rw [Function.update_self]
            exact ⟨(hp j).1.trans (hp j).2, le_rfl⟩
          · rw [Function.update_of_ne hj]; exact hp j
        · rw [eucl_update, abs_of_nonpos (by linarith [(hp i).2])]; linarith
      · have e : a i - p i = f p := le_antisymm (hb i).1 (not_lt.1 h1)
        refine ⟨Function.update p i (a i), ⟨?_, i, Or.inl (by simp)⟩, ?_⟩
        · intro j
          by_cases hj : j = i
          · subst hj; rw [Function.update_self]
            exact ⟨le_rfl, (hp j).1.trans (hp j).2⟩
          · rw [Function.update_of_ne hj]; exact hp j
        · rw [eucl_update, abs_of_nonneg (by linarith [(hp i).1])]; linarith
    · rintro x ⟨q, ⟨hq, i, hi⟩, rfl⟩
      have h2 := abs_le.1 (coord_le_eucl p q i)
      rcases hi with hi | hi
      · rw [hi] at h2; linarith [(hb i).1]
      · rw [hi] at h2; linarith [(hb i).2]
  · intro p q
    have h1 := lip p q
    have h2 := lip q p
    rw [eucl_comm q p] at h2
    rw [abs_le]; constructor <;> linarith

/-- **C20 (2-D).** `Rectangle((x1,x2,y1,y2)).eval`. -/
theorem C20_rectangle (x1 x2 y1 y2 : ℝ) :
    BoxSdf (![x1, y1] : Pt 2) ![x2, y2] (drectangle x1 x2 y1 y2) :=
  boxSdf_of (fun _ _ => drectangle_le) (fun _ _ => drectangle_lt)

/-- **C20 (3-D).** `Cube((x1,x2,y1,y2,z1,z2)).eval`. -/
theorem C20_block (x1 x2 y1 y2 z1 z2 : ℝ) :
    BoxSdf (![x1, y1, z1] : Pt 3) ![x2, y2, z2] (dblock x1 x2 y1 y2 z1 z2) :=
  boxSdf_of (fun _ _ => dblock_le) (fun _ _ => dblock_lt)

/-- Consequence named in C20: outside the box the value never exceeds the distance to any
point of the box. -/
theorem C20_never_overestimates {d : ℕ} {a b : Pt d} {f : Pt d → ℝ} (h : BoxSdf a b f)
    (p q : Pt d) (hq : InBox a b q) : f p ≤ eucl p q := by
  have h1 := (h.closed q).2 hq
  have h2 := (abs_le.1 (h.lipschitz p q)).2
  linarith

example : InOpenBox (![0, 0] : Pt 2) ![1, 1] ![1 / 2, 1 / 4] := by
  intro i; fin_cases i <;> norm_num

/-! ### C21 -/

theorem flat_length {d : ℕ} (ps : List (Pt d)) : (flat ps).length = d * ps.length := by
  unfold flat
  induction ps with
  | nil => simp
  | cons p ps ih => simp only [List.flatMap_cons, List.length_append, List.length_ofFn, ih, List.length_cons]; ring

theorem flat_getD {d : ℕ} (ps : List (Pt d)) (n : ℕ) (hn : n < ps.length) (i : Fin d) :
    (flat ps).getD (d * n + i) 0 = (ps[n]) i := by
  induction ps generalizing n with
  | nil => simp at hn
  | cons p ps ih =>
    have hf : flat (p :: ps) = List.ofFn p ++ flat ps := by simp [flat]
    rw [hf]
    cases n with
    | zero =>
      rw [List.getD_eq_getElem?_getD, List.getElem?_append_left (by simp)]
      simp
    | succ n =>
      rw [List.getD_eq_getElem?_getD, List.getElem?_append_right (by simp; nlinarith [i.2]),
        ← List.getD_eq_getElem?_getD]
      have e : d * (n + 1) + i - (List.ofFn p).length = d * n + i := by
        simp only [List.length_ofFn, Nat.mul_succ]; omega
      rw [e]
      simpa using ih n (by simpa using hn)

/-- **C21 (2-D).** The C++ kernel on the flat buffer of any point array equals the Python
reference point by point. -/
theorem C21_rectangle (ps : List (Pt 2)) (x1 x2 y1 y2 : ℝ) :
    cDrectangle (flat ps) x1 x2 y1 y2 = ps.map (drectangle x1 x2 y1 y2) := by
  apply List.ext_getElem
  · simp [cDrectangle, flat_length]
  · intro n h1 h2
    have hn : n < ps.length := by simpa using h2
    have g0 := flat_getD ps n hn 0
    have g1 := flat_getD ps n hn 1
    simp only [Fin.val_zero, Fin.val_one, add_zero] at g0 g1
    simp only [cDrectangle, List.getElem_map, List.getElem_range, g0, g1, drectangle]

/-- **C21 (3-D).** -/
theorem C21_block (ps : List (Pt 3)) (x1 x2 y1 y2 z1 z2 : ℝ) :
    cDblock (flat ps) x1 x2 y1 y2 z1 z2 = ps.map (dblock x1 x2 y1 y2 z1 z2) := by
  apply List.ext_getElem
  · simp [cDblock, flat_length]
  · intro n h1 h2
    have hn : n < ps.length := by simpa using h2
    have g0 := flat_getD ps n hn 0
    have g1 := flat_getD ps n hn 1
    have g2 := flat_getD ps n hn 2
    simp only [Fin.val_zero, Fin.val_one, Fin.val_two, add_zero] at g0 g1 g2
    simp only [cDblock, List.getElem_map, List.getElem_range, g0, g1, g2, dblock]

example : (flat [(![1, 2] : Pt 2), ![3, 4]]) = [1, 2, 3, 4] := by simp [flat]

/-! ### C22 -/

/-- The sphere with centre `c` and radius `r`. -/
def Sphere {d : ℕ} (c : Pt d) (r : ℝ) : Set (Pt d) := {q | eucl q c = r}

/-- What C22 says. -/
structure BallSdf {d : ℕ} (c : Pt d) (r : ℝ) (f : Pt d → ℝ) : Prop where
  closed : ∀ p, f p ≤ 0 ↔ eucl p c ≤ r
  interior : ∀ p, f p < 0 ↔ eucl p c < r
  exact_dist : ∀ p, IsDist p (Sphere c r) |f p|

theorem eucl_scale {d : ℕ} {x q y c : Pt d} {t : ℝ} (h : ∀ i, x i - q i = t * (y i - c i)) :
    eucl x q = |t| * eucl y c := by
  unfold eucl
  have : ∑ i, (x i - q i) ^ 2 = t ^ 2 * ∑ i, (y i - c i) ^ 2 := by
    rw [Finset.mul_sum]; refine Finset.sum_congr rfl fun i _ => ?_
    rw [h i]; ring
  rw [this, Real.sqrt_mul (sq_nonneg t), Real.sqrt_sq_eq_abs]

theorem eq_of_eucl_zero {d : ℕ} {x c : Pt d} (h : eucl x c = 0) : x = c := by
  ext i
  have := coord_le_eucl x c i
  rw [h] at this
  have := abs_nonpos_iff.1 this
  linarith

theorem sphere_dist {d : ℕ} (c : Pt (d + 1)) {r : ℝ} (hr : 0 ≤ r) (p : Pt (d + 1)) :
    IsDist p (Sphere c r) |eucl p c - r| := by
  constructor
  · rcases eq_or_lt_of_le (eucl_nonneg p c) with h0 | hpos
    · have hpc := eq_of_eucl_zero h0.symm
      refine ⟨Function.update c 0 (c 0 + r), ?_, ?_⟩
      · change eucl _ c = r
        rw [eucl_comm, eucl_update]
        rw [show c 0 - (c 0 + r) = -r by ring, abs_neg, abs_of_nonneg hr]
      · rw [hpc, eucl_update, show eucl c c = 0 by
          have := h0.symm; rwa [hpc] at this]
        congr 1; ring
    · refine ⟨fun i => c i + r / eucl p c * (p i - c i), ?_, ?_⟩
      · change eucl _ c = r
        rw [eucl_scale (y := p) (c := c) (t := r / eucl p c) (by intro i; ring),
          abs_of_nonneg (by positivity)]
        field_simp
      · have e := eucl_scale (x := p) (q := fun i => c i + r / eucl p c * (p i - c i)) (y := p)
          (c := c) (t := 1 - r / eucl p c) (by intro i; ring)
        have e3 : eucl p c - r = (1 - r / eucl p c) * eucl p c := by field_simp
        have e2 : |eucl p c - r| = |1 - r / eucl p c| * eucl p c := by
          rw [e3, abs_mul, abs_of_pos hpos]
        rw [e2]; exact e.symm
  · rintro x ⟨q, hq, rfl⟩
    have hq' : eucl q c = r := hq
    have h1 := eucl_triangle p q c
    have h2 := eucl_triangle q p c
    rw [eucl_comm q p] at h2
    rw [abs_le]; constructor <;> linarith

theorem ddisk_eq (xc yc r : ℝ) (p : Pt 2) : ddisk xc yc r p = eucl p ![xc, yc] - r := by
  unfold ddisk eucl; rw [Fin.sum_univ_two]; simp

theorem dball_eq (xc yc zc r : ℝ) (p : Pt 3) : dball xc yc zc r p = eucl p ![xc, yc, zc] - r := by
  unfold dball eucl; rw [Fin.sum_univ_three]; simp

/-- **C22 (2-D).** `Disk([xc,yc], r).eval`, for every `r ≥ 0`. -/
theorem C22_disk (xc yc : ℝ) {r : ℝ} (hr : 0 ≤ r) : BallSdf (![xc, yc] : Pt 2) r (ddisk xc yc r) := by
  refine ⟨fun p => ?_, fun p => ?_, fun p => ?_⟩
  · rw [ddisk_eq, sub_nonpos]
  · rw [ddisk_eq, sub_neg]
  · rw [ddisk_eq]; exact sphere_dist _ hr p

/-- **C22 (3-D).** `Ball([xc,yc,zc], r).eval`. -/
theorem C22_ball (xc yc zc : ℝ) {r : ℝ} (hr : 0 ≤ r) :
    BallSdf (![xc, yc, zc] : Pt 3) r (dball xc yc zc r) := by
  refine ⟨fun p => ?_, fun p => ?_, fun p => ?_⟩
  · rw [dball_eq, sub_nonpos]
  · rw [dball_eq, sub_neg]
  · rw [dball_eq]; exact sphere_dist _ hr p

example : eucl (![3, 4] : Pt 2) ![0, 0] = 5 := by
  unfold eucl; rw [Fin.sum_univ_two]; norm_num
  rw [show (25 : ℝ) = 5 ^ 2 by norm_num]; exact Real.sqrt_sq (by norm_num)

/-! ### C23 -/

/-- The core circle of the torus: radius `r1` in the plane `y = 0`. -/
def CoreCircle (r1 : ℝ) : Set (Pt 3) := {q | q 1 = 0 ∧ √(q 0 ^ 2 + q 2 ^ 2) = r1}

theorem length2_eq (a b : ℝ) : length2 a b = √(a ^ 2 + b ^ 2) := by
  unfold length2; rw [sq_abs, sq_abs]

theorem core_dist {r1 : ℝ} (hr : 0 ≤ r1) (p : Pt 3) :
    IsDist p (CoreCircle r1) √((√(p 0 ^ 2 + p 2 ^ 2) - r1) ^ 2 + p 1 ^ 2) := by
  have hs := sphere_dist (![0, 0] : Pt 2) hr ![p 0, p 2]
  have e2 : ∀ a b : ℝ, eucl (![a, b] : Pt 2) ![0, 0] = √(a ^ 2 + b ^ 2) := by
    intro a b; unfold eucl; rw [Fin.sum_univ_two]; simp
  have e22 : ∀ a b c d : ℝ, eucl (![a, b] : Pt 2) ![c, d] = √((a - c) ^ 2 + (b - d) ^ 2) := by
    intro a b c d; unfold eucl; rw [Fin.sum_univ_two]; simp
  have e3 : ∀ q : Pt 3, eucl p q = √((p 0 - q 0) ^ 2 + (p 1 - q 1) ^ 2 + (p 2 - q 2) ^ 2) := by
    intro q; unfold eucl; rw [Fin.sum_univ_three]
  rw [e2] at hs
  constructor
  · obtain ⟨q, hq, hd⟩ := hs.1
    have hq2 : q = ![q 0, q 1] := by ext i; fin_cases i <;> simp
    refine ⟨![q 0, 0, q 1], ⟨by simp, ?_⟩, ?_⟩
    · have : eucl q ![0, 0] = r1 := hq
      rw [hq2, e2] at this
      simpa using this
    · rw [hq2, e22] at hd
      rw [e3]
      simp only [Matrix.cons_val]
      congr 1
      have : (√(p 0 ^ 2 + p 2 ^ 2) - r1) ^ 2 = (p 0 - q 0) ^ 2 + (p 2 - q 1) ^ 2 := by
        rw [← sq_abs, hd, Real.sq_sqrt (by positivity)]
      rw [this]; ring
  · rintro x ⟨q, ⟨hq1, hq2⟩, rfl⟩
    have hm : |√(p 0 ^ 2 + p 2 ^ 2) - r1| ≤ √((p 0 - q 0) ^ 2 + (p 2 - q 2) ^ 2) := by
      apply hs.2
      refine ⟨![q 0, q 2], ?_, by rw [e22]⟩
      change eucl _ _ = r1
      rw [e2]; exact hq2
    rw [e3]
    apply Real.sqrt_le_sqrt
    have h2 := (Real.le_sqrt (abs_nonneg _) (by positivity)).1 hm
    rw [sq_abs] at h2
    rw [hq1]; nlinarith

/-- **C23 (torus).** `eval + r2` is the distance to the core circle; so `eval ≤ 0` iff that
distance is at most `r2`. -/
theorem C23_torus {r1 : ℝ} (r2 : ℝ) (hr : 0 ≤ r1) (p : Pt 3) :
    ∃ m, IsDist p (CoreCircle r1) m ∧ dtorus r1 r2 p = m - r2 ∧ (dtorus r1 r2 p ≤ 0 ↔ m ≤ r2) := by
  refine ⟨_, core_dist hr p, ?_, ?_⟩
  · simp only [dtorus, length2_eq]
  · simp only [dtorus, length2_eq, sub_nonpos]

/-- Solid cylinder of height `h` around the y axis. -/
def InCylinder (h r : ℝ) (p : Pt 3) : Prop := √(p 0 ^ 2 + p 2 ^ 2) ≤ r ∧ |p 1| ≤ h / 2

/-- Its surface: in the solid and on the mantle or on a cap. -/
def OnCylinder (h r : ℝ) (p : Pt 3) : Prop :=
  InCylinder h r p ∧ (√(p 0 ^ 2 + p 2 ^ 2) = r ∨ |p 1| = h / 2)

theorem cyl_core (d0 d1 : ℝ) :
    (min (max d0 d1) 0 + length2 (max d0 0) (max d1 0) ≤ 0 ↔ d0 ≤ 0 ∧ d1 ≤ 0) ∧
    (min (max d0 d1) 0 + length2 (max d0 0) (max d1 0) = 0 ↔ max d0 d1 = 0) := by
  rw [length2_eq]
  by_cases h : d0 ≤ 0 ∧ d1 ≤ 0
  · have e : √((max d0 0) ^ 2 + (max d1 0) ^ 2) = 0 := by
      rw [max_eq_right h.1, max_eq_right h.2]; simp
    have e2 : min (max d0 d1) 0 = max d0 d1 := min_eq_left (max_le h.1 h.2)
    rw [e, e2, add_zero]
    exact ⟨by rw [max_le_iff], Iff.rfl⟩
  · have hpos : 0 < √((max d0 0) ^ 2 + (max d1 0) ^ 2) := by
      apply Real.sqrt_pos.2
      rw [not_and_or, not_le, not_le] at h
      rcases h with h | h
      · have : 0 < max d0 0 := lt_max_of_lt_left h
        positivity
      · have : 0 < max d1 0 := lt_max_of_lt_left h
        positivity
    have hm : 0 < max d0 d1 := by
      rw [not_and_or, not_le, not_le] at h
      rcases h with h | h
      · exact lt_max_of_lt_left h
      · exact lt_max_of_lt_right h
    have e2 : min (max d0 d1) 0 = 0 := min_eq_right hm.le
    rw [e2, zero_add]
    exact ⟨⟨fun h' => absurd h' (not_le.2 hpos), fun h' => absurd h' h⟩,
      ⟨fun h' => absurd h' hpos.ne', fun h' => absurd h' hm.ne'⟩⟩

/-- **C23 (cylinder).** -/
theorem C23_cylinder (h r : ℝ) (p : Pt 3) :
    (dcylinder h r p ≤ 0 ↔ InCylinder h r p) ∧ (dcylinder h r p = 0 ↔ OnCylinder h r p) := by
  have hl : |length2 (p 0) (p 2)| = √(p 0 ^ 2 + p 2 ^ 2) := by
    rw [length2_eq, abs_of_nonneg (Real.sqrt_nonneg _)]
  have h20 : h / 2.0 = h / 2 := by norm_num
  unfold dcylinder
  simp only [hl, h20]
  obtain ⟨c1, c2⟩ := cyl_core (√(p 0 ^ 2 + p 2 ^ 2) - r) (|p 1| - h / 2)
  rw [c1, c2]
  unfold OnCylinder InCylinder
  rw [sub_nonpos, sub_nonpos]
  refine ⟨Iff.rfl, ?_⟩
  constructor
  · intro hm
    have h0 := max_le_iff.1 hm.le
    refine ⟨⟨by linarith [h0.1], by linarith [h0.2]⟩, ?_⟩
    rcases max_choice (√(p 0 ^ 2 + p 2 ^ 2) - r) (|p 1| - h / 2) with e | e
    · left; rw [e] at hm; linarith
    · right; rw [e] at hm; linarith
  · rintro ⟨⟨h1, h2⟩, e | e⟩
    · rw [e, sub_self, max_eq_left (by linarith)]
    · rw [e, sub_self, max_eq_right (by linarith)]

/-- `(x,y)` lies in the (filled) triangle `(x1,y1) (x2,y2) (x3,y3)`. -/
def InTriangle (x1 y1 x2 y2 x3 y3 x y : ℝ) : Prop :=
  ∃ u v w : ℝ, 0 ≤ u ∧ 0 ≤ v ∧ 0 ≤ w ∧ u + v + w = 1 ∧
    x = u * x1 + v * x2 + w * x3 ∧ y = u * y1 + v * y2 + w * y3

/-- Half the base of the prism's triangle: `0.75 b / 0.866025`. -/
noncomputable def prismHalf (b : ℝ) : ℝ := 0.75 * b / 0.866025

/-- **C23 (prism).** For `b > 0` the prism is `{|z| ≤ h}` times the triangle with apex
`(0, b)` and base corners `(±0.866.. b, -b/2)` (with the code's constant 0.866025 for
`sqrt 3 / 2`). -/
theorem C23_prism {b : ℝ} (h : ℝ) (hb : 0 < b) (p : Pt 3) :
    dprism b h p ≤ 0 ↔ |p 2| ≤ h ∧
      InTriangle 0 b (-prismHalf b) (-b / 2) (prismHalf b) (-b / 2) (p 0) (p 1) := by
  unfold dprism
  rw [max_le_iff, sub_nonpos, sub_nonpos, max_le_iff]
  apply and_congr_right
  intro _
  have hw : 0 < prismHalf b := by unfold prismHalf; positivity
  have hwd : prismHalf b * 0.866025 = 0.75 * b := by unfold prismHalf; field_simp
  constructor
  · rintro ⟨h1, h2⟩
    have hx1 : p 0 * 0.866025 + p 1 * 0.5 ≤ b * 0.5 := by
      have := le_abs_self (p 0); nlinarith
    have hx2 : -p 0 * 0.866025 + p 1 * 0.5 ≤ b * 0.5 := by
      have := neg_le_abs (p 0); nlinarith
    refine ⟨(p 1 + b / 2) / (1.5 * b), (1 - (p 1 + b / 2) / (1.5 * b) - p 0 / prismHalf b) / 2,
      (1 - (p 1 + b / 2) / (1.5 * b) + p 0 / prismHalf b) / 2, ?_, ?_, ?_, by ring, ?_, ?_⟩
    · apply div_nonneg <;> linarith
    · have : (p 1 + b / 2) / (1.5 * b) + p 0 / prismHalf b ≤ 1 := by
        rw [div_add_div _ _ (by positivity) hw.ne', div_le_one (by positivity)]
        have e : p 0 = p 0 := rfl
        nlinarith
      linarith
    · have : (p 1 + b / 2) / (1.5 * b) - p 0 / prismHalf b ≤ 1 := by
        rw [div_sub_div _ _ (by positivity) hw.ne', div_le_one (by positivity)]
        nlinarith
      linarith
    · field_simp; ring
    · field_simp; ring
  · rintro ⟨u, v, w, hu, hv, hw', hs, hx, hy⟩
    have hu' : u = 1 - v - w := by linarith
    constructor
    · have : |p 0| ≤ (v + w) * prismHalf b := by
        rw [hx, abs_le]; constructor <;> nlinarith
      rw [hy, hu']
      nlinarith
    · rw [hy, hu']; nlinarith

example : dprism 1 1 ![0, 0, 0] ≤ 0 := by
  have h : (![0, 0, 0] : Pt 3) 2 = 0 := rfl
  norm_num [dprism, h]

/-! ### C24 -/

theorem foldl_min_lt {d0 : ℝ} {ds : List ℝ} {c : ℝ} :
    ds.foldl min d0 < c ↔ ∃ d ∈ d0 :: ds, d < c := by
  induction ds generalizing d0 with
  | nil => simp
  | cons e ds ih =>
    rw [List.foldl_cons, ih]
    simp only [List.mem_cons, exists_eq_or_imp, min_lt_iff, or_assoc]

theorem foldl_min_le {d0 : ℝ} {ds : List ℝ} {c : ℝ} :
    ds.foldl min d0 ≤ c ↔ ∃ d ∈ d0 :: ds, d ≤ c := by
  induction ds generalizing d0 with
  | nil => simp
  | cons e ds ih =>
    rw [List.foldl_cons, ih]
    simp only [List.mem_cons, exists_eq_or_imp, min_le_iff, or_assoc]

theorem foldl_max_lt {d0 : ℝ} {ds : List ℝ} {c : ℝ} :
    ds.foldl max d0 < c ↔ ∀ d ∈ d0 :: ds, d < c := by
  induction ds generalizing d0 with
  | nil => simp
  | cons e ds ih =>
    rw [List.foldl_cons, ih]
    simp only [List.mem_cons, forall_eq_or_imp, max_lt_iff, and_assoc]

theorem foldl_max_le {d0 : ℝ} {ds : List ℝ} {c : ℝ} :
    ds.foldl max d0 ≤ c ↔ ∀ d ∈ d0 :: ds, d ≤ c := by
  induction ds generalizing d0 with
  | nil => simp
  | cons e ds ih =>
    rw [List.foldl_cons, ih]
    simp only [List.mem_cons, forall_eq_or_imp, max_le_iff, and_assoc]

section C24
variable {X : Type*} (A : X → ℝ) (Bs : List (X → ℝ)) (x : X)

/-- **C24 (union).** `Union([A, *Bs]).eval`: negative exactly on the union of the interiors,
`≤ 0` exactly on the union of the closed sets. -/
theorem C24_union :
    (unionEval 0 (A x) (Bs.map (· x)) < 0 ↔ ∃ D ∈ A :: Bs, D x < 0) ∧
    (unionEval 0 (A x) (Bs.map (· x)) ≤ 0 ↔ ∃ D ∈ A :: Bs, D x ≤ 0) := by
  unfold unionEval
  rw [if_pos rfl]
  constructor
  · rw [foldl_min_lt, ← List.map_cons (f := fun D : X → ℝ => D x)]; simp
  · rw [foldl_min_le, ← List.map_cons (f := fun D : X → ℝ => D x)]; simp

/-- **C24 (intersection).** -/
theorem C24_intersection :
    (interEval 0 (A x) (Bs.map (· x)) < 0 ↔ ∀ D ∈ A :: Bs, D x < 0) ∧
    (interEval 0 (A x) (Bs.map (· x)) ≤ 0 ↔ ∀ D ∈ A :: Bs, D x ≤ 0) := by
  unfold interEval
  rw [if_pos rfl]
  constructor
  · rw [foldl_max_lt, ← List.map_cons (f := fun D : X → ℝ => D x)]; simp
  · rw [foldl_max_le, ← List.map_cons (f := fun D : X → ℝ => D x)]; simp

/-- **C24 (difference).** Negative exactly in the interior of `A` and strictly outside every
`B`; `≤ 0` exactly in `A` and not in the interior of any `B`. -/
theorem C24_difference :
    (diffEval 0 (A x) (Bs.map (· x)) < 0 ↔ A x < 0 ∧ ∀ B ∈ Bs, 0 < B x) ∧
    (diffEval 0 (A x) (Bs.map (· x)) ≤ 0 ↔ A x ≤ 0 ∧ ∀ B ∈ Bs, ¬ B x < 0) := by
  unfold diffEval
  rw [if_pos rfl]
  constructor
  · rw [foldl_max_lt]; simp
  · rw [foldl_max_le]; simp

end C24

/-! ### C25 -/

theorem blend_bounds {k : ℝ} (hk : 0 < k) (t : ℝ) :
    0 ≤ (max (k - |t|) 0) * (max (k - |t|) 0) * 0.25 / k ∧
    (max (k - |t|) 0) * (max (k - |t|) 0) * 0.25 / k ≤ k / 4 ∧
    (k ≤ |t| → (max (k - |t|) 0) * (max (k - |t|) 0) * 0.25 / k = 0) := by
  set h := max (k - |t|) 0 with hh
  have h0 : 0 ≤ h := le_max_right _ _
  have h1 : h ≤ k := max_le (by linarith [abs_nonneg t]) hk.le
  refine ⟨by positivity, ?_, ?_⟩
  · rw [div_le_iff₀ hk]; nlinarith
  · intro ht
    have : h = 0 := max_eq_right (by linarith)
    rw [this]; simp

theorem smoothUnion_bounds {k : ℝ} (hk : 0 < k) (a b : ℝ) :
    min a b - k / 4 ≤ smoothUnion k a b ∧ smoothUnion k a b ≤ min a b := by
  obtain ⟨h1, h2, -⟩ := blend_bounds hk (a - b)
  unfold smoothUnion
  constructor <;> simp only <;> linarith

theorem smoothIntersection_bounds {k : ℝ} (hk : 0 < k) (a b : ℝ) :
    max a b ≤ smoothIntersection k a b ∧ smoothIntersection k a b ≤ max a b + k / 4 := by
  obtain ⟨h1, h2, -⟩ := blend_bounds hk (a - b)
  unfold smoothIntersection
  constructor <;> simp only <;> linarith

/-- Minimum / maximum of a non-empty list (specification). -/
noncomputable def listMin (d0 : ℝ) (ds : List ℝ) : ℝ := ds.foldl min d0
noncomputable def listMax (d0 : ℝ) (ds : List ℝ) : ℝ := ds.foldl max d0

theorem union_loop {k : ℝ} (hk : 0 < k) : ∀ (ds : List ℝ) (acc m : ℝ) (j : ℕ),
    m - j * (k / 4) ≤ acc → acc ≤ m →
    listMin m ds - (j + ds.length) * (k / 4) ≤ loopCall (smoothUnion k) acc ds ∧
      loopCall (smoothUnion k) acc ds ≤ listMin m ds := by
  intro ds
  induction ds with
  | nil =>
    intro acc m j h1 h2
    simp only [loopCall, listMin, List.foldl_nil, List.length_nil, Nat.cast_zero, add_zero]
    exact ⟨h1, h2⟩
  | cons d ds ih =>
    intro acc m j h1 h2
    obtain ⟨b1, b2⟩ := smoothUnion_bounds hk acc d
    have hj : (0 : ℝ) ≤ j * (k / 4) := by positivity
    have := ih (smoothUnion k acc d) (min m d) (j + 1) (by
      push_cast
      have : min m d - j * (k / 4) ≤ min acc d := by
        apply le_min
        · have := min_le_left m d; linarith
        · have := min_le_right m d; linarith
      linarith) (b2.trans (min_le_min_right _ h2))
    simp only [loopCall, listMin, List.foldl_cons, List.length_cons] at this ⊢
    push_cast at this ⊢
    refine ⟨?_, this.2⟩
    have := this.1
    linarith

theorem inter_loop {k : ℝ} (hk : 0 < k) : ∀ (ds : List ℝ) (acc m : ℝ) (j : ℕ),
    m ≤ acc → acc ≤ m + j * (k / 4) →
    listMax m ds ≤ loopCall (smoothIntersection k) acc ds ∧
      loopCall (smoothIntersection k) acc ds ≤ listMax m ds + (j + ds.length) * (k / 4) := by
  intro ds
  induction ds with
  | nil => intro acc m j h1 h2; simpa [loopCall, listMax] using ⟨h1, h2⟩
  | cons d ds ih =>
    intro acc m j h1 h2
    obtain ⟨b1, b2⟩ := smoothIntersection_bounds hk acc d
    have hj : (0 : ℝ) ≤ j * (k / 4) := by positivity
    have := ih (smoothIntersection k acc d) (max m d) (j + 1) ((max_le_max_right _ h1).trans b1) (by
      push_cast
      have : max acc d ≤ max m d + j * (k / 4) := by
        apply max_le
        · have := le_max_left m d; linarith
        · have := le_max_right m d; linarith
      linarith)
    simp only [loopCall, listMax, List.foldl_cons, List.length_cons] at this ⊢
    push_cast at this ⊢
    refine ⟨this.1, ?_⟩
    have := this.2
    linarith

/-- **C25 (union).** `n = 1 + ds.length` domains. -/
theorem C25_smooth_union {k : ℝ} (hk : 0 < k) (d0 : ℝ) (ds : List ℝ) :
    listMin d0 ds - ds.length * (k / 4) ≤ unionEval k d0 ds ∧ unionEval k d0 ds ≤ listMin d0 ds := by
  unfold unionEval
  rw [if_neg hk.ne']
  simpa using union_loop hk ds d0 d0 0 (by simp) le_rfl

/-- **C25 (intersection).** -/
theorem C25_smooth_intersection {k : ℝ} (hk : 0 < k) (d0 : ℝ) (ds : List ℝ) :
    listMax d0 ds ≤ interEval k d0 ds ∧ interEval k d0 ds ≤ listMax d0 ds + ds.length * (k / 4) := by
  unfold interEval
  rw [if_neg hk.ne']
  simpa using inter_loop hk ds d0 d0 0 le_rfl (by simp)

/-- **C25 (two domains at distance `≥ k`).** -/
theorem C25_sharp_far {k : ℝ} (hk : 0 < k) {a b : ℝ} (h : k ≤ |a - b|) :
    unionEval k a [b] = unionEval 0 a [b] ∧ interEval k a [b] = interEval 0 a [b] := by
  have := (blend_bounds hk (a - b)).2.2 h
  unfold unionEval interEval
  rw [if_neg hk.ne', if_pos rfl, if_neg hk.ne', if_pos rfl]
  simp only [loopCall, List.foldl_cons, List.foldl_nil, smoothUnion, smoothIntersection]
  constructor <;> linarith

/-- **C25 (order of two domains).** -/
theorem C25_symmetric (k a b : ℝ) :
    unionEval k a [b] = unionEval k b [a] ∧ interEval k a [b] = interEval k b [a] := by
  unfold unionEval interEval
  simp only [loopCall, List.foldl_cons, List.foldl_nil, smoothUnion, smoothIntersection,
    abs_sub_comm a b, min_comm a b, max_comm a b, and_self]

example : unionEval 1 0 [0] = -(1 / 4) ∧ listMin (0 : ℝ) [0] = 0 := by
  norm_num [unionEval, loopCall, smoothUnion, listMin]

/-! ### C26 -/

/-- The full property: for every number of domains the smooth difference contains no point
outside `A` and no point of the interior of any subtracted domain. -/
def SmoothDifferenceCorrect (k : ℝ) : Prop :=
  ∀ (A : ℝ) (Bs : List ℝ), diffEval k A Bs ≤ 0 → A ≤ 0 ∧ ∀ B ∈ Bs, ¬ B < 0

/-- **C26, negation.** With three domains the property fails for every smoothness `0 < k ≤ 2`:
three copies of a unit ball evaluate to `-1` at the centre, and the smooth difference there
is `-1 + k/4 < 0` (the list is reversed, so `A \ (B \ C)` is computed). -/
theorem C26_smooth_difference_false {k : ℝ} (hk : 0 < k) (hk2 : k ≤ 2) :
    diffEval k (-1) [-1, -1] < 0 ∧ ¬ SmoothDifferenceCorrect k := by
  have h : diffEval k (-1) [-1, -1] = -1 + k / 4 := by
    unfold diffEval
    rw [if_neg hk.ne']
    simp only [List.reverse_cons, List.reverse_nil, List.nil_append, List.cons_append, loopCall,
      List.foldl_cons, List.foldl_nil, smoothDifference]
    have e1 : max (k - |-(-1) - (-1 : ℝ)|) 0 = 0 := by
      rw [max_eq_right]; norm_num; linarith
    have e2 : max (-(-1 : ℝ)) (-1) = 1 := by norm_num
    rw [e1, e2]
    norm_num
    rw [max_eq_left hk.le]
    field_simp
  refine ⟨by rw [h]; linarith, ?_⟩
  intro hc
  have := (hc (-1) [-1, -1] (by rw [h]; linarith)).2 (-1) (by simp)
  norm_num at this

/-- **C26 (partial).** For any number of domains no point outside `A` is kept, and for two
domains no interior point of `B` is kept. Missing: three or more domains, where the code is
wrong (`C26_smooth_difference_false`). -/
theorem C26_smooth_difference_partial {k : ℝ} (hk : 0 < k) (A : ℝ) :
    (∀ Bs : List ℝ, A ≤ diffEval k A Bs) ∧
    (∀ B : ℝ, diffEval k A [B] ≤ 0 → A ≤ 0 ∧ ¬ B < 0) := by
  have hge : ∀ a b : ℝ, -a ≤ smoothDifference k a b ∧ b ≤ smoothDifference k a b := by
    intro a b
    obtain ⟨h1, -, -⟩ := blend_bounds hk (-a - b)
    unfold smoothDifference
    simp only
    have := le_max_left (-a) b
    have := le_max_right (-a) b
    constructor <;> linarith
  constructor
  · intro Bs
    unfold diffEval
    rw [if_neg hk.ne', List.reverse_cons]
    cases hB : Bs.reverse with
    | nil => simp [loopCall]
    | cons e es =>
      simp only [List.cons_append, loopCall, List.foldl_append, List.foldl_cons, List.foldl_nil]
      exact (hge _ _).2
  · intro B h
    unfold diffEval at h
    rw [if_neg hk.ne'] at h
    simp only [List.reverse_cons, List.reverse_nil, List.nil_append, List.cons_append, loopCall,
      List.foldl_cons, List.foldl_nil] at h
    obtain ⟨h1, h2⟩ := hge B A
    exact ⟨by linarith, by intro hB; linarith⟩

example : diffEval 1 (-2) [3] ≤ 0 := by norm_num [diffEval, loopCall, smoothDifference]

/-! ### C30 -/

theorem npMod_add_period {x m : ℝ} (hm : m ≠ 0) (n : ℤ) : npMod (x + n * m) m = npMod x m := by
  unfold npMod
  have : (x + n * m) / m = x / m + n := by field_simp
  rw [this, Int.floor_add_intCast]
  push_cast; ring

/-- **C30.** `Repeat(bbox, domain, period).eval(x) ≤ 0` implies that `x` lies in `bbox`; and
for two points of the box that differ by whole periods along the axes, membership agrees. -/
theorem C30_repeat (x1 x2 y1 y2 z1 z2 : ℝ) (dom : Pt 3 → ℝ) (period : Pt 3)
    (hp : ∀ i, period i ≠ 0) :
    (∀ x, repeatEval x1 x2 y1 y2 z1 z2 dom period x ≤ 0 → InBox ![x1, y1, z1] ![x2, y2, z2] x) ∧
    (∀ x y : Pt 3, InBox ![x1, y1, z1] ![x2, y2, z2] x → InBox ![x1, y1, z1] ![x2, y2, z2] y →
      (∀ i, ∃ n : ℤ, y i = x i + n * period i) →
      (repeatEval x1 x2 y1 y2 z1 z2 dom period x ≤ 0 ↔
        repeatEval x1 x2 y1 y2 z1 z2 dom period y ≤ 0)) := by
  constructor
  · intro x h
    unfold repeatEval at h
    exact ((C20_block x1 x2 y1 y2 z1 z2).closed x).1 ((max_le_iff.1 h).2)
  · intro x y hx hy hxy
    unfold repeatEval
    have bx := ((C20_block x1 x2 y1 y2 z1 z2).closed x).2 hx
    have by' := ((C20_block x1 x2 y1 y2 z1 z2).closed y).2 hy
    have hq : (fun i => npMod (y i + 0.5 * period i) (period i) - 0.5 * period i) =
        (fun i => npMod (x i + 0.5 * period i) (period i) - 0.5 * period i) := by
      ext i
      obtain ⟨n, hn⟩ := hxy i
      rw [hn, show x i + n * period i + 0.5 * period i = (x i + 0.5 * period i) + n * period i by ring,
        npMod_add_period (hp i)]
    simp only [max_le_iff, hq, bx, by']

/-- **C30 (content).** Inside the central cell the repeated shape is the original one. -/
theorem C30_central_cell (x1 x2 y1 y2 z1 z2 : ℝ) (dom : Pt 3 → ℝ) (period x : Pt 3)
    (hp : ∀ i, 0 < period i) (hb : InBox ![x1, y1, z1] ![x2, y2, z2] x)
    (hx : ∀ i, -(period i / 2) ≤ x i ∧ x i < period i / 2) :
    repeatEval x1 x2 y1 y2 z1 z2 dom period x ≤ 0 ↔ dom x ≤ 0 := by
  unfold repeatEval
  have bx := ((C20_block x1 x2 y1 y2 z1 z2).closed x).2 hb
  have hq : (fun i => npMod (x i + 0.5 * period i) (period i) - 0.5 * period i) = x := by
    ext i
    have h0 : ⌊(x i + 0.5 * period i) / period i⌋ = 0 := by
      rw [Int.floor_eq_zero_iff]
      constructor
      · apply div_nonneg _ (hp i).le; linarith [(hx i).1]
      · rw [div_lt_one (hp i)]; linarith [(hx i).2]
    unfold npMod
    rw [h0]; simp
  simp only [max_le_iff, hq, bx, and_true]

example : InBox (![-5, -5, -5] : Pt 3) ![5, 5, 5] ![1, 0, 0] ∧
    InBox (![-5, -5, -5] : Pt 3) ![5, 5, 5] ![3, 0, 0] := by
  constructor <;> intro i <;> fin_cases i <;> norm_num

end SM.Sdf
