import Verif.Props.Simplex
import Verif.Lemmas.Euclid
import Verif.Lemmas.FixMesh
import Mathlib.Tactic.Linarith

/-! Non-vacuity: see the unit simplices in `Verif.Props.Simplex`. -/

/-!
# C43: triangle quality, C73: radius-edge ratios
-/

namespace SM.Simplex

open FixMesh Np

section qual
variable {d : ℕ}

/-- Side length (specification). -/
noncomputable def side (p q : Fin d → ℝ) : ℝ := Sdf.eucl p q

theorem length_eq (p q : Fin d → ℝ) : (length fun i => q i - p i) = side p q := by
  unfold length side Sdf.eucl; congr 1; exact Finset.sum_congr rfl fun i _ => by ring

/-- The quality formula in closed form. -/
theorem triQual_eq {p0 p1 p2 : Fin d → ℝ} {a b c : ℝ} (ha : side p0 p1 = a) (hb : side p0 p2 = b)
    (hc : side p1 p2 = c) (h1 : 0 < b + c - a) (h2 : 0 < c + a - b) (h3 : 0 < a + b - c) :
    triQual p0 p1 p2 = (b + c - a) * (c + a - b) * (a + b - c) / (a * b * c) := by
  have pa : 0 < a := by linarith
  have pb : 0 < b := by linarith
  have pc : 0 < c := by linarith
  unfold triQual
  simp only [length_eq, ha, hb, hc]
  have hs : 0 < a + b + c := by linarith
  set x := (b + c - a) * (c + a - b) * (a + b - c) with hx
  have px : 0 < x := by positivity
  have e : (a + b + c) * (b + c - a) * (c + a - b) * (a + b - c) = (a + b + c) * x := by rw [hx]; ring
  rw [e, Real.sqrt_div px.le, Real.sqrt_mul hs.le]
  have hq : √(a + b + c) ≠ 0 := by positivity
  have hx2 : √x * √x = x := Real.mul_self_sqrt px.le
  field_simp
  rw [sq, hx2]

/-- Strict triangle inequalities hold when the area is not zero. -/
theorem strict_of_area {p0 p1 p2 : Fin 2 → ℝ} (h : vol2 p0 p1 p2 ≠ 0) :
    0 < side p0 p2 + side p1 p2 - side p0 p1 ∧ 0 < side p1 p2 + side p0 p1 - side p0 p2 ∧
    0 < side p0 p1 + side p0 p2 - side p1 p2 := by
  have t1 : side p0 p1 ≤ side p0 p2 + side p1 p2 := by
    have := Sdf.eucl_triangle p0 p2 p1; rw [Sdf.eucl_comm p2 p1] at this; exact this
  have t2 : side p0 p2 ≤ side p0 p1 + side p1 p2 := Sdf.eucl_triangle p0 p1 p2
  have t3 : side p1 p2 ≤ side p0 p1 + side p0 p2 := by
    have := Sdf.eucl_triangle p1 p0 p2; rw [Sdf.eucl_comm p1 p0] at this; exact this
  have sq : ∀ p q : Fin 2 → ℝ, side p q ^ 2 = (p 0 - q 0) ^ 2 + (p 1 - q 1) ^ 2 := by
    intro p q
    unfold side Sdf.eucl
    rw [Real.sq_sqrt (Finset.sum_nonneg fun i _ => sq_nonneg _)]
    simp [Fin.sum_univ_succ]
  set a := side p0 p1
  set b := side p0 p2
  set c := side p1 p2
  have hh : (a + b + c) * (b + c - a) * (c + a - b) * (a + b - c) = 16 * vol2 p0 p1 p2 ^ 2 := by
    have : (a + b + c) * (b + c - a) * (c + a - b) * (a + b - c) =
      4 * (a ^ 2 * b ^ 2) - (a ^ 2 + b ^ 2 - c ^ 2) ^ 2 := by ring
    rw [this, sq, sq, sq]; unfold vol2; ring
  have hne : (a + b + c) * (b + c - a) * (c + a - b) * (a + b - c) ≠ 0 := by
    rw [hh]; positivity
  refine ⟨lt_of_le_of_ne (by linarith) ?_, lt_of_le_of_ne (by linarith) ?_,
    lt_of_le_of_ne (by linarith) ?_⟩ <;> intro h0 <;> apply hne <;> rw [← h0] <;> ring

theorem amgm {a b c : ℝ} (h1 : 0 < b + c - a) (h2 : 0 < c + a - b) (h3 : 0 < a + b - c) :
    (b + c - a) * (c + a - b) * (a + b - c) ≤ a * b * c ∧
    ((b + c - a) * (c + a - b) * (a + b - c) = a * b * c ↔ a = b ∧ b = c) := by
  have key : a * b * c - (b + c - a) * (c + a - b) * (a + b - c) =
      ((b + c - a) * (b - c) ^ 2 + (c + a - b) * (c - a) ^ 2 + (a + b - c) * (a - b) ^ 2) / 2 := by ring
  have n1 : 0 ≤ (b + c - a) * (b - c) ^ 2 := by positivity
  have n2 : 0 ≤ (c + a - b) * (c - a) ^ 2 := by positivity
  have n3 : 0 ≤ (a + b - c) * (a - b) ^ 2 := by positivity
  refine ⟨by linarith, ?_, ?_⟩
  · intro h
    have z1 : (b + c - a) * (b - c) ^ 2 = 0 := by linarith
    have z3 : (a + b - c) * (a - b) ^ 2 = 0 := by linarith
    rcases mul_eq_zero.1 z1 with h | h
    · linarith
    rcases mul_eq_zero.1 z3 with h' | h'
    · linarith
    have := pow_eq_zero_iff (two_ne_zero) |>.1 h
    have := pow_eq_zero_iff (two_ne_zero) |>.1 h'
    exact ⟨by linarith, by linarith⟩
  · rintro ⟨rfl, rfl⟩; ring

/-- **C43.** The quality of a non-degenerate triangle is in (0, 1]. -/
theorem C43_range {p0 p1 p2 : Fin 2 → ℝ} (h : AffineIndependent ℝ ![p0, p1, p2]) :
    0 < triQual p0 p1 p2 ∧ triQual p0 p1 p2 ≤ 1 := by
  have hv : vol2 p0 p1 p2 ≠ 0 := fun h0 => (C44_degenerate2 _ _ _).1 h0 h
  obtain ⟨h1, h2, h3⟩ := strict_of_area hv
  rw [triQual_eq rfl rfl rfl h1 h2 h3]
  have pa : 0 < side p0 p1 := by linarith
  have pb : 0 < side p0 p2 := by linarith
  have pc : 0 < side p1 p2 := by linarith
  refine ⟨by positivity, ?_⟩
  rw [div_le_one (by positivity)]
  exact (amgm h1 h2 h3).1

/-- Quality one exactly for equilateral triangles. -/
theorem C43_equilateral {p0 p1 p2 : Fin 2 → ℝ} (h : AffineIndependent ℝ ![p0, p1, p2]) :
    triQual p0 p1 p2 = 1 ↔ dist (WithLp.toLp 2 p0 : EuclideanSpace ℝ (Fin 2)) (WithLp.toLp 2 p1) =
        dist (WithLp.toLp 2 p1 : EuclideanSpace ℝ (Fin 2)) (WithLp.toLp 2 p2) ∧
      dist (WithLp.toLp 2 p1 : EuclideanSpace ℝ (Fin 2)) (WithLp.toLp 2 p2) =
        dist (WithLp.toLp 2 p2 : EuclideanSpace ℝ (Fin 2)) (WithLp.toLp 2 p0) := by
  have hv : vol2 p0 p1 p2 ≠ 0 := fun h0 => (C44_degenerate2 _ _ _).1 h0 h
  obtain ⟨h1, h2, h3⟩ := strict_of_area hv
  rw [triQual_eq rfl rfl rfl h1 h2 h3]
  have pa : 0 < side p0 p1 := by linarith
  have pb : 0 < side p0 p2 := by linarith
  have pc : 0 < side p1 p2 := by linarith
  rw [div_eq_one_iff_eq (by positivity), (amgm h1 h2 h3).2, dist_comm (WithLp.toLp 2 p2),
    ← Sdf.eucl_eq, ← Sdf.eucl_eq, ← Sdf.eucl_eq]
  unfold side
  constructor <;> rintro ⟨e1, e2⟩ <;> exact ⟨by linarith, by linarith⟩

/-- Relabelling the three vertices does not change the quality (any three points, any dimension). -/
theorem C43_perm (p : Fin 3 → Fin d → ℝ) (σ : Equiv.Perm (Fin 3)) :
    triQual (p (σ 0)) (p (σ 1)) (p (σ 2)) = triQual (p 0) (p 1) (p 2) := by
  have s1 : ∀ q0 q1 q2 : Fin d → ℝ, triQual q1 q0 q2 = triQual q0 q1 q2 := by
    intro q0 q1 q2
    unfold triQual
    simp only [length_eq]
    have e : side q1 q0 = side q0 q1 := Sdf.eucl_comm _ _
    rw [e]
    set a := side q0 q1; set b := side q0 q2; set c := side q1 q2
    have e1 : (c + b - a) * (b + a - c) * (a + c - b) / (a + c + b) =
      (b + c - a) * (c + a - b) * (a + b - c) / (a + b + c) := by
        rw [show a + c + b = a + b + c by ring]; ring
    have e2 : (a + c + b) * (c + b - a) * (b + a - c) * (a + c - b) =
      (a + b + c) * (b + c - a) * (c + a - b) * (a + b - c) := by ring
    have e3 : a * c * b = a * b * c := by ring
    rw [e1, e2, e3]
  have s2 : ∀ q0 q1 q2 : Fin d → ℝ, triQual q0 q2 q1 = triQual q0 q1 q2 := by
    intro q0 q1 q2
    unfold triQual
    simp only [length_eq]
    have e : side q2 q1 = side q1 q2 := Sdf.eucl_comm _ _
    rw [e]
    set a := side q0 q1; set b := side q0 q2; set c := side q1 q2
    have e1 : (a + c - b) * (c + b - a) * (b + a - c) / (b + a + c) =
      (b + c - a) * (c + a - b) * (a + b - c) / (a + b + c) := by
        rw [show b + a + c = a + b + c by ring]; ring
    have e2 : (b + a + c) * (a + c - b) * (c + b - a) * (b + a - c) =
      (a + b + c) * (b + c - a) * (c + a - b) * (a + b - c) := by ring
    have e3 : b * a * c = a * b * c := by ring
    rw [e1, e2, e3]
  have hσ : ∀ σ : Equiv.Perm (Fin 3), (σ 0 = 0 ∧ σ 1 = 1 ∧ σ 2 = 2) ∨ (σ 0 = 0 ∧ σ 1 = 2 ∧ σ 2 = 1) ∨
      (σ 0 = 1 ∧ σ 1 = 0 ∧ σ 2 = 2) ∨ (σ 0 = 1 ∧ σ 1 = 2 ∧ σ 2 = 0) ∨
      (σ 0 = 2 ∧ σ 1 = 0 ∧ σ 2 = 1) ∨ (σ 0 = 2 ∧ σ 1 = 1 ∧ σ 2 = 0) := by decide
  rcases hσ σ with ⟨e0, e1, e2⟩ | ⟨e0, e1, e2⟩ | ⟨e0, e1, e2⟩ | ⟨e0, e1, e2⟩ | ⟨e0, e1, e2⟩ | ⟨e0, e1, e2⟩ <;>
    rw [e0, e1, e2]
  · rw [s2]
  · rw [s1]
  · rw [s2, s1]
  · rw [s1, s2]
  · rw [s2, s1, s2]

/-- Translation does not change the quality. -/
theorem C43_translate (p0 p1 p2 v : Fin d → ℝ) :
    triQual (p0 + v) (p1 + v) (p2 + v) = triQual p0 p1 p2 := by
  unfold triQual; simp only [Pi.add_apply, add_sub_add_right_eq_sub]

/-- Scaling by any non-zero factor does not change the quality of a non-degenerate triangle. -/
theorem C43_scale {p0 p1 p2 : Fin 2 → ℝ} (h : AffineIndependent ℝ ![p0, p1, p2]) {s : ℝ} (hs : s ≠ 0) :
    triQual (s • p0) (s • p1) (s • p2) = triQual p0 p1 p2 := by
  have hv : vol2 p0 p1 p2 ≠ 0 := fun h0 => (C44_degenerate2 _ _ _).1 h0 h
  obtain ⟨h1, h2, h3⟩ := strict_of_area hv
  have hsc : ∀ p q : Fin 2 → ℝ, side (s • p) (s • q) = |s| * side p q := by
    intro p q
    unfold side Sdf.eucl
    rw [← Real.sqrt_sq_eq_abs, ← Real.sqrt_mul (sq_nonneg s), Finset.mul_sum]
    congr 1
    exact Finset.sum_congr rfl fun i _ => by simp only [Pi.smul_apply, smul_eq_mul]; ring
  have ps : 0 < |s| := abs_pos.2 hs
  rw [triQual_eq rfl rfl rfl h1 h2 h3, triQual_eq (hsc _ _) (hsc _ _) (hsc _ _)]
  · have pa : 0 < side p0 p1 := by linarith
    have pb : 0 < side p0 p2 := by linarith
    have pc : 0 < side p1 p2 := by linarith
    field_simp
  · rw [← mul_add, ← mul_sub]; positivity
  · rw [← mul_add, ← mul_sub]; positivity
  · rw [← mul_add, ← mul_sub]; positivity

/-- `simp_qual` on a triangle mesh evaluates this measure for every row. -/
theorem C43_mesh {p : List (Fin 2 → ℝ)} {t : List (List ℕ)} {q : List ℝ} (h : simpQual p t = .ok q) :
    q.length = t.length ∧ ∀ (k a b c : ℕ), t[k]? = some [a, b, c] → ∃ pa pb pc, p[a]? = some pa ∧
      p[b]? = some pb ∧ p[c]? = some pc ∧ q[k]? = some (triQual pa pb pc) := by
  have hf := mapM_forall₂.1 h
  refine ⟨hf.length_eq.symm, ?_⟩
  intro k a b c hk
  obtain ⟨hlt, hk'⟩ := List.getElem?_eq_some_iff.1 hk
  have hq : k < q.length := by rw [← hf.length_eq]; exact hlt
  have hr := List.Forall₂.get hf hlt hq
  simp only [List.get_eq_getElem, hk'] at hr
  simp only [List.length_cons, List.length_nil, item, bind, Except.bind, pure, Except.pure] at hr
  simp at hr
  cases hb : p[b]? with
  | none => simp [hb] at hr
  | some pb =>
    cases ha : p[a]? with
    | none => simp [hb, ha] at hr
    | some pa =>
      cases hc : p[c]? with
      | none => simp [hb, ha, hc] at hr
      | some pc =>
        simp [hb, ha, hc] at hr
        exact ⟨pa, pb, pc, rfl, rfl, rfl, by rw [List.getElem?_eq_getElem hq, hr]⟩

/-- Finding: in three dimensions the "quality" of a tetrahedron does not depend on its fourth
vertex: a flat tetrahedron with an equilateral base has the same value as a regular one. -/
theorem C43_fourth_vertex_ignored {p : List (Fin 3 → ℝ)} {a b c e e' : ℕ} {q : List ℝ} :
    simpQual p [[a, b, c, e]] = .ok q ↔ simpQual p [[a, b, c, e']] = .ok q := by
  simp [simpQual, item]

end qual

/-! ### C73 -/

section re

theorem foldl_min_spec (l : List ℝ) (x : ℝ) :
    (l.foldl min x ≤ x ∧ ∀ y ∈ l, l.foldl min x ≤ y) ∧ (l.foldl min x = x ∨ l.foldl min x ∈ l) := by
  induction l generalizing x with
  | nil => simp
  | cons y l ih =>
    obtain ⟨⟨h1, h2⟩, h3⟩ := ih (min x y)
    simp only [List.foldl_cons]
    refine ⟨⟨h1.trans (min_le_left _ _), ?_⟩, ?_⟩
    · intro z hz
      rcases List.mem_cons.1 hz with rfl | hz
      · exact h1.trans (min_le_right _ _)
      · exact h2 z hz
    · rcases h3 with h3 | h3
      · rcases min_choice x y with h | h <;> rw [h] at h3
        · left; rw [h]; exact h3
        · right; rw [h, h3]; exact List.mem_cons_self
      · right; exact List.mem_cons_of_mem _ h3

theorem take_flatten {α : Type} {p : List α} {t : List (List ℕ)} {rows : List (List α)}
    (h : t.mapM (Np.take p) = .ok rows) : Np.take p t.flatten = .ok rows.flatten := by
  induction t generalizing rows with
  | nil =>
    simp [pure, Except.pure] at h; subst h; rfl
  | cons r t ih =>
    rw [List.mapM_cons] at h
    simp only [bind, Except.bind, pure, Except.pure] at h
    cases hr : Np.take p r with
    | error e => simp [hr] at h
    | ok a =>
      cases ht : t.mapM (Np.take p) with
      | error e => simp [hr, ht] at h
      | ok b =>
        simp [hr, ht] at h
        subst h
        have := ih ht
        simp only [Np.take, List.flatten_cons, List.mapM_append, bind, Except.bind, pure, Except.pure] at *
        rw [hr, this]

theorem chunk {α : Type} {rows : List (List α)} {w : ℕ} (h : ∀ r ∈ rows, r.length = w) {i : ℕ} {r : List α}
    (hi : rows[i]? = some r) : (rows.flatten.drop (i * w)).take w = r := by
  induction rows generalizing i with
  | nil => simp at hi
  | cons r0 rows ih =>
    have h0 : r0.length = w := h r0 List.mem_cons_self
    cases i with
    | zero =>
      simp at hi; subst hi
      simp [h0]
    | succ i =>
      simp at hi
      rw [List.flatten_cons, Nat.succ_mul, Nat.add_comm, ← List.drop_drop, ← h0, List.drop_left, h0]
      exact ih (fun r hr => h r (List.mem_cons_of_mem _ hr)) hi

theorem flatten_len {α : Type} {rows : List (List α)} {w : ℕ} (h : ∀ r ∈ rows, r.length = w) :
    rows.flatten.length = rows.length * w := by
  induction rows with
  | nil => simp
  | cons r rows ih =>
    rw [List.flatten_cons, List.length_append, h r List.mem_cons_self,
      ih fun r hr => h r (List.mem_cons_of_mem _ hr), List.length_cons]
    ring

/-- The six edge lengths of a tetrahedron (specification). -/
def edgeLengths {n d : ℕ} (q : Fin n → Fin d → ℝ) : Set ℝ := {x | ∃ i j, i ≠ j ∧ x = side (q i) (q j)}

/-- The shortest-edge computation of one row. -/
theorem minL_tet {p : List (Fin 3 → ℝ)} {a b c e : ℕ} {pa pb pc pe : Fin 3 → ℝ} (ha : p[a]? = some pa)
    (hb : p[b]? = some pb) (hc : p[c]? = some pc) (he : p[e]? = some pe) :
    ∃ m, IsLeast (edgeLengths ![pa, pb, pc, pe]) m ∧
    minEdge p [(0, 1), (1, 2), (2, 0), (0, 3), (1, 3), (2, 3)] [a, b, c, e] = .ok m := by
  refine ⟨[side pc pb, side pa pc, side pe pa, side pe pb, side pe pc].foldl min (side pb pa), ?_, ?_⟩
  · obtain ⟨⟨h1, h2⟩, h3⟩ := foldl_min_spec [side pc pb, side pa pc, side pe pa, side pe pb, side pe pc] (side pb pa)
    simp only [List.mem_cons, List.not_mem_nil, or_false, forall_eq_or_imp, forall_eq] at h2 h3
    set m := [side pc pb, side pa pc, side pe pa, side pe pb, side pe pc].foldl min (side pb pa)
    obtain ⟨g1, g2, g3, g4, g5⟩ := h2
    constructor
    · rcases h3 with h | h | h | h | h | h
      · exact ⟨1, 0, by decide, h⟩
      · exact ⟨2, 1, by decide, h⟩
      · exact ⟨0, 2, by decide, h⟩
      · exact ⟨3, 0, by decide, h⟩
      · exact ⟨3, 1, by decide, h⟩
      · exact ⟨3, 2, by decide, h⟩
    · rintro x ⟨i, j, hij, rfl⟩
      have cm : ∀ u v : Fin 3 → ℝ, side u v = side v u := fun u v => Sdf.eucl_comm u v
      fin_cases i <;> fin_cases j <;> first | exact absurd rfl hij | skip
      all_goals simp
      all_goals first | assumption | (rw [cm]; assumption)
  · simp [minEdge, item, ha, hb, hc, he, length_eq, bind, Except.bind, pure, Except.pure]

/-- **C73, dimension 3.** One ratio per entity: with an exact circumradius routine (CGAL), entry `k`
is the circumradius of tetrahedron `k` divided by its shortest edge. -/
theorem C73_tets_partial {sqRad : List (Fin 3 → ℝ) → ℝ}
    (hR : ∀ a b c e : Fin 3 → ℝ, AffineIndependent ℝ ![a, b, c, e] →
      ∃ o, ∀ v ∈ [a, b, c, e], side o v ^ 2 = sqRad [a, b, c, e])
    {p : List (Fin 3 → ℝ)} {t : List (List ℕ)} (ht : ∀ r ∈ t, r.length = 4 ∧ ∀ i ∈ r, i < p.length) :
    ∃ out, reRatios sqRad p t 3 = .ok out ∧ out.length = t.length ∧
      ∀ (k a b c e : ℕ) (pa pb pc pe : Fin 3 → ℝ), t[k]? = some [a, b, c, e] → p[a]? = some pa →
        p[b]? = some pb → p[c]? = some pc → p[e]? = some pe → AffineIndependent ℝ ![pa, pb, pc, pe] →
        ∃ o R m, (∀ v ∈ [pa, pb, pc, pe], side o v = R) ∧ IsLeast (edgeLengths ![pa, pb, pc, pe]) m ∧
          out[k]? = some (R / m) := by
  obtain ⟨rows, hrows⟩ : ∃ rows, t.mapM (Np.take p) = .ok rows :=
    mapM_exists fun r hr => take_ok (ht r hr).2
  have hf := mapM_forall₂.1 hrows
  have hlen : rows.length = t.length := hf.length_eq.symm
  have hw : ∀ r ∈ rows, r.length = 4 := by
    intro r hr
    obtain ⟨s, hs, hsr⟩ := forall₂_right hf r hr
    rw [take_length hsr]; exact (ht s hs).1
  have hpt := take_flatten hrows
  have hex : ∀ r ∈ t, ∃ m, minEdge p [(0, 1), (1, 2), (2, 0), (0, 3), (1, 3), (2, 3)] r = .ok m := by
    intro r hr
    obtain ⟨h4, hi⟩ := ht r hr
    obtain ⟨a, b, c, e, rfl⟩ : ∃ a b c e, r = [a, b, c, e] := by
      match r, h4 with
      | [a, b, c, e], _ => exact ⟨a, b, c, e, rfl⟩
    obtain ⟨m, -, hm⟩ := minL_tet (p := p) (List.getElem?_eq_getElem (hi a (by simp)))
      (List.getElem?_eq_getElem (hi b (by simp))) (List.getElem?_eq_getElem (hi c (by simp)))
      (List.getElem?_eq_getElem (hi e (by simp)))
    exact ⟨m, hm⟩
  obtain ⟨ms, hms⟩ := mapM_exists hex
  have hmf := mapM_forall₂.1 hms
  have hmlen : ms.length = t.length := hmf.length_eq.symm
  have hsz : rows.flatten.length * 3 / (4 * 3) = t.length := by
    rw [flatten_len hw, hlen]; omega
  have hr : circumballs (3 + 1) sqRad (rows.flatten.length * 3) rows.flatten = rows.map sqRad := by
    unfold circumballs
    rw [show (3 + 1) * 3 = 4 * 3 from rfl, hsz]
    apply List.ext_getElem
    · simp [hlen]
    · intro i h1 h2
      simp only [List.getElem_map, List.getElem_range]
      congr 1
      exact chunk hw (List.getElem?_eq_getElem (by simpa using h2))
  have hrun : reRatios sqRad p t 3 = .ok (List.zipWith (· / ·) ((rows.map sqRad).map Real.sqrt) ms) := by
    simp only [reRatios, hpt, bind, Except.bind, pure, Except.pure, if_neg (show (3 : ℕ) ≠ 2 by decide), hr, hms]
    unfold npDiv
    rw [if_pos (by simp [hlen, hmlen])]
  refine ⟨_, hrun, by simp [hlen, hmlen], ?_⟩
  intro k a b c e pa pb pc pe hk ha hb hc he hind
  obtain ⟨o, ho⟩ := hR pa pb pc pe hind
  obtain ⟨m, hm1, hm2⟩ := minL_tet (p := p) ha hb hc he
  have hnn : ∀ v, 0 ≤ side o v := fun v => Sdf.eucl_nonneg _ _
  have hrk : rows[k]? = some [pa, pb, pc, pe] := by
    obtain ⟨hlt, hk'⟩ := List.getElem?_eq_some_iff.1 hk
    have hl2 : k < rows.length := by omega
    have hg := List.Forall₂.get hf hlt hl2
    simp only [List.get_eq_getElem, hk'] at hg
    rw [List.getElem?_eq_getElem hl2]
    congr 1
    simpa [Np.take, item, ha, hb, hc, he, bind, Except.bind, pure, Except.pure] using hg.symm
  have hmk : ms[k]? = some m := by
    obtain ⟨hlt, hk'⟩ := List.getElem?_eq_some_iff.1 hk
    have hl2 : k < ms.length := by omega
    have hg := List.Forall₂.get hmf hlt hl2
    simp only [List.get_eq_getElem, hk'] at hg
    rw [hm2] at hg
    rw [List.getElem?_eq_getElem hl2]
    congr 1
    exact (Except.ok.inj hg).symm
  refine ⟨o, √(sqRad [pa, pb, pc, pe]), m, ?_, hm1, ?_⟩
  · intro v hv; rw [← ho v hv, Real.sqrt_sq (hnn v)]
  · rw [List.getElem?_zipWith]; simp [hrk, hmk]

/-- **C73 fails in dimension 2.** `circumballs2` only sees half of the coordinates: with four or more
triangles (all vertex numbers valid) the division cannot be broadcast and `calc_re_ratios` raises. -/
theorem C73_triangles_raise (sqRad : List (Fin 2 → ℝ) → ℝ) {p : List (Fin 2 → ℝ)} {t : List (List ℕ)}
    (ht : ∀ r ∈ t, r.length = 3 ∧ ∀ i ∈ r, i < p.length) (h4 : 4 ≤ t.length) :
    ∃ msg, reRatios sqRad p t 2 = .error msg := by
  cases h : reRatios sqRad p t 2 with
  | error e => exact ⟨e, rfl⟩
  | ok out =>
    exfalso
    obtain ⟨rows, hrows⟩ : ∃ rows, t.mapM (Np.take p) = .ok rows :=
      mapM_exists fun r hr => take_ok (ht r hr).2
    have hf := mapM_forall₂.1 hrows
    have hlen : rows.length = t.length := hf.length_eq.symm
    have hw : ∀ r ∈ rows, r.length = 3 := by
      intro r hr
      obtain ⟨s, hs, hsr⟩ := forall₂_right hf r hr
      rw [take_length hsr]; exact (ht s hs).1
    have hpt := take_flatten hrows
    simp only [reRatios, hpt, bind, Except.bind, pure, Except.pure] at h
    split at h
    · simp at h
    · rename_i ms hms
      have hml : ms.length = t.length := (mapM_forall₂.1 hms).length_eq.symm
      have hcl : (circumballs (2 + 1) sqRad rows.flatten.length rows.flatten).length = t.length / 2 := by
        unfold circumballs
        rw [List.length_map, List.length_range, flatten_len hw, hlen]; omega
      simp only [if_true] at h
      have hl1 : ((circumballs (2 + 1) sqRad rows.flatten.length rows.flatten).map Real.sqrt).length =
        t.length / 2 := by rw [List.length_map, hcl]
      revert h hl1
      generalize (circumballs (2 + 1) sqRad rows.flatten.length rows.flatten).map Real.sqrt = r
      intro h hl1
      unfold npDiv at h
      rw [if_neg (by omega)] at h
      split at h
      · simp at hl1; omega
      · simp at hml; omega
      · simp at h

/-- ... and for a single triangle it returns no ratio at all. -/
theorem C73_one_triangle_empty (sqRad : List (Fin 2 → ℝ) → ℝ) {p : List (Fin 2 → ℝ)} {a b c : ℕ}
    (ha : a < p.length) (hb : b < p.length) (hc : c < p.length) :
    reRatios sqRad p [[a, b, c]] 2 = .ok [] := by
  simp [reRatios, minEdge, Np.take, item, ha, hb, hc, bind, Except.bind, pure, Except.pure, circumballs, npDiv]

/-- ... and for two triangles both ratios are computed from the first triangle's circumradius. -/
theorem C73_two_triangles_share_radius (sqRad : List (Fin 2 → ℝ) → ℝ) {p : List (Fin 2 → ℝ)}
    {a b c a' b' c' : ℕ} {pa pb pc : Fin 2 → ℝ} (ha : p[a]? = some pa) (hb : p[b]? = some pb)
    (hc : p[c]? = some pc) (ha' : a' < p.length) (hb' : b' < p.length) (hc' : c' < p.length) :
    ∃ m m', reRatios sqRad p [[a, b, c], [a', b', c']] 2 =
      .ok [√(sqRad [pa, pb, pc]) / m, √(sqRad [pa, pb, pc]) / m'] := by
  simp [reRatios, minEdge, Np.take, item, ha, hb, hc, ha', hb', hc', bind, Except.bind, pure, Except.pure, circumballs, npDiv]

/-- An invalid dimension raises. -/
theorem C73_dim_raises {d : ℕ} (sqRad : List (Fin d → ℝ) → ℝ) (p : List (Fin d → ℝ)) (t : List (List ℕ))
    {dim : ℕ} (h2 : dim ≠ 2) (h3 : dim ≠ 3) : reRatios sqRad p t dim = .error "ValueError: Dimension invalid" := by
  unfold reRatios
  split
  · exact absurd rfl h2
  · exact absurd rfl h3
  · rfl

end re

end SM.Simplex
