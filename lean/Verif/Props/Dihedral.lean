import Verif.Props.Simplex
import Verif.Lemmas.FixMesh
import Mathlib.Geometry.Euclidean.Angle.Unoriented.Basic
import Mathlib.Analysis.InnerProductSpace.PiL2
import Mathlib.Tactic.Linarith

/-!
# C48: dihedral angles
-/

namespace SM.Simplex

open FixMesh Np

/-- Coordinates as a point of Euclidean 3-space. -/
noncomputable def e3 (p : Fin 3 → ℝ) : EuclideanSpace ℝ (Fin 3) := WithLp.toLp 2 p

/-- Component of `v` orthogonal to `u` (specification). -/
noncomputable def rej (u v : EuclideanSpace ℝ (Fin 3)) : EuclideanSpace ℝ (Fin 3) :=
  v - (inner ℝ u v / inner ℝ u u) • u

/-- The dihedral angle at the edge `p0 p1` between the half-planes through `p2` and `p3`: the angle
between the components of `p2 - p0` and `p3 - p0` orthogonal to the edge (specification). -/
noncomputable def dihedral (p0 p1 p2 p3 : Fin 3 → ℝ) : ℝ :=
  InnerProductGeometry.angle (rej (e3 p1 - e3 p0) (e3 p2 - e3 p0)) (rej (e3 p1 - e3 p0) (e3 p3 - e3 p0))

theorem inner_e3 (u v : Fin 3 → ℝ) : inner ℝ (e3 u) (e3 v) = dot u v := by
  simp [e3, dot, PiLp.inner_apply, Fin.sum_univ_succ]; ring

theorem norm_e3 (u : Fin 3 → ℝ) : ‖e3 u‖ = l2 u := by
  rw [norm_eq_sqrt_real_inner, inner_e3]; rfl

theorem e3_sub (u v : Fin 3 → ℝ) : e3 u - e3 v = e3 fun j => u j - v j := rfl

theorem rej_e3 (u v : Fin 3 → ℝ) : rej (e3 u) (e3 v) = e3 fun j => v j - dot u v / dot u u * u j := by
  rw [rej, inner_e3, inner_e3]; rfl

theorem l2_sq (u : Fin 3 → ℝ) : l2 u * l2 u = dot u u := by
  unfold l2 dot
  exact Real.mul_self_sqrt (add_nonneg (add_nonneg (mul_self_nonneg _) (mul_self_nonneg _)) (mul_self_nonneg _))

theorem l2_nonneg (u : Fin 3 → ℝ) : 0 ≤ l2 u := Real.sqrt_nonneg _

theorem l2_pos {u : Fin 3 → ℝ} (h : u ≠ 0) : 0 < l2 u := by
  have : e3 u ≠ 0 := by
    intro h0; apply h; exact (WithLp.toLp_injective 2) h0
  rw [← norm_e3]; exact norm_pos_iff.2 this

/-- The formula on edge vectors. -/
theorem cos_vec {v1 v2 v3 : Fin 3 → ℝ} (n1 : 0 < l2 v1) (n2 : 0 < l2 v2) (n3 : 0 < l2 v3) :
    (dot (fun j => v2 j / l2 v2) (fun j => v3 j / l2 v3) - dot (fun j => v1 j / l2 v1) (fun j => v2 j / l2 v2) *
      dot (fun j => v1 j / l2 v1) (fun j => v3 j / l2 v3)) /
      (l2 (cross (fun j => v1 j / l2 v1) (fun j => v2 j / l2 v2)) *
        l2 (cross (fun j => v1 j / l2 v1) (fun j => v3 j / l2 v3))) =
    dot (fun j => v2 j - dot v1 v2 / dot v1 v1 * v1 j) (fun j => v3 j - dot v1 v3 / dot v1 v1 * v1 j) /
      (l2 (fun j => v2 j - dot v1 v2 / dot v1 v1 * v1 j) * l2 (fun j => v3 j - dot v1 v3 / dot v1 v1 * v1 j)) := by
  have s1 := l2_sq v1
  have hd1 : dot v1 v1 ≠ 0 := by rw [← s1]; positivity
  -- the norm of the orthogonal component
  have key : ∀ v : Fin 3 → ℝ, 0 < l2 v → (l2 fun j => v j - dot v1 v / dot v1 v1 * v1 j) =
      l2 v * l2 (cross (fun j => v1 j / l2 v1) fun j => v j / l2 v) := by
    intro v hv
    have hs := l2_sq v
    apply (mul_self_inj (l2_nonneg _) (mul_nonneg (l2_nonneg _) (l2_nonneg _))).1
    rw [mul_mul_mul_comm, l2_sq, l2_sq, l2_sq]
    have c : dot (cross (fun j => v1 j / l2 v1) fun j => v j / l2 v) (cross (fun j => v1 j / l2 v1) fun j => v j / l2 v) =
        (dot v1 v1 * dot v v - dot v1 v ^ 2) / (dot v1 v1 * dot v v) := by
      rw [← s1, ← hs]
      field_simp
      rw [show (l2 v1) ^ 2 = dot v1 v1 by rw [sq, s1], show (l2 v) ^ 2 = dot v v by rw [sq, hs]]
      unfold dot cross
      simp
      field_simp
      rw [show (l2 v1) ^ 2 = dot v1 v1 by rw [sq, s1], show (l2 v) ^ 2 = dot v v by rw [sq, hs]]
      unfold dot
      ring
    have hdv : dot v v ≠ 0 := by rw [← hs]; positivity
    rw [c]
    have e : dot (fun j => v j - dot v1 v / dot v1 v1 * v1 j) (fun j => v j - dot v1 v / dot v1 v1 * v1 j) =
        dot v v - 2 * (dot v1 v / dot v1 v1) * dot v1 v + (dot v1 v / dot v1 v1) ^ 2 * dot v1 v1 := by
      generalize dot v1 v / dot v1 v1 = k
      unfold dot; ring
    rw [e]
    field_simp
    ring
  rw [key v2 n2, key v3 n3]
  have e : dot (fun j => v2 j - dot v1 v2 / dot v1 v1 * v1 j) (fun j => v3 j - dot v1 v3 / dot v1 v1 * v1 j) =
      dot v2 v3 - dot v1 v2 * dot v1 v3 / dot v1 v1 := by
    have : dot (fun j => v2 j - dot v1 v2 / dot v1 v1 * v1 j) (fun j => v3 j - dot v1 v3 / dot v1 v1 * v1 j) =
        dot v2 v3 - (dot v1 v3 / dot v1 v1) * dot v1 v2 - (dot v1 v2 / dot v1 v1) * dot v1 v3 +
          (dot v1 v2 / dot v1 v1) * (dot v1 v3 / dot v1 v1) * dot v1 v1 := by
      generalize dot v1 v2 / dot v1 v1 = k
      generalize dot v1 v3 / dot v1 v1 = k'
      unfold dot; ring
    rw [this]; field_simp; ring
  rw [e]
  have du : ∀ u v : Fin 3 → ℝ, dot (fun j => u j / l2 u) (fun j => v j / l2 v) = dot u v / (l2 u * l2 v) := by
    intro u v; unfold dot; ring
  rw [du, du, du]
  rw [show dot v2 v3 / (l2 v2 * l2 v3) - dot v1 v2 / (l2 v1 * l2 v2) * (dot v1 v3 / (l2 v1 * l2 v3)) =
    (dot v2 v3 - dot v1 v2 * dot v1 v3 / dot v1 v1) / (l2 v2 * l2 v3) by rw [← s1]; field_simp]
  rw [div_div]
  congr 1
  ring

/-- The cosine computed by the code is the cosine of the specified angle's definition. -/
theorem cos_formula {p0 p1 p2 p3 : Fin 3 → ℝ} (h1 : p1 ≠ p0) (h2 : p2 ≠ p0) (h3 : p3 ≠ p0) :
    cosDihedral p0 p1 p2 p3 = inner ℝ (rej (e3 p1 - e3 p0) (e3 p2 - e3 p0)) (rej (e3 p1 - e3 p0) (e3 p3 - e3 p0)) /
      (‖rej (e3 p1 - e3 p0) (e3 p2 - e3 p0)‖ * ‖rej (e3 p1 - e3 p0) (e3 p3 - e3 p0)‖) := by
  rw [e3_sub, e3_sub, e3_sub, rej_e3, rej_e3, inner_e3, norm_e3, norm_e3]
  have hn : ∀ {p : Fin 3 → ℝ}, p ≠ p0 → 0 < l2 fun j => p j - p0 j := by
    intro p hp; apply l2_pos; intro h0; apply hp; ext j; have := congrFun h0 j; simp at this; linarith
  exact cos_vec (hn h1) (hn h2) (hn h3)

theorem ne_of_ind {p0 p1 p2 p3 : Fin 3 → ℝ} (h : AffineIndependent ℝ ![p0, p1, p2, p3]) :
    p1 ≠ p0 ∧ p2 ≠ p0 ∧ p3 ≠ p0 := by
  have hi := h.injective
  refine ⟨fun e => ?_, fun e => ?_, fun e => ?_⟩
  · have := @hi 1 0 (by simpa using e); simp at this
  · have := @hi 2 0 (by simpa using e); simp at this
  · have := @hi 3 0 (by simpa using e); simp at this

/-- **C48**, one edge: the computed angle is the dihedral angle. -/
theorem C48_angle {p0 p1 p2 p3 : Fin 3 → ℝ} (h : AffineIndependent ℝ ![p0, p1, p2, p3]) :
    Real.arccos (cosDihedral p0 p1 p2 p3) = dihedral p0 p1 p2 p3 := by
  obtain ⟨h1, h2, h3⟩ := ne_of_ind h
  rw [cos_formula h1 h2 h3]; rfl

/-- The argument of `acos` is in [-1, 1] and is the cosine of the angle. -/
theorem C48_cosine {p0 p1 p2 p3 : Fin 3 → ℝ} (h : AffineIndependent ℝ ![p0, p1, p2, p3]) :
    -1 ≤ cosDihedral p0 p1 p2 p3 ∧ cosDihedral p0 p1 p2 p3 ≤ 1 ∧
    cosDihedral p0 p1 p2 p3 = Real.cos (dihedral p0 p1 p2 p3) := by
  obtain ⟨h1, h2, h3⟩ := ne_of_ind h
  have h := cos_formula h1 h2 h3
  have habs := abs_real_inner_div_norm_mul_norm_le_one (rej (e3 p1 - e3 p0) (e3 p2 - e3 p0))
    (rej (e3 p1 - e3 p0) (e3 p3 - e3 p0))
  rw [← h] at habs
  refine ⟨(abs_le.1 habs).1, (abs_le.1 habs).2, ?_⟩
  rw [h, dihedral, InnerProductGeometry.cos_angle]

/-- No division by zero occurs: all five norms the code divides by are positive. -/
theorem C48_defined {p0 p1 p2 p3 : Fin 3 → ℝ} (h : AffineIndependent ℝ ![p0, p1, p2, p3]) :
    let v1 := fun j => p1 j - p0 j
    let v2 := fun j => p2 j - p0 j
    let v3 := fun j => p3 j - p0 j
    0 < l2 v1 ∧ 0 < l2 v2 ∧ 0 < l2 v3 ∧
    0 < l2 (cross (fun j => v1 j / l2 v1) (fun j => v2 j / l2 v2)) ∧
    0 < l2 (cross (fun j => v1 j / l2 v1) (fun j => v3 j / l2 v3)) := by
  intro v1 v2 v3
  obtain ⟨h1, h2, h3⟩ := ne_of_ind h
  have hv : vol3 p0 p1 p2 p3 ≠ 0 := fun h0 => (C44_degenerate3 _ _ _ _).1 h0 h
  have hn : ∀ {p : Fin 3 → ℝ}, p ≠ p0 → 0 < l2 fun j => p j - p0 j := by
    intro p hp; apply l2_pos; intro h0; apply hp; ext j; have := congrFun h0 j; simp at this; linarith
  have hv' : cross v1 v2 0 * v3 0 + cross v1 v2 1 * v3 1 + cross v1 v2 2 * v3 2 ≠ 0 := by
    intro h0; apply hv; show (_ : ℝ) / 6 = 0
    have : cross v1 v2 0 * v3 0 + cross v1 v2 1 * v3 1 + cross v1 v2 2 * v3 2 = 0 := h0
    simp only [v1, v2, v3] at this
    rw [this]; simp
  have hc : ∀ v : Fin 3 → ℝ, 0 < l2 v → cross v1 v ≠ 0 →
      0 < l2 (cross (fun j => v1 j / l2 v1) (fun j => v j / l2 v)) := by
    intro v hv hne
    apply l2_pos
    intro h0
    apply hne
    have n1 : 0 < l2 v1 := hn h1
    have e : ∀ i, cross (fun j => v1 j / l2 v1) (fun j => v j / l2 v) i = cross v1 v i / (l2 v1 * l2 v) := by
      intro i; fin_cases i <;> simp [cross] <;> field_simp
    ext i
    have := congrFun h0 i
    rw [e i] at this
    simp only [Pi.zero_apply, div_eq_zero_iff] at this ⊢
    rcases this with h | h
    · exact h
    · exact absurd h (by positivity)
  refine ⟨hn h1, hn h2, hn h3, hc v2 (hn h2) ?_, hc v3 (hn h3) ?_⟩
  · intro h0; apply hv'; rw [h0]; simp
  · intro h0; apply hv'
    have e0 := congrFun h0 0; have e1 := congrFun h0 1; have e2 := congrFun h0 2
    simp [cross] at e0 e1 e2 ⊢
    linear_combination (-v2 0) * e0 - (v2 1) * e1 - (v2 2) * e2

/-- Each of the six edges of the tetrahedron is treated exactly once, each with the two remaining
vertices. -/
theorem C48_edges : (∀ i j : Fin 4, i < j → (edges.count (i.1, j.1) = 1)) ∧ edges.length = 6 ∧
    ∀ k < 6, let e := edges.getD k (0, 0); let o := edges.getD (5 - k) (0, 0);
      [e.1, e.2, o.1, o.2].Perm [0, 1, 2, 3] := by
  decide

/-- Embedding of the four local vertices, edge first. -/
theorem relabel_ind {q : Fin 4 → Fin 3 → ℝ} (h : AffineIndependent ℝ q) (f : Fin 4 → Fin 4)
    (hf : Function.Injective f) : AffineIndependent ℝ ![q (f 0), q (f 1), q (f 2), q (f 3)] := by
  have := h.comp_embedding ⟨f, hf⟩
  convert this using 1
  ext i
  fin_cases i <;> rfl

/-- **C48**, one cell: the six values are the six dihedral angles, in the order of the edge table
(2,3), (1,3), (1,2), (0,3), (0,2), (0,1). -/
theorem C48_cell {q : Fin 4 → Fin 3 → ℝ} (h : AffineIndependent ℝ q) :
    cellAngles q = [dihedral (q 2) (q 3) (q 0) (q 1), dihedral (q 1) (q 3) (q 0) (q 2),
      dihedral (q 1) (q 2) (q 0) (q 3), dihedral (q 0) (q 3) (q 1) (q 2),
      dihedral (q 0) (q 2) (q 1) (q 3), dihedral (q 0) (q 1) (q 2) (q 3)] := by
  have r : ∀ a b c d : Fin 4, Function.Injective ![a, b, c, d] →
      Real.arccos (cosDihedral (q a) (q b) (q c) (q d)) = dihedral (q a) (q b) (q c) (q d) :=
    fun a b c d hf => C48_angle (relabel_ind h ![a, b, c, d] hf)
  rw [← r 2 3 0 1 (by decide), ← r 1 3 0 2 (by decide), ← r 1 2 0 3 (by decide), ← r 0 3 1 2 (by decide),
    ← r 0 2 1 3 (by decide), ← r 0 1 2 3 (by decide)]
  rfl

/-- **C48**, mesh: entry `6 k + i` is the `i`-th angle of cell `k`. -/
theorem C48_mesh {p : List (Fin 3 → ℝ)} {t : List (List ℕ)} (ht : ∀ r ∈ t, r.length = 4 ∧ ∀ i ∈ r, i < p.length) :
    ∃ out, dihedralAngles p t = .ok out ∧ out.length = 6 * t.length ∧
      ∀ (k a b c e : ℕ) (pa pb pc pe : Fin 3 → ℝ), t[k]? = some [a, b, c, e] → p[a]? = some pa →
        p[b]? = some pb → p[c]? = some pc → p[e]? = some pe → AffineIndependent ℝ ![pa, pb, pc, pe] →
        (out.drop (k * 6)).take 6 = [dihedral pc pe pa pb, dihedral pb pe pa pc, dihedral pb pc pa pe,
          dihedral pa pe pb pc, dihedral pa pc pb pe, dihedral pa pb pc pe] := by
  have hex : ∀ r ∈ t, ∃ l, (do return cellAngles (← corners p r) : Except String (List ℝ)) = .ok l := by
    intro r hr
    obtain ⟨h4, hi⟩ := ht r hr
    match r, h4, hi with
    | [a, b, c, e], _, hi =>
      simp [corners, item, hi a, hi b, hi c, hi e, bind, Except.bind, pure, Except.pure]
  obtain ⟨parts, hp⟩ := mapM_exists hex
  have hf := mapM_forall₂.1 hp
  have hlen : ∀ r ∈ parts, r.length = 6 := by
    intro r hr
    obtain ⟨s, -, hs⟩ := forall₂_right hf r hr
    simp only [bind, Except.bind, pure, Except.pure] at hs
    split at hs
    · simp at hs
    · rw [← Except.ok.inj hs]; simp [cellAngles]
  have hrun : dihedralAngles p t = .ok parts.flatten := by
    simp only [bind, Except.bind, pure, Except.pure] at hp
    simp only [dihedralAngles, hp, bind, Except.bind, pure, Except.pure]
  have hfl : ∀ rows : List (List ℝ), (∀ r ∈ rows, r.length = 6) → rows.flatten.length = 6 * rows.length := by
    intro rows h
    induction rows with
    | nil => simp
    | cons r rows ih =>
      rw [List.flatten_cons, List.length_append, h r List.mem_cons_self,
        ih fun r hr => h r (List.mem_cons_of_mem _ hr), List.length_cons]
      ring
  have hch : ∀ (rows : List (List ℝ)), (∀ r ∈ rows, r.length = 6) → ∀ (k : ℕ) (r : List ℝ),
      rows[k]? = some r → (rows.flatten.drop (k * 6)).take 6 = r := by
    intro rows h
    induction rows with
    | nil => intro k r hk; simp at hk
    | cons r0 rows ih =>
      intro k r hk
      have h0 : r0.length = 6 := h r0 List.mem_cons_self
      cases k with
      | zero => simp at hk; subst hk; simp [h0]
      | succ k =>
        simp at hk
        rw [List.flatten_cons, Nat.succ_mul, Nat.add_comm, ← List.drop_drop, ← h0, List.drop_left, h0]
        exact ih (fun r hr => h r (List.mem_cons_of_mem _ hr)) k r hk
  refine ⟨_, hrun, by rw [hfl parts hlen, hf.length_eq], ?_⟩
  intro k a b c e pa pb pc pe hk ha hb hc he hi
  apply hch parts hlen
  obtain ⟨hlt, hk'⟩ := List.getElem?_eq_some_iff.1 hk
  have hl2 : k < parts.length := by rw [← hf.length_eq]; exact hlt
  have hg := List.Forall₂.get hf hlt hl2
  simp only [List.get_eq_getElem, hk'] at hg
  simp [corners, item, ha, hb, hc, he, bind, Except.bind, pure, Except.pure] at hg
  rw [List.getElem?_eq_getElem hl2, ← hg, C48_cell hi]
  rfl

end SM.Simplex
