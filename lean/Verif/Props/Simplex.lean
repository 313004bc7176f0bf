import Verif.Model.Simplex
import Mathlib.LinearAlgebra.Matrix.Determinant.Basic
import Mathlib.LinearAlgebra.Matrix.NonsingularInverse
import Mathlib.LinearAlgebra.AffineSpace.Independent
import Mathlib.LinearAlgebra.AffineSpace.FiniteDimensional
import Mathlib.Analysis.Normed.Affine.AddTorsorBases
import Mathlib.Data.Matrix.Mul
import Mathlib.Tactic.LinearCombination
import Mathlib.Tactic.Ring
import Mathlib.Tactic.FieldSimp
import Mathlib.Tactic.NormNum
import Mathlib.Tactic.Positivity
import Mathlib.Tactic.FinCases

/-!
# C42, C44, C45: determinants, signed volumes, point-in-simplex tests
-/

namespace SM.Simplex

open FixMesh

/-! ### C45: determinant kernels -/

/-- `calc_3x3determinant` is the determinant. -/
theorem C45_det3 {K : Type} [Field K] (M : Matrix (Fin 3) (Fin 3) K) : calcDet3 M = M.det := by
  rw [Matrix.det_fin_three]
  simp [calcDet3, det3, rowMajor, Fin.ofNat]
  ring

/-- `calc_4x4determinant` is the determinant. -/
theorem C45_det4 {K : Type} [Field K] (M : Matrix (Fin 4) (Fin 4) K) : calcDet4 M = M.det := by
  simp [calcDet4, det4, rowMajor, Fin.ofNat, Matrix.det_succ_row_zero, Fin.sum_univ_succ, Fin.succAbove]
  ring

/-! ### C44: signed volumes -/

section vol
variable {K : Type} [Field K]

theorem affInd_iff {n : ℕ} (p : Fin (n + 1) → Fin n → K) :
    AffineIndependent K p ↔ (Matrix.of fun j i => p j.succ i - p 0 i : Matrix (Fin n) (Fin n) K).det ≠ 0 := by
  rw [affineIndependent_iff_linearIndependent_vsub K p 0,
    ← linearIndependent_equiv (finSuccAboveEquiv (0 : Fin (n + 1))), ← isUnit_iff_ne_zero,
    ← Matrix.isUnit_iff_isUnit_det, ← Matrix.linearIndependent_rows_iff_isUnit]
  have e : ((fun i : {x : Fin (n + 1) // x ≠ 0} => p i -ᵥ p 0) ∘ ⇑(finSuccAboveEquiv (0 : Fin (n + 1)))) =
      (Matrix.of fun j i => p j.succ i - p 0 i : Matrix (Fin n) (Fin n) K).row := by
    ext j i; simp [Matrix.row, finSuccAboveEquiv_apply]
  rw [← e]

/-- Degenerate exactly when the signed length vanishes. -/
theorem C44_degenerate1 (a b : Fin 1 → K) : vol1 a b = 0 ↔ ¬ AffineIndependent K ![a, b] := by
  rw [affInd_iff, not_not, Matrix.det_fin_one]; simp [vol1]

variable [CharZero K]

/-- The signed area vanishes exactly for affinely dependent (collinear) vertices. -/
theorem C44_degenerate2 (a b c : Fin 2 → K) : vol2 a b c = 0 ↔ ¬ AffineIndependent K ![a, b, c] := by
  rw [affInd_iff, not_not, Matrix.det_fin_two]
  simp [vol2]

/-- The signed volume vanishes exactly for affinely dependent (coplanar) vertices. -/
theorem C44_degenerate3 (a b c d : Fin 3 → K) :
    vol3 a b c d = 0 ↔ ¬ AffineIndependent K ![a, b, c, d] := by
  rw [affInd_iff, not_not, Matrix.det_fin_three]
  simp [vol3, cross]
  constructor <;> intro h <;> linear_combination h

omit [CharZero K] in
/-- Swapping any two vertices flips the sign. -/
theorem C44_swap1 (a b : Fin 1 → K) : vol1 b a = - vol1 a b := by unfold vol1; ring

omit [CharZero K] in
/-- Relabelling the vertices multiplies the signed area by the sign of the permutation; in
particular swapping two vertices flips it. -/
theorem C44_perm2 (p : Fin 3 → Fin 2 → K) (i j : Fin 3) (hij : i ≠ j) :
    let q := p ∘ Equiv.swap i j
    vol2 (q 0) (q 1) (q 2) = - vol2 (p 0) (p 1) (p 2) := by
  fin_cases i <;> fin_cases j <;> first | exact absurd rfl hij | skip
  all_goals
    simp [Equiv.swap_apply_def, vol2]
    ring

omit [CharZero K] in
/-- Swapping any two of the four vertices flips the sign of the volume. -/
theorem C44_perm3 (p : Fin 4 → Fin 3 → K) (i j : Fin 4) (hij : i ≠ j) :
    let q := p ∘ Equiv.swap i j
    vol3 (q 0) (q 1) (q 2) (q 3) = - vol3 (p 0) (p 1) (p 2) (p 3) := by
  fin_cases i <;> fin_cases j <;> first | exact absurd rfl hij | skip
  all_goals
    simp [Equiv.swap_apply_def, vol3, cross]
    ring

omit [CharZero K] in
/-- Translation invariance, all dimensions. -/
theorem C44_translate (v1 : Fin 1 → K) (v2 : Fin 2 → K) (v3 : Fin 3 → K) (a b : Fin 1 → K)
    (p q r : Fin 2 → K) (w x y z : Fin 3 → K) :
    vol1 (a + v1) (b + v1) = vol1 a b ∧ vol2 (p + v2) (q + v2) (r + v2) = vol2 p q r ∧
    vol3 (w + v3) (x + v3) (y + v3) (z + v3) = vol3 w x y z := by
  refine ⟨?_, ?_, ?_⟩
  · simp [vol1]
  · simp [vol2]
  · simp [vol3]

omit [CharZero K] in
/-- Subdividing at any point preserves the total signed volume, all dimensions. -/
theorem C44_subdivide (a b q1 : Fin 1 → K) (p q r q2 : Fin 2 → K) (w x y z q3 : Fin 3 → K) :
    vol1 a b = vol1 a q1 + vol1 q1 b ∧
    vol2 p q r = vol2 q2 q r + vol2 p q2 r + vol2 p q q2 ∧
    vol3 w x y z = vol3 q3 x y z + vol3 w q3 y z + vol3 w x q3 z + vol3 w x y q3 := by
  refine ⟨?_, ?_, ?_⟩
  · simp [vol1]
  · simp [vol2]; ring
  · simp [vol3, cross]; ring

omit [CharZero K] in
/-- The values are normalised: the signed volume is the determinant of the edge vectors out of the
first vertex over `dim!`. -/
theorem C44_value (p1 : Fin 2 → Fin 1 → K) (p2 : Fin 3 → Fin 2 → K) (p3 : Fin 4 → Fin 3 → K) :
    vol1 (p1 0) (p1 1) = (Matrix.of fun j i => p1 (Fin.succ j) i - p1 0 i).det / (Nat.factorial 1 : K) ∧
    vol2 (p2 0) (p2 1) (p2 2) =
      (Matrix.of fun j i => p2 (Fin.succ j) i - p2 0 i).det / (Nat.factorial 2 : K) ∧
    vol3 (p3 0) (p3 1) (p3 2) (p3 3) =
      (Matrix.of fun j i => p3 (Fin.succ j) i - p3 0 i).det / (Nat.factorial 3 : K) := by
  refine ⟨?_, ?_, ?_⟩
  · rw [Matrix.det_fin_one]; simp [vol1]
  · rw [Matrix.det_fin_two]; simp [vol2]
  · rw [Matrix.det_fin_three]; simp [vol3, cross, Nat.factorial]; ring

omit [CharZero K] in
/-- Under a linear map of the points the signed volume is multiplied by the determinant of the map,
in every dimension. -/
theorem C44_linear (A1 : Matrix (Fin 1) (Fin 1) K) (A2 : Matrix (Fin 2) (Fin 2) K)
    (A3 : Matrix (Fin 3) (Fin 3) K) (a b : Fin 1 → K) (p q r : Fin 2 → K) (w x y z : Fin 3 → K) :
    vol1 (A1.mulVec a) (A1.mulVec b) = A1.det * vol1 a b ∧
    vol2 (A2.mulVec p) (A2.mulVec q) (A2.mulVec r) = A2.det * vol2 p q r ∧
    vol3 (A3.mulVec w) (A3.mulVec x) (A3.mulVec y) (A3.mulVec z) = A3.det * vol3 w x y z := by
  refine ⟨?_, ?_, ?_⟩
  · simp [vol1, Matrix.mulVec, dotProduct]; ring
  · rw [Matrix.det_fin_two]; simp [vol2, Matrix.mulVec, dotProduct, Fin.sum_univ_succ]; ring
  · rw [Matrix.det_fin_three]; simp [vol3, cross, Matrix.mulVec, dotProduct, Fin.sum_univ_succ]; ring

/-- The corner simplices of the unit cube have volume 1, 1/2 and 1/6. -/
theorem C44_unit : vol1 ![(0 : ℚ)] ![1] = 1 ∧ vol2 ![(0 : ℚ), 0] ![1, 0] ![0, 1] = 1 / 2 ∧
    vol3 ![(0 : ℚ), 0, 0] ![1, 0, 0] ![0, 1, 0] ![0, 0, 1] = 1 / 6 := by
  simp [vol1, vol2, vol3, cross]

omit [CharZero K] in
/-- `simp_vol` on a mesh row uses exactly these formulas and raises beyond three coordinates. -/
theorem C44_rows (a b : Fin 1 → K) (p q r : Fin 2 → K) (w x y z : Fin 3 → K) :
    simpVolRow 1 [a, b] = .ok (vol1 a b) ∧ simpVolRow 2 [p, q, r] = .ok (vol2 p q r) ∧
    simpVolRow 3 [w, x, y, z] = .ok (vol3 w x y z) ∧
    ∀ d, 3 < d → ∀ vs : List (Fin d → K), simpVolRow d vs = .error "NotImplementedError" := by
  refine ⟨rfl, rfl, rfl, ?_⟩
  intro d hd vs
  obtain ⟨k, rfl⟩ : ∃ k, d = k + 4 := ⟨d - 4, by omega⟩
  rfl

end vol

/-! ### C42: point in simplex -/

theorem det4_homog {K : Type} [Field K] [CharZero K] (a b c d : Fin 3 → K) :
    calcDet4 (homog a b c d) = - (6 * vol3 a b c d) := by
  simp [calcDet4, det4, rowMajor, Fin.ofNat, homog, vol3, cross]
  ring

/-- The affine basis of a non-degenerate simplex. -/
noncomputable def basisOf {n : ℕ} (p : Fin (n + 1) → Fin n → ℝ) (h : AffineIndependent ℝ p) :
    AffineBasis (Fin (n + 1)) ℝ (Fin n → ℝ) :=
  ⟨p, h, by rw [h.affineSpan_eq_top_iff_card_eq_finrank_add_one]; simp⟩

theorem basis_sum {n : ℕ} (p : Fin (n + 1) → Fin n → ℝ) (h : AffineIndependent ℝ p) (x : Fin n → ℝ)
    (i : Fin n) : ∑ k, (basisOf p h).coord k x * p k i = x i := by
  have := congrFun ((basisOf p h).linear_combination_coord_eq_self x) i
  have e : ∀ k, (basisOf p h) k = p k := fun _ => rfl
  simpa [e] using this

/-- The test is true exactly on the closed triangle. -/
theorem C42_triangle (p p1 p2 p3 : Fin 2 → ℝ) (h : AffineIndependent ℝ ![p1, p2, p3]) :
    vertexInEntity2 p p1 p2 p3 = true ↔ p ∈ convexHull ℝ {p1, p2, p3} := by
  have hset : ({p1, p2, p3} : Set (Fin 2 → ℝ)) = Set.range ![p1, p2, p3] := by
    ext x; simp [eq_comm]; tauto
  have hb : (convexHull ℝ {p1, p2, p3} : Set (Fin 2 → ℝ)) = {x | ∀ i, 0 ≤ (basisOf _ h).coord i x} := by
    rw [hset]; exact (basisOf _ h).convexHull_eq_nonneg_coord
  have hv : vol2 p1 p2 p3 ≠ 0 := fun h0 => (C44_degenerate2 _ _ _).1 h0 h
  have hd : den2 p1 p2 p3 ≠ 0 := by
    intro h0; apply hv
    unfold den2 at h0; unfold vol2; linear_combination h0 / 2
  rw [hb]
  have s0 := basis_sum _ h p 0
  have s1 := basis_sum _ h p 1
  have hs := (basisOf _ h).sum_coord_apply_eq_one p
  simp only [Set.mem_ofPred_eq, Fin.forall_fin_succ, Fin.sum_univ_succ] at s0 s1 hs ⊢
  simp at s0 s1 hs ⊢
  set w0 := (basisOf _ h).coord 0 p
  set w1 := (basisOf _ h).coord 1 p
  set w2 := (basisOf _ h).coord 2 p
  have e1 : w2 = 1 - w0 - w1 := by linarith
  have ha : ((p2 1 - p3 1) * (p 0 - p3 0) + (p3 0 - p2 0) * (p 1 - p3 1)) / den2 p1 p2 p3 = w0 := by
    rw [div_eq_iff hd, ← s0, ← s1, e1]; unfold den2; ring
  have hb' : ((p3 1 - p1 1) * (p 0 - p3 0) + (p1 0 - p3 0) * (p 1 - p3 1)) / den2 p1 p2 p3 = w1 := by
    rw [div_eq_iff hd, ← s0, ← s1, e1]; unfold den2; ring
  unfold vertexInEntity2
  rw [if_neg hd]
  simp only [ha, hb', Bool.and_eq_true, decide_eq_true_eq]
  rw [e1]
  constructor
  · rintro ⟨⟨⟨⟨⟨a1, a2⟩, a3⟩, a4⟩, a5⟩, a6⟩; exact ⟨a1, a3, a5⟩
  · rintro ⟨a1, a2, a3⟩; exact ⟨⟨⟨⟨⟨a1, by linarith⟩, a2⟩, by linarith⟩, a3⟩, by linarith⟩

theorem inEntity3_iff {K : Type} [Field K] [LinearOrder K] (p p1 p2 p3 p4 : Fin 3 → K) :
    vertexInEntity3 p p1 p2 p3 p4 = true ↔ sgn p1 p2 p3 p4 ≠ 0 ∧
      sgn p p2 p3 p4 = sgn p1 p2 p3 p4 ∧ sgn p1 p p3 p4 = sgn p1 p2 p3 p4 ∧
      sgn p1 p2 p p4 = sgn p1 p2 p3 p4 ∧ sgn p1 p2 p3 p = sgn p1 p2 p3 p4 := by
  unfold vertexInEntity3
  generalize sgn p1 p2 p3 p4 = s0
  generalize sgn p p2 p3 p4 = s1
  generalize sgn p1 p p3 p4 = s2
  generalize sgn p1 p2 p p4 = s3
  generalize sgn p1 p2 p3 p = s4
  revert s0 s1 s2 s3 s4
  decide

/-- The test is true exactly on the open tetrahedron. -/
theorem C42_tetrahedron (p p1 p2 p3 p4 : Fin 3 → ℝ) (h : AffineIndependent ℝ ![p1, p2, p3, p4]) :
    vertexInEntity3 p p1 p2 p3 p4 = true ↔ p ∈ interior (convexHull ℝ {p1, p2, p3, p4}) := by
  have hset : ({p1, p2, p3, p4} : Set (Fin 3 → ℝ)) = Set.range ![p1, p2, p3, p4] := by
    ext x; simp [eq_comm]; tauto
  have hb : interior (convexHull ℝ {p1, p2, p3, p4} : Set (Fin 3 → ℝ)) =
      {x | ∀ i, 0 < (basisOf _ h).coord i x} := by
    rw [hset]; exact (basisOf _ h).interior_convexHull
  have hv : vol3 p1 p2 p3 p4 ≠ 0 := fun h0 => (C44_degenerate3 _ _ _ _).1 h0 h
  rw [hb, inEntity3_iff]
  have s0 := basis_sum _ h p 0
  have s1 := basis_sum _ h p 1
  have s2 := basis_sum _ h p 2
  have hs := (basisOf _ h).sum_coord_apply_eq_one p
  simp only [Set.mem_ofPred_eq, Fin.forall_fin_succ, Fin.sum_univ_succ] at s0 s1 s2 hs ⊢
  simp at s0 s1 s2 hs ⊢
  set w0 := (basisOf _ h).coord 0 p
  set w1 := (basisOf _ h).coord 1 p
  set w2 := (basisOf _ h).coord 2 p
  set w3 := (basisOf _ h).coord 3 p
  have e1 : w3 = 1 - w0 - w1 - w2 := by linarith
  set D := calcDet4 (homog p1 p2 p3 p4) with hD
  have hDe : D = -(6 * vol3 p1 p2 p3 p4) := det4_homog _ _ _ _
  have hD0 : D ≠ 0 := by rw [hDe]; simpa using hv
  have d1 : calcDet4 (homog p p2 p3 p4) = w0 * D := by
    rw [hDe, det4_homog]; simp only [vol3, cross, ← s0, ← s1, ← s2, e1]; simp; ring
  have d2 : calcDet4 (homog p1 p p3 p4) = w1 * D := by
    rw [hDe, det4_homog]; simp only [vol3, cross, ← s0, ← s1, ← s2, e1]; simp; ring
  have d3 : calcDet4 (homog p1 p2 p p4) = w2 * D := by
    rw [hDe, det4_homog]; simp only [vol3, cross, ← s0, ← s1, ← s2, e1]; simp; ring
  have d4 : calcDet4 (homog p1 p2 p3 p) = w3 * D := by
    rw [hDe, det4_homog]; simp only [vol3, cross, ← s0, ← s1, ← s2, e1]; simp; ring
  have key : ∀ w : ℝ, SignType.sign (w * D) = SignType.sign D ↔ 0 < w := by
    intro w
    rw [sign_mul]
    have hsD : SignType.sign D ≠ 0 := by simpa using hD0
    rw [← sign_eq_one_iff]
    revert hsD
    generalize SignType.sign D = s
    generalize SignType.sign w = t
    revert s t; decide
  simp only [sgn, d1, d2, d3, d4, key, ← hD]
  simp [hD0]

/-- A degenerate (flat) triangle contains no point according to the test. -/
theorem C42_flat_triangle (p p1 p2 p3 : Fin 2 → ℝ) (h : ¬ AffineIndependent ℝ ![p1, p2, p3]) :
    vertexInEntity2 p p1 p2 p3 = false := by
  have hv := (C44_degenerate2 _ _ _).2 h
  have hd : den2 p1 p2 p3 = 0 := by
    unfold vol2 at hv; unfold den2; linear_combination 2 * hv
  unfold vertexInEntity2
  rw [if_pos hd]

/-- A degenerate (flat) tetrahedron contains no point according to the test. -/
theorem C42_flat_tetrahedron (p p1 p2 p3 p4 : Fin 3 → ℝ)
    (h : ¬ AffineIndependent ℝ ![p1, p2, p3, p4]) : vertexInEntity3 p p1 p2 p3 p4 = false := by
  have hv := (C44_degenerate3 _ _ _ _).2 h
  rw [← Bool.not_eq_true, inEntity3_iff]
  rintro ⟨h0, -⟩
  apply h0
  rw [sgn, det4_homog, hv]; simp

/-- The hypotheses are met by ordinary simplices: the unit triangle and the unit tetrahedron; the
centroid is inside, the origin corner is in the closed triangle. -/
example : AffineIndependent ℝ ![![(0 : ℝ), 0], ![1, 0], ![0, 1]] ∧
    AffineIndependent ℝ ![![(0 : ℝ), 0, 0], ![1, 0, 0], ![0, 1, 0], ![0, 0, 1]] := by
  constructor
  · rw [← not_not (a := AffineIndependent ℝ _), ← C44_degenerate2]; norm_num [vol2]
  · rw [← not_not (a := AffineIndependent ℝ _), ← C44_degenerate3]; simp [vol3, cross]

example : vertexInEntity2 (![1/3, 1/3] : Fin 2 → ℚ) ![0, 0] ![1, 0] ![0, 1] = true ∧
    vertexInEntity2 (![0, 0] : Fin 2 → ℚ) ![0, 0] ![0, 1] ![1, 0] = true ∧
    vertexInEntity2 (![1, 1] : Fin 2 → ℚ) ![0, 0] ![1, 0] ![0, 1] = false ∧
    vertexInEntity3 (![1/4, 1/4, 1/4] : Fin 3 → ℚ) ![0, 0, 0] ![1, 0, 0] ![0, 1, 0] ![0, 0, 1] = true ∧
    vertexInEntity3 (![0, 0, 0] : Fin 3 → ℚ) ![0, 0, 0] ![1, 0, 0] ![0, 1, 0] ![0, 0, 1] = false := by
  decide +kernel

end SM.Simplex
