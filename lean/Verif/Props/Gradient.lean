import Verif.Props.Simplex
import Mathlib.Analysis.Calculus.FDeriv.Mul
import Mathlib.Analysis.Calculus.FDeriv.Pi
import Mathlib.Analysis.Calculus.FDeriv.Add
import Mathlib.Analysis.Calculus.Deriv.Inv
import Mathlib.Analysis.Calculus.Deriv.Slope
import Mathlib.Analysis.Calculus.Deriv.Comp

/-!
# C46: gradient of the squared circumradius, C47: gradient of the volume
-/

namespace SM.Simplex

open FixMesh

/-- Squared Euclidean distance (specification). -/
def distSq (u v : Fin 3 → ℝ) : ℝ := (u 0 - v 0) ^ 2 + (u 1 - v 1) ^ 2 + (u 2 - v 2) ^ 2

/-- `s` is the squared circumradius of the tetrahedron: some centre is at squared distance `s` from
all four vertices (specification). -/
def IsCircumSq (q p1 p2 p3 : Fin 3 → ℝ) (s : ℝ) : Prop :=
  ∃ o, distSq o q = s ∧ distSq o p1 = s ∧ distSq o p2 = s ∧ distSq o p3 = s

/-- The linear functional with coefficients `g`: `e ↦ g · e` (specification of "the gradient is g"). -/
noncomputable def grad (g : Fin 3 → ℝ) : (Fin 3 → ℝ) →L[ℝ] ℝ :=
  g 0 • ContinuousLinearMap.proj 0 + g 1 • ContinuousLinearMap.proj 1 + g 2 • ContinuousLinearMap.proj 2

theorem grad_apply (g e : Fin 3 → ℝ) : grad g e = g 0 * e 0 + g 1 * e 1 + g 2 * e 2 := by
  simp [grad]

/-! ### C47 -/

theorem hasFDerivAt_coord (p : Fin 3 → ℝ) (i : Fin 3) (c : ℝ) :
    HasFDerivAt (fun q : Fin 3 → ℝ => q i - c)
      (ContinuousLinearMap.proj (R := ℝ) (φ := fun _ : Fin 3 => ℝ) i) p :=
  (hasFDerivAt_apply i p).sub_const c

theorem vol3_affine (q p1 p2 p3 : Fin 3 → ℝ) :
    vol3 q p1 p2 p3 = - ((q 0 - p3 0) * volumeGrad p1 p2 p3 0 + (q 1 - p3 1) * volumeGrad p1 p2 p3 1 +
      (q 2 - p3 2) * volumeGrad p1 p2 p3 2) := by
  simp [vol3, cross, volumeGrad]; ring

theorem hasFDerivAt_affine (p c g : Fin 3 → ℝ) : HasFDerivAt (fun q : Fin 3 → ℝ =>
    (q 0 - c 0) * g 0 + (q 1 - c 1) * g 1 + (q 2 - c 2) * g 2) (grad g) p :=
  (((hasFDerivAt_coord p 0 (c 0)).mul_const (g 0)).add ((hasFDerivAt_coord p 1 (c 1)).mul_const (g 1))).add
    ((hasFDerivAt_coord p 2 (c 2)).mul_const (g 2))

/-- **C47 (partial).** `calc_volume_grad` is the gradient, with respect to vertex 0, of *minus* the
signed volume of `simp_vol`. Missing: the sign, see `C47_sign_wrong`. -/
theorem C47_minus_gradient_partial (p0 p1 p2 p3 : Fin 3 → ℝ) :
    HasFDerivAt (fun q => - vol3 q p1 p2 p3) (grad (volumeGrad p1 p2 p3)) p0 := by
  have h := hasFDerivAt_affine p0 p3 (volumeGrad p1 p2 p3)
  refine h.congr_of_eventuallyEq (Filter.Eventually.of_forall fun q => ?_)
  simp only [vol3_affine, neg_neg]

/-- With the sign convention of `simp_vol` the claim is false whenever the opposite face is not
degenerate (its gradient is then non-zero). -/
theorem C47_sign_wrong (p0 p1 p2 p3 : Fin 3 → ℝ) (h : volumeGrad p1 p2 p3 ≠ 0) :
    ¬ HasFDerivAt (fun q => vol3 q p1 p2 p3) (grad (volumeGrad p1 p2 p3)) p0 := by
  intro hg
  have h2 : HasFDerivAt (fun q => vol3 q p1 p2 p3) (- grad (volumeGrad p1 p2 p3)) p0 :=
    ((C47_minus_gradient_partial p0 p1 p2 p3).neg).congr_of_eventuallyEq
      (Filter.Eventually.of_forall fun q => by simp)
  have he : grad (volumeGrad p1 p2 p3) = - grad (volumeGrad p1 p2 p3) := hg.unique h2
  apply h
  ext i
  have := congrArg (fun L => L (Pi.single i 1)) he
  simp only [ContinuousLinearMap.neg_apply, grad_apply] at this
  fin_cases i <;> simp at this ⊢ <;> linarith

/-- The hypothesis of `C47_sign_wrong` holds for the unit tetrahedron. -/
example : volumeGrad (![1, 0, 0] : Fin 3 → ℝ) ![0, 1, 0] ![0, 0, 1] ≠ 0 := by
  intro h; have := congrFun h 0; simp [volumeGrad] at this

/-! ### C46 -/

section circum

/-- Derivative of a quotient `(X² + Y² + Z²) / (4 a²)`. -/
theorem hasFDerivAt_quot {X Y Z A : (Fin 3 → ℝ) → ℝ} {gx gy gz ga p : Fin 3 → ℝ}
    (hx : HasFDerivAt X (grad gx) p) (hy : HasFDerivAt Y (grad gy) p) (hz : HasFDerivAt Z (grad gz) p)
    (ha : HasFDerivAt A (grad ga) p) (h0 : A p ≠ 0) :
    HasFDerivAt (fun q => (X q * X q + Y q * Y q + Z q * Z q) * (4 * (A q * A q))⁻¹)
      (grad fun i => (X p * gx i + Y p * gy i + Z p * gz i) / (2 * A p * A p) -
        ga i * (X p * X p + Y p * Y p + Z p * Z p) / (2 * A p * A p * A p)) p := by
  have hn := ((hx.mul hx).add (hy.mul hy)).add (hz.mul hz)
  have hd := (ha.mul ha).const_mul 4
  have h4 : 4 * (A p * A p) ≠ 0 := by positivity
  have hi := (hasDerivAt_inv h4).comp_hasFDerivAt p hd
  have hm := hn.mul hi
  refine HasFDerivAt.congr_fderiv (f' := _) hm ?_
  ext e
  simp [grad_apply]
  field_simp
  ring

/-- Derivative of `-|q - c|² A + l · (q - c)`. -/
theorem hasFDerivAt_D (A : ℝ) (c l p : Fin 3 → ℝ) :
    HasFDerivAt (fun q : Fin 3 → ℝ => -((q 0 - c 0) * (q 0 - c 0) + (q 1 - c 1) * (q 1 - c 1) +
        (q 2 - c 2) * (q 2 - c 2)) * A + ((q 0 - c 0) * l 0 + (q 1 - c 1) * l 1 + (q 2 - c 2) * l 2))
      (grad fun i => -2 * (p i - c i) * A + l i) p := by
  have h0 := hasFDerivAt_coord p 0 (c 0)
  have h1 := hasFDerivAt_coord p 1 (c 1)
  have h2 := hasFDerivAt_coord p 2 (c 2)
  have hm := ((((h0.mul h0).add (h1.mul h1)).add (h2.mul h2)).neg.mul_const A).add
    (hasFDerivAt_affine p c l)
  refine HasFDerivAt.congr_fderiv (f' := _) hm ?_
  ext e
  simp [grad_apply]
  ring

variable (p1 p2 p3 : Fin 3 → ℝ)

/-- Normal of the face opposite vertex 0. -/
def cN : Fin 3 → ℝ :=
  ![(p1 1 - p3 1) * (p2 2 - p3 2) - (p2 1 - p3 1) * (p1 2 - p3 2),
    (p1 2 - p3 2) * (p2 0 - p3 0) - (p1 0 - p3 0) * (p2 2 - p3 2),
    (p1 0 - p3 0) * (p2 1 - p3 1) - (p2 0 - p3 0) * (p1 1 - p3 1)]

/-- `sq_p2 * w3 - sq_p3 * w2`. -/
def cS (i : Fin 3) : ℝ :=
  ((p1 0 - p3 0) * (p1 0 - p3 0) + (p1 1 - p3 1) * (p1 1 - p3 1) + (p1 2 - p3 2) * (p1 2 - p3 2)) * (p2 i - p3 i) -
  ((p2 0 - p3 0) * (p2 0 - p3 0) + (p2 1 - p3 1) * (p2 1 - p3 1) + (p2 2 - p3 2) * (p2 2 - p3 2)) * (p1 i - p3 i)

/-- `a` of the code as a function of vertex 0. -/
def cA (q : Fin 3 → ℝ) : ℝ :=
  (q 0 - p3 0) * cN p1 p2 p3 0 + (q 1 - p3 1) * cN p1 p2 p3 1 + (q 2 - p3 2) * cN p1 p2 p3 2

theorem cA_eq (q : Fin 3 → ℝ) : cA p1 p2 p3 q = - (6 * vol3 q p1 p2 p3) := by
  simp [cA, cN, vol3, cross]; ring

/-- `Dx, Dy, Dz` of the code as functions of vertex 0. -/
def cD (i : Fin 3) (q : Fin 3 → ℝ) : ℝ :=
  -((q 0 - p3 0) * (q 0 - p3 0) + (q 1 - p3 1) * (q 1 - p3 1) + (q 2 - p3 2) * (q 2 - p3 2)) * cN p1 p2 p3 i +
  ((q 0 - p3 0) * (![![0, cS p1 p2 p3 2, -cS p1 p2 p3 1], ![-cS p1 p2 p3 2, 0, cS p1 p2 p3 0],
      ![cS p1 p2 p3 1, -cS p1 p2 p3 0, 0]] i 0) +
   (q 1 - p3 1) * (![![0, cS p1 p2 p3 2, -cS p1 p2 p3 1], ![-cS p1 p2 p3 2, 0, cS p1 p2 p3 0],
      ![cS p1 p2 p3 1, -cS p1 p2 p3 0, 0]] i 1) +
   (q 2 - p3 2) * (![![0, cS p1 p2 p3 2, -cS p1 p2 p3 1], ![-cS p1 p2 p3 2, 0, cS p1 p2 p3 0],
      ![cS p1 p2 p3 1, -cS p1 p2 p3 0, 0]] i 2))

/-- The squared circumradius in closed form. -/
noncomputable def cR (q : Fin 3 → ℝ) : ℝ :=
  (cD p1 p2 p3 0 q * cD p1 p2 p3 0 q + cD p1 p2 p3 1 q * cD p1 p2 p3 1 q +
    cD p1 p2 p3 2 q * cD p1 p2 p3 2 q) * (4 * (cA p1 p2 p3 q * cA p1 p2 p3 q))⁻¹

/-- The code's vector in terms of these functions. -/
theorem circumGrad_eq (p0 : Fin 3 → ℝ) : circumGrad p0 p1 p2 p3 = fun i =>
    (cD p1 p2 p3 0 p0 * (-2 * (p0 i - p3 i) * cN p1 p2 p3 0 +
        ![0, cS p1 p2 p3 2, -cS p1 p2 p3 1] i) +
      cD p1 p2 p3 1 p0 * (-2 * (p0 i - p3 i) * cN p1 p2 p3 1 + ![-cS p1 p2 p3 2, 0, cS p1 p2 p3 0] i) +
      cD p1 p2 p3 2 p0 * (-2 * (p0 i - p3 i) * cN p1 p2 p3 2 + ![cS p1 p2 p3 1, -cS p1 p2 p3 0, 0] i)) /
      (2 * cA p1 p2 p3 p0 * cA p1 p2 p3 p0) -
    cN p1 p2 p3 i * (cD p1 p2 p3 0 p0 * cD p1 p2 p3 0 p0 + cD p1 p2 p3 1 p0 * cD p1 p2 p3 1 p0 +
      cD p1 p2 p3 2 p0 * cD p1 p2 p3 2 p0) / (2 * cA p1 p2 p3 p0 * cA p1 p2 p3 p0 * cA p1 p2 p3 p0) := by
  have hA : cA p1 p2 p3 p0 = (p0 0 - p3 0) * cN p1 p2 p3 0 + (p0 1 - p3 1) * cN p1 p2 p3 1 + (p0 2 - p3 2) * cN p1 p2 p3 2 := rfl
  have hD0 : cD p1 p2 p3 0 p0 = -((p0 0 - p3 0) * (p0 0 - p3 0) + (p0 1 - p3 1) * (p0 1 - p3 1) + (p0 2 - p3 2) * (p0 2 - p3 2)) * cN p1 p2 p3 0 +
    (p0 1 - p3 1) * cS p1 p2 p3 2 - (p0 2 - p3 2) * cS p1 p2 p3 1 := by simp [cD]; ring
  have hD1 : cD p1 p2 p3 1 p0 = -((p0 0 - p3 0) * (p0 0 - p3 0) + (p0 1 - p3 1) * (p0 1 - p3 1) + (p0 2 - p3 2) * (p0 2 - p3 2)) * cN p1 p2 p3 1 -
    (p0 0 - p3 0) * cS p1 p2 p3 2 + (p0 2 - p3 2) * cS p1 p2 p3 0 := by simp [cD]; ring
  have hD2 : cD p1 p2 p3 2 p0 = -((p0 0 - p3 0) * (p0 0 - p3 0) + (p0 1 - p3 1) * (p0 1 - p3 1) + (p0 2 - p3 2) * (p0 2 - p3 2)) * cN p1 p2 p3 2 +
    (p0 0 - p3 0) * cS p1 p2 p3 1 - (p0 1 - p3 1) * cS p1 p2 p3 0 := by simp [cD]; ring
  have n0 : (p1 1 - p3 1) * (p2 2 - p3 2) - (p2 1 - p3 1) * (p1 2 - p3 2) = cN p1 p2 p3 0 := rfl
  have n1 : (p1 2 - p3 2) * (p2 0 - p3 0) - (p1 0 - p3 0) * (p2 2 - p3 2) = cN p1 p2 p3 1 := rfl
  have n2 : (p1 0 - p3 0) * (p2 1 - p3 1) - (p2 0 - p3 0) * (p1 1 - p3 1) = cN p1 p2 p3 2 := rfl
  have s0 : ∀ i, ((p1 0 - p3 0) * (p1 0 - p3 0) + (p1 1 - p3 1) * (p1 1 - p3 1) + (p1 2 - p3 2) * (p1 2 - p3 2)) * (p2 i - p3 i) -
    ((p2 0 - p3 0) * (p2 0 - p3 0) + (p2 1 - p3 1) * (p2 1 - p3 1) + (p2 2 - p3 2) * (p2 2 - p3 2)) * (p1 i - p3 i) = cS p1 p2 p3 i := fun _ => rfl
  have e0 : ∀ (u : ℝ) i, u + ((p1 0 - p3 0) * (p1 0 - p3 0) + (p1 1 - p3 1) * (p1 1 - p3 1) + (p1 2 - p3 2) * (p1 2 - p3 2)) * (p2 i - p3 i) -
    ((p2 0 - p3 0) * (p2 0 - p3 0) + (p2 1 - p3 1) * (p2 1 - p3 1) + (p2 2 - p3 2) * (p2 2 - p3 2)) * (p1 i - p3 i) = u + cS p1 p2 p3 i := by
    intro u i; rw [← s0]; ring
  have e1 : ∀ (u : ℝ) i, u - ((p1 0 - p3 0) * (p1 0 - p3 0) + (p1 1 - p3 1) * (p1 1 - p3 1) + (p1 2 - p3 2) * (p1 2 - p3 2)) * (p2 i - p3 i) +
    ((p2 0 - p3 0) * (p2 0 - p3 0) + (p2 1 - p3 1) * (p2 1 - p3 1) + (p2 2 - p3 2) * (p2 2 - p3 2)) * (p1 i - p3 i) = u - cS p1 p2 p3 i := by
    intro u i; rw [← s0]; ring
  ext i
  simp only [circumGrad, n0, n1, n2, s0, e0, e1]
  simp only [← hA, ← hD0, ← hD1, ← hD2]
  fin_cases i <;> simp [sub_eq_add_neg]

theorem hasFDerivAt_cR (p0 : Fin 3 → ℝ) (h : cA p1 p2 p3 p0 ≠ 0) :
    HasFDerivAt (cR p1 p2 p3) (grad (circumGrad p0 p1 p2 p3)) p0 := by
  rw [circumGrad_eq]
  exact hasFDerivAt_quot (hasFDerivAt_D (cN p1 p2 p3 0) p3 _ p0) (hasFDerivAt_D (cN p1 p2 p3 1) p3 _ p0)
    (hasFDerivAt_D (cN p1 p2 p3 2) p3 _ p0) (hasFDerivAt_affine p0 p3 (cN p1 p2 p3)) h
    (X := cD p1 p2 p3 0) (Y := cD p1 p2 p3 1) (Z := cD p1 p2 p3 2) (A := cA p1 p2 p3)

/-- Any squared circumradius is given by the closed form. -/
theorem cR_unique {q : Fin 3 → ℝ} (h : cA p1 p2 p3 q ≠ 0) {s : ℝ} (hs : IsCircumSq q p1 p2 p3 s) :
    s = cR p1 p2 p3 q := by
  obtain ⟨o, h0, h1, h2, h3⟩ := hs
  unfold distSq at *
  have hA : cA p1 p2 p3 q = (q 0 - p3 0) * cN p1 p2 p3 0 + (q 1 - p3 1) * cN p1 p2 p3 1 + (q 2 - p3 2) * cN p1 p2 p3 2 := rfl
  have hD0 : cD p1 p2 p3 0 q = -((q 0 - p3 0) * (q 0 - p3 0) + (q 1 - p3 1) * (q 1 - p3 1) + (q 2 - p3 2) * (q 2 - p3 2)) * cN p1 p2 p3 0 +
    (q 1 - p3 1) * cS p1 p2 p3 2 - (q 2 - p3 2) * cS p1 p2 p3 1 := by simp [cD]; ring
  have hD1 : cD p1 p2 p3 1 q = -((q 0 - p3 0) * (q 0 - p3 0) + (q 1 - p3 1) * (q 1 - p3 1) + (q 2 - p3 2) * (q 2 - p3 2)) * cN p1 p2 p3 1 -
    (q 0 - p3 0) * cS p1 p2 p3 2 + (q 2 - p3 2) * cS p1 p2 p3 0 := by simp [cD]; ring
  have hD2 : cD p1 p2 p3 2 q = -((q 0 - p3 0) * (q 0 - p3 0) + (q 1 - p3 1) * (q 1 - p3 1) + (q 2 - p3 2) * (q 2 - p3 2)) * cN p1 p2 p3 2 +
    (q 0 - p3 0) * cS p1 p2 p3 1 - (q 1 - p3 1) * cS p1 p2 p3 0 := by simp [cD]; ring
  have n0 : (p1 1 - p3 1) * (p2 2 - p3 2) - (p2 1 - p3 1) * (p1 2 - p3 2) = cN p1 p2 p3 0 := rfl
  have n1 : (p1 2 - p3 2) * (p2 0 - p3 0) - (p1 0 - p3 0) * (p2 2 - p3 2) = cN p1 p2 p3 1 := rfl
  have n2 : (p1 0 - p3 0) * (p2 1 - p3 1) - (p2 0 - p3 0) * (p1 1 - p3 1) = cN p1 p2 p3 2 := rfl
  have s0 : ∀ i, ((p1 0 - p3 0) * (p1 0 - p3 0) + (p1 1 - p3 1) * (p1 1 - p3 1) + (p1 2 - p3 2) * (p1 2 - p3 2)) * (p2 i - p3 i) -
    ((p2 0 - p3 0) * (p2 0 - p3 0) + (p2 1 - p3 1) * (p2 1 - p3 1) + (p2 2 - p3 2) * (p2 2 - p3 2)) * (p1 i - p3 i) = cS p1 p2 p3 i := fun _ => rfl
  have s0' := s0 0
  have s1' := s0 1
  have s2' := s0 2
  unfold cR
  generalize cA p1 p2 p3 q = A at *
  generalize cD p1 p2 p3 0 q = D0 at *
  generalize cD p1 p2 p3 1 q = D1 at *
  generalize cD p1 p2 p3 2 q = D2 at *
  generalize cN p1 p2 p3 0 = N0 at *
  generalize cN p1 p2 p3 1 = N1 at *
  generalize cN p1 p2 p3 2 = N2 at *
  generalize cS p1 p2 p3 0 = S0 at *
  generalize cS p1 p2 p3 1 = S1 at *
  generalize cS p1 p2 p3 2 = S2 at *
  clear s0
  -- coordinates relative to p3
  obtain ⟨x, hx⟩ : ∃ x, x = q 0 - p3 0 := ⟨_, rfl⟩
  obtain ⟨y, hy⟩ : ∃ y, y = q 1 - p3 1 := ⟨_, rfl⟩
  obtain ⟨z, hz⟩ : ∃ z, z = q 2 - p3 2 := ⟨_, rfl⟩
  obtain ⟨x2, hx2⟩ : ∃ x, x = p1 0 - p3 0 := ⟨_, rfl⟩
  obtain ⟨y2, hy2⟩ : ∃ x, x = p1 1 - p3 1 := ⟨_, rfl⟩
  obtain ⟨z2, hz2⟩ : ∃ x, x = p1 2 - p3 2 := ⟨_, rfl⟩
  obtain ⟨x3, hx3⟩ : ∃ x, x = p2 0 - p3 0 := ⟨_, rfl⟩
  obtain ⟨y3, hy3⟩ : ∃ x, x = p2 1 - p3 1 := ⟨_, rfl⟩
  obtain ⟨z3, hz3⟩ : ∃ x, x = p2 2 - p3 2 := ⟨_, rfl⟩
  obtain ⟨u, hu⟩ : ∃ x, x = o 0 - p3 0 := ⟨_, rfl⟩
  obtain ⟨v, hv⟩ : ∃ x, x = o 1 - p3 1 := ⟨_, rfl⟩
  obtain ⟨w, hw⟩ : ∃ x, x = o 2 - p3 2 := ⟨_, rfl⟩
  have k1 : 2 * (x * u + y * v + z * w) = x * x + y * y + z * z := by
    rw [hx, hy, hz, hu, hv, hw]; linear_combination h3 - h0
  have k2 : 2 * (x2 * u + y2 * v + z2 * w) = x2 * x2 + y2 * y2 + z2 * z2 := by
    rw [hx2, hy2, hz2, hu, hv, hw]; linear_combination h3 - h1
  have k3 : 2 * (x3 * u + y3 * v + z3 * w) = x3 * x3 + y3 * y3 + z3 * z3 := by
    rw [hx3, hy3, hz3, hu, hv, hw]; linear_combination h3 - h2
  rw [← hu, ← hv, ← hw] at h3
  rw [← hx, ← hy, ← hz] at hA hD0 hD1 hD2
  rw [← hx2, ← hy2, ← hz2, ← hx3, ← hy3, ← hz3] at s0' s1' s2'
  rw [← hy2, ← hz2, ← hy3, ← hz3] at n0
  rw [← hx2, ← hz2, ← hx3, ← hz3] at n1
  rw [← hx2, ← hy2, ← hx3, ← hy3] at n2
  clear hx hy hz hx2 hy2 hz2 hx3 hy3 hz3 hu hv hw h0 h1 h2
  have c0 : D0 = -(2 * A * u) := by
    rw [hD0, hA, ← n0, ← n1, ← n2, ← s1', ← s2', ← k1, ← k2, ← k3]; ring
  have c1 : D1 = -(2 * A * v) := by
    rw [hD1, hA, ← n0, ← n1, ← n2, ← s0', ← s2', ← k1, ← k2, ← k3]; ring
  have c2 : D2 = -(2 * A * w) := by
    rw [hD2, hA, ← n0, ← n1, ← n2, ← s0', ← s1', ← k1, ← k2, ← k3]; ring
  rw [c0, c1, c2, ← h3]
  field_simp
  ring

/-- **C46.** For every non-degenerate tetrahedron and every function `f` that gives the squared
circumradius of `(q, p1, p2, p3)` for each non-degenerate position `q` of the first vertex, the
vector returned by `calc_circumsphere_grad` is the gradient of `f` at `p0`. -/
theorem C46_gradient {p0 p1 p2 p3 : Fin 3 → ℝ} (h : AffineIndependent ℝ ![p0, p1, p2, p3])
    {f : (Fin 3 → ℝ) → ℝ}
    (hf : ∀ q, AffineIndependent ℝ ![q, p1, p2, p3] → IsCircumSq q p1 p2 p3 (f q)) :
    HasFDerivAt f (grad (circumGrad p0 p1 p2 p3)) p0 := by
  have hA : ∀ q, AffineIndependent ℝ ![q, p1, p2, p3] ↔ cA p1 p2 p3 q ≠ 0 := by
    intro q
    have := C44_degenerate3 q p1 p2 p3
    rw [cA_eq]
    constructor
    · intro hi h0; apply (C44_degenerate3 q p1 p2 p3).1 _ hi; linarith
    · intro h0; by_contra hi; apply h0; rw [(C44_degenerate3 q p1 p2 p3).2 hi]; simp
  refine (hasFDerivAt_cR p1 p2 p3 p0 ((hA p0).1 h)).congr_of_eventuallyEq ?_
  have hc : ContinuousAt (cA p1 p2 p3) p0 := (hasFDerivAt_affine p0 p3 (cN p1 p2 p3)).continuousAt
  filter_upwards [hc.eventually_ne ((hA p0).1 h)] with q hq
  exact cR_unique p1 p2 p3 hq (hf q ((hA q).2 hq))

/-- Such a function exists: every non-degenerate tetrahedron has a circumsphere. -/
theorem C46_exists (p1 p2 p3 : Fin 3 → ℝ) : ∃ f : (Fin 3 → ℝ) → ℝ,
    ∀ q, AffineIndependent ℝ ![q, p1, p2, p3] → IsCircumSq q p1 p2 p3 (f q) := by
  have key : ∀ q, AffineIndependent ℝ ![q, p1, p2, p3] → ∃ s, IsCircumSq q p1 p2 p3 s := by
    intro q hi
    have hA : cA p1 p2 p3 q ≠ 0 := by
      rw [cA_eq]; intro h0; apply (C44_degenerate3 q p1 p2 p3).1 _ hi; linarith
    let o : Fin 3 → ℝ := fun i => p3 i - cD p1 p2 p3 i q / (2 * cA p1 p2 p3 q)
    have ho : ∀ i, o i = p3 i - cD p1 p2 p3 i q / (2 * cA p1 p2 p3 q) := fun _ => rfl
    refine ⟨distSq o p3, o, ?_, ?_, ?_, rfl⟩
    · have hh : 2 * ((q 0 - p3 0) * (cD p1 p2 p3 0 q) + (q 1 - p3 1) * (cD p1 p2 p3 1 q) + (q 2 - p3 2) * (cD p1 p2 p3 2 q))
          = - ((q 0 - p3 0) * (q 0 - p3 0) + (q 1 - p3 1) * (q 1 - p3 1) + (q 2 - p3 2) * (q 2 - p3 2)) * (2 * cA p1 p2 p3 q) := by
        simp [cD, cA]; ring
      unfold distSq; simp only [ho]; field_simp; linear_combination (cA p1 p2 p3 q) * hh * 2
    · have hh : 2 * ((p1 0 - p3 0) * (cD p1 p2 p3 0 q) + (p1 1 - p3 1) * (cD p1 p2 p3 1 q) + (p1 2 - p3 2) * (cD p1 p2 p3 2 q))
          = - ((p1 0 - p3 0) * (p1 0 - p3 0) + (p1 1 - p3 1) * (p1 1 - p3 1) + (p1 2 - p3 2) * (p1 2 - p3 2)) * (2 * cA p1 p2 p3 q) := by
        simp [cD, cA, cN, cS]; ring
      unfold distSq; simp only [ho]; field_simp; linear_combination (cA p1 p2 p3 q) * hh * 2
    · have hh : 2 * ((p2 0 - p3 0) * (cD p1 p2 p3 0 q) + (p2 1 - p3 1) * (cD p1 p2 p3 1 q) + (p2 2 - p3 2) * (cD p1 p2 p3 2 q))
          = - ((p2 0 - p3 0) * (p2 0 - p3 0) + (p2 1 - p3 1) * (p2 1 - p3 1) + (p2 2 - p3 2) * (p2 2 - p3 2)) * (2 * cA p1 p2 p3 q) := by
        simp [cD, cA, cN, cS]; ring
      unfold distSq; simp only [ho]; field_simp; linear_combination (cA p1 p2 p3 q) * hh * 2
  classical
  exact ⟨fun q => if h : AffineIndependent ℝ ![q, p1, p2, p3] then (key q h).choose else 0, fun q h => by
    simp only [dif_pos h]; exact (key q h).choose_spec⟩

/-- A small step along the returned vector, when it is not zero, increases the circumradius. -/
theorem C46_increases {p0 p1 p2 p3 : Fin 3 → ℝ} (h : AffineIndependent ℝ ![p0, p1, p2, p3])
    {f : (Fin 3 → ℝ) → ℝ}
    (hf : ∀ q, AffineIndependent ℝ ![q, p1, p2, p3] → IsCircumSq q p1 p2 p3 (f q))
    (hg : circumGrad p0 p1 p2 p3 ≠ 0) :
    ∃ ε : ℝ, 0 < ε ∧ ∀ s : ℝ, 0 < s → s < ε → f p0 < f (p0 + s • circumGrad p0 p1 p2 p3) := by
  set g := circumGrad p0 p1 p2 p3 with hgdef
  have hd := C46_gradient h hf
  rw [← hgdef] at hd
  have hline : HasDerivAt (fun s : ℝ => p0 + s • g) g 0 := by
    simpa using ((hasDerivAt_id (0 : ℝ)).smul_const g).const_add p0
  have hcomp : HasDerivAt (fun s : ℝ => f (p0 + s • g)) (grad g g) 0 := by
    have hd' : HasFDerivAt f (grad g) (p0 + (0 : ℝ) • g) := by simpa using hd
    exact hd'.comp_hasDerivAt (0 : ℝ) hline
  have hpos : 0 < grad g g := by
    rw [grad_apply]
    have : ∃ i, g i ≠ 0 := by
      by_contra hn; push Not at hn; exact hg (funext hn)
    obtain ⟨i, hi⟩ := this
    have := mul_self_pos.2 hi
    have h0 := mul_self_nonneg (g 0); have h1 := mul_self_nonneg (g 1); have h2 := mul_self_nonneg (g 2)
    fin_cases i <;> simp only [Fin.zero_eta, Fin.mk_one, Fin.reduceFinMk] at this <;> linarith
  have ht := hcomp.tendsto_slope_zero_right
  have hev := ht.eventually (lt_mem_nhds hpos)
  rw [eventually_nhdsWithin_iff, Metric.eventually_nhds_iff] at hev
  obtain ⟨ε, hε, hev⟩ := hev
  refine ⟨ε, hε, fun s hs hsε => ?_⟩
  have := hev (y := s) (by simpa [abs_of_pos hs] using hsε) hs
  simp at this
  rw [mul_pos_iff_of_pos_left (inv_pos.2 hs)] at this
  linarith

/-- The hypotheses are met: for the tetrahedron with vertices (1/2, 0, 0), (1, 0, 0), (0, 1, 0), (0, 0, 1)
the returned vector is not zero. -/
example : circumGrad (![1/2, 0, 0] : Fin 3 → ℝ) ![1, 0, 0] ![0, 1, 0] ![0, 0, 1] ≠ 0 := by
  intro h; have := congrFun h 0; norm_num [circumGrad, Matrix.cons_val_two, Matrix.vecHead, Matrix.vecTail] at this

end circum

end SM.Simplex
