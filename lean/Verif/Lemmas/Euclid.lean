import Mathlib.Analysis.InnerProductSpace.PiL2
import Verif.Model.Sdf

/-! Euclidean distance on coordinate rows. -/

namespace SM.Sdf

/-- Euclidean distance (specification). -/
noncomputable def eucl {d : ℕ} (p q : Pt d) : ℝ := √(∑ i, (p i - q i) ^ 2)

theorem eucl_eq {d : ℕ} (p q : Pt d) :
    eucl p q = dist (WithLp.toLp 2 p : EuclideanSpace ℝ (Fin d)) (WithLp.toLp 2 q) := by
  rw [EuclideanSpace.dist_eq]
  unfold eucl
  congr 1
  refine Finset.sum_congr rfl fun i _ => ?_
  simp [Real.dist_eq]

theorem eucl_nonneg {d : ℕ} (p q : Pt d) : 0 ≤ eucl p q := Real.sqrt_nonneg _

theorem eucl_triangle {d : ℕ} (p q r : Pt d) : eucl p r ≤ eucl p q + eucl q r := by
  simp only [eucl_eq]; exact dist_triangle _ _ _

theorem eucl_comm {d : ℕ} (p q : Pt d) : eucl p q = eucl q p := by
  simp only [eucl_eq]; exact dist_comm _ _

theorem coord_le_eucl {d : ℕ} (p q : Pt d) (i : Fin d) : |p i - q i| ≤ eucl p q := by
  unfold eucl
  apply Real.abs_le_sqrt
  exact Finset.single_le_sum (f := fun i => (p i - q i) ^ 2) (fun j _ => sq_nonneg _) (Finset.mem_univ i)

/-- Distance along one axis. -/
theorem eucl_update {d : ℕ} (p : Pt d) (i : Fin d) (x : ℝ) :
    eucl p (Function.update p i x) = |p i - x| := by
  unfold eucl
  rw [Finset.sum_eq_single i]
  · rw [Function.update_self, Real.sqrt_sq_eq_abs]
  · intro j _ hj; rw [Function.update_of_ne hj]; simp
  · intro h; exact absurd (Finset.mem_univ i) h

end SM.Sdf
