import Verif.Model.Linter

/-!
# The overlap tests in floating-point arithmetic

`vertex_in_entity2`, `vertex_in_entity3`, `get_centroids` (SeismicMesh/geometry/utils.py:657-742) and `c_calc_4x4determinant`
(geometry/cpp/fast_geometry.cpp:482-495) with every operation followed by a rounding `rnd`, in the order of the code. Comparisons and the change of sign are exact.
Not modelled: overflow, underflow, fused multiply-add (not in the x86-64 baseline).
-/

namespace SM.InsideFl

variable {K : Type} [Field K]

/-- The 24 products of `c_calc_4x4determinant` in their order: added or subtracted, and the four factors. geometry/cpp/fast_geometry.cpp:483-494. -/
def terms : List (Bool × ℕ × ℕ × ℕ × ℕ) :=
  [(true, 12, 9, 6, 3), (false, 8, 13, 6, 3), (false, 12, 5, 10, 3), (true, 4, 13, 10, 3), (true, 8, 5, 14, 3), (false, 4, 9, 14, 3),
   (false, 12, 9, 2, 7), (true, 8, 13, 2, 7), (true, 12, 1, 10, 7), (false, 0, 13, 10, 7), (false, 8, 1, 14, 7), (true, 0, 9, 14, 7),
   (true, 12, 5, 2, 11), (false, 4, 13, 2, 11), (false, 12, 1, 6, 11), (true, 0, 13, 6, 11), (true, 4, 1, 14, 11), (false, 0, 5, 14, 11),
   (false, 8, 5, 2, 15), (true, 4, 9, 2, 15), (true, 8, 1, 6, 15), (false, 0, 9, 6, 15), (false, 4, 1, 10, 15), (true, 0, 5, 10, 15)]

/-- One product, from left to right. geometry/cpp/fast_geometry.cpp:483-494. -/
def prod4 (rnd : K → K) (m : ℕ → K) (x : Bool × ℕ × ℕ × ℕ × ℕ) : K := rnd (rnd (rnd (m x.2.1 * m x.2.2.1) * m x.2.2.2.1) * m x.2.2.2.2)

/-- The remaining sum, from left to right. geometry/cpp/fast_geometry.cpp:483-494. -/
def sumFrom (rnd : K → K) (m : ℕ → K) : K → List (Bool × ℕ × ℕ × ℕ × ℕ) → K
  | s, [] => s
  | s, x :: l => sumFrom rnd m (rnd (if x.1 then s + prod4 rnd m x else s - prod4 rnd m x)) l

/-- `c_calc_4x4determinant`, geometry/cpp/fast_geometry.cpp:482-495. -/
def det4 (rnd : K → K) (m : ℕ → K) : K :=
  match terms with
  | [] => 0
  | x :: l => sumFrom rnd m (prod4 rnd m x) l

/-- `vertices[entities].sum(1) / (dim + 1)` for one entity: numpy adds its rows one after another. geometry/utils.py:742. -/
def centroid (rnd : K → K) {d : ℕ} (vs : List (Fin d → K)) (dim : ℕ) : Fin d → K :=
  match vs with
  | [] => fun _ => rnd (0 / ((dim : K) + 1))
  | v :: vs => fun i => rnd ((vs.foldl (fun s w => rnd (s + w i)) (v i)) / ((dim : K) + 1))

variable [LinearOrder K]

/-- `np.sign(dete(A))`, geometry/utils.py:701 etc. -/
def sgn (rnd : K → K) (a b c d : Fin 3 → K) : SignType := SignType.sign (det4 rnd (Simplex.rowMajor (Simplex.homog a b c d)))

/-- `vertex_in_entity3`, geometry/utils.py:694-726. -/
def vertexInEntity3 (rnd : K → K) (p p1 p2 p3 p4 : Fin 3 → K) : Bool :=
  let s0 := sgn rnd p1 p2 p3 p4
  let s1 := sgn rnd p p2 p3 p4
  if s1 ≠ s0 then false else
  let s2 := sgn rnd p1 p p3 p4
  if s2 ≠ s1 then false else
  let s3 := sgn rnd p1 p2 p p4
  if s3 ≠ s2 then false else
  let s4 := sgn rnd p1 p2 p3 p
  if s4 ≠ s3 then false else
  [s0, s1, s2, s3, s4].all (fun s => s == -1) || [s0, s1, s2, s3, s4].all (fun s => s == 1)

/-- The numerators and the denominator of `vertex_in_entity2`: `p * q + r * s` of rounded differences. geometry/utils.py:670-675. -/
def cross2 (rnd : K → K) (p q r s : K) : K := rnd (rnd (rnd p * rnd q) + rnd (rnd r * rnd s))

/-- `vertex_in_entity2`, geometry/utils.py:668-679. With a vanishing denominator one of the comparisons fails. -/
def vertexInEntity2 (rnd : K → K) (p p1 p2 p3 : Fin 2 → K) : Bool :=
  let den := cross2 rnd (p2 1 - p3 1) (p1 0 - p3 0) (p3 0 - p2 0) (p1 1 - p3 1)
  if den = 0 then false else
  let a := rnd (cross2 rnd (p2 1 - p3 1) (p 0 - p3 0) (p3 0 - p2 0) (p 1 - p3 1) / den)
  let b := rnd (cross2 rnd (p3 1 - p1 1) (p 0 - p3 0) (p1 0 - p3 0) (p 1 - p3 1) / den)
  let c := rnd (rnd (1 - a) - b)
  decide (0 ≤ a) && decide (a ≤ 1) && decide (0 ≤ b) && decide (b ≤ 1) && decide (0 ≤ c) && decide (c ≤ 1)

/-- The test of `do_any_overlap`, dim 2, geometry/utils.py:782-786. -/
def inside2 (rnd : K → K) (c : Fin 2 → K) : List (Fin 2 → K) → Bool
  | [a, b, e] => vertexInEntity2 rnd c a b e
  | _ => false

/-- The test of `do_any_overlap`, dim 3, geometry/utils.py:798-806. -/
def inside3 (rnd : K → K) (c : Fin 3 → K) : List (Fin 3 → K) → Bool
  | [a, b, e, f] => vertexInEntity3 rnd c a b e f
  | _ => false

end SM.InsideFl
