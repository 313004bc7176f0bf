import Verif.Model.Sliver

/-!
# Dihedral angles as evaluated in floating-point arithmetic

`c_calc_dihedral_angles`, geometry/cpp/fast_geometry.cpp:351-418, and the selection of slivers, generation/mesh_generator.py:532-540.
`rnd` rounds the exact result of one operation, `rsq x` is the rounded square root of `x`, `ac` is the arc cosine of the C library
(`none` is NaN). No operations are fused; overflow and underflow are not modelled. `accum += u[i] * u[i]` starts with `0. + u[0] * u[0]`, which is exact.
-/

namespace SM.DihedralFl

open Np

section
variable {K : Type} [Field K] [LinearOrder K]

/-- `l2_norm`, geometry/cpp/fast_geometry.cpp:79-85. -/
def l2 (rnd rsq : K → K) (u : Fin 3 → K) : K := rsq (rnd (rnd (rnd (u 0 * u 0) + rnd (u 1 * u 1)) + rnd (u 2 * u 2)))

/-- `dot_product`, geometry/cpp/fast_geometry.cpp:96-102. -/
def dot (rnd : K → K) (u v : Fin 3 → K) : K := rnd (rnd (rnd (u 0 * v 0) + rnd (u 1 * v 1)) + rnd (u 2 * v 2))

/-- `cross_product`, geometry/cpp/fast_geometry.cpp:87-94. -/
def cross (rnd : K → K) (u v : Fin 3 → K) : Fin 3 → K :=
  ![rnd (rnd (u 1 * v 2) - rnd (u 2 * v 1)), rnd (rnd (u 2 * v 0) - rnd (u 0 * v 2)), rnd (rnd (u 0 * v 1) - rnd (u 1 * v 0))]

/-- `v1[j] -= p0[j]`, geometry/cpp/fast_geometry.cpp:383-388. -/
def edgeVec (rnd : K → K) (p0 p : Fin 3 → K) : Fin 3 → K := fun j => rnd (p j - p0 j)

/-- `v1[j] /= v1_div`, geometry/cpp/fast_geometry.cpp:390-399. -/
def unit (rnd rsq : K → K) (v : Fin 3 → K) : Fin 3 → K := fun j => rnd (v j / l2 rnd rsq v)

/-- `cphi`, geometry/cpp/fast_geometry.cpp:401-413. -/
def cphi (rnd rsq : K → K) (p0 p1 p2 p3 : Fin 3 → K) : K :=
  let u1 := unit rnd rsq (edgeVec rnd p0 p1)
  let u2 := unit rnd rsq (edgeVec rnd p0 p2)
  let u3 := unit rnd rsq (edgeVec rnd p0 p3)
  rnd (rnd (dot rnd u2 u3 - rnd (dot rnd u1 u2 * dot rnd u1 u3)) /
    rnd (l2 rnd rsq (cross rnd u1 u2) * l2 rnd rsq (cross rnd u1 u3)))

/-- One angle, geometry/cpp/fast_geometry.cpp:375-415: NaN when one of the divisors vanishes. -/
def angle (rnd rsq : K → K) (ac : K → Option K) (p0 p1 p2 p3 : Fin 3 → K) : Option K :=
  let u1 := unit rnd rsq (edgeVec rnd p0 p1)
  let u2 := unit rnd rsq (edgeVec rnd p0 p2)
  let u3 := unit rnd rsq (edgeVec rnd p0 p3)
  if l2 rnd rsq (edgeVec rnd p0 p1) = 0 ∨ l2 rnd rsq (edgeVec rnd p0 p2) = 0 ∨ l2 rnd rsq (edgeVec rnd p0 p3) = 0 ∨
      rnd (l2 rnd rsq (cross rnd u1 u2) * l2 rnd rsq (cross rnd u1 u3)) = 0 then none
  else ac (cphi rnd rsq p0 p1 p2 p3)

/-- The six angles of one cell, geometry/cpp/fast_geometry.cpp:367-415; the edge table is `Simplex.edges`. -/
def cellAngles (rnd rsq : K → K) (ac : K → Option K) (q : Fin 4 → Fin 3 → K) : List (Option K) :=
  (List.range 6).map fun i =>
    let e := Simplex.edges.getD i (0, 0)
    let o := Simplex.edges.getD (5 - i) (0, 0)
    angle rnd rsq ac (q (Fin.ofNat 4 e.1)) (q (Fin.ofNat 4 e.2)) (q (Fin.ofNat 4 o.1)) (q (Fin.ofNat 4 o.2))

/-- The four corners of a cell. geometry/cpp/fast_geometry.cpp:367-373. -/
def corners (p : List (Fin 3 → K)) (row : List ℕ) : Except String (Fin 4 → Fin 3 → K) := do
  let a ← item p (← item row 0)
  let b ← item p (← item row 1)
  let c ← item p (← item row 2)
  let e ← item p (← item row 3)
  return ![a, b, c, e]

/-- The angles of one row. geometry/cpp/fast_geometry.cpp:367-415; mesh_generator.py:534. -/
def rowAngles (rnd rsq : K → K) (ac : K → Option K) (p : List (Fin 3 → K)) (row : List ℕ) : Except String (List (Option K)) := do
  let q ← corners p row
  return cellAngles rnd rsq ac q

/-- `(dh < min_bound) | (dh > max_bound)`, mesh_generator.py:536: comparisons with NaN are false. -/
def outside (lo hi : K) : Option K → Bool
  | none => false
  | some a => decide (a < lo ∨ a > hi)

/-- `_calc_dihedral_angles`, mesh_generator.py:532-540: the numbers of the cells with an angle out of bounds. -/
def badCells (rnd rsq : K → K) (ac : K → Option K) (lo hi : K) (p : List (Fin 3 → K)) (t : List (List ℕ)) : Except String (List ℕ) := do
  let parts ← t.mapM (rowAngles rnd rsq ac p)
  let out := (parts.flatten.zipIdx.filter fun ai => outside lo hi ai.1).map Prod.snd
  return uniqBy id (out.map fun i => i / 6)

end

end SM.DihedralFl
