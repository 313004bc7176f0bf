import Verif.Model.Topology
import Verif.Model.Simplex
import Mathlib.Order.WithBot

/-!
# Triangle quality as evaluated in floating-point arithmetic

`simp_qual`, SeismicMesh/geometry/utils.py:252-274, and its use in `delete_boundary_entities`, utils.py:440-469. `rnd` rounds the exact result of one operation, `rsq x`
is the rounded square root of `x`. Overflow and underflow are not modelled.
-/

namespace SM.QualFl

section
variable {K : Type} [Field K] [LinearOrder K]

/-- `(v ** 2).sum(1)` of one row: the squares, added from left to right. utils.py:267. -/
def sumSq (rnd : K → K) {d : ℕ} (v : Fin d → K) : K :=
  match List.ofFn fun k => rnd (v k * v k) with
  | [] => 0
  | x :: l => l.foldl (fun s y => rnd (s + y)) x

/-- `length(p1 - p0)`, utils.py:266-271. -/
def len (rnd rsq : K → K) {d : ℕ} (p0 p1 : Fin d → K) : K := rsq (sumSq rnd fun k => rnd (p1 k - p0 k))

/-- `b + c - a`, utils.py:272-273. -/
def slack (rnd : K → K) (a b c : K) : K := rnd (rnd (b + c) - a)

/-- `simp_qual` of one entity, utils.py:269-274; `none` is NaN or infinity: neither is below any bound. Roots of negative numbers and `0/0` are NaN, the radius `R` is
infinite if its denominator vanishes (then the quality is 0). -/
def qual (rnd rsq : K → K) {d : ℕ} (p0 p1 p2 : Fin d → K) : Option K :=
  let a := len rnd rsq p0 p1
  let b := len rnd rsq p0 p2
  let c := len rnd rsq p1 p2
  let s := rnd (rnd (a + b) + c)
  let g := rnd (rnd (rnd (slack rnd a b c * slack rnd b c a) * slack rnd c a b) / s)
  let P := rnd (rnd (rnd (s * slack rnd a b c) * slack rnd b c a) * slack rnd c a b)
  let abc := rnd (rnd (a * b) * c)
  let R := rnd (abc / rsq P)
  if s = 0 ∨ g < 0 ∨ P < 0 then none
  else if P = 0 then (if abc = 0 then none else some 0)
  else if R = 0 then none
  else some (rnd (rnd (2 * rnd ((1 / 2) * rsq g)) / R))

/-- The value of a row as far as `qual < min_qual` is concerned: NaN is not below any bound. utils.py:457, 460. -/
def rowQual (rnd rsq : K → K) {d : ℕ} : List (Fin d → K) → WithTop K
  | p0 :: p1 :: p2 :: _ => match qual rnd rsq p0 p1 p2 with
    | none => ⊤
    | some q => q
  | _ => ⊤

/-- `delete_boundary_entities` with computed qualities, utils.py:440-469; `fix_mesh` (468) is taken without rounding, its volumes only matter for their sign. -/
def deleteBoundary {κ ρ : Type} [LinearOrder κ] [LinearOrder ρ] (rnd rsq : K → K) {d : ℕ} (key : (Fin d → K) → κ) (rk : List ℕ → ρ) (vol : List (Fin d → K) → K)
    (srt : List (ℕ × ℕ) → List (ℕ × ℕ)) (p : List (Fin d → K)) (t : List (List ℕ)) (minQual : K) : Except String (List (Fin d → K) × List (List ℕ)) :=
  Topology.deleteBoundaryEntities (K := WithTop K) key rk (fun vs => (vol vs : WithTop K)) (rowQual rnd rsq) srt p t d (minQual : WithTop K)

end

end SM.QualFl
