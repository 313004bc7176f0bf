import Verif.Model.Np
import Mathlib.Algebra.Order.Round
import Mathlib.Algebra.Order.Field.Basic
import Mathlib.Data.List.OfFn
import Mathlib.Data.Fin.VecNotation
import Mathlib.Algebra.Order.Floor.Ring

/-!
# Model of `fix_mesh` and `simp_vol`

SeismicMesh/geometry/utils.py:175-249. A mesh is a list of points and a list of rows of vertex
numbers. Negative (wrapping) numpy indices are not modelled: entries are natural numbers.
-/

namespace SM.FixMesh

open Np

section general
variable {P κ ρ K : Type} [LinearOrder κ] [LinearOrder ρ] [LT K] [DecidableLT K] [Zero K]

/-- `t[flip, :2] = t[flip, 1::-1]`, utils.py:247: swap the first two entries. -/
def swap01 {α : Type} : List α → List α
  | a :: b :: r => b :: a :: r
  | r => r

/-- Orientation of one entity, utils.py:244-247. -/
def orient (vol : List P → K) (p : List P) (r : List ℕ) : Except String (List ℕ) := do
  let vs ← Np.take p r
  return if vol vs < 0 then swap01 r else r

/-- `fix_mesh`, utils.py:204-249. `key` is the byte string of a snapped point
(`unique_rows(np.round(p / snap) * snap)`, 231-232), `rk` the byte string of an integer row
(`unique_row_view`, 239), `vol` is `simp_vol` of one entity. `p.max(0)` raises on an empty array.
-/
def fixMesh (key : P → κ) (rk : List ℕ → ρ) (vol : List P → K) (p : List P) (t : List (List ℕ))
    (deleteUnused fixOrientation : Bool) : Except String (List P × List (List ℕ) × List ℕ) := do
  if p.isEmpty then throw "ValueError: zero-size array"
  let ks := p.map key
  let jx := uniqInverse ks
  let p ← Np.take p (uniqIndex ks)
  let t ← t.mapM (Np.take jx)
  let t := uniqBy rk (t.map sortRow)
  let (p, t, jx) ← (if deleteUnused then do
      let pix := uniqBy id t.flatten
      let p' ← Np.take p pix
      pure (p', t.map fun r => r.map fun v => pix.idxOf v, uniqInverse t.flatten)
    else pure (p, t, jx) : Except String (List P × List (List ℕ) × List ℕ))
  if fixOrientation then
    let t ← t.mapM (orient vol p)
    return (p, t, jx)
  else
    return (p, t, jx)

end general

section volume
variable {K : Type} [Field K]

/-- `simp_vol`, dim 2, utils.py:191-194. -/
def vol2 (a b c : Fin 2 → K) : K :=
  ((b 0 - a 0) * (c 1 - a 1) - (b 1 - a 1) * (c 0 - a 0)) / 2

/-- `np.cross`, used in utils.py:199. -/
def cross (u v : Fin 3 → K) : Fin 3 → K :=
  ![u 1 * v 2 - u 2 * v 1, u 2 * v 0 - u 0 * v 2, u 0 * v 1 - u 1 * v 0]

/-- `simp_vol`, dim 3, utils.py:195-199: `np.einsum("ij,ij->i", np.cross(d01, d02), d03) / 6`. -/
def vol3 (a b c d : Fin 3 → K) : K :=
  let d01 := fun i => b i - a i
  let d02 := fun i => c i - a i
  let d03 := fun i => d i - a i
  (cross d01 d02 0 * d03 0 + cross d01 d02 1 * d03 1 + cross d01 d02 2 * d03 2) / 6

/-- `simp_vol` on one 2-D entity (rows have three entries). geometry/utils.py:191-194. -/
def rowVol2 : List (Fin 2 → K) → K
  | [a, b, c] => vol2 a b c
  | _ => 0

/-- `simp_vol` on one 3-D entity (rows have four entries). geometry/utils.py:195-199. -/
def rowVol3 : List (Fin 3 → K) → K
  | [a, b, c, d] => vol3 a b c d
  | _ => 0

end volume

section snap
variable {K : Type} [Field K] [LinearOrder K] [FloorRing K] {d : ℕ}

/-- `np.round`: to the nearest integer, ties to the even one. numpy; geometry/utils.py:229. -/
def npRound (x : K) : ℤ :=
  if x - ⌊x⌋ < 1 / 2 then ⌊x⌋ else if 1 / 2 < x - ⌊x⌋ then ⌊x⌋ + 1
  else if ⌊x⌋ % 2 = 0 then ⌊x⌋ else ⌊x⌋ + 1

/-- Maximum over all points of coordinate `i`, `p.max(0)[i]`, utils.py:231. -/
def colMax (p0 : Fin d → K) (ps : List (Fin d → K)) (i : Fin d) : K := ps.foldl (fun m q => max m (q i)) (p0 i)
/-- `p.min(0)`, one column; geometry/utils.py:228. -/
def colMin (p0 : Fin d → K) (ps : List (Fin d → K)) (i : Fin d) : K := ps.foldl (fun m q => min m (q i)) (p0 i)

/-- `snap = (p.max(0) - p.min(0)).max() * ptol`, utils.py:231 (at least one coordinate). -/
def snapLen (ptol : K) (p0 : Fin d → K) (ps : List (Fin d → K)) : K :=
  ((List.ofFn fun i => colMax p0 ps i - colMin p0 ps i).foldl max 0) * ptol

/-- `np.round(p / snap) * snap` on one point, utils.py:232. -/
def snapPt (snap : K) (q : Fin d → K) : Fin d → K := fun i => npRound (q i / snap) * snap

variable {κ ρ : Type} [LinearOrder κ] [LinearOrder ρ]

/-- `fix_mesh` on coordinates: the key is the byte string `enc` of the snapped point. geometry/utils.py:204-249. -/
def fixMeshK (enc : (Fin d → K) → κ) (rk : List ℕ → ρ) (vol : List (Fin d → K) → K) (ptol : K)
    (p : List (Fin d → K)) (t : List (List ℕ)) (deleteUnused fixOrientation : Bool) :
    Except String (List (Fin d → K) × List (List ℕ) × List ℕ) :=
  match p with
  | [] => .error "ValueError: zero-size array"
  | p0 :: ps =>
    fixMesh (fun q => enc (snapPt (snapLen ptol p0 ps) q)) rk vol (p0 :: ps) t deleteUnused
      fixOrientation

end snap
end SM.FixMesh
