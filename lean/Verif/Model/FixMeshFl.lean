import Verif.Model.FixMesh

/-!
# Duplicate vertices in floating-point arithmetic, with signed zeros

`fix_mesh`, SeismicMesh/geometry/utils.py:204-249, on coordinates that are floating-point numbers: a number has a value and a sign bit, and 0 has two representations. The rows of snapped
coordinates are compared byte by byte (`unique_rows`, 133-172), so the sign bit counts. `rnd` rounds the exact result of one operation. Overflow, underflow and meshes with a single
position (division by zero) are not modelled.
-/

namespace SM.FixMeshFl

open FixMesh

/-- A floating-point number. geometry/utils.py:228-229. -/
structure Num (K : Type) where
  neg : Bool
  val : K
  deriving DecidableEq

section
variable {K : Type} [Field K] [LinearOrder K] [FloorRing K] {d : ℕ}

/-- The sign bit of a number other than zero is that of its value. geometry/utils.py:228-229. -/
def Num.Ok (a : Num K) : Prop := a.val ≠ 0 → (a.neg = true ↔ a.val < 0)

/-- `snap = (p.max(0) - p.min(0)).max() * ptol`, utils.py:228. -/
def snapLen (rnd : K → K) (ptol : K) (p0 : Fin d → Num K) (ps : List (Fin d → Num K)) : K :=
  let v (q : Fin d → Num K) (i : Fin d) : K := (q i).val
  rnd ((List.ofFn fun i => rnd (colMax (v p0) (ps.map v) i - colMin (v p0) (ps.map v) i)).foldl max 0 * ptol)

/-- `np.round(p / snap) * snap` on one coordinate, utils.py:229. Division by and multiplication with a positive number and rounding to an integer keep the sign bit, also of a zero. -/
def snapNum (rnd : K → K) (snap : K) (a : Num K) : Num K := ⟨a.neg, rnd (npRound (rnd (a.val / snap)) * snap)⟩

variable {κ ρ : Type} [LinearOrder κ] [LinearOrder ρ]

/-- `fix_mesh`, utils.py:204-249; `enc` is the byte string of a row. -/
def fixMesh (rnd : K → K) (enc : (Fin d → Num K) → κ) (rk : List ℕ → ρ) (vol : List (Fin d → Num K) → K) (ptol : K) (p : List (Fin d → Num K)) (t : List (List ℕ))
    (deleteUnused fixOrientation : Bool) : Except String (List (Fin d → Num K) × List (List ℕ) × List ℕ) :=
  match p with
  | [] => .error "ValueError: zero-size array"
  | p0 :: ps => FixMesh.fixMesh (fun q => enc fun k => snapNum rnd (snapLen rnd ptol p0 ps) (q k)) rk vol (p0 :: ps) t deleteUnused fixOrientation

end

end SM.FixMeshFl
