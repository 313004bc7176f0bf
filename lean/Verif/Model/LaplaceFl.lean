import Verif.Model.Laplace
import Verif.Model.FixedFl
import Verif.Model.QualFl

/-!
# Laplacian smoothing as evaluated in floating-point arithmetic

`laplacian2`, SeismicMesh/geometry/utils.py:550-631, with every operation followed by a rounding `rnd`; `rsq` is the computed square root. The entries of the sparse matrix and their
row sums are small integers and are exact. The sparse product is taken to add the entries of a row from left to right, in the order of the columns. Overflow and underflow are not modelled.
-/

namespace SM.LaplaceFl

open Np Topology Laplace

variable {K : Type} [Field K] [LinearOrder K] {n d : ℕ}

/-- One entry of `S * np.matrix(vertices)`: the stored entries of row `i`, each multiplied and added to the sum so far, utils.py:612 (scipy's `csr_matvecs`). -/
def rowSum (rnd : K → K) (S : ℕ → ℕ → ℕ) (i : ℕ) (x : Fin n → K) : K :=
  ((List.finRange n).filter fun j : Fin n => S i j ≠ 0).foldl (fun s (j : Fin n) => rnd (s + rnd ((S i j : K) * x j))) 0

/-- One sweep, utils.py:612-614. -/
def sweep (rnd : K → K) (S : ℕ → ℕ → ℕ) (W : ℕ → ℕ) (bnd : List ℕ) (v : Fin n → Fin d → K) : Fin n → Fin d → K :=
  fun i k => if i.1 ∈ bnd then v i k else rnd (rowSum rnd S i (fun j => v j k) / (W i : K))

/-- Bar lengths, cut off below at `eps`: utils.py:606-609, 615-618. -/
def barLengths (rnd rsq : K → K) (eps : K) (edge : List (List ℕ)) (v : Fin n → Fin d → K) : Except String (List K) :=
  edge.mapM fun e => do
    let a ← item (List.ofFn v) (e.getD 0 n)
    let b ← item (List.ofFn v) (e.getD 1 n)
    let l := QualFl.len rnd rsq b a
    return if l < eps then eps else l

/-- `move = np.amax(np.divide(Lnew - L, Lnew))`, utils.py:619; an empty array raises. -/
def amaxMove (rnd : K → K) : List K → List K → Except String K
  | l :: L, l' :: L' => .ok ((L.zip L').foldl (fun m x => max m (rnd (rnd (x.2 - x.1) / x.2))) (rnd (rnd (l' - l) / l')))
  | _, _ => .error "ValueError: zero-size array to reduction operation"

/-- The loop, utils.py:611-629. -/
def iterate (rnd rsq : K → K) (eps tol : K) (edge : List (List ℕ)) (sw : (Fin n → Fin d → K) → Fin n → Fin d → K) :
    ℕ → List K → (Fin n → Fin d → K) → Except String (Fin n → Fin d → K)
  | 0, _, v => .ok v
  | m + 1, L, v => do
    let v := sw v
    let Lnew ← barLengths rnd rsq eps edge v
    let move ← amaxMove rnd L Lnew
    if move < tol then return v else iterate rnd rsq eps tol edge sw m Lnew v

/-- `laplacian2`, utils.py:550-631. -/
def laplacian2 {ρ : Type} [LinearOrder ρ] (rnd rsq : K → K) (rk : List ℕ → ρ) (eps : K) (v : Fin n → Fin d → K)
    (ents : List (List ℕ)) (maxIter : ℕ) (tol : K) (pfix : Option (List (Fin d → K))) :
    Except String ((Fin n → Fin d → K) × List (List ℕ)) := do
  let parts ← ents.mapM adjacency
  cooCheck n parts.flatten
  let S := cooEntry parts.flatten
  let bnd ← getBoundaryVertices rk ents 2
  let edge ← getEdges ents 2
  let bnd ← (match pfix with
    | none => pure bnd
    | some fs => do
      let ifix ← fs.mapM fun f => FixedFl.closestNode rnd (List.ofFn v) f
      pure (bnd ++ ifix) : Except String (List ℕ))
  let W : ℕ → ℕ := fun i => ∑ j : Fin n, S i j
  if (List.finRange n).any fun i => W i = 0 then return (v, ents)
  let L ← barLengths rnd rsq eps edge v
  let v ← iterate rnd rsq eps tol edge (sweep rnd S W bnd) maxIter L v
  return (v, ents)

end SM.LaplaceFl
