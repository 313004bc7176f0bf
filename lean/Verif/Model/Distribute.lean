import Verif.Model.Mpi
import Verif.Model.Np

/-!
# `aggregate` and `localize_points`

SeismicMesh/migration/migration.py:55-113.
-/

namespace SM.Distribute

open Mpi Np

/-- What these two functions send. migration/migration.py:90-91, 99-104. -/
inductive Payload (V : Type)
  | pts (l : List V)
  | cells (l : List (List ℕ))
  | counts (l : List ℕ)

variable {V : Type}

/-- `np.zeros(size)` with entry `rank` set, migration.py:81-85. -/
def unit (size rank n : ℕ) : List ℕ := (List.range size).map fun i => if i = rank then n else 0

/-- `MPI.SUM` of the contributions, entry by entry, migration.py:90-91. -/
def sumCounts (size : ℕ) (l : List (Payload V)) : List ℕ :=
  (List.range size).map fun i => (l.map fun m => match m with
    | .counts c => c.getD i 0
    | _ => 0).sum

/-- `np.cumsum`, migration.py:94. -/
def cumsum (l : List ℕ) : List ℕ := (List.range l.length).map fun i => (l.take (i + 1)).sum

/-- `np.reshape(_, (n, dim))` of a received point array, migration.py:102. -/
def asPts (n : ℕ) : Payload V → Except String (List V)
  | .pts l => if l.length = n then .ok l else .error "ValueError: cannot reshape array"
  | _ => .error "ValueError"

/-- `np.reshape(_, (n, dim + 1))` of a received cell array, migration.py:104. -/
def asCells (n : ℕ) : Payload V → Except String (List (List ℕ))
  | .cells l => if l.length = n then .ok l else .error "ValueError: cannot reshape array"
  | _ => .error "ValueError"

/-- Body of the loop on rank 0, migration.py:101-108. -/
def gatherOne (offP offT : List ℕ) (acc : List V × List (List ℕ)) (r : ℕ) : Proc (Payload V) (List V × List (List ℕ)) := do
  let m ← recv r 12
  let np ← lift (item offP r)
  let tmp ← lift (asPts np m)
  let m2 ← recv r 13
  let nt ← lift (item offT r)
  let tmp2 ← lift (asCells nt m2)
  let off ← lift (item (cumsum offP) (r - 1))
  pure (acc.1 ++ tmp, acc.2 ++ tmp2.map fun row => row.map (· + off))

/-- The loop `for r in np.arange(1, size)`, migration.py:97-108. -/
def gather (rank : ℕ) (points : List V) (faces : List (List ℕ)) (offP offT : List ℕ) :
    List ℕ → List V × List (List ℕ) → Proc (Payload V) (List V × List (List ℕ))
  | [], acc => pure acc
  | r :: rs, acc => do
    (if rank = r then do
      send 0 12 (.pts points)
      send 0 13 (.cells faces)
     else pure ())
    let acc ← (if rank = 0 then gatherOne offP offT acc r else pure acc)
    gather rank points faces offP offT rs acc

/-- `aggregate(points, faces, comm, size, rank, dim)`, migration.py:72-113. `fix` is `geometry.fix_mesh(.., delete_unused=True)`
(without its third result); `none` is the returned pair `(True, True)`. -/
def aggregate (fix : List V → List (List ℕ) → Except String (List V × List (List ℕ))) (size rank : ℕ) (points : List V)
    (faces : List (List ℕ)) : Proc (Payload V) (Option (List V × List (List ℕ))) := do
  let (points, faces) ← lift (fix points faces)
  let lp ← reduce size rank 0 (.counts (unit size rank points.length))
  let lt ← reduce size rank 0 (.counts (unit size rank faces.length))
  let g ← gather rank points faces (sumCounts size lp) (sumCounts size lt) (List.range' 1 (size - 1)) (points, faces)
  if rank = 0 then pure (some g) else pure none

/-- What `localize_points` sends: blocks, and extents (`None` where not known). migration/migration.py:61-63, 68. -/
inductive Parcel (V X : Type)
  | pts (l : List V)
  | ext (e : Option X)

variable {X : Type}

/-- The received array as points, migration.py:63 (reshape to rows of `dim` entries). -/
def parcelPts : Parcel V X → Except String (List V)
  | .pts l => .ok l
  | .ext _ => .error "ValueError"

/-- The broadcast extents, migration/migration.py:68. -/
def parcelExt : Parcel V X → Except String (Option X)
  | .ext e => .ok e
  | .pts _ => .error "ValueError"

/-- The loop `for local in range(1, size)`, migration.py:59-69; the state is `points` (if bound) and `extents`. -/
def spread (rank : ℕ) (blocks : List (List V)) : List ℕ → Option (List V) → Option X → Proc (Parcel V X) (Option (List V) × Option X)
  | [], points, ext => pure (points, ext)
  | loc :: rest, points, ext => do
    let points ← (if rank = 0 then do
        let b ← lift (item blocks loc)
        send loc 12 (.pts b)
        pure points
      else if rank = loc then do
        let m ← recv 0 12
        let l ← lift (parcelPts m)
        pure (some l)
      else pure points)
    let points ← (if rank = 0 then do
        let b ← lift (item blocks 0)
        pure (some b)
      else pure points)
    let e ← bcast 0 (.ext (if rank ≠ 0 then none else ext))
    let e ← lift (parcelExt e)
    spread rank blocks rest points e

/-- `localize_points(blocks, extents, comm, dim)`, migration.py:55-70. On ranks other than 0 `blocks` and `extents` are `None`. -/
def localizePoints (size rank : ℕ) (blocks : List (List V)) (extents : Option X) : Proc (Parcel V X) (List V × Option X) := do
  let (points, e) ← spread rank blocks (List.range' 1 (size - 1)) none extents
  match points with
  | some l => pure (l, e)
  | none => raise "UnboundLocalError: points"

end SM.Distribute
