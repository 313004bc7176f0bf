import Verif.Model.Mpi
import Verif.Model.Np
import Mathlib.Algebra.Order.Floor.Ring

/-!
# `exchange`

SeismicMesh/migration/migration.py:148-183. Arrays are lists of rows; an array of shape (1, 0) is `[[]]`.
-/

namespace SM.Exchange

open Mpi Np

variable {K : Type} [Field K] [LinearOrder K] [FloorSemiring K]

/-- The body, migration.py:156-183: `nsb`, `nsa` are the header counts, `below`, `above` the rows sent. -/
def body (rank size nsb nsa : ℕ) (below above : List (List K)) : Proc (List (List K)) (List (List K)) :=
  if nsb = 0 ∧ nsa = 0 then pure [[]]
  else do
    -- 160-161
    (if nsb ≠ 0 ∧ rank ≠ 0 then send (rank - 1) 11 below else pure ())
    -- 164-167
    let up ← (if rank ≠ size - 1 then recv (rank + 1) 11 else pure [])
    -- 170-172
    (if nsa ≠ 0 ∧ rank ≠ size - 1 then send (rank + 1) 11 above else pure ())
    -- 175-179
    let down ← (if rank ≠ 0 then recv (rank - 1) 11 else pure [])
    -- 181
    pure (up ++ down)

/-- `exchange(comm, rank, size, exports, dim)`, migration.py:148-183; `int(x)` of the header entries is `⌊x⌋₊`. -/
def exchange (rank size dim : ℕ) (exports : List (List K)) : Proc (List (List K)) (List (List K)) := do
  let header ← lift (item exports 0)
  let b ← lift (item header 0)
  let a ← lift (item header 1)
  body rank size ⌊b⌋₊ ⌊a⌋₊
    (((exports.drop 1).take ⌊b⌋₊).map fun row => row.take dim)
    (((exports.drop (⌊b⌋₊ + 1)).take ⌊a⌋₊).map fun row => row.take dim)

end SM.Exchange
