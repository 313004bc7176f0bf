import Mathlib.Algebra.Order.Field.Basic
import Mathlib.Data.Rat.Floor
import Mathlib.Logic.Function.Basic

/-!
# Model of the gradient limiter

Models `SeismicMesh/sizing/cpp/FastHJ.cpp` and the Python caller
`_enforce_gradation_sizing` (`SeismicMesh/sizing/mesh_size_function.py`).

Doubles are idealised as a linearly ordered field `K`; a `std::vector` of length
`N` is a function `ℕ → K` of which only the arguments `< N` are used.
-/

namespace SM.Limgrad

/-- `sub2ind`, FastHJ.cpp:27-31 (1-based, column major). -/
def sub2ind (row col zpos nrows ncols : ℤ) : ℤ :=
  (col - 1) * nrows + row + (zpos - 1) * (nrows * ncols)

/-- `ind2sub`, FastHJ.cpp:34-46. `std::ceil(tmp / a)` is a division of doubles
(here: rationals, exact); `(tmp2 - 1) / nrows` is a C++ `int` division
(truncating), on which `std::floor` does nothing. -/
def ind2sub (index nrows ncols : ℤ) : ℤ × ℤ × ℤ :=
  let k : ℤ := ⌈(index : ℚ) / ((nrows * ncols : ℤ) : ℚ)⌉
  let tmp2 : ℤ := index - (k - 1) * nrows * ncols
  let j : ℤ := 1 + (tmp2 - 1).tdiv nrows
  let i : ℤ := tmp2 - (j - 1) * nrows
  (i, j, k)

/-- The six stencil partners of node `inod0` (0-based), FastHJ.cpp:98-123:
`npos[1..6]` after the decrement, in the order the inner loop visits them. -/
def stencil (d0 d1 d2 : ℤ) (inod0 : ℤ) : List ℤ :=
  let inod := inod0 + 1
  let s := ind2sub inod d0 d1
  let i := s.1
  let j := s.2.1
  let k := s.2.2
  [ sub2ind i (min (j + 1) d1) k d0 d1 - 1,
    sub2ind i (max (j - 1) 1) k d0 d1 - 1,
    sub2ind (min (i + 1) d0) j k d0 d1 - 1,
    sub2ind (max (i - 1) 1) j k d0 d1 - 1,
    sub2ind i j (min (k + 1) d2) d0 d1 - 1,
    sub2ind i j (max (k - 1) 1) d0 d1 - 1 ]

/-- `stencil` as natural-number node indices (`std::vector` subscripts). FastHJ.cpp:105-123. -/
def nbrs (d0 d1 d2 : ℕ) (a : ℕ) : List ℕ :=
  (stencil d0 d1 d2 a).map Int.toNat

variable {K : Type*} [Field K] [LinearOrder K]

/-- The two vectors mutated by the loop: `ffun_s` (`val`) and `aset` (`mark`). FastHJ.cpp:69, 77-79. -/
structure St (K : Type*) where
  val : ℕ → K
  mark : ℕ → ℤ

/-- Body of the innermost loop for the pair `(nod1, nod2)`, FastHJ.cpp:136-151.
`step` is `elen * dfdx`. -/
def relax (step ftol : K) (iter : ℤ) (s : St K) (nod1 nod2 : ℕ) : St K :=
  if s.val nod1 > s.val nod2 then
    if s.val nod1 > (s.val nod2 + step) + ftol then
      { val := Function.update s.val nod1 (s.val nod2 + step),
        mark := Function.update s.mark nod1 iter }
    else s
  else
    if s.val nod2 > (s.val nod1 + step) + ftol then
      { val := Function.update s.val nod2 (s.val nod1 + step),
        mark := Function.update s.mark nod2 iter }
    else s

/-- The loop over the stencil of one active node, FastHJ.cpp:125-152. -/
def visit (step ftol : K) (nb : ℕ → List ℕ) (iter : ℤ) (s : St K) (a : ℕ) : St K :=
  (nb a).foldl (fun s b => relax step ftol iter s a b) s

/-- `findIndices(aset, value)`, FastHJ.cpp:52-60. -/
def findIndices (N : ℕ) (mark : ℕ → ℤ) (v : ℤ) : List ℕ :=
  (List.range N).filter (fun i => mark i = v)

/-- One pass over the active nodes, FastHJ.cpp:95-153; the active list is computed
before the pass. -/
def sweep (step ftol : K) (nb : ℕ → List ℕ) (iter : ℤ) (active : List ℕ) (s : St K) : St K :=
  active.foldl (visit step ftol nb iter) s

/-- The outer loop `for (iter = 0; iter < imax; iter++)`, FastHJ.cpp:83-155.
First argument: sweeps left (`imax - iter`). The flag is `true` iff the loop was
left by the `break` at line 92 (no active node). -/
def loop (step ftol : K) (nb : ℕ → List ℕ) (N : ℕ) : ℕ → ℤ → St K → St K × Bool
  | 0, _, s => (s, false)
  | n + 1, iter, s =>
    let aidx := findIndices N s.mark (iter - 1)
    if aidx.isEmpty then (s, true)
    else loop step ftol nb N n (iter + 1) (sweep step ftol nb iter aidx s)

/-- `*std::min_element(ffun.begin(), ffun.end())`, FastHJ.cpp:71. -/
def minElement (N : ℕ) (f : ℕ → K) : K :=
  (List.range N).foldl (fun m i => min m (f i)) (f 0)

/-- `c_limgrad`, FastHJ.cpp:63-157, on a general neighbour table. `seps` stands for
`std::sqrt(EPS)`. Result: the vector `ffun_s` and the convergence flag (the flag is
not returned by the C++ code; it is ghost information). -/
def cLimgradOn (nb : ℕ → List ℕ) (N : ℕ) (seps elen dfdx : K) (imax : ℕ) (ffun : ℕ → K) :
    (ℕ → K) × Bool :=
  let ftol := minElement N ffun * seps
  let r := loop (elen * dfdx) ftol nb N imax 0 { val := ffun, mark := fun _ => -1 }
  (r.1.val, r.2)

/-- `c_limgrad` on the grid `dims`. FastHJ.cpp:63-157. -/
def cLimgrad (d0 d1 d2 : ℕ) (seps elen dfdx : K) (imax : ℕ) (ffun : ℕ → K) : (ℕ → K) × Bool :=
  cLimgradOn (nbrs d0 d1 d2) (d0 * d1 * d2) seps elen dfdx imax ffun

/-- `cell_size.flatten("F")`, mesh_size_function.py:487 (a 2-D array is the case
`d2 = 1`, lines 484-485). -/
def flattenF (d0 d1 : ℕ) (A : ℕ → ℕ → ℕ → K) : ℕ → K :=
  fun n => A (n % d0) (n / d0 % d1) (n / (d0 * d1))

/-- `np.reshape(tmp, sz, "F")`, mesh_size_function.py:489-492. -/
def reshapeF (d0 d1 : ℕ) (v : ℕ → K) : ℕ → ℕ → ℕ → K :=
  fun i j k => v (i + d0 * (j + d1 * k))

/-- Exceptions of `_enforce_gradation_sizing`, sizing/mesh_size_function.py:477, 494. -/
inductive Err | gradeNegative
  deriving DecidableEq, Repr

/-- `_enforce_gradation_sizing`, mesh_size_function.py:469-494, with the iteration cap
as a parameter (the code passes the literal 10000, line 488). Second component: ghost
convergence flag (`true` when the limiter is switched off by `grade == 0`). -/
def enforceGradation (imax : ℕ) (d0 d1 d2 : ℕ) (seps : K) (cell : ℕ → ℕ → ℕ → K) (grade elen : K) :
    Except Err ((ℕ → ℕ → ℕ → K) × Bool) :=
  if grade = 0 then .ok (cell, true)
  else if grade < 0 then .error .gradeNegative
  else
    let r := cLimgrad d0 d1 d2 seps elen grade imax (flattenF d0 d1 cell)
    .ok (reshapeF d0 d1 r.1, r.2)

/-- The literal iteration cap, mesh_size_function.py:488. -/
def shippedCap : ℕ := 10000

end SM.Limgrad
