import Verif.Model.LimgradFl

/-!
# The gradient limiter when sizes are NaN

`SeismicMesh/sizing/cpp/FastHJ.cpp` and `_enforce_gradation_sizing` once more, on `Option F`: `none` is NaN, `some x` the number
`x`. A comparison with NaN is false and an operation with NaN gives NaN. Simplification: an operation on two numbers gives a
number (no `inf - inf`, no `0 * inf`).
-/

namespace SM.LimgradNan

open SM.Limgrad SM.LimgradFl

variable {F : Type} [LinearOrder F] (O : Arith F)

/-- `a < b` of `double`, sizing/cpp/FastHJ.cpp:140, 142, 147. -/
def lt : Option F → Option F → Bool
  | some x, some y => decide (x < y)
  | _, _ => false

/-- `+` of `double`, sizing/cpp/FastHJ.cpp:137-147. -/
def add : Option F → Option F → Option F
  | some x, some y => some (O.add x y)
  | _, _ => none

/-- `*` of `double`, sizing/cpp/FastHJ.cpp:71, 137-138. -/
def mul : Option F → Option F → Option F
  | some x, some y => some (O.mul x y)
  | _, _ => none

/-- Body of the innermost loop, sizing/cpp/FastHJ.cpp:136-151. -/
def relax (elen dfdx ftol : Option F) (iter : ℤ) (s : St (Option F)) (nod1 nod2 : ℕ) : St (Option F) :=
  if lt (s.val nod2) (s.val nod1) then
    if lt (add O (add O (s.val nod2) (mul O elen dfdx)) ftol) (s.val nod1) then
      { val := Function.update s.val nod1 (add O (s.val nod2) (mul O elen dfdx)),
        mark := Function.update s.mark nod1 iter }
    else s
  else
    if lt (add O (add O (s.val nod1) (mul O elen dfdx)) ftol) (s.val nod2) then
      { val := Function.update s.val nod2 (add O (s.val nod1) (mul O elen dfdx)),
        mark := Function.update s.mark nod2 iter }
    else s

/-- The stencil loop of one active node, sizing/cpp/FastHJ.cpp:125-152. -/
def visit (elen dfdx ftol : Option F) (nb : ℕ → List ℕ) (iter : ℤ) (s : St (Option F)) (a : ℕ) : St (Option F) :=
  (nb a).foldl (fun s b => relax O elen dfdx ftol iter s a b) s

/-- One pass over the active nodes, sizing/cpp/FastHJ.cpp:95-153. -/
def sweep (elen dfdx ftol : Option F) (nb : ℕ → List ℕ) (iter : ℤ) (active : List ℕ) (s : St (Option F)) : St (Option F) :=
  active.foldl (visit O elen dfdx ftol nb iter) s

/-- The outer loop, sizing/cpp/FastHJ.cpp:83-155; the flag says that it was left by the `break`. -/
def loop (elen dfdx ftol : Option F) (nb : ℕ → List ℕ) (N : ℕ) : ℕ → ℤ → St (Option F) → St (Option F) × Bool
  | 0, _, s => (s, false)
  | n + 1, iter, s =>
    let aidx := findIndices N s.mark (iter - 1)
    if aidx.isEmpty then (s, true)
    else loop elen dfdx ftol nb N n (iter + 1) (sweep O elen dfdx ftol nb iter aidx s)

/-- `*std::min_element(..)`: the smallest so far is replaced when an element is less than it. sizing/cpp/FastHJ.cpp:71. -/
def minElement (N : ℕ) (f : ℕ → Option F) : Option F :=
  (List.range N).foldl (fun m i => if lt (f i) m then f i else m) (f 0)

/-- `c_limgrad`, sizing/cpp/FastHJ.cpp:63-157; `seps` is `std::sqrt(EPS)`. -/
def cLimgrad (d0 d1 d2 : ℕ) (seps : F) (elen dfdx : Option F) (imax : ℕ) (ffun : ℕ → Option F) : (ℕ → Option F) × Bool :=
  let ftol := mul O (minElement (d0 * d1 * d2) ffun) (some seps)
  let r := loop O elen dfdx ftol (nbrs d0 d1 d2) (d0 * d1 * d2) imax 0 { val := ffun, mark := fun _ => -1 }
  (r.1.val, r.2)

/-- `cell_size.flatten("F")`, sizing/mesh_size_function.py:487. -/
def flattenF (d0 d1 : ℕ) (A : ℕ → ℕ → ℕ → Option F) : ℕ → Option F :=
  fun n => A (n % d0) (n / d0 % d1) (n / (d0 * d1))

/-- `np.reshape(tmp, sz, "F")`, sizing/mesh_size_function.py:489-492. -/
def reshapeF (d0 d1 : ℕ) (v : ℕ → Option F) : ℕ → ℕ → ℕ → Option F :=
  fun i j k => v (i + d0 * (j + d1 * k))

/-- `_enforce_gradation_sizing`, sizing/mesh_size_function.py:469-494. -/
def enforceGradation (imax : ℕ) (d0 d1 d2 : ℕ) (seps : F) (cell : ℕ → ℕ → ℕ → Option F) (grade elen : Option F) :
    Except Err ((ℕ → ℕ → ℕ → Option F) × Bool) :=
  if grade = some O.zero then .ok (cell, true)
  else if lt grade (some O.zero) then .error .gradeNegative
  else
    let r := cLimgrad O d0 d1 d2 seps elen grade imax (flattenF d0 d1 cell)
    .ok (reshapeF d0 d1 r.1, r.2)

end SM.LimgradNan
