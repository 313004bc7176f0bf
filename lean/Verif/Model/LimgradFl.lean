import Verif.Model.Limgrad

/-!
# The gradient limiter in floating-point arithmetic

`SeismicMesh/sizing/cpp/FastHJ.cpp` and `_enforce_gradation_sizing` again, on an arbitrary ordered set `F` of numbers with
arbitrary operations `add` and `mul` (the rounded `+` and `*` of `double`), applied in the order the code applies them.
`Model/Limgrad.lean` is the case of exact operations. Not modelled: NaN.
-/

namespace SM.LimgradFl

open SM.Limgrad

/-- The arithmetic of `double` used by the limiter, sizing/cpp/FastHJ.cpp:71, 137-138, 145-146. -/
structure Arith (F : Type) where
  zero : F
  add : F → F → F
  mul : F → F → F

variable {F : Type} [LinearOrder F] (O : Arith F)

/-- Body of the innermost loop, sizing/cpp/FastHJ.cpp:136-151: `fun1 = ffun_s[nod2] + elen * dfdx`,
`ffun_s[nod1] > fun1 + ftol`. -/
def relax (elen dfdx ftol : F) (iter : ℤ) (s : St F) (nod1 nod2 : ℕ) : St F :=
  if s.val nod1 > s.val nod2 then
    if s.val nod1 > O.add (O.add (s.val nod2) (O.mul elen dfdx)) ftol then
      { val := Function.update s.val nod1 (O.add (s.val nod2) (O.mul elen dfdx)),
        mark := Function.update s.mark nod1 iter }
    else s
  else
    if s.val nod2 > O.add (O.add (s.val nod1) (O.mul elen dfdx)) ftol then
      { val := Function.update s.val nod2 (O.add (s.val nod1) (O.mul elen dfdx)),
        mark := Function.update s.mark nod2 iter }
    else s

/-- The stencil loop of one active node, sizing/cpp/FastHJ.cpp:125-152. -/
def visit (elen dfdx ftol : F) (nb : ℕ → List ℕ) (iter : ℤ) (s : St F) (a : ℕ) : St F :=
  (nb a).foldl (fun s b => relax O elen dfdx ftol iter s a b) s

/-- One pass over the active nodes, sizing/cpp/FastHJ.cpp:95-153. -/
def sweep (elen dfdx ftol : F) (nb : ℕ → List ℕ) (iter : ℤ) (active : List ℕ) (s : St F) : St F :=
  active.foldl (visit O elen dfdx ftol nb iter) s

/-- The outer loop, sizing/cpp/FastHJ.cpp:83-155; the flag says that it was left by the `break`. -/
def loop (elen dfdx ftol : F) (nb : ℕ → List ℕ) (N : ℕ) : ℕ → ℤ → St F → St F × Bool
  | 0, _, s => (s, false)
  | n + 1, iter, s =>
    let aidx := findIndices N s.mark (iter - 1)
    if aidx.isEmpty then (s, true)
    else loop elen dfdx ftol nb N n (iter + 1) (sweep O elen dfdx ftol nb iter aidx s)

/-- `*std::min_element(..)`, sizing/cpp/FastHJ.cpp:71. -/
def minElement (N : ℕ) (f : ℕ → F) : F :=
  (List.range N).foldl (fun m i => min m (f i)) (f 0)

/-- `c_limgrad`, sizing/cpp/FastHJ.cpp:63-157; `seps` is `std::sqrt(EPS)`. -/
def cLimgrad (d0 d1 d2 : ℕ) (seps elen dfdx : F) (imax : ℕ) (ffun : ℕ → F) : (ℕ → F) × Bool :=
  let ftol := O.mul (minElement (d0 * d1 * d2) ffun) seps
  let r := loop O elen dfdx ftol (nbrs d0 d1 d2) (d0 * d1 * d2) imax 0 { val := ffun, mark := fun _ => -1 }
  (r.1.val, r.2)

/-- `_enforce_gradation_sizing`, sizing/mesh_size_function.py:469-494. -/
def enforceGradation (imax : ℕ) (d0 d1 d2 : ℕ) (seps : F) (cell : ℕ → ℕ → ℕ → F) (grade elen : F) :
    Except Err ((ℕ → ℕ → ℕ → F) × Bool) :=
  if grade = O.zero then .ok (cell, true)
  else if grade < O.zero then .error .gradeNegative
  else
    let r := cLimgrad O d0 d1 d2 seps elen grade imax (flattenF d0 d1 cell)
    .ok (reshapeF d0 d1 r.1, r.2)

end SM.LimgradFl
