import Verif.Model.Native
import Verif.Model.Limgrad

/-!
# The gradient limiter on its buffers

SeismicMesh/sizing/cpp/FastHJ.cpp with every subscript checked (see `Model/Native.lean`).
`Model/Limgrad.lean` has the same loops on functions. Not modelled: 32-bit overflow, the `assert`s
(the accesses they guard are checked here).
-/

namespace SM.NativeHJ

open SM.Native

variable {K : Type} [Field K] [LinearOrder K]

/-- `b[i] = v` for an `int` subscript, FastHJ.cpp:141-142, 149-150. -/
def wrZ {α : Type} (b : List α) (i : ℤ) (v : α) : Except String (List α) :=
  if 0 ≤ i then wr b i.toNat v else .error oob

/-- Body of the innermost loop, FastHJ.cpp:136-152; `s = (ffun_s, aset)`. -/
def relaxB (step ftol : K) (iter : ℤ) (nod1 : ℤ) (s : List K × List ℤ) (nod2 : ℤ) :
    Except String (List K × List ℤ) := do
  let a ← rd s.1 nod1
  let b ← rd s.1 nod2
  if a > b then
    if a > (b + step) + ftol then
      let v ← wrZ s.1 nod1 (b + step)
      let m ← wrZ s.2 nod1 iter
      return (v, m)
    else return s
  else
    if b > (a + step) + ftol then
      let v ← wrZ s.1 nod2 (a + step)
      let m ← wrZ s.2 nod2 iter
      return (v, m)
    else return s

/-- The stencil loop of one active node, FastHJ.cpp:95-153. -/
def visitB (step ftol : K) (d0 d1 d2 : ℤ) (iter : ℤ) (s : List K × List ℤ) (a : ℕ) :
    Except String (List K × List ℤ) :=
  (Limgrad.stencil d0 d1 d2 a).foldlM (relaxB step ftol iter (a : ℤ)) s

/-- `findIndices(aset, value)`, FastHJ.cpp:52-60. -/
def findB (A : List ℤ) (value : ℤ) : List ℕ :=
  (List.range A.length).filter fun i => A[i]? == some value

/-- The outer loop, FastHJ.cpp:83-155. -/
def loopB (step ftol : K) (d0 d1 d2 : ℤ) : ℕ → ℤ → List K × List ℤ → Except String (List K × List ℤ)
  | 0, _, s => .ok s
  | n + 1, iter, s =>
    let aidx := findB s.2 (iter - 1)
    if aidx.isEmpty then .ok s
    else do
      let s' ← aidx.foldlM (visitB step ftol d0 d1 d2 iter) s
      loopB step ftol d0 d1 d2 n (iter + 1) s'

/-- `*std::min_element(ffun.begin(), ffun.end())`, FastHJ.cpp:71; dereferences `end()` if empty. -/
def minB (ffun : List K) : Except String K :=
  match ffun with
  | [] => .error oob
  | x :: l => .ok (l.foldl min x)

/-- `c_limgrad` and its wrapper `limgrad`, FastHJ.cpp:63-186. `std::vector<int> aset(n, -1)` throws for
a negative `n`. -/
def limgrad (seps : K) (dims : List ℤ) (elen dfdx : K) (imax : ℕ) (ffun : List K) :
    Except String (List K) := do
  let f ← memcpy ffun.length ffun
  let d ← memcpy 3 dims
  let d0 ← rd d 0
  let d1 ← rd d 1
  let d2 ← rd d 2
  if d0 * d1 * d2 < 0 then throw "std::length_error"
  let m ← minB f
  let s ← loopB (elen * dfdx) (m * seps) d0 d1 d2 imax 0 (f, List.replicate (d0 * d1 * d2).toNat (-1))
  return s.1

end SM.NativeHJ
