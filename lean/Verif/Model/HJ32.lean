import Verif.Model.NativeHJ

/-!
# The gradient limiter in machine arithmetic

SeismicMesh/sizing/cpp/FastHJ.cpp once more, now with every `int` operation carried out in 32 bits: a result outside
`[-2^31, 2^31)` is undefined behaviour in C++ and the error `ovf` here, and a `size_t` stored in an `int` is reduced
modulo 2^32. The one floating-point division that subscripts depend on (`ind2sub`) is rounded: `rnd` is the rounding.
The `double`s of the field itself stay in an ordered field, as in `Model/NativeHJ.lean`.
-/

namespace SM.HJ32

open SM.Native SM.NativeHJ

/-- Signed overflow: undefined behaviour. sizing/cpp/FastHJ.cpp:27-46, 69, 81. -/
def ovf : String := "signed integer overflow"

/-- The result of an `int` operation, or of a conversion of a `double` to `int`. sizing/cpp/FastHJ.cpp:27-46, 69. -/
def int (z : ℤ) : Except String ℤ :=
  if -2147483648 ≤ z ∧ z < 2147483648 then .ok z else .error ovf

/-- A `size_t` stored in an `int`, sizing/cpp/FastHJ.cpp:56 (`B.push_back(i)`), 164 (`int num_points = ffun.size()`). -/
def narrow (n : ℕ) : ℤ :=
  if n % 4294967296 < 2147483648 then ((n % 4294967296 : ℕ) : ℤ) else ((n % 4294967296 : ℕ) : ℤ) - 4294967296

/-- `sub2ind`, sizing/cpp/FastHJ.cpp:27-31. -/
def sub2ind (row col zpos nrows ncols : ℤ) : Except String ℤ := do
  let a ← int (col - 1)
  let b ← int (a * nrows)
  let c ← int (b + row)
  let e ← int (zpos - 1)
  let f ← int (nrows * ncols)
  let g ← int (e * f)
  int (c + g)

/-- `ind2sub`, sizing/cpp/FastHJ.cpp:34-46. `tmp / a` is rounded; `nrows * ncols` and `index` are exact as `double`s.
A zero divisor is an error. -/
def ind2sub (rnd : ℚ → ℚ) (index nrows ncols : ℤ) : Except String (ℤ × ℤ × ℤ) := do
  let a ← int (nrows * ncols)
  if a = 0 then throw "division by zero"
  let k ← int ⌈rnd ((index : ℚ) / (a : ℚ))⌉
  let k1 ← int (k - 1)
  let u ← int (k1 * nrows)
  let v ← int (u * ncols)
  let tmp2 ← int (index - v)
  let w ← int (tmp2 - 1)
  let q ← int (w.tdiv nrows)
  let j ← int (1 + q)
  let j1 ← int (j - 1)
  let x ← int (j1 * nrows)
  let i ← int (tmp2 - x)
  return (i, j, k)

/-- `npos[1..6]` of the active node `aidx[i]`, sizing/cpp/FastHJ.cpp:97-123. -/
def stencil (rnd : ℚ → ℚ) (d0 d1 d2 : ℤ) (a : ℤ) : Except String (List ℤ) := do
  let inod ← int (a + 1)
  let s ← ind2sub rnd inod d0 d1
  let i := s.1
  let j := s.2.1
  let k := s.2.2
  let jp ← int (j + 1)
  let n1 ← sub2ind i (min jp d1) k d0 d1
  let jm ← int (j - 1)
  let n2 ← sub2ind i (max jm 1) k d0 d1
  let ip ← int (i + 1)
  let n3 ← sub2ind (min ip d0) j k d0 d1
  let im ← int (i - 1)
  let n4 ← sub2ind (max im 1) j k d0 d1
  let kp ← int (k + 1)
  let n5 ← sub2ind i j (min kp d2) d0 d1
  let km ← int (k - 1)
  let n6 ← sub2ind i j (max km 1) d0 d1
  let m1 ← int (n1 - 1)
  let m2 ← int (n2 - 1)
  let m3 ← int (n3 - 1)
  let m4 ← int (n4 - 1)
  let m5 ← int (n5 - 1)
  let m6 ← int (n6 - 1)
  return [m1, m2, m3, m4, m5, m6]

variable {K : Type} [Field K] [LinearOrder K]

/-- One active node, sizing/cpp/FastHJ.cpp:95-153. `nod1 = npos[0]` is `inod - 1` again. -/
def visit (rnd : ℚ → ℚ) (step ftol : K) (d0 d1 d2 iter : ℤ) (s : List K × List ℤ) (a : ℤ) :
    Except String (List K × List ℤ) := do
  let l ← stencil rnd d0 d1 d2 a
  l.foldlM (relaxB step ftol iter a) s

/-- The outer loop, sizing/cpp/FastHJ.cpp:83-155. First argument: sweeps left. -/
def loop (rnd : ℚ → ℚ) (step ftol : K) (d0 d1 d2 : ℤ) : ℕ → ℤ → List K × List ℤ → Except String (List K × List ℤ)
  | 0, _, s => .ok s
  | n + 1, iter, s => do
    let v ← int (iter - 1)
    let aidx := (findB s.2 v).map narrow
    if aidx.isEmpty then .ok s
    else do
      let s' ← aidx.foldlM (visit rnd step ftol d0 d1 d2 iter) s
      let iter' ← int (iter + 1)
      loop rnd step ftol d0 d1 d2 n iter' s'

/-- `limgrad` and `c_limgrad`, sizing/cpp/FastHJ.cpp:63-186. A `std::vector` of a negative size throws. -/
def limgrad (rnd : ℚ → ℚ) (seps : K) (dims : List ℤ) (elen dfdx : K) (imax : ℕ) (ffun : List K) :
    Except String (List K) := do
  let np := narrow ffun.length
  if np < 0 then throw "std::length_error"
  let f ← memcpy np.toNat ffun
  let d ← memcpy 3 dims
  let d0 ← rd d 0
  let d1 ← rd d 1
  let d2 ← rd d 2
  let p ← int (d0 * d1)
  let n ← int (p * d2)
  if n < 0 then throw "std::length_error"
  let m ← minB f
  let s ← loop rnd (elen * dfdx) (m * seps) d0 d1 d2 imax 0 (f, List.replicate n.toNat (-1))
  return s.1

end SM.HJ32
