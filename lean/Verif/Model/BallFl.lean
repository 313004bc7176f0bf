import Verif.Model.Sdf

/-!
# Disks and balls as evaluated in floating-point arithmetic

`rnd` rounds the exact result of one operation (subtraction, product, sum, square root) to the nearest number of the format; overflow and
underflow are not modelled.
-/

namespace SM.BallFl

open SM.Sdf (Pt)

/-- `(a - b) ** 2` for doubles: numpy evaluates `** 2` as a product. geometry/signed_distance_functions.py:598, 603. -/
noncomputable def sqDiff (rnd : ℝ → ℝ) (a b : ℝ) : ℝ := rnd (rnd (a - b) * rnd (a - b))

/-- `_ddisk`, geometry/signed_distance_functions.py:596-598. -/
noncomputable def ddisk (rnd : ℝ → ℝ) (xc yc r : ℝ) (p : Pt 2) : ℝ :=
  rnd (rnd √(rnd (sqDiff rnd (p 0) xc + sqDiff rnd (p 1) yc)) - r)

/-- `dball`, geometry/signed_distance_functions.py:601-603: the sum goes from left to right. -/
noncomputable def dball (rnd : ℝ → ℝ) (xc yc zc r : ℝ) (p : Pt 3) : ℝ :=
  rnd (rnd √(rnd (rnd (sqDiff rnd (p 0) xc + sqDiff rnd (p 1) yc) + sqDiff rnd (p 2) zc)) - r)

end SM.BallFl
