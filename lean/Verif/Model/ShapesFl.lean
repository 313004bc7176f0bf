import Verif.Model.Domain

/-!
# Every shape as evaluated in floating-point arithmetic

All primitives of `SeismicMesh/geometry/signed_distance_functions.py` with the manipulations translate, rotate and stretch, and the set operations with and without
smoothness. Every arithmetic operation is followed by a rounding; comparisons, `min`, `max`, absolute value and change of sign are exact, as in IEEE 754. Not modelled:
NaN, infinities, overflow and underflow. `Repeat` is not included: `np.mod` jumps, so its value cannot be close to the exact one next to a seam.
-/

namespace SM.ShapesFl

open SM.Sdf (Pt)
open SM.Domain (Box Rot Manip Obj)

noncomputable section

/-- The operations of numpy used by geometry/signed_distance_functions.py: the rounding after one operation, `np.cos`, `np.sin` and `np.dot` of two vectors (BLAS: in an
order of its choice). -/
structure Arith where
  rnd : ℝ → ℝ
  cos : ℝ → ℝ
  sin : ℝ → ℝ
  dot : {d : ℕ} → Pt d → Pt d → ℝ

variable (A : Arith)

/-- `_length` of a two-column row, geometry/signed_distance_functions.py:70-71 (`** (1.0 / 2)` is a square root in numpy). -/
def length2 (a b : ℝ) : ℝ := A.rnd √(A.rnd (A.rnd (|a| * |a|) + A.rnd (|b| * |b|)))

/-- `drectangle`, geometry/cpp/fast_geometry.cpp:165-185, one point. -/
def drectangle (x1 x2 y1 y2 : ℝ) (p : Pt 2) : ℝ :=
  -(min (min (min (A.rnd (-y1 + p 1)) (A.rnd (y2 - p 1))) (A.rnd (-x1 + p 0))) (A.rnd (x2 - p 0)))

/-- `dblock`, geometry/cpp/fast_geometry.cpp:104-134, one point. -/
def dblock (x1 x2 y1 y2 z1 z2 : ℝ) (p : Pt 3) : ℝ :=
  -(min (min (min (min (min (A.rnd (-z1 + p 2)) (A.rnd (z2 - p 2))) (A.rnd (-y1 + p 1))) (A.rnd (y2 - p 1))) (A.rnd (-x1 + p 0))) (A.rnd (x2 - p 0)))

/-- `(a - b) ** 2`, geometry/signed_distance_functions.py:598, 603. -/
def sqDiff (a b : ℝ) : ℝ := A.rnd (A.rnd (a - b) * A.rnd (a - b))

/-- `_ddisk`, geometry/signed_distance_functions.py:596-598. -/
def ddisk (xc yc r : ℝ) (p : Pt 2) : ℝ := A.rnd (A.rnd √(A.rnd (sqDiff A (p 0) xc + sqDiff A (p 1) yc)) - r)

/-- `dball`, geometry/signed_distance_functions.py:601-603. -/
def dball (xc yc zc r : ℝ) (p : Pt 3) : ℝ :=
  A.rnd (A.rnd √(A.rnd (A.rnd (sqDiff A (p 0) xc + sqDiff A (p 1) yc) + sqDiff A (p 2) zc)) - r)

/-- `Torus.eval` after the manipulations, geometry/signed_distance_functions.py:537-540. -/
def dtorus (r1 r2 : ℝ) (p : Pt 3) : ℝ := A.rnd (length2 A (A.rnd (length2 A (p 0) (p 2) - r1)) (p 1) - r2)

/-- `Prism.eval` after the manipulations, geometry/signed_distance_functions.py:559-563; the literal is rounded when the source is read. -/
def dprism (b h : ℝ) (p : Pt 3) : ℝ :=
  max (A.rnd (|p 2| - h))
    (A.rnd (max (A.rnd (A.rnd (|p 0| * A.rnd 0.866025) + A.rnd (p 1 * 0.5))) (-p 1) - A.rnd (b * 0.5)))

/-- `Cylinder.eval` after the manipulations, geometry/signed_distance_functions.py:572, 585-590. -/
def dcylinder (h r : ℝ) (p : Pt 3) : ℝ :=
  let h2 := A.rnd (h / 2.0)
  let d0 := A.rnd (|length2 A (p 0) (p 2)| - r)
  let d1 := A.rnd (|p 1| - h2)
  A.rnd (min (max d0 d1) 0 + length2 A (max d0 0) (max d1 0))

/-- 2-D rotation matrix, geometry/signed_distance_functions.py:167-172. -/
def R2 (t : ℝ) : Matrix (Fin 2) (Fin 2) ℝ := !![A.cos t, -A.sin t; A.sin t, A.cos t]
/-- 3-D rotation matrices, geometry/signed_distance_functions.py:185-191. -/
def Rx (t : ℝ) : Matrix (Fin 3) (Fin 3) ℝ := !![1, 0, 0; 0, A.cos t, -A.sin t; 0, A.sin t, A.cos t]
/-- geometry/signed_distance_functions.py:192-198. -/
def Ry (t : ℝ) : Matrix (Fin 3) (Fin 3) ℝ := !![A.cos t, 0, A.sin t; 0, 1, 0; -A.sin t, 0, A.cos t]
/-- geometry/signed_distance_functions.py:199-205. -/
def Rz (t : ℝ) : Matrix (Fin 3) (Fin 3) ℝ := !![A.cos t, -A.sin t, 0; A.sin t, A.cos t, 0; 0, 0, 1]

/-- `_rotate_back` with `R_inv = R.T`, geometry/signed_distance_functions.py:127-128: one dot product per coordinate. -/
def rotateBack {d : ℕ} (R : Matrix (Fin d) (Fin d) ℝ) (x : Pt d) : Pt d := fun i => A.dot (R.transpose i) x

/-- The rotation part of `_manipulate`, geometry/signed_distance_functions.py:93-98. -/
def back : {d : ℕ} → Rot d → Pt d → Pt d
  | _, .two t, x => if t ≠ 0 then rotateBack A (R2 A t) x else x
  | _, .three a b c, x =>
    let x := if a ≠ 0 then rotateBack A (Rx A a) x else x
    let x := if b ≠ 0 then rotateBack A (Ry A b) x else x
    if c ≠ 0 then rotateBack A (Rz A c) x else x

/-- `object.alpha`, geometry/signed_distance_functions.py:137. -/
def alpha {d : ℕ} (v : Pt d) : ℝ := A.rnd √(A.dot v v)

/-- `object.v /= object.alpha`, geometry/signed_distance_functions.py:138. -/
def unit {d : ℕ} (v : Pt d) : Pt d := fun i => A.rnd (v i / alpha A v)

/-- `_scale_back`, geometry/signed_distance_functions.py:111-120. -/
def scaleBack {d : ℕ} (v x : Pt d) : Pt d := fun i =>
  let vx := A.rnd (A.dot (unit A v) x * unit A v i)
  A.rnd (A.rnd (vx / alpha A v) + A.rnd (x i - vx))

/-- `_manipulate`, geometry/signed_distance_functions.py:89-101. -/
def manipulate {d : ℕ} (m : Manip d) (x : Pt d) : Pt d :=
  let x := match m.trans with
    | none => x
    | some t => fun i => A.rnd (x i - t i)
  let x := back A m.rot x
  match m.stretch with
  | none => x
  | some v => scaleBack A v x

/-- The arguments of the constructors of the primitives, geometry/signed_distance_functions.py:429-592. -/
inductive Prim : ℕ → Type
  | disk (x0 : Pt 2) (r : ℝ) (m : Manip 2) : Prim 2
  | ball (x0 : Pt 3) (r : ℝ) (m : Manip 3) : Prim 3
  | rectangle (b : Box 2) (m : Manip 2) : Prim 2
  | cube (b : Box 3) (m : Manip 3) : Prim 3
  | torus (r1 r2 : ℝ) (m : Manip 3) : Prim 3
  | prism (b h : ℝ) (m : Manip 3) : Prim 3
  | cylinder (h r : ℝ) (m : Manip 3) : Prim 3

/-- `eval` of the primitives, geometry/signed_distance_functions.py:442-444, 465-467, 485-489, 508-517, 536-540, 557-563, 583-590. -/
def Prim.eval : {d : ℕ} → Prim d → Pt d → ℝ
  | _, .disk x0 r m, x => ddisk A (x0 0) (x0 1) r (manipulate A m x)
  | _, .ball x0 r m, x => dball A (x0 0) (x0 1) (x0 2) r (manipulate A m x)
  | _, .rectangle b m, x => drectangle A (b.lo 0) (b.hi 0) (b.lo 1) (b.hi 1) (manipulate A m x)
  | _, .cube b m, x => dblock A (b.lo 0) (b.hi 0) (b.lo 1) (b.hi 1) (b.lo 2) (b.hi 2) (manipulate A m x)
  | _, .torus r1 r2 m, x => dtorus A r1 r2 (manipulate A m x)
  | _, .prism b h m, x => dprism A b h (manipulate A m x)
  | _, .cylinder h r m, x => dcylinder A h r (manipulate A m x)

/-- A geometry: a primitive, or `Union`, `Intersection`, `Difference` of a non-empty list of geometries with a smoothness, geometry/signed_distance_functions.py:307-426. -/
inductive Geo (d : ℕ) : Type
  | prim (p : Prim d) : Geo d
  | union (k : ℝ) (o : Geo d) (os : List (Geo d)) : Geo d
  | inter (k : ℝ) (o : Geo d) (os : List (Geo d)) : Geo d
  | diff (k : ℝ) (o : Geo d) (os : List (Geo d)) : Geo d

/-- `Union._smooth_union`, geometry/signed_distance_functions.py:332-334. -/
def smoothUnion (k d1 d2 : ℝ) : ℝ :=
  let h := max (A.rnd (k - |A.rnd (d1 - d2)|)) 0
  A.rnd (min d1 d2 - A.rnd (A.rnd (A.rnd (h * h) * 0.25) / k))

/-- `Intersection._smooth_intersection`, geometry/signed_distance_functions.py:372-374. -/
def smoothIntersection (k d1 d2 : ℝ) : ℝ :=
  let h := max (A.rnd (k - |A.rnd (d1 - d2)|)) 0
  A.rnd (max d1 d2 + A.rnd (A.rnd (A.rnd (h * h) * 0.25) / k))

/-- `Difference._smooth_difference`, geometry/signed_distance_functions.py:412-414. -/
def smoothDifference (k d1 d2 : ℝ) : ℝ :=
  let h := max (A.rnd (k - |A.rnd (-d1 - d2)|)) 0
  A.rnd (max (-d1) d2 + A.rnd (A.rnd (A.rnd (h * h) * 0.25) / k))

/-- `Union.eval` on the operands' values, geometry/signed_distance_functions.py:336-341. -/
def unionEval (k d0 : ℝ) (ds : List ℝ) : ℝ := if k = 0 then ds.foldl min d0 else ds.foldl (smoothUnion A k) d0

/-- `Intersection.eval`, geometry/signed_distance_functions.py:376-381. -/
def interEval (k d0 : ℝ) (ds : List ℝ) : ℝ := if k = 0 then ds.foldl max d0 else ds.foldl (smoothIntersection A k) d0

/-- `Difference.eval`, geometry/signed_distance_functions.py:416-423: with smoothness the list is reversed before the loop. -/
def diffEval (k d0 : ℝ) (ds : List ℝ) : ℝ :=
  if k = 0 then (ds.map Neg.neg).foldl max d0
  else
    match (d0 :: ds).reverse with
    | [] => 0 -- unreachable: the list is not empty
    | e :: es => es.foldl (smoothDifference A k) e

mutual
/-- `eval` of the geometry, geometry/signed_distance_functions.py:336-341, 376-381, 416-423. -/
def Geo.eval {d : ℕ} (x : Pt d) : Geo d → ℝ
  | .prim p => p.eval A x
  | .union k o os => unionEval A k (o.eval x) (evals x os)
  | .inter k o os => interEval A k (o.eval x) (evals x os)
  | .diff k o os => diffEval A k (o.eval x) (evals x os)

/-- The list comprehension `[d.eval(x) for d in self.domains]`, geometry/signed_distance_functions.py:337, 377, 418, 422. -/
def evals {d : ℕ} (x : Pt d) : List (Geo d) → List ℝ
  | [] => []
  | o :: os => o.eval x :: evals x os
end

/-- The object in exact arithmetic. geometry/signed_distance_functions.py:429-592. -/
def Prim.obj : {d : ℕ} → Prim d → Obj d
  | _, .disk x0 r m => Domain.mkDisk x0 r m
  | _, .ball x0 r m => Domain.mkBall x0 r m
  | _, .rectangle b m => Domain.mkRectangle b m
  | _, .cube b m => Domain.mkCube b m
  | _, .torus r1 r2 m => Domain.mkTorus r1 r2 m
  | _, .prism b h m => Domain.mkPrism b h m
  | _, .cylinder h r m => Domain.mkCylinder h r m

mutual
/-- The object in exact arithmetic. geometry/signed_distance_functions.py:307-426. -/
def Geo.obj {d : ℕ} : Geo d → Obj d
  | .prim p => p.obj
  | .union k o os => Domain.mkUnion k o.obj (objs os)
  | .inter k o os => Domain.mkIntersection k o.obj (objs os)
  | .diff k o os => Domain.mkDifference k o.obj (objs os)

/-- The operands. geometry/signed_distance_functions.py:308, 348, 388. -/
def objs {d : ℕ} : List (Geo d) → List (Obj d)
  | [] => []
  | o :: os => o.obj :: objs os
end

end

end SM.ShapesFl
