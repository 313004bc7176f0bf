import Verif.Model.Domain

/-!
# Boxes and their set operations in floating-point arithmetic

`Rectangle.eval`, `Cube.eval` (with an optional translation, without rotation and stretching) and the set operations of
smoothness 0 of `SeismicMesh/geometry/signed_distance_functions.py`, on numbers of an arbitrary ordered field `K` with every
addition and subtraction followed by a rounding `rnd : K → K`, in the order of the code. Comparisons, `min`, `max` and the change
of sign are exact, as in IEEE 754. Not modelled: NaN, infinities.
-/

namespace SM.SdfFl

variable {K : Type} [Field K] [LinearOrder K]

/-- `Rectangle(bbox, translate=t)` and `Cube(bbox, translate=t)`, geometry/signed_distance_functions.py:474-519. -/
inductive Prim (K : Type) : ℕ → Type
  | rect (x1 x2 y1 y2 : K) (t : Option (Fin 2 → K)) : Prim K 2
  | cube (x1 x2 y1 y2 z1 z2 : K) (t : Option (Fin 3 → K)) : Prim K 3

/-- A geometry made with `Union`, `Intersection` and `Difference` (smoothness 0) of a non-empty list of geometries,
geometry/signed_distance_functions.py:307-426. -/
inductive Geo (K : Type) (d : ℕ) : Type
  | prim (p : Prim K d) : Geo K d
  | union (o : Geo K d) (os : List (Geo K d)) : Geo K d
  | inter (o : Geo K d) (os : List (Geo K d)) : Geo K d
  | diff (o : Geo K d) (os : List (Geo K d)) : Geo K d

/-- `c_drectangle`, geometry/cpp/fast_geometry.cpp:165-185, one point. -/
def drectangle (rnd : K → K) (x1 x2 y1 y2 : K) (p : Fin 2 → K) : K :=
  let sum1 := rnd (-y1 + p 1)
  let sum2 := rnd (y2 - p 1)
  let sum3 := rnd (-x1 + p 0)
  let sum4 := rnd (x2 - p 0)
  let tmp1 := min sum1 sum2
  let tmp2 := min tmp1 sum3;
  -(min tmp2 sum4)

/-- `c_dblock`, geometry/cpp/fast_geometry.cpp:104-134, one point. -/
def dblock (rnd : K → K) (x1 x2 y1 y2 z1 z2 : K) (p : Fin 3 → K) : K :=
  let sum1 := rnd (-z1 + p 2)
  let sum2 := rnd (z2 - p 2)
  let sum3 := rnd (-y1 + p 1)
  let sum4 := rnd (y2 - p 1)
  let sum5 := rnd (-x1 + p 0)
  let sum6 := rnd (x2 - p 0)
  let tmp1 := min sum1 sum2
  let tmp2 := min tmp1 sum3;
  let tmp3 := min tmp2 sum4
  let tmp4 := min tmp3 sum5;
  -(min tmp4 sum6)

/-- `_manipulate` with a translation only, geometry/signed_distance_functions.py:91-92, 123-124. -/
def translateBack (rnd : K → K) {d : ℕ} (t : Option (Fin d → K)) (p : Fin d → K) : Fin d → K :=
  match t with
  | none => p
  | some t => fun i => rnd (p i - t i)

/-- `Rectangle.eval` and `Cube.eval`, geometry/signed_distance_functions.py:485-489, 508-517. -/
def Prim.eval (rnd : K → K) : {d : ℕ} → Prim K d → (Fin d → K) → K
  | _, .rect x1 x2 y1 y2 t, p => drectangle rnd x1 x2 y1 y2 (translateBack rnd t p)
  | _, .cube x1 x2 y1 y2 z1 z2 t, p => dblock rnd x1 x2 y1 y2 z1 z2 (translateBack rnd t p)

mutual
/-- `eval` of the geometry, geometry/signed_distance_functions.py:336-339, 376-379, 416-420. -/
def Geo.eval (rnd : K → K) {d : ℕ} (p : Fin d → K) : Geo K d → K
  | .prim q => q.eval rnd p
  | .union o os => (evals rnd p os).foldl min (o.eval rnd p)
  | .inter o os => (evals rnd p os).foldl max (o.eval rnd p)
  | .diff o os => ((evals rnd p os).map Neg.neg).foldl max (o.eval rnd p)

/-- The list comprehension `[d.eval(x) for d in self.domains]`, geometry/signed_distance_functions.py:337, 377, 418. -/
def evals (rnd : K → K) {d : ℕ} (p : Fin d → K) : List (Geo K d) → List K
  | [] => []
  | o :: os => o.eval rnd p :: evals rnd p os
end

end SM.SdfFl
