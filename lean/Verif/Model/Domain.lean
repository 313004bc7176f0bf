import Verif.Model.Sdf
import Mathlib.LinearAlgebra.Matrix.Notation

/-!
# Model of the domain objects

Constructors of the classes in `SeismicMesh/geometry/signed_distance_functions.py`, their
`bbox`, `corners` and `eval`, with the manipulations stretch / rotate / translate.

A Python object becomes an `Obj d` (`d` its `dim`). Python would let objects of different
dimension be combined (the assertions at lines 310, 350, 390 compare a list with an integer
and never fail); the model combines objects of one dimension only. In 2-D a non-zero second
or third rotation angle makes `eval` fail (`Ry_inv` missing); the model has one angle there.
A stretch vector must be a float NumPy array (`/=`), it is normalised in place (line 138).
-/

namespace SM.Domain

open SM.Sdf

noncomputable section

/-- A bounding box `(lo0, hi0, lo1, hi1, ...)`. geometry/signed_distance_functions.py:76-77 (`bbox[::2]`, `bbox[1::2]`). -/
structure Box (d : ℕ) where
  lo : Pt d
  hi : Pt d

/-- A domain object: its `eval`, `bbox`, `corners`. The attributes read by geometry/signed_distance_functions.py:81-101, 307-427 and by mesh_generator.py:425-430. -/
structure Obj (d : ℕ) where
  eval : Pt d → ℝ
  bbox : Box d
  corners : Option (List (Pt d))

/-- `corners(bbox)`, signed_distance_functions.py:74-78: `itertools.product` of the
`(min,max)` pairs, last axis fastest. -/
def corners : (d : ℕ) → Box d → List (Pt d)
  | 0, _ => [fun i => i.elim0]
  | d + 1, b =>
    [b.lo 0, b.hi 0].flatMap fun x =>
      (corners d ⟨fun i => b.lo i.succ, fun i => b.hi i.succ⟩).map fun c => Fin.cons x c

/-- `np.min` / `np.max` of a non-empty list. numpy; geometry/signed_distance_functions.py:143-157, 178-182. -/
def npMin : List ℝ → ℝ
  | [] => 0
  | x :: xs => xs.foldl min x
/-- `np.max`; numpy; geometry/signed_distance_functions.py:143-157, 178-182. -/
def npMax : List ℝ → ℝ
  | [] => 0
  | x :: xs => xs.foldl max x

/-- `(np.min(tmp[0]), np.max(tmp[0]), ...)`, e.g. signed_distance_functions.py:142-158. -/
def hull {d : ℕ} (ps : List (Pt d)) : Box d :=
  ⟨fun i => npMin (ps.map (· i)), fun i => npMax (ps.map (· i))⟩

/-- `np.dot` of two vectors. geometry/signed_distance_functions.py:116, 128, 140. -/
def dot {d : ℕ} (v x : Pt d) : ℝ := ∑ i, v i * x i

/-- Length of the stretch vector: `object.alpha`, signed_distance_functions.py:137. -/
def alpha {d : ℕ} (v : Pt d) : ℝ := √(dot v v)

/-- `object.v /= object.alpha`, signed_distance_functions.py:138. -/
def unit {d : ℕ} (v : Pt d) : Pt d := fun i => v i / alpha v

/-- Stretching applied to the corners, signed_distance_functions.py:139-141. -/
def stretchFwd {d : ℕ} (v x : Pt d) : Pt d :=
  fun i => (dot (unit v) x * unit v i) * alpha v + (x i - dot (unit v) x * unit v i)

/-- `_scale_back`, signed_distance_functions.py:111-120. -/
def scaleBack {d : ℕ} (v x : Pt d) : Pt d :=
  fun i => (dot (unit v) x * unit v i) / alpha v + (x i - dot (unit v) x * unit v i)

/-- 2-D rotation matrix, signed_distance_functions.py:167-172. -/
def R2 (t : ℝ) : Matrix (Fin 2) (Fin 2) ℝ :=
  !![Real.cos t, -Real.sin t; Real.sin t, Real.cos t]

/-- 3-D rotation matrices, signed_distance_functions.py:185-205. -/
def Rx (t : ℝ) : Matrix (Fin 3) (Fin 3) ℝ :=
  !![1, 0, 0; 0, Real.cos t, -Real.sin t; 0, Real.sin t, Real.cos t]
/-- geometry/signed_distance_functions.py:192-198. -/
def Ry (t : ℝ) : Matrix (Fin 3) (Fin 3) ℝ :=
  !![Real.cos t, 0, Real.sin t; 0, 1, 0; -Real.sin t, 0, Real.cos t]
/-- geometry/signed_distance_functions.py:199-205. -/
def Rz (t : ℝ) : Matrix (Fin 3) (Fin 3) ℝ :=
  !![Real.cos t, -Real.sin t, 0; Real.sin t, Real.cos t, 0; 0, 0, 1]

/-- The `rotate` argument: one angle in 2-D, three in 3-D. geometry/signed_distance_functions.py:163-164, 430, 451. -/
inductive Rot : ℕ → Type
  | two (t : ℝ) : Rot 2
  | three (a b c : ℝ) : Rot 3

/-- The rotation part of `_manipulate`, signed_distance_functions.py:93-98
(`_rotate_back` with `R_inv = R.T`). -/
def Rot.back : {d : ℕ} → Rot d → Pt d → Pt d
  | _, .two t, x => if t ≠ 0 then (R2 t).transpose.mulVec x else x
  | _, .three a b c, x =>
    let x := if a ≠ 0 then (Rx a).transpose.mulVec x else x
    let x := if b ≠ 0 then (Ry b).transpose.mulVec x else x
    if c ≠ 0 then (Rz c).transpose.mulVec x else x

/-- `bbox` and `corners` attributes while an object is configured. geometry/signed_distance_functions.py:104-108. -/
abbrev Attr (d : ℕ) := Box d × Option (List (Pt d))

/-- `_build_rotation`, signed_distance_functions.py:162-254. In 3-D the box is rotated about
each axis *separately* (always from the unrotated box) and the hull of the three results is
taken (lines 243-251). -/
def Rot.build : {d : ℕ} → Rot d → Attr d → Attr d
  | _, .two t, (b, cs) =>
    if t ≠ 0 then
      let b' := hull ((corners 2 b).map fun c => (R2 t).mulVec c)
      (b', some (corners 2 b'))
    else (b, cs)
  | _, .three ax ay az, (b, cs) =>
    if ax ≠ 0 ∨ ay ≠ 0 ∨ az ≠ 0 then
      let bx := if ax ≠ 0 then hull ((corners 3 b).map fun c => (Rx ax).mulVec c) else b
      let by' := if ay ≠ 0 then hull ((corners 3 b).map fun c => (Ry ay).mulVec c) else b
      let bz := if az ≠ 0 then hull ((corners 3 b).map fun c => (Rz az).mulVec c) else b
      let b' : Box 3 := ⟨fun i => min (min (bx.lo i) (by'.lo i)) (bz.lo i),
        fun i => max (max (bx.hi i) (by'.hi i)) (bz.hi i)⟩
      (b', some (corners 3 b'))
    else (b, cs)

/-- The keyword arguments `rotate`, `stretch`, `translate` of a primitive. geometry/signed_distance_functions.py:430, 451, 475, 496, 523, 547, 570. -/
structure Manip (d : ℕ) where
  rot : Rot d
  stretch : Option (Pt d)
  trans : Option (Pt d)

/-- `_build_stretch`, signed_distance_functions.py:130-159. -/
def buildStretch {d : ℕ} (v : Option (Pt d)) (a : Attr d) : Attr d :=
  match v with
  | none => a
  | some v =>
    let b' := hull ((corners d a.1).map (stretchFwd v))
    (b', some (corners d b'))

/-- `_build_translation`, signed_distance_functions.py:257-280: the box is shifted, the
corners are not. -/
def buildTranslation {d : ℕ} (t : Option (Pt d)) (a : Attr d) : Attr d :=
  match t with
  | none => a
  | some t => (⟨fun i => a.1.lo i + t i, fun i => a.1.hi i + t i⟩, a.2)

/-- `_configure_manipulations`, signed_distance_functions.py:104-108. -/
def configure {d : ℕ} (m : Manip d) (a : Attr d) : Attr d :=
  buildTranslation m.trans (m.rot.build (buildStretch m.stretch a))

/-- `_manipulate`, signed_distance_functions.py:89-101. -/
def manipulate {d : ℕ} (m : Manip d) (x : Pt d) : Pt d :=
  let x := match m.trans with
    | none => x
    | some t => fun i => x i - t i
  let x := m.rot.back x
  match m.stretch with
  | none => x
  | some v => scaleBack v x

/-- `Disk`, signed_distance_functions.py:429-445. -/
def mkDisk (x0 : Pt 2) (r : ℝ) (m : Manip 2) : Obj 2 where
  eval x := ddisk (x0 0) (x0 1) r (manipulate m x)
  bbox := (configure m (⟨fun i => x0 i - r, fun i => x0 i + r⟩, none)).1
  corners := none

/-- `Ball`, signed_distance_functions.py:450-468. -/
def mkBall (x0 : Pt 3) (r : ℝ) (m : Manip 3) : Obj 3 where
  eval x := dball (x0 0) (x0 1) (x0 2) r (manipulate m x)
  bbox := (configure m (⟨fun i => x0 i - r, fun i => x0 i + r⟩, none)).1
  corners := none

/-- `Rectangle`, signed_distance_functions.py:474-489. -/
def mkRectangle (b : Box 2) (m : Manip 2) : Obj 2 where
  eval x := drectangle (b.lo 0) (b.hi 0) (b.lo 1) (b.hi 1) (manipulate m x)
  bbox := (configure m (b, some (Domain.corners 2 b))).1
  corners := (configure m (b, some (Domain.corners 2 b))).2

/-- `Cube`, signed_distance_functions.py:495-516. -/
def mkCube (b : Box 3) (m : Manip 3) : Obj 3 where
  eval x := dblock (b.lo 0) (b.hi 0) (b.lo 1) (b.hi 1) (b.lo 2) (b.hi 2) (manipulate m x)
  bbox := (configure m (b, some (Domain.corners 3 b))).1
  corners := (configure m (b, some (Domain.corners 3 b))).2

/-- `Torus`, signed_distance_functions.py:522-540. -/
def mkTorus (r1 r2 : ℝ) (m : Manip 3) : Obj 3 where
  eval x := dtorus r1 r2 (manipulate m x)
  bbox := (configure m (⟨fun _ => -2 * (2 * max r1 r2), fun _ => 2 * (2 * max r1 r2)⟩, none)).1
  corners := none

/-- `Prism`, signed_distance_functions.py:546-563. -/
def mkPrism (b h : ℝ) (m : Manip 3) : Obj 3 where
  eval x := dprism b h (manipulate m x)
  bbox := (configure m (⟨![-b, -b, -h], ![b, b, h]⟩, none)).1
  corners := none

/-- `Cylinder`, signed_distance_functions.py:569-590. -/
def mkCylinder (h r : ℝ) (m : Manip 3) : Obj 3 where
  eval x := dcylinder h r (manipulate m x)
  bbox := (configure m (⟨fun _ => -2 * max (h / 2) r, fun _ => 2 * max (h / 2) r⟩, none)).1
  corners := none

/-- `Repeat`, signed_distance_functions.py:283-294. -/
def mkRepeat (b : Box 3) (o : Obj 3) (period : Pt 3) : Obj 3 where
  eval x := repeatEval (b.lo 0) (b.hi 0) (b.lo 1) (b.hi 1) (b.lo 2) (b.hi 2) o.eval period x
  bbox := b
  corners := none

/-- `min(d.bbox[0] for d in domains), ...`, e.g. signed_distance_functions.py:314-328. -/
def hullBoxes {d : ℕ} (o : Obj d) (os : List (Obj d)) : Box d :=
  ⟨fun i => npMin ((o :: os).map fun o => o.bbox.lo i),
   fun i => npMax ((o :: os).map fun o => o.bbox.hi i)⟩

/-- `_gather_corners`, signed_distance_functions.py:81-86. -/
def gatherCorners {d : ℕ} (os : List (Obj d)) : Option (List (Pt d)) :=
  let cs := os.filterMap (·.corners)
  if cs.length = 0 then none else some cs.flatten

/-- `Union`, `Intersection`, `Difference`, signed_distance_functions.py:307-423, for a
non-empty list of domains (an empty list raises `IndexError`). -/
def mkUnion {d : ℕ} (k : ℝ) (o : Obj d) (os : List (Obj d)) : Obj d where
  eval x := unionEval k (o.eval x) (os.map fun o => o.eval x)
  bbox := hullBoxes o os
  corners := gatherCorners (o :: os)
/-- `Intersection.__init__`, geometry/signed_distance_functions.py:348-370. -/
def mkIntersection {d : ℕ} (k : ℝ) (o : Obj d) (os : List (Obj d)) : Obj d where
  eval x := interEval k (o.eval x) (os.map fun o => o.eval x)
  bbox := hullBoxes o os
  corners := gatherCorners (o :: os)
/-- `Difference.__init__`, geometry/signed_distance_functions.py:388-410. -/
def mkDifference {d : ℕ} (k : ℝ) (o : Obj d) (os : List (Obj d)) : Obj d where
  eval x := diffEval k (o.eval x) (os.map fun o => o.eval x)
  bbox := hullBoxes o os
  corners := gatherCorners (o :: os)

/-- Selection of the corners that become fixed points in a serial run,
mesh_generator.py:426-429: `corners[fd(corners) > -1000 * deps]`. -/
def keptCorners {d : ℕ} (o : Obj d) (deps : ℝ) : List (Pt d) :=
  match o.corners with
  | none => []
  | some cs => cs.filter fun c => decide (o.eval c > -1000 * deps)

end

end SM.Domain
