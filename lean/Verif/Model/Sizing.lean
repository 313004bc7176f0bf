import Verif.Model.Limgrad
import Mathlib.Algebra.Order.Floor.Defs
import Mathlib.Algebra.BigOperators.Group.Finset.Basic

/-!
# Model of the mesh-size pipeline

Models `SeismicMesh/sizing/mesh_size_function.py`: `get_sizing_function_from_segy`
(lines 34-239), its stages (lines 411-494, 526-587, 649-657).

Arrays are functions of three indices together with a shape `(d0,d1,d2)`; a 2-D array is the
case `d2 = 1`. Doubles are an ordered field `K`; values that can become infinite or NaN in the
code are elements of `Fl K`.
Not modelled: printing, warnings, the conversion of array dtypes, rounding, `ny = 0` shapes,
a velocity array whose shape differs from `(nz, nx[, ny])`.
-/

namespace SM.Sizing

/-- A 3-D array. sizing/mesh_size_function.py:411-587. -/
abbrev Arr (K : Type*) := ℕ → ℕ → ℕ → K

/-- Floating-point values as far as the size computation distinguishes them. IEEE doubles in sizing/mesh_size_function.py:208-217, 425, 445-448. -/
inductive Fl (K : Type*)
  | nan
  | ninf
  | fin (x : K)
  | pinf
  deriving DecidableEq, Repr

section
variable {K : Type*} [Field K] [LinearOrder K]

/-- Division of two finite doubles (zero divisor taken as `+0.0`). sizing/mesh_size_function.py:425, 445, 448. -/
def fdiv (x y : K) : Fl K :=
  if y = 0 then (if x = 0 then .nan else if 0 < x then .pinf else .ninf) else .fin (x / y)

/-- `np.minimum` (propagates NaN). sizing/mesh_size_function.py:208-211. -/
def fmin : Fl K → Fl K → Fl K
  | .nan, _ => .nan
  | _, .nan => .nan
  | .ninf, _ => .ninf
  | _, .ninf => .ninf
  | .pinf, y => y
  | x, .pinf => x
  | .fin x, .fin y => .fin (min x y)

/-- `x < h` for a double `x` and a finite `h`. sizing/mesh_size_function.py:214. -/
def fltK : Fl K → K → Prop
  | .nan, _ => False
  | .ninf, _ => True
  | .fin x, h => x < h
  | .pinf, _ => False

/-- `x > h`. sizing/mesh_size_function.py:217. -/
def fgtK : Fl K → K → Prop
  | .nan, _ => False
  | .ninf, _ => False
  | .fin x, h => h < x
  | .pinf, _ => True

instance (x : Fl K) (h : K) : Decidable (fltK x h) := by
  cases x <;> unfold fltK <;> infer_instance
instance (x : Fl K) (h : K) : Decidable (fgtK x h) := by
  cases x <;> unfold fgtK <;> infer_instance

/-- The exceptions raised by the rank-0 branch. sizing/mesh_size_function.py:161, 173, 204, 418-420, 434, 457-461, 477, 532, 584. -/
inductive Err
  | vpWater | bboxDim | unknownOption | wlNeg | freqNeg | gradNeg | crNeg | dtNeg | orderSmall
  | gradeNeg | padNeg | padStyle
  deriving DecidableEq, Repr

/-- The option dictionary `sz_opts` after `update(kwargs)`, mesh_size_function.py:102-127 (the options that
matter after the velocity model has been read). `window` is `stencil_size` per axis, as used by
`uniform_filter` (`int(size)`). -/
structure Opts (K : Type*) where
  vpWater : Option K
  hmin : K
  hmax : K
  wl : K
  freq : K
  grad : K
  grade : K
  window : ℕ × ℕ × ℕ
  spaceOrder : K
  dt : K
  crMax : K
  padStyle : String
  domainPad : K
  units : String

/-- The defaults, mesh_size_function.py:102-125. -/
def Opts.default : Opts K where
  vpWater := some 1500
  hmin := 150
  hmax := 10000
  wl := 0
  freq := 2
  grad := 0
  grade := 0
  window := (10, 10, 10)
  spaceOrder := 1
  dt := 0
  crMax := 1
  padStyle := "edge"
  domainPad := 0
  units := "m-s"

/-- The recognised option names, mesh_size_function.py:178-201. -/
def knownOptions : List String :=
  ["hmin", "hmax", "wl", "freq", "cr_max", "dt", "space_order", "grad", "grade", "stencil_size",
   "pad_style", "domain_pad", "units", "nz", "nx", "ny", "byte_order", "axes_order",
   "axes_order_sort", "dtype", "velocity_data", "vp_water"]

/-- Unit conversion, mesh_size_function.py:146-151 (`vp *= 1000.0`, `vp *= 0.30`: in place). -/
def convertUnits (units : String) (vp : Arr K) : Arr K :=
  if units = "km-s" then fun i j k => vp i j k * 1000
  else if units = "ft-s" then fun i j k => vp i j k * (3 / 10)
  else vp

/-- The guard `len(pos) > 0 and any(pos[0])`, mesh_size_function.py:154-155: `pos[0]` holds the *row numbers*
of the nodes with `vp < 1e-3`; `any` is true iff one of them is non-zero. -/
def waterGuard (d0 d1 d2 : ℕ) (vp : Arr K) : Bool :=
  (List.range d0).any fun i => (List.range d1).any fun j => (List.range d2).any fun k =>
    decide (vp i j k < 1 / 1000) && decide (i ≠ 0)

/-- `vp[pos] = vp_water`, mesh_size_function.py:165. -/
def fillWater (w : K) (vp : Arr K) : Arr K :=
  fun i j k => if vp i j k < 1 / 1000 then w else vp i j k

/-- Replacement of zero velocities, mesh_size_function.py:153-165. -/
def replaceWater (d0 d1 d2 : ℕ) (vpWater : Option K) (vp : Arr K) : Except Err (Arr K) :=
  if waterGuard d0 d1 d2 vp then
    match vpWater with
    | none => .error .vpWater
    | some w => if w < 1300 ∨ 1800 < w then .error .vpWater else .ok (fillWater w vp)
  else .ok vp

/-- Contents of the array object passed as `velocity_data` after mesh_size_function.py:129-165: `vp` is the
caller's array itself (line 129), both `*=` and `vp[pos] = ...` write into it. -/
def callerArrayAfter (d0 d1 d2 : ℕ) (o : Opts K) (vp : Arr K) : Arr K :=
  match replaceWater d0 d1 d2 o.vpWater (convertUnits o.units vp) with
  | .ok v => v
  | .error _ => convertUnits o.units vp

/-- A bounding box, mesh_size_function.py:168-173: four numbers in 2-D, six in 3-D. -/
inductive Bbox (K : Type*)
  | two (z0 z1 x0 x1 : K)
  | three (z0 z1 x0 x1 y0 y1 : K)

/-- mesh_size_function.py:168-173. -/
def parseBbox : List K → Except Err (Bbox K)
  | [z0, z1, x0, x1] => .ok (.two z0 z1 x0 x1)
  | [z0, z1, x0, x1, y0, y1] => .ok (.three z0 z1 x0 x1 y0 y1)
  | _ => .error .bboxDim

/-- The bounding box as a tuple, sizing/mesh_size_function.py:540-545, 551-558. -/
def Bbox.toList : Bbox K → List K
  | .two z0 z1 x0 x1 => [z0, z1, x0, x1]
  | .three z0 z1 x0 x1 y0 y1 => [z0, z1, x0, x1, y0, y1]

/-- `bbox[1] - bbox[0]`. sizing/mesh_size_function.py:224. -/
def Bbox.zLen : Bbox K → K
  | .two z0 z1 _ _ => z1 - z0
  | .three z0 z1 _ _ _ _ => z1 - z0

/-- `vp.ndim`. sizing/mesh_size_function.py:168-173. -/
def Bbox.dim : Bbox K → ℕ
  | .two .. => 2
  | .three .. => 3

/-- mesh_size_function.py:177-206. -/
def checkNames (names : List String) : Except Err Unit :=
  if names.all (fun n => n ∈ knownOptions) then .ok () else .error .unknownOption

/-- `_wavelength_sizing`, mesh_size_function.py:411-425; the scalar 99999 is broadcast. -/
def wavelengthSizing (vp : Arr K) (wl freq : K) : Except Err (Arr (Fl K)) :=
  if wl = 0 then .ok fun _ _ _ => .fin 99999
  else if wl < 0 then .error .wlNeg
  else if freq < 0 then .error .freqNeg
  else .ok fun i j k => fdiv (vp i j k) (freq * wl)

/-- scipy `mode="reflect"` index extension (`d c b a | a b c d | d c b a`). scipy `ndimage`; sizing/mesh_size_function.py:440-441. -/
def reflect (n : ℕ) (k : ℤ) : ℕ :=
  let m := (k % (2 * n : ℤ)).toNat
  if m < n then m else 2 * n - 1 - m

/-- `uniform_filter1d(size = w)` along one axis of length `n`: mean of the `w` values at
`i - w/2, ..., i - w/2 + w - 1`; sizes `≤ 1` are skipped by `uniform_filter`. scipy `ndimage`; sizing/mesh_size_function.py:440-441. -/
def ufilt1 (w n : ℕ) (f : ℕ → K) (i : ℕ) : K :=
  if w ≤ 1 then f i
  else (∑ j ∈ Finset.range w, f (reflect n ((i : ℤ) - (w / 2 : ℕ) + j))) / w

/-- `ndimage.uniform_filter(vp, window)`, mesh_size_function.py:440: the 1-D filter along each axis in turn.
(2-D: axis 2 has length 1, on which the filter is the identity.) -/
def ufilt (d0 d1 d2 : ℕ) (w : ℕ × ℕ × ℕ) (A : Arr K) : Arr K :=
  let A0 : Arr K := fun i j k => ufilt1 w.1 d0 (fun i' => A i' j k) i
  let A1 : Arr K := fun i j k => ufilt1 w.2.1 d1 (fun j' => A0 i j' k) j
  fun i j k => ufilt1 w.2.2 d2 (fun k' => A1 i j k') k

/-- `win_var`, mesh_size_function.py:440-442. -/
def winVar (d0 d1 d2 : ℕ) (w : ℕ × ℕ × ℕ) (vp : Arr K) : Arr K :=
  let mean := ufilt d0 d1 d2 w vp
  let sqr := ufilt d0 d1 d2 w fun i j k => vp i j k ^ 2
  fun i j k => sqr i j k - mean i j k ^ 2

/-- `np.amax` over the grid. numpy; sizing/mesh_size_function.py:445, 566-567. -/
def amax (d0 d1 d2 : ℕ) (A : Arr K) : K :=
  (List.range (d0 * d1 * d2)).foldl (fun m n => max m (Limgrad.flattenF d0 d1 A n)) (A 0 0 0)

/-- `np.amin` over the grid. numpy; sizing/mesh_size_function.py:447. -/
def amin (d0 d1 d2 : ℕ) (A : Arr K) : K :=
  (List.range (d0 * d1 * d2)).foldl (fun m n => min m (Limgrad.flattenF d0 d1 A n)) (A 0 0 0)

/-- `_gradient_sizing`, mesh_size_function.py:428-448. If `np.amax(win_var)` is `0.0` the division of line 445
yields NaN at the maximum, mesh_size_function.py:447 subtracts NaN from everything: all values are NaN. -/
def gradientSizing (d0 d1 d2 : ℕ) (w : ℕ × ℕ × ℕ) (vp : Arr K) (grad : K) :
    Except Err (Arr (Fl K)) :=
  if grad = 0 then .ok fun _ _ _ => .fin 99999
  else if grad < 0 then .error .gradNeg
  else
    let v := winVar d0 d1 d2 w vp
    let mx := amax d0 d1 d2 v
    if mx = 0 then .ok fun _ _ _ => .nan
    else
      let nv : Arr K := fun i j k => v i j k / mx
      let mn := amin d0 d1 d2 nv
      .ok fun i j k => fdiv grad (nv i j k - mn + 1 / 10)

/-- The requested size, mesh_size_function.py:175 and 207-211. -/
def requested (d0 d1 d2 : ℕ) (o : Opts K) (vp : Arr K) : Except Err (Arr (Fl K)) :=
  if 0 < o.wl ∨ 0 < o.grad then
    match wavelengthSizing vp o.wl o.freq with
    | .error e => .error e
    | .ok a =>
      match gradientSizing d0 d1 d2 o.window vp o.grad with
      | .error e => .error e
      | .ok b => .ok fun i j k => fmin (a i j k) (b i j k)
  else .ok fun _ _ _ => .fin o.hmin

/-- mesh_size_function.py:213-217 on one value. -/
def clamp (hmin hmax : K) (x : Fl K) : Fl K :=
  let y := if fltK x hmin then .fin hmin else x
  if fgtK y hmax then .fin hmax else y

/-- After clamping a value is finite or NaN (`Sizing.clamp_cases`). If some grid value is NaN
this is `none`; the code goes on and returns NaN sizes at those nodes. sizing/mesh_size_function.py:207-217. -/
def finite (d0 d1 d2 : ℕ) (A : Arr (Fl K)) : Option (Arr K) :=
  if (List.range d0).all fun i => (List.range d1).all fun j => (List.range d2).all fun k =>
      match A i j k with
      | .fin _ => true
      | _ => false
  then some fun i j k => match A i j k with
    | .fin x => x
    | _ => 0
  else none

/-- `_enforce_courant_sizing`, mesh_size_function.py:451-466; `dim = vp.ndim`. -/
def courant (dim : ℕ) (vp cell : Arr K) (crMax dt so : K) : Except Err (Arr K) :=
  if crMax = 0 ∨ dt = 0 ∨ so = 0 then .ok cell
  else if crMax < 0 then .error .crNeg
  else if dt < 0 then .error .dtNeg
  else if so < 1 then .error .orderSmall
  else
    let cr := crMax / (dim * so)
    .ok fun i j k =>
      if (vp i j k * dt) / (dim * cell i j k) > cr then (vp i j k * dt) / (dim * cr)
      else cell i j k

/-- `_enforce_gradation_sizing`, see `Limgrad.enforceGradation`. sizing/mesh_size_function.py:469-494. -/
def gradation (imax : ℕ) (seps : K) (d0 d1 d2 : ℕ) (cell : Arr K) (grade elen : K) :
    Except Err (Arr K) :=
  match Limgrad.enforceGradation imax d0 d1 d2 seps cell grade elen with
  | .ok r => .ok r.1
  | .error _ => .error .gradeNeg

/-- The option `pad_style`, sizing/mesh_size_function.py:575-587. -/
inductive Style | edge | constant | linearRamp
  deriving DecidableEq, Repr

/-- The dispatch of `_pad_it`, mesh_size_function.py:577-586. -/
def parseStyle (s : String) : Except Err Style :=
  if s = "edge" then .ok .edge
  else if s = "constant" then .ok .constant
  else if s = "linear_ramp" then .ok .linearRamp
  else .error .padStyle

/-- `np.pad` of one axis of length `n` by `b` before and `a` after, with `m` as the
`constant_values`/`end_values` on both sides. `linear_ramp` is
`np.linspace(m, edge, b, endpoint=False)` before and the reversed such ramp after. numpy; sizing/mesh_size_function.py:575-587. -/
def pad1 (st : Style) (m : K) (n b a : ℕ) (f : ℕ → K) (i : ℕ) : K :=
  if i < b then
    match st with
    | .edge => f 0
    | .constant => m
    | .linearRamp => m + i * ((f 0 - m) / b)
  else if i < b + n then f (i - b)
  else
    match st with
    | .edge => f (n - 1)
    | .constant => m
    | .linearRamp => m + ((a - 1 - (i - b - n) : ℕ) : K) * ((f (n - 1) - m) / a)

/-- `_pad_it`, mesh_size_function.py:575-587, with `padding = ((nnz, 0), (nnx, nnx), (nny, nny))`
(`nny = 0` in 2-D): `np.pad` treats the axes one after the other. -/
def pad3 (st : Style) (m : K) (d0 d1 d2 b0 b1 b2 : ℕ) (A : Arr K) : Arr K :=
  let A0 : Arr K := fun i j k => pad1 st m d0 b0 0 (fun i' => A i' j k) i
  let A1 : Arr K := fun i j k => pad1 st m d1 b1 b1 (fun j' => A0 i j' k) j
  fun i j k => pad1 st m d2 b2 b2 (fun k' => A1 i j k') k

/-- What `get_sizing_function_from_segy` has built before constructing the interpolant:
the size grid, the velocity grid, their common shape and the bbox of the `SizeFunction`. sizing/mesh_size_function.py:227-239. -/
structure Out (K : Type*) where
  d0 : ℕ
  d1 : ℕ
  d2 : ℕ
  cell : Arr K
  vp : Arr K
  bbox : Bbox K

variable [FloorSemiring K]

/-- Pad widths in grid cells: `int(domain_pad / dz)` with `dz = (bbox[1]-bbox[0]) / nz`,
mesh_size_function.py:497-511, 537-539, 547-550 (bbox ordered, so `dz > 0`; truncation is `Nat.floor`). -/
def padCells (pad len : K) (n : ℕ) : ℕ := ⌊pad / (len / n)⌋₊

/-- `_build_domain_pad`, mesh_size_function.py:526-572. -/
def buildPad (d0 d1 d2 : ℕ) (cell vp : Arr K) (bbox : Bbox K) (pad : K) (style : String) :
    Except Err (Out K) :=
  if pad < 0 then .error .padNeg
  else if 0 < pad then
    match parseStyle style with
    | .error e => .error e
    | .ok st =>
      let mc := amax d0 d1 d2 cell
      let mv := amax d0 d1 d2 vp
      match bbox with
      | .two z0 z1 x0 x1 =>
        let b0 := padCells pad (z1 - z0) d0
        let b1 := padCells pad (x1 - x0) d1
        .ok ⟨d0 + b0, d1 + 2 * b1, d2, pad3 st mc d0 d1 d2 b0 b1 0 cell,
          pad3 st mv d0 d1 d2 b0 b1 0 vp, .two (z0 - pad) z1 (x0 - pad) (x1 + pad)⟩
      | .three z0 z1 x0 x1 y0 y1 =>
        let b0 := padCells pad (z1 - z0) d0
        let b1 := padCells pad (x1 - x0) d1
        let b2 := padCells pad (y1 - y0) d2
        .ok ⟨d0 + b0, d1 + 2 * b1, d2 + 2 * b2, pad3 st mc d0 d1 d2 b0 b1 b2 cell,
          pad3 st mv d0 d1 d2 b0 b1 b2 vp,
          .three (z0 - pad) z1 (x0 - pad) (x1 + pad) (y0 - pad) (y1 + pad)⟩
  else .ok ⟨d0, d1, d2, cell, vp, bbox⟩

/-- The rank-0 branch of `get_sizing_function_from_segy`, mesh_size_function.py:128-229, from the velocity
array (`velocity_data` or the result of `read_velocity_model`) to the padded grids. `.ok none`:
some requested size was NaN (the later stages then run on NaNs; only their checks, which do not
look at the sizes, are modelled in that case). `imax`, `seps` are the limiter's constants. -/
def sizing (imax : ℕ) (seps : K) (d0 d1 d2 : ℕ) (o : Opts K) (names : List String)
    (bbox : List K) (vp0 : Arr K) : Except Err (Option (Out K)) :=
  match replaceWater d0 d1 d2 o.vpWater (convertUnits o.units vp0) with
  | .error e => .error e
  | .ok vp =>
  match parseBbox bbox with
  | .error e => .error e
  | .ok bb =>
  match checkNames names with
  | .error e => .error e
  | .ok _ =>
  match requested d0 d1 d2 o vp with
  | .error e => .error e
  | .ok req =>
  let fin? := finite d0 d1 d2 (fun i j k => clamp o.hmin o.hmax (req i j k))
  let cell : Arr K := fin?.getD fun _ _ _ => 0
  match courant bb.dim vp cell o.crMax o.dt o.spaceOrder with
  | .error e => .error e
  | .ok cell1 =>
  match gradation imax seps d0 d1 d2 cell1 o.grade (bb.zLen / d0) with
  | .error e => .error e
  | .ok cell2 =>
  match buildPad d0 d1 d2 cell2 vp bb o.domainPad o.padStyle with
  | .error e => .error e
  | .ok out => .ok (fin?.map fun _ => out)

/-- All ranks, mesh_size_function.py:128 and 230-239: ranks other than 0 validate nothing and return the
constant function 1 on the broadcast bbox (`none` here). -/
def sizingOnRank (rank : ℕ) (imax : ℕ) (seps : K) (d0 d1 d2 : ℕ) (o : Opts K)
    (names : List String) (bbox : List K) (vp0 : Arr K) : Except Err (Option (Out K)) :=
  if rank = 0 then sizing imax seps d0 d1 d2 o names bbox vp0 else .ok none

end
end SM.Sizing
