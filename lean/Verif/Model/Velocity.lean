import Verif.Model.Interp
import Verif.Model.ReadBin

/-!
# From a velocity file to a `SizeFunction`, and to an HDF5 file

SeismicMesh/sizing/mesh_size_function.py: `get_sizing_function_from_segy` (34-239) as one call, from
the file or the `velocity_data` argument to the returned object; `write_velocity_model` (242-335);
`_initialize_sizing_function` (649-657); `_build_sizing_function` (391-408).
SeismicMesh/sizing/size_function.py: `SizeFunction` (1-13).

Not modelled: printing, warnings, the integer dtype of a caller's array, the float32 conversion of
the HDF5 dataset. A velocity array that is neither two- nor three-dimensional, or whose shape
differs from `(nz, nx[, ny])`, leads to the outcome given as the parameter `odd`, about which nothing
is assumed; except for a 3-D array with a 2-D bbox, where the call cannot return (see `getSizing`).
-/

namespace SM.Velocity

open SM.ReadBin (Nd readVelocityModel)
open SM.Sizing (Arr Opts Out Bbox Err sizing replaceWater convertUnits parseBbox buildPad)
open SM.Interp (sizeEval)

/-- The file behind `filename`: the traces `segyio` finds in it (and their length), and its bytes.
sizing/mesh_size_function.py:603-606, 618-625, 636-641. -/
structure File (K : Type) where
  name : String
  samples : ℕ
  traces : List (List K)
  bytes : List UInt8

/-- The options that concern reading, mesh_size_function.py:117-123, 277-283. `width` and `decode` are the
item size and the interpretation of the bytes of one item for the option `dtype`. -/
structure ReadOpts (K : Type) where
  nz : Option ℕ := none
  nx : Option ℕ := none
  ny : Option ℕ := none
  byteOrder : String := "byte_order"
  axesOrder : List ℕ := [0, 1, 2]
  axesOrderSort : String := "F"
  width : ℕ := 4
  decode : List UInt8 → K

/-- The ways a call ends in an exception. sizing/mesh_size_function.py:161-232, 590-657. -/
inductive Fail
  /-- raised while reading the file -/
  | read (e : String)
  /-- `TypeError` from `np.full` with a `None` in the shape (line 652 or 654) -/
  | typeError
  /-- raised by one of the checks of `Sizing.sizing` -/
  | size (e : Err)
  /-- `KeyError: 'bbox'` (line 326) -/
  | keyError
  /-- another exception -/
  | raised
  deriving DecidableEq, Repr

section
variable {K : Type} [Field K] [LinearOrder K]

/-- A 2-D or 3-D array with its shape. sizing/mesh_size_function.py:497-511. -/
def asArr (a : Nd K) : Option (ℕ × ℕ × ℕ × Arr K) :=
  match a.shape with
  | [d0, d1] => some (d0, d1, 1, fun i j _ => (a.get [i, j]).getD 0)
  | [d0, d1, d2] => some (d0, d1, d2, fun i j k => (a.get [i, j, k]).getD 0)
  | _ => none

/-- mesh_size_function.py:130-144: the velocity array and the values of `nz`, `nx`, `ny` used from there on. -/
def load (f : File K) (r : ReadOpts K) : Option (Nd K) →
    Except String (Nd K × Option ℕ × Option ℕ × Option ℕ)
  | some a => .ok (a, r.nz, r.nx, r.ny)
  | none =>
    match readVelocityModel f.name f.samples f.traces r.width r.decode f.bytes r.nz r.nx r.ny
        r.byteOrder r.axesOrder r.axesOrderSort with
    | .error e => .error e
    | .ok (a, nz, nx, ny) => .ok (a, some nz, some nx, some ny)

/-- The shape in `_initialize_sizing_function`, mesh_size_function.py:649-657; `none`: `TypeError`. -/
def gridShape : Bbox K → Option ℕ → Option ℕ → Option ℕ → Option (List ℕ)
  | .two .., some nz, some nx, _ => some [nz, nx]
  | .three .., some nz, some nx, some ny => some [nz, nx, ny]
  | _, _, _, _ => none

variable [FloorSemiring K]

/-- Rank 0 of `get_sizing_function_from_segy`, mesh_size_function.py:128-232, up to the interpolant. `.ok none`:
see `Sizing.sizing`. A 3-D velocity array with a bbox of four numbers: unless an earlier statement
raises, mesh_size_function.py:396 or 402 raises (`bbox[5]` in `_get_dimensions`). -/
def getSizing (imax : ℕ) (seps : K) (f : File K) (r : ReadOpts K) (data : Option (Nd K))
    (o : Opts K) (names : List String) (bbox : List K)
    (odd : Except Fail (Option (Out K))) : Except Fail (Option (Out K)) :=
  match load f r data with
  | .error e => .error (.read e)
  | .ok (a, nz, nx, ny) =>
    match asArr a with
    | none => odd
    | some (d0, d1, d2, vp) =>
      match replaceWater d0 d1 d2 o.vpWater (convertUnits o.units vp) with
      | .error e => .error (.size e)
      | .ok _ =>
        match parseBbox bbox with
        | .error e => .error (.size e)
        | .ok bb =>
          match gridShape bb nz nx ny with
          | none => .error .typeError
          | some shape =>
            if a.shape = shape then
              match sizing imax seps d0 d1 d2 o names bbox vp with
              | .error e => .error (.size e)
              | .ok out => .ok out
            else if a.shape.length = 3 ∧ bb.dim = 2 then .error .raised
            else odd

/-- A `SizeFunction` object, size_function.py:1-13. -/
structure SizeFunction (K : Type) where
  bbox : List K
  eval : List K → K
  hmin : K

/-- `SizeFunction.__init__`, size_function.py:2-9; `isTuple`: `bbox` is a tuple. The second argument
is always callable here. -/
def mkSizeFunction (isTuple : Bool) (bbox : List K) (eval : List K → K) (hmin : K) :
    Except Fail (SizeFunction K) :=
  if isTuple then .ok ⟨bbox, eval, hmin⟩ else .error .raised

/-- `get_sizing_function_from_segy` on rank `rank` of a communicator, mesh_size_function.py:34-239.
`isTuple`: the caller's `bbox` is a tuple (a padded one always is). Outer `none`: the call does not
return on this rank, because it waits for a broadcast (mesh_size_function.py:236-237) that rank 0
never performs. Inner `none`: some size is NaN. -/
def getSizingFunction (imax : ℕ) (seps : K) (f : File K) (r : ReadOpts K) (data : Option (Nd K))
    (o : Opts K) (names : List String) (isTuple : Bool) (bbox : List K)
    (odd : Except Fail (Option (Out K))) (rank : ℕ) :
    Option (Except Fail (Option (SizeFunction K))) :=
  match getSizing imax seps f r data o names bbox odd with
  | .error e => if rank = 0 then some (.error e) else none
  | .ok none => some (.ok none)
  | .ok (some out) =>
    some (match mkSizeFunction (isTuple || decide (0 < o.domainPad)) out.bbox.toList
        (if rank = 0 then sizeEval out else fun _ => 1) o.hmin with
      | .error e => .error e
      | .ok s => .ok (some s))

/-- The HDF5 file written by `write_velocity_model`, mesh_size_function.py:329-335. -/
structure H5 (K : Type) where
  name : String
  /-- shape of the dataset `velocity_model` -/
  shape : List ℕ
  /-- its values -/
  data : Arr K
  /-- the attribute `shape` -/
  shapeAttr : List ℕ
  /-- the attribute `units` -/
  units : String

/-- The part of `bbox` that `_get_dimensions` and `_build_domain_pad` read for an array with `ndim`
axes, mesh_size_function.py:497-511, 533-559; `none`: `IndexError`. -/
def bboxFor (ndim : ℕ) : List K → Option (Bbox K)
  | z0 :: z1 :: x0 :: x1 :: rest =>
    if ndim = 2 then some (.two z0 z1 x0 x1)
    else match rest with
      | y0 :: y1 :: _ => some (.three z0 z1 x0 x1 y0 y1)
      | _ => none
  | _ => none

/-- The shape of an array with `ndim` axes. sizing/mesh_size_function.py:334. -/
def shapeOf (ndim d0 d1 d2 : ℕ) : List ℕ := if ndim = 2 then [d0, d1] else [d0, d1, d2]

/-- `write_velocity_model` on rank 0, mesh_size_function.py:242-335 (other ranks do nothing). `odd`: the
outcome if the array has neither two nor three axes. -/
def writeModel (f : File K) (r : ReadOpts K) (ofname : Option String) (domainPad : K)
    (padStyle : String) (bbox : Option (List K)) (odd : Except Fail (H5 K)) :
    Except Fail (H5 K) :=
  match load f r none with
  | .error e => .error (.read e)
  | .ok (a, _, _, _) =>
    match asArr a with
    | none => odd
    | some (d0, d1, d2, vp) =>
      let name := ofname.getD f.name ++ ".hdf5"
      if 0 < domainPad then
        match bbox with
        | none => .error .keyError
        | some b =>
          match bboxFor a.shape.length b with
          | none => .error .raised
          | some bb =>
            match buildPad d0 d1 d2 vp vp bb domainPad padStyle with
            | .error e => .error (.size e)
            | .ok out =>
              let s := shapeOf a.shape.length out.d0 out.d1 out.d2
              .ok ⟨name, s, out.vp, s, "m/s"⟩
      else .ok ⟨name, a.shape, vp, a.shape, "m/s"⟩

end
end SM.Velocity
