import Verif.Model.NanInit

/-!
# Mesh sizes from velocities that may be NaN

The steps of `get_sizing_function_from_segy` (SeismicMesh/sizing/mesh_size_function.py:146-222) up to the gradient limiter, with floating-point numbers of any format. `ndimage.uniform_filter` is a
parameter, as computed. Arrays are functions of the node; `cells` are the nodes of the grid in the order of the array. The check of option names and the padding are left out.
-/

namespace SM.SizingNan

open NanFl NanInit

/-- A node of the grid. sizing/mesh_size_function.py:175. -/
abbrev Node := ℕ × ℕ × ℕ

/-- The options and the literals used, as numbers of the format: mesh_size_function.py:102-125, 148, 151, 154, 415, 448. `unit` is the factor of the unit, if any. -/
structure Opts (α : Type) where
  hmin : α
  hmax : α
  wl : α
  freq : α
  grad : α
  crMax : α
  dt : α
  spaceOrder : α
  vpWater : Option α
  unit : Option α
  dim : α
  big : α
  small : α
  tenth : α
  one : α
  c1300 : α
  c1800 : α

variable {α : Type} (O : Ops α) (o : Opts α)

/-- `vp *= 1000.0`, `vp *= 0.30`: mesh_size_function.py:146-151. -/
def units (vp : Node → α) : Node → α := fun p => match o.unit with
  | none => vp p
  | some u => O.mul (vp p) u

/-- Zero velocities, mesh_size_function.py:153-165; `any(pos[0])` is true when one of the row numbers is not 0. -/
def water (cells : List Node) (vp : Node → α) : Except String (Node → α) :=
  if cells.any fun p => O.lt (vp p) o.small && decide (p.1 ≠ 0) then
    match o.vpWater with
    | none => .error "ValueError: vp_water is None or out of bounds. It should be >1300 and <1800 m/s"
    | some w =>
      if O.lt w o.c1300 || O.lt o.c1800 w then .error "ValueError: vp_water is None or out of bounds. It should be >1300 and <1800 m/s"
      else .ok fun p => if O.lt (vp p) o.small then w else vp p
  else .ok vp

/-- `_wavelength_sizing`, mesh_size_function.py:411-425. -/
def wavelength (vp : Node → α) : Except String (Node → α) :=
  if O.isZero o.wl then .ok fun _ => o.big
  else if O.lt o.wl O.zero then .error "ValueError: Parameter `wl` must be set > 0"
  else if O.lt o.freq O.zero then .error "ValueError: Parameter `freq` must be set > 0.0"
  else .ok fun p => O.div (vp p) (O.mul o.freq o.wl)

/-- `np.maximum` of two numbers: NaN if one of them is. numpy `amax`; mesh_size_function.py:445. -/
def maxNan (a b : α) : α := if O.isNan a then a else if O.isNan b then b else if O.lt a b then b else a

/-- `np.amax`, `np.amin` over the grid. numpy; mesh_size_function.py:445, 447. -/
def reduce (f : α → α → α) (cells : List Node) (A : Node → α) : Except String α :=
  match cells.map A with
  | [] => .error "ValueError: zero-size array to reduction operation"
  | x :: l => .ok (l.foldl f x)

/-- `_gradient_sizing`, mesh_size_function.py:428-448; `filt` is `ndimage.uniform_filter`. -/
def gradient (filt : (Node → α) → Node → α) (cells : List Node) (vp : Node → α) : Except String (Node → α) := do
  if O.isZero o.grad then return fun _ => o.big
  if O.lt o.grad O.zero then throw "ValueError: Parameter grad must be > 0"
  let mean := filt vp
  let sqr := filt fun p => O.mul (vp p) (vp p)
  let var : Node → α := fun p => O.sub (sqr p) (O.mul (mean p) (mean p))
  let mx ← reduce (maxNan O) cells var
  let nv : Node → α := fun p => O.div (var p) mx
  let mn ← reduce (minNan O) cells nv
  return fun p => O.div o.grad (O.add (O.sub (nv p) mn) o.tenth)

/-- `np.minimum(wavelength, gradient)` or the initial `hmin`: mesh_size_function.py:175, 207-211. -/
def requested (filt : (Node → α) → Node → α) (cells : List Node) (vp : Node → α) : Except String (Node → α) := do
  if O.lt O.zero o.wl || O.lt O.zero o.grad then
    let a ← wavelength O o vp
    let b ← gradient O o filt cells vp
    return fun p => minNan O (a p) (b p)
  else return fun _ => o.hmin

/-- `cell_size[cell_size < hmin] = hmin`, `cell_size[cell_size > hmax] = hmax`: mesh_size_function.py:213-217. -/
def clamp (x : α) : α :=
  let y := if O.lt x o.hmin then o.hmin else x
  if O.lt o.hmax y then o.hmax else y

/-- `_enforce_courant_sizing`, mesh_size_function.py:451-466. -/
def courant (vp cell : Node → α) : Except String (Node → α) :=
  if O.isZero o.crMax || O.isZero o.dt || O.isZero o.spaceOrder then .ok cell
  else if O.lt o.crMax O.zero then .error "ValueError: Parameter `cr_max` must be > 0.0"
  else if O.lt o.dt O.zero then .error "ValueError: Parameter `dt` must be > 0.0"
  else if O.lt o.spaceOrder o.one then .error "ValueError: Parameter `space_order` must be >= 1 "
  else
    let cr := O.div o.crMax (O.mul o.dim o.spaceOrder)
    .ok fun p => if O.lt cr (O.div (O.mul (vp p) o.dt) (O.mul o.dim (cell p))) then O.div (O.mul (vp p) o.dt) (O.mul o.dim cr) else cell p

/-- The sizes handed to the gradient limiter, mesh_size_function.py:146-221. -/
def sizes (filt : (Node → α) → Node → α) (cells : List Node) (vp : Node → α) : Except String (Node → α) := do
  let v ← water O o cells (units O o vp)
  let r ← requested O o filt cells v
  courant O o v fun p => clamp O o (r p)

end SM.SizingNan
