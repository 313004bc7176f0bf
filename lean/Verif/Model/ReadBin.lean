import Mathlib.Data.List.Sort
import Mathlib.Tactic.Ring

/-!
# Model of the velocity model readers

SeismicMesh/sizing/mesh_size_function.py:590-646: `read_velocity_model`, `_read_bin`, `_read_segy`.

Arrays are a shape and a partial map from index tuples to values (`none`: `IndexError`).
Not modelled: the operating system (the file is its list of bytes; `segyio` gives the list of
traces), non-string file names, negative entries of `axes_order`, and the storage order "A".
-/

namespace SM.ReadBin

/-- An n-dimensional array. sizing/mesh_size_function.py:609-646. -/
structure Nd (V : Type) where
  shape : List ℕ
  get : List ℕ → Option V

variable {V : Type}

/-- `idx` is inside an array of shape `shape`. numpy; sizing/mesh_size_function.py:617-628. -/
def InShape (shape idx : List ℕ) : Prop := List.Forall₂ (fun i d => i < d) idx shape

instance (shape idx : List ℕ) : Decidable (InShape shape idx) := by
  unfold InShape; infer_instance

/-- Row-major flat index (numpy order "C"): the last axis varies fastest. numpy; sizing/mesh_size_function.py:617. -/
def flatC : List ℕ → List ℕ → ℕ
  | d :: ds, i :: is => i * ds.prod + flatC ds is
  | _, _ => 0

/-- Column-major flat index (numpy order "F"): the first axis varies fastest. numpy; sizing/mesh_size_function.py:617. -/
def flatF : List ℕ → List ℕ → ℕ
  | d :: ds, i :: is => i + d * flatF ds is
  | _, _ => 0

/-- `vp.reshape(*axes, order=order)`, mesh_size_function.py:626. -/
def reshape (xs : List V) (axes : List ℕ) (order : String) : Except String (Nd V) :=
  if axes.prod ≠ xs.length then .error "ValueError: cannot reshape"
  else if order = "F" then
    .ok ⟨axes, fun idx => if InShape axes idx then xs[flatF axes idx]? else none⟩
  else if order = "C" then
    .ok ⟨axes, fun idx => if InShape axes idx then xs[flatC axes idx]? else none⟩
  else .error "ValueError: order"

/-- `np.argsort`, mesh_size_function.py:616 (ties only matter for inputs rejected later). -/
def argsort (l : List ℕ) : List ℕ :=
  (List.range l.length).insertionSort fun i j => l.getD i 0 ≤ l.getD j 0

/-- `[axes[o] for o in ix]`, mesh_size_function.py:617. -/
def gather (axes ix : List ℕ) : Except String (List ℕ) :=
  ix.mapM fun o => match axes[o]? with | some d => .ok d | none => .error "IndexError"

/-- `vp.transpose((*axes_order,))`, mesh_size_function.py:628: axis `i` of the result is axis
`axes_order[i]` of the argument. Out of range, repeated or missing axes raise. -/
def transpose (a : Nd V) (perm : List ℕ) : Except String (Nd V) :=
  if perm.length ≠ a.shape.length then .error "ValueError: axes don't match array"
  else if perm.any (fun p => a.shape.length ≤ p) then .error "AxisError"
  else if ¬ perm.Nodup then .error "ValueError: repeated axis in transpose"
  else .ok ⟨perm.map (fun p => a.shape.getD p 0),
    fun idx => if idx.length ≠ perm.length then none else
      a.get ((List.range perm.length).map fun ax => idx.getD (perm.idxOf ax) 0)⟩

/-- `np.flipud`, mesh_size_function.py:628,646. -/
def flipud (a : Nd V) : Except String (Nd V) :=
  match a.shape with
  | [] => .error "ValueError: Input must be >= 1-d."
  | d :: _ => .ok ⟨a.shape, fun idx =>
      match idx with
      | [] => none
      | i :: is => if i < d then a.get ((d - 1 - i) :: is) else none⟩

/-- The chunks of `w` bytes of a file; an incomplete last chunk is dropped (`np.fromfile`). sizing/mesh_size_function.py:609-617. -/
def chunks (w : ℕ) (bytes : List UInt8) : ℕ → List (List UInt8)
  | 0 => []
  | n + 1 => if bytes.length < w then [] else bytes.take w :: chunks w (bytes.drop w) n

/-- `np.fromfile(file, dtype=np.dtype(dtype).newbyteorder(..))`, mesh_size_function.py:620-625.
`dec` interprets the bytes of one item, most significant byte first. -/
def fromfile (w : ℕ) (dec : List UInt8 → V) (byteOrder : String) (bytes : List UInt8) :
    Except String (List V) :=
  if byteOrder = "big" then .ok ((chunks w bytes bytes.length).map dec)
  else if byteOrder = "little" then
    .ok ((chunks w bytes bytes.length).map fun c => dec c.reverse)
  else .error "ValueError: Please specify byte_order"

/-- `_read_bin`, mesh_size_function.py:609-630. -/
def readBin (w : ℕ) (dec : List UInt8 → V) (bytes : List UInt8) (nz nx ny : Option ℕ)
    (byteOrder : String) (axesOrder : List ℕ) (axesOrderSort : String) :
    Except String (Nd V × ℕ × ℕ × ℕ) :=
  match nz, nx, ny with
  | some nz, some nx, some ny => do
    let axes ← gather [nz, nx, ny] (argsort axesOrder)
    let vp ← fromfile w dec byteOrder bytes
    let vp ← reshape vp axes axesOrderSort
    let vp ← transpose vp axesOrder
    let vp ← flipud vp
    return (vp, nz, nx, ny)
  | _, _, _ => .error "ValueError: Please specify the number of grid points"

/-- `vp[:, index] = trace` on an `(nz, nx)` array, mesh_size_function.py:641. -/
def setColumn (nz nx index : ℕ) (tr : List V) (vp : ℕ → ℕ → Option V) : ℕ → ℕ → Option V :=
  fun i j => if j = index ∧ i < nz ∧ j < nx then tr[i]? else vp i j

/-- The loop of `_read_segy`, mesh_size_function.py:640-641; `index` traces have been stored. -/
def segyLoop (nz nx : ℕ) : List (List V) → ℕ → (ℕ → ℕ → Option V) →
    Except String (ℕ → ℕ → Option V)
  | [], _, vp => .ok vp
  | tr :: trs, index, vp =>
    if tr.length ≠ nz then .error "ValueError: could not broadcast" else
    segyLoop nz nx trs (index + 1) (setColumn nz nx index tr vp)

/-- A two-dimensional array as an `Nd`. sizing/mesh_size_function.py:633-646. -/
def ofMat (nz nx : ℕ) (m : ℕ → ℕ → Option V) : Nd V :=
  ⟨[nz, nx], fun idx => match idx with | [i, j] => m i j | _ => none⟩

/-- `_read_segy`, mesh_size_function.py:633-646; `samples` is `len(f.samples)`. The zero array
`np.zeros(shape=(nz, nx))` is overwritten column by column. -/
def readSegy [Zero V] (samples : ℕ) (traces : List (List V)) :
    Except String (Nd V × ℕ × ℕ × ℕ) := do
  let vp ← segyLoop samples traces.length traces 0
    fun i j => if i < samples ∧ j < traces.length then some 0 else none
  let r ← flipud (ofMat samples traces.length vp)
  return (r, samples, traces.length, 0)

/-- `read_velocity_model`, mesh_size_function.py:590-606: the reader is chosen by the suffix of
the file name. -/
def readVelocityModel [Zero V] (filename : String) (samples : ℕ) (traces : List (List V))
    (w : ℕ) (dec : List UInt8 → V) (bytes : List UInt8) (nz nx ny : Option ℕ)
    (byteOrder : String) (axesOrder : List ℕ) (axesOrderSort : String) :
    Except String (Nd V × ℕ × ℕ × ℕ) :=
  if filename.endsWith ".segy" then readSegy samples traces
  else readBin w dec bytes nz nx ny byteOrder axesOrder axesOrderSort

end SM.ReadBin
