import Verif.Model.Domain

/-!
# Front end of `generate_mesh` and `sliver_removal`

SeismicMesh/generation/mesh_generator.py: `_select_verbosity` (47-56), the argument handling of
`sliver_removal` (105-165) and `generate_mesh` (347-424), `_minmax` (543-552), `_check_bbox` (555-559),
`_unpack_sizing` (562-591), `_unpack_domain` (594-621), `_parse_kwargs` (624-652).

`P` is the type of points; `boxEval b` is `geometry.Rectangle(b).eval` / `geometry.Cube(b).eval`.
Python option values are classified only as far as the code looks at them. Booleans, strings and NumPy scalars are not
modelled (`bool` is an `int`, a string passes `np.isscalar`).
-/

namespace SM.Gen

/-- A Python number: `isinstance(b, int)` distinguishes the two kinds. mesh_generator.py:344-357, 555-559. -/
inductive Num
  | int (z : ℤ)
  | flt (x : ℝ)

/-- The numerical value of a Python number. mesh_generator.py:414, 439. -/
noncomputable def Num.val : Num → ℝ
  | .int z => z
  | .flt x => x

/-- A Python value as seen by the option handling. mesh_generator.py:344-359. -/
inductive Py
  | none
  | num (n : Num)
  | tup (l : List Num)
  | lst (l : List Num)
  | obj

/-- The `domain` argument. mesh_generator.py:594-621. -/
inductive DomainArg (P : Type)
  /-- one of the classes listed in `_unpack_domain`, 596-609; `bbox` is a tuple -/
  | geometry (fd : P → ℝ) (bbox : List Num) (corners : Option (List P))
  | callable (fd : P → ℝ)
  | other

/-- The `edge_length` argument. mesh_generator.py:562-591. -/
inductive SizeArg (P : Type)
  | sizeFunction (fh : P → ℝ) (bbox : List Num) (hmin : ℝ)
  | callable (fh : P → ℝ)
  | scalar (h : ℝ)
  | other

/-- Keyword arguments (`**kwargs`): the keys of a dict are distinct, so the first entry counts. mesh_generator.py:291, 359-360. -/
abbrev Kwargs := List (String × Py)

/-- The set literal of `_parse_kwargs`, mesh_generator.py:626-647. -/
def knownNames : List String :=
  ["verbose", "max_iter", "seed", "perform_checks", "pfix", "axis", "points", "domain", "edge_length", "bbox",
   "min_dh_angle_bound", "max_dh_angle_bound", "delta_t", "h0", "geps_mult", "subdomains", "gamma", "preserve",
   "mesh_improvement", "r0m_is_h0"]

/-- `_parse_kwargs`, mesh_generator.py:624-652. -/
def parseKwargs : Kwargs → Except String Unit
  | [] => .ok ()
  | (k, _) :: kw => if k ∈ knownNames then parseKwargs kw else .error "ValueError: option not recognized"

/-- `opts[key]` after `opts = {defaults}; opts.update(kwargs)`, mesh_generator.py:344-359, 107-123. -/
def getOpt (defaults kw : Kwargs) (key : String) : Except String Py :=
  match kw.lookup key with
  | some v => .ok v
  | none => match defaults.lookup key with
    | some v => .ok v
    | none => .error "KeyError"

/-- Defaults that the front end reads, mesh_generator.py:344-357 and 107-120 (`bbox`, `h0` have none). -/
def defaults : Kwargs := [("verbose", .num (.int 1)), ("max_iter", .num (.int 50))]

/-- Use of an option in a numerical comparison. mesh_generator.py:414, 439. -/
noncomputable def asNum : Py → Except String ℝ
  | .num n => .ok n.val
  | _ => .error "TypeError"

/-- `_select_verbosity`, mesh_generator.py:47-56: which of the two print functions talk. -/
noncomputable def selectVerbosity (v : ℝ) : Except String (Bool × Bool) :=
  if v = 0 then .ok (false, false)
  else if v = 1 then .ok (true, false)
  else if v > 1 then .ok (true, true)
  else .error "ValueError: Unknown verbosity level"

/-- The loop of `_check_bbox`, mesh_generator.py:557-559. -/
def checkFloats : List Num → Except String Unit
  | [] => .ok ()
  | .int _ :: _ => .error "ValueError: bbox must contain all floats"
  | .flt _ :: l => checkFloats l

/-- `_check_bbox`, mesh_generator.py:555-559. -/
def checkBbox : Py → Except String Unit
  | .none => .ok ()
  | .tup l => checkFloats l
  | .lst l => checkFloats l
  | _ => .error "TypeError: not iterable"

/-- Result of `_unpack_sizing`, mesh_generator.py:562-591: `fh`, `bbox`, `hmin`, `localize`. -/
structure Sizing (P : Type) where
  fh : P → ℝ
  bbox : Py
  hmin : Option ℝ
  lsf : Bool

/-- `_unpack_sizing`, mesh_generator.py:562-591. -/
def unpackSizing {P : Type} (e : SizeArg P) : Except String (Sizing P) := do
  let s ← (match e with
    | .sizeFunction fh b h => pure ⟨fh, .tup b, some h, true⟩
    | .callable fh => pure ⟨fh, .none, none, false⟩
    | .scalar h => pure ⟨fun _ => h, .none, some h, true⟩
    | .other => throw "ValueError: edge_length" : Except String (Sizing P))
  checkBbox s.bbox
  return s

/-- `_unpack_domain`, mesh_generator.py:594-621: `fd`, `bbox`, `corners`. -/
def unpackDomain {P : Type} (d : DomainArg P) (kw : Kwargs) :
    Except String ((P → ℝ) × Py × Option (List P)) := do
  let r ← (match d with
    | .geometry fd b c => pure (fd, Py.tup b, c)
    | .callable fd => do
      let b ← getOpt defaults kw "bbox"
      pure (fd, b, none)
    | .other => throw "ValueError: domain" : Except String ((P → ℝ) × Py × Option (List P)))
  checkBbox r.2.1
  return r

/-- The loop of `_minmax`, mesh_generator.py:545-551, from index `i` on: odd entries take the maximum,
even ones the minimum; `zip` stops at the shorter list. -/
noncomputable def minmaxFrom : ℕ → List ℝ → List ℝ → List ℝ
  | i, a :: l, b :: m => (if i % 2 = 1 then max a b else min a b) :: minmaxFrom (i + 1) l m
  | _, _, _ => []

/-- `_minmax`, mesh_generator.py:543-552. -/
noncomputable def minmax (b0 b1 : List ℝ) : List ℝ := minmaxFrom 0 b0 b1

/-- The entries of a sequence value (iterating over anything else raises `TypeError`). mesh_generator.py:545, 557. -/
def seqOf : Py → Except String (List Num)
  | .tup l => .ok l
  | .lst l => .ok l
  | _ => .error "TypeError: zip argument"

/-- The bbox merge, mesh_generator.py:382-388, with the tuple check (sliver_removal: 144-155).
Returns the tuple. -/
noncomputable def mergeBbox (b0 b1 : Py) : Except String (List ℝ) :=
  match b1 with
  | .none => match b0 with
    | .tup l => .ok (l.map Num.val)
    | _ => .error "ValueError: bbox must be a tuple"
  | b1 => do
    let l0 ← seqOf b0
    let l1 ← seqOf b1
    return minmax (l0.map Num.val) (l1.map Num.val)

/-- `bbox0 != bbox1 and bbox1 is not None`, mesh_generator.py:398 (151): a list differs from every tuple. -/
def Rebuild (b0 b1 : Py) : Prop :=
  match b0, b1 with
  | _, .none => False
  | .tup l0, .tup l1 => l0.map Num.val ≠ l1.map Num.val
  | .lst l0, .lst l1 => l0.map Num.val ≠ l1.map Num.val
  | _, _ => True

/-- What the front end hands over to the meshing loop. mesh_generator.py:374-423. -/
structure Setup (P : Type) where
  fd : P → ℝ
  fh : P → ℝ
  bbox : List ℝ
  h0 : ℝ
  corners : Option (List P)
  lsf : Bool
  talk : Bool × Bool

open Classical in
/-- `generate_mesh` up to the check of `h0`, mesh_generator.py:343-415. `boxEval dim b` is the
signed distance of the rebuilt Rectangle (dim 2) or Cube (dim 3), 400-405; for other dimensions `tmp` is unbound. -/
noncomputable def genSetup {P : Type} (boxEval : List ℝ → P → ℝ) (domain : DomainArg P) (edge : SizeArg P)
    (kw : Kwargs) : Except String (Setup P) := do
  parseKwargs kw
  let v ← getOpt defaults kw "verbose"
  let v ← asNum v
  let talk ← selectVerbosity v
  let (fd, b0, corners) ← unpackDomain domain kw
  let s ← unpackSizing edge
  let bbox ← mergeBbox b0 s.bbox
  let dim := bbox.length / 2
  let corners := match edge with
    | .scalar _ => corners
    | _ => if dim = 3 then none else corners
  let fd ← (if Rebuild b0 s.bbox then
      if dim = 2 ∨ dim = 3 then pure (boxEval bbox) else throw "UnboundLocalError: tmp"
    else pure fd : Except String (P → ℝ))
  if bbox.length % 2 = 1 then throw "ValueError: cannot reshape array"
  let h0 ← (match s.hmin with
    | some h => pure h
    | none => do
      let h ← getOpt defaults kw "h0"
      asNum h : Except String ℝ)
  if h0 < 0 then throw "ValueError: h0 must be > 0"
  return ⟨fd, s.fh, bbox, h0, corners, s.lsf, talk⟩

/-- The check of `max_iter`, mesh_generator.py:439-440 (`generate_mesh`, after the initial points have been
made) and 166-168 (`sliver_removal`). -/
noncomputable def maxIterOf (kw : Kwargs) : Except String ℝ := do
  let m ← getOpt defaults kw "max_iter"
  let m ← asNum m
  if m < 0 then throw "ValueError: max_iter must be > 0"
  return m

open Classical in
/-- `sliver_removal` on rank 0 up to the check of `max_iter`, mesh_generator.py:107-170; `ptDim` is
`points.shape[1]`. The `corners` are not used; the rebuilt domain is always a Cube (150). -/
noncomputable def sliverSetup {P : Type} (boxEval : List ℝ → P → ℝ) (ptDim : ℕ) (domain : DomainArg P)
    (edge : SizeArg P) (kw : Kwargs) : Except String (Setup P × ℝ) := do
  parseKwargs kw
  let v ← getOpt defaults kw "verbose"
  let v ← asNum v
  let talk ← selectVerbosity v
  if ptDim = 2 then throw "Exception: Mesh improvement currently on works in 3D"
  let (fd, b0, _) ← unpackDomain domain kw
  let s ← unpackSizing edge
  let bbox ← mergeBbox b0 s.bbox
  let fd := if Rebuild b0 s.bbox then boxEval bbox else fd
  let h0 ← (match s.hmin with
    | some h => pure h
    | none => do
      let h ← getOpt defaults kw "h0"
      asNum h : Except String ℝ)
  if h0 < 0 then throw "ValueError: h0 must be > 0"
  let m ← maxIterOf kw
  return (⟨fd, s.fh, bbox, h0, none, s.lsf, talk⟩, m)

/-- The rebuilt domain in 2-D, `geometry.Rectangle(bbox).eval`, mesh_generator.py:400. -/
noncomputable def box2 : List ℝ → Sdf.Pt 2 → ℝ
  | [x1, x2, y1, y2] => Sdf.drectangle x1 x2 y1 y2
  | _ => fun _ => 0 -- not reached: `dim = 2`

/-- The rebuilt domain in 3-D, `geometry.Cube(bbox).eval`, mesh_generator.py:402, 152. -/
noncomputable def box3 : List ℝ → Sdf.Pt 3 → ℝ
  | [x1, x2, y1, y2, z1, z2] => Sdf.dblock x1 x2 y1 y2 z1 z2
  | _ => fun _ => 0 -- `Cube` of a tuple of another length raises; not modelled

end SM.Gen
