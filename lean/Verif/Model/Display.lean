import Verif.Model.InitPoints

/-!
# Pictures

`show` of the geometry classes, SeismicMesh/geometry/signed_distance_functions.py:11-67, 296-297 (the same method in every class), and `plot_sizing_function`,
SeismicMesh/sizing/mesh_size_function.py:338-388. A picture is what is drawn and where it goes; axes, labels, titles and colour bars are left out.
-/

namespace SM.Display

noncomputable section

/-- `random.uniform(a, b)` with the draw `u` of `random.random()`. Python's standard library; signed_distance_functions.py:20-33. -/
def uniform (u : ℝ) (r : ℝ × ℝ) : ℝ := r.1 + (r.2 - r.1) * u

/-- `_generate_samples`, signed_distance_functions.py:11-40: `u i` is the `i`-th number of Python's generator. `dim` is 2 or 3; for other dimensions the code returns no points. -/
def generateSamples {d : ℕ} (u : ℕ → ℝ) (bbox : Fin d → ℝ × ℝ) (N : ℕ) : List (Fin d → ℝ) :=
  (List.range N).map fun i k => uniform (u (d * i + k)) ((bbox k).1 - 0.01, (bbox k).2 + 0.01)

/-- Where a picture goes: a window or a file. signed_distance_functions.py:63-67, mesh_size_function.py:384-387. -/
inductive Target
  | window
  | file (name : String)
  deriving DecidableEq

/-- `if filename is None: plt.show() else: plt.savefig(filename)`, signed_distance_functions.py:63-67, mesh_size_function.py:384-387. -/
def target : Option String → Target
  | none => .window
  | some f => .file f

/-- A domain with what `show` needs. signed_distance_functions.py:44-45. -/
structure Geo (d : ℕ) where
  bbox : Fin d → ℝ × ℝ
  eval : (Fin d → ℝ) → ℝ

open Classical in
/-- `_show`, signed_distance_functions.py:43-67: the dots with their colours. -/
def showGeo {d : ℕ} (u : ℕ → ℝ) (geo : Geo d) (filename : Option String) (samples : ℕ) : Target × List ((Fin d → ℝ) × ℝ) :=
  (target filename, ((generateSamples u geo.bbox samples).filter fun p => decide (geo.eval p > -0.01 ∧ geo.eval p < 0.01)).map fun p => (p, geo.eval p))

/-- The method `show`, `_show(self, filename=None, samples=samples)`, signed_distance_functions.py:296-297, 343-344, 383-384, 425-426, 446-447, 470-471, 491-492, 518-519,
542-543, 565-566, 592-593. -/
def «show» {d : ℕ} (u : ℕ → ℝ) (geo : Geo d) (_filename : Option String) (samples : ℕ) : Target × List ((Fin d → ℝ) × ℝ) :=
  showGeo u geo none samples

/-- An argument of `plot_sizing_function`: a `SizeFunction` with its box and function of `(z, x)`, or something else. mesh_size_function.py:359-363. -/
inductive Arg
  | sizing (bbox : List ℝ) (fh : ℝ → ℝ → ℝ)
  | other

/-- A coloured cell of the picture: `x`, `z`, colour. mesh_size_function.py:376-378. -/
structure Pixel where
  x : ℝ
  z : ℝ
  colour : ℝ

/-- The rows `0::stride`. mesh_size_function.py:377. -/
def rows (stride : ℕ) (zs : List ℝ) : List ℝ := (zs.zipIdx.filter fun zi => zi.2 % stride == 0).map Prod.fst

/-- `plot_sizing_function` on the rank `rank`, mesh_size_function.py:356-388. On the other ranks `ax` is never assigned. Negative strides and empty grids (an exception of
Matplotlib) are not modelled. -/
def plotSizing (rank : ℕ) (arg : Arg) (stride : ℕ) (filename : Option String) : Except String (Target × List Pixel) :=
  if rank = 0 then
    match arg with
    | .other => .error "ValueError: Can only plot a :class:`SizeFunction`"
    | .sizing bbox fh =>
      match bbox with
      | [z0, z1, x0, x1] => do
        let zs ← Init.arange z0 z1 50
        let xs ← Init.arange x0 x1 50
        if stride = 0 then throw "ValueError: slice step cannot be zero"
        return (target filename, (rows stride zs).flatMap fun z => xs.map fun x => ⟨x, z, fh z x⟩)
      | _ => .error "ValueError: Visualization in 3D not supported"
  else .error "UnboundLocalError: local variable 'ax' referenced before assignment"

end

end SM.Display
