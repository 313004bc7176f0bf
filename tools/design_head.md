# A Lean 4 model of SeismicMesh

The model lives in `lean/Verif/`. It is a shallow embedding: one small total Lean
function per Python/C++ function, mirroring it branch by branch, with Python
exceptions as values (`Except`), loops as structural recursion or folds, external
calls (CGAL, the linear solver, the random generator, MPI transport) as
parameters, and MPI programs as lists of send/receive actions executed by an
explicit transition system over all schedules.

## Layout

* `Verif/Model/*.lean` – definitions only; each cites the file and lines it models.
* `Verif/Lemmas/*.lean` – helper lemmas.
* `Verif/Props/*.lean` – the property theorems, each with its English id, and
  examples showing that its hypotheses are met by a concrete case. Specifications
  (predicates the theorems are stated with) sit at the top of the Props file,
  independent of the model's helpers.
* `Verif/Axioms.lean` – `#print axioms` for every claimed theorem.

## Trusted base

* Lean 4.33.0's kernel. No axioms beyond `propext`, `Classical.choice`,
  `Quot.sound` (checked with `#print axioms`, see `Verif/Axioms.lean`);
  no added axioms, no compiled-code proof methods.
* The reading of the source. The code was not run; the tie between model and
  code is the per-definition citation.
* Numbers: IEEE doubles are idealised as an arbitrary linearly ordered field `K`
  (so results hold for ℚ, where the model is executable, and ℝ), or ℝ where square
  roots or trigonometric functions occur. Rounding, NaN, infinities, overflow are
  not modelled, except where stated.
* numpy/scipy/CGAL/MPI primitives (`np.unique`, `np.pad`, `np.sort`, slicing,
  fancy indexing, `RegularGridInterpolator`, `coo_matrix`, `CGAL::circumcenter`,
  point-to-point MPI with FIFO channels) are modelled from their documentation.

## Not modelled

CGAL's Delaunay algorithm itself (a parameter), pyamg's solver (any exact solution
of the assembled system), the decoding of item types and SEG-Y headers (`np.fromfile`,
segyio: a file is the list of its values), plotting and printing, the HDF5 container
written by `write_velocity_model` (its datasets are modelled), wall-clock timing, 32-bit
overflow of C++ `int`, pybind11's argument conversion, performance. C++ buffers are
modelled with checked subscripts in `Model/WhereTo`, `Model/Native` and
`Model/NativeHJ`; elsewhere the C++ loops are functions on the array contents.

## Assumptions about the environment, as hypotheses

These are hypotheses or parameters of theorems, never axioms.

* CGAL: `DtWrapper.Lawful` (operations leave a valid triangulation valid: iterators visit
  every finite vertex once, cells refer to finite vertices), `Ghost.Appends` (insertion
  without prior removal appends new vertices at the end of the vertex sequence; used for C70 only),
  `WhereTo.Geo` (predicates `collinear`/`coplanar`, `do_intersect`; the exact 2-D instance
  `geo2` is defined and used in the counterexamples).
* MPI (`Model/Mpi.lean`): blocking standard-mode send that may or may not buffer,
  non-overtaking channels per (source, destination, tag), collectives that may or may not
  synchronise; every interleaving is an execution.
* numpy: `np.unique` sorts; an unstable sort is a parameter where ties matter; the rounding
  used to make keys in `fix_mesh` is a parameter.
* Random numbers: the generator is a parameter (any stream).
* The SDF and sizing callables passed by the user are arbitrary functions.
