# A Lean 4 model of SeismicMesh

The model lives in `lean/Verif/`. It is a shallow embedding: one small total Lean
function per Python/C++ function, mirroring it branch by branch, with Python
exceptions as values (`Except`), loops as structural recursion or folds, external
calls (CGAL, the linear solver, the random generator, MPI transport) as
parameters, and MPI programs as lists of send/receive actions executed by an
explicit transition system over all schedules.

## Layout

* `Verif/Model/*.lean` – definitions only; each cites the file and lines it models.
* `Verif/Lemmas/*.lean` – helper lemmas.
* `Verif/Props/*.lean` – the property theorems, each with its English id, and
  examples showing that its hypotheses are met by a concrete case. Specifications
  (predicates the theorems are stated with) sit at the top of the Props file,
  independent of the model's helpers.
* `Verif/Axioms.lean` – `#print axioms` for every claimed theorem.

## Trusted base

* Lean 4.33.0's kernel. No axioms beyond `propext`, `Classical.choice`,
  `Quot.sound` (checked with `#print axioms`, see `Verif/Axioms.lean`);
  no added axioms, no compiled-code proof methods.
* The reading of the source. The code was not run; the tie between model and
  code is the per-definition citation.
* Numbers: IEEE doubles are idealised as an arbitrary linearly ordered field `K`
  (so results hold for ℚ, where the model is executable, and ℝ), or ℝ where square
  roots or trigonometric functions occur. Rounding, NaN, infinities, overflow are
  not modelled, except where stated.
* numpy/scipy/CGAL/MPI primitives (`np.unique`, `np.pad`, `np.sort`, slicing,
  fancy indexing, `RegularGridInterpolator`, `coo_matrix`, `CGAL::circumcenter`,
  point-to-point MPI with FIFO channels) are modelled from their documentation.

## Not modelled

CGAL's Delaunay algorithm itself (a parameter), pyamg's solver (any exact solution
of the assembled system), the decoding of item types and SEG-Y headers (`np.fromfile`,
segyio: a file is the list of its values), plotting and printing, the HDF5 container
written by `write_velocity_model` (its datasets are modelled), wall-clock timing, 32-bit
overflow of C++ `int`, pybind11's argument conversion, performance. C++ buffers are
modelled with checked subscripts in `Model/WhereTo`, `Model/Native` and
`Model/NativeHJ`; elsewhere the C++ loops are functions on the array contents.

## Assumptions about the environment, as hypotheses

These are hypotheses or parameters of theorems, never axioms.

* CGAL: `DtWrapper.Lawful` (operations leave a valid triangulation valid: iterators visit
  every finite vertex once, cells refer to finite vertices), `Ghost.Appends` (insertion
  without prior removal appends new vertices at the end of the vertex sequence; used for C70 only),
  `WhereTo.Geo` (predicates `collinear`/`coplanar`, `do_intersect`; the exact 2-D instance
  `geo2` is defined and used in the counterexamples).
* MPI (`Model/Mpi.lean`): blocking standard-mode send that may or may not buffer,
  non-overtaking channels per (source, destination, tag), collectives that may or may not
  synchronise; every interleaving is an execution.
* numpy: `np.unique` sorts; an unstable sort is a parameter where ties matter; the rounding
  used to make keys in `fix_mesh` is a parameter.
* Random numbers: the generator is a parameter (any stream).
* The SDF and sizing callables passed by the user are arbitrary functions.

## Plan per property

| id | property | model module | what is modelled and how it is proved |
|---|---|---|---|
| C01 | Gradation only refines, never below the finest size | Model/Limgrad | in-place sweep as fold over a value function and an activity map on node numbers; invariant by induction over relaxations/sweeps |
| C02 | Gradation bound holds on convergence | Model/Limgrad | invariant: every violated edge has an endpoint marked in this sweep or still to be visited |
| C03 | The limiter converges; the cap of 10000 sweeps is the only way to lose the bound | Model/Limgrad | potential argument: each update lowers the sum of values by more than ftol; explicit bound; negation for the fixed cap by a propagation-speed argument on a long chain |
| C04 | The limiter never over-refines | Model/Limgrad | invariant g <= current field for every graded competitor g |
| C05 | Limiting is the identity on graded fields and idempotent | Model/Limgrad | no relaxation fires on a graded field; minimum (hence ftol) preserved |
| C06 | Column-major node numbering is consistent | Model/Limgrad | integer arithmetic of sub2ind/ind2sub; bijection with column-major flatten |
| C07 | hmin is a lower bound of the sizing function on its grid | Model/Sizing | pipeline of stages as functions on fields; lower bound through each stage, pads included |
| C08 | hmax is an upper bound of the sizing function | Model/Sizing | partial: proved when the Courant stage is inactive; negation witness otherwise |
| C09 | Requested timestep respects the Courant number | Model/Sizing | partial: proved after the Courant stage when grade = 0; negation witness with gradation |
| C10 | Wavelength resolution | Model/Sizing | upper bound through stages; partial: false inside a linear ramp (negation) |
| C11 | Gradient-based refinement stays in its documented range | Model/Sizing | normalisation formula on a list of variances |
| C12 | Sizing options are validated | Model/Sizing | Except-valued option checks; partial: negative wl with grad = 0 is accepted (negation) |
| C13 | Zero velocities are replaced by the water velocity | Model/Sizing | partial; negation when all zeros are in row 0 |
| C14 | The caller's velocity array is not modified | Model/Sizing | heap-cell model of the caller's array; partial; negation for unit conversion |
| C15 | Domain padding extends exactly the documented sides | Model/Sizing | np.pad per axis on lists; block and border theorems |
| C16 | Padding does not move the velocity model | Model/Interp | negation witness; partial: pads that are a whole number of grid spacings |
| C17 | Binary velocity files are read in the right order | Model/ReadBin | reshape/transpose/flip as index maps over all permutations of 3 axes |
| C18 | SEG-Y traces become columns, deepest sample first | Model/ReadBin | lists of traces |
| C19 | The sizing function interpolates its grid | Model/Interp | piecewise (bi)linear interpolation on linspace grids |
| C20 | Rectangle and Cube signed distances have the right sign and depth | Model/Sdf | min/max algebra over K; distance statements over the sup norm and the Euclidean norm |
| C21 | C++ box distances equal the Python reference | Model/Sdf | flat-array loop versus pointwise map |
| C22 | Disk and Ball are exact signed distance functions | Model/Sdf | Euclidean norm over reals |
| C23 | Torus, Cylinder and Prism describe the documented solids | Model/Sdf | sqrt algebra over reals |
| C24 | Sharp set operations compute Boolean set algebra | Model/Sdf | reduce over lists, induction |
| C25 | Smooth union and intersection are bounded blends | Model/Sdf | loop induction over lists |
| C26 | Smooth Difference subtracts every domain after the first | Model/Sdf | partial (two domains) plus negation for three |
| C27 | The advertised bounding box encloses the domain | Model/Domain | inductive type of domain expressions; structural induction; negations for multi-axis rotation and smooth union |
| C28 | Manipulations move the shape as documented | Model/Domain | matrix/vector identities |
| C29 | Automatically fixed corner points lie on the domain boundary | Model/Domain | partial plus negation for translate/rotate |
| C30 | Repeat is periodic inside its bounding box | Model/Sdf | mod arithmetic over a floor ring |
| C31 | fix_mesh returns a clean mesh | Model/FixMesh | np.unique with index/inverse specification, index maps on lists |
| C32 | fix_mesh preserves the geometry | Model/FixMesh | same |
| C33 | fix_mesh orients entities consistently | Model/FixMesh | antisymmetry of simp_vol |
| C34 | unique_edges / mesh bars | Model/Topology | sort + dedup of pairs |
| C35 | Boundary edges, facets and vertices | Model/Topology | multiplicity counts |
| C36 | vertex_to_entities inverts the connectivity | Model/Topology | stable sort by key + difference pointer |
| C37 | Boundary entity deletion removes exactly the poor boundary entities | Model/Topology | filter by membership and quality |
| C38 | Winded boundary is a walk | Model/Winding | loop with visited set, measure, walk invariant |
| C39 | remove_external_entities keeps exactly the entities touching the block | Model/Topology | filter |
| C40 | Laplacian smoothing keeps boundary and fixed points and stays in the hull | Model/Laplace | weighted averages, invariant over iterations |
| C41 | Fixed-point Laplacian smoothing: boundary kept, maximum principle | Model/Laplace | assembled matrix entries; discrete maximum principle |
| C42 | Point-in-triangle and point-in-tetrahedron tests | Model/Simplex | barycentric coordinates |
| C43 | Triangle quality measure | Model/Simplex | real inequality |
| C44 | Signed simplex volumes | Model/Simplex | ring identities |
| C45 | Determinant kernels | Model/Simplex | Matrix.det expansion |
| C46 | Circumsphere gradient used for sliver perturbation | Model/Simplex | HasDerivAt of the circumradius |
| C47 | Volume gradient | Model/Simplex | affine expansion; sign finding |
| C48 | Dihedral angles | Model/Simplex | cross product identities |
| C49 | Overlap linting | Model/Linter | list comprehension model |
| C50 | is_manifold detects non-manifold meshes | Model/Topology | partial plus negation |
| C51 | generate_mesh / sliver_removal options are validated | Model/Options | Except-valued option checks |
| C52 | Bounding boxes of domain and sizing function are merged to their hull | Model/Options | elementwise min/max |
| C53 | Mesh generation performs exactly max_iter triangulations | Model/MeshLoop | fuelled loop; termination count; non-termination for max_iter = 0 |
| C54 | Truss forces are balanced and repulsive | Model/Forces | sum over bars |
| C55 | Fixed points stay fixed | Model/MeshLoop | loop invariant (partial) plus negations |
| C56 | Only outside points are projected back | Model/Project | pointwise |
| C57 | Level-set improvement moves boundary vertices only | Model/Project | pointwise, five iterations |
| C58 | Returned cells lie inside the domain | Model/MeshLoop | last stage filter |
| C59 | Initial point density | Model/InitPoints | filter and draw |
| C60 | Parallel initial grids tile the domain | Model/InitPoints | arange arithmetic |
| C61 | Sliver removal success means no slivers | Model/Sliver | loop with abstract geometry |
| C62 | Ghost exchange is deadlock-free and schedule independent | Model/Mpi, Model/Exchange | transition system; diamond property gives schedule independence; explicit execution gives completion |
| C63 | Ghost exchange completes even if a rank has nothing to send | Model/Exchange | negation: hanging witness for every schedule, lost message; exact condition |
| C64 | Aggregation is the disjoint union of the local meshes | Model/Aggregate | prefix sums |
| C65 | Domain decomposition covers all points | Model/Blocker | interval arithmetic |
| C66 | User points reach their ranks | Model/Exchange | transition system |
| C67 | Export packing | Model/WhereTo | packing loop |
| C68 | Export buffer accesses are in bounds | Model/WhereTo | partial plus negation |
| C69 | Every vertex a neighbour needs is exported | Model/WhereTo | partial plus negation |
| C70 | Ghost vertices are removed after each iteration | Model/Ghost | partial plus negation |
| C71 | Localised sizing functions agree with the global one | Model/Interp | constant fields, node agreement |
| C72 | Delaunay wrapper keeps vertex numbering consistent | Model/DtWrapper | state machine with abstract CGAL |
| C73 | Radius-edge ratios are computed per entity | Model/Simplex | partial (3-D); negation for 2-D |
| C74 | The domain passed is the domain meshed | Model/Options | the bbox merge of generate_mesh; partial (equal boxes / no SizeFunction) plus negation |
| C75 | The sizing function contains no NaN | Model/Sizing | IEEE-like values with NaN in the requested size; partial plus negation (uniform velocity with grad > 0) |
| C76 | The parallel run completes under every schedule | Model/Parallel | every rank as a process (Model/Mpi) composed of localize_sizing_function, allreduce, bcast, exchange, serial pass, aggregate; PReach composition; the specification is the relation Together (passes side by side) |
| C77 | The outcome of a parallel run does not depend on the schedule | Model/Parallel | confluence of the MPI semantics (diamond property) applied to the whole run |
| C78 | An exception on one rank ends the run on all ranks | Model/Parallel | false: negation (rank 0 raises in the movement check, rank 1 then waits for ever in every execution) |
| C79 | What the ranks of a parallel run return | Model/Parallel | invariant of the process of each rank (Yields), preserved by every step; no assumptions on the other ranks |
| C80 | Linting leaves no overlapping entities | Props/LintOnce | the overlap test is invariant under renumbering and under vertex order; every overlap of the result is one of the input, and linter deletes one member of each |
| C81 | The returned mesh is well formed | Props/Returned | every path through _termination ends with fix_mesh, whose result is clean; the Newton step keeps the number of vertices and the last filter takes a sublist; in parallel, invariant over all executions |
| C82 | Every returned vertex is used | Props/Returned | refuted by a run on one tetrahedron; the set of vertices is that of a clean mesh, the cells are those inside |
| C83 | Returned cells are positively oriented | Props/Returned | refuted by a run on one tetrahedron (vertex moved through the opposite face after the last orientation); cells whose vertices do not move stay oriented |
| C84 | Mesh sizes follow the velocity file | Props/Velocity | composition of the reader, the size pipeline and the interpolant; proved at every node, for binary and SEG-Y files |
| C85 | write_velocity_model writes the model the sizes are computed from | Props/Velocity | model of write_velocity_model; equality proved for m/s and no water, refuted otherwise by concrete calls |
| C86 | It does not matter where the velocities come from | Props/Velocity | equality of the two calls if nz, nx, ny are passed; otherwise proved to raise for every array / every binary file with a 2-D bbox |
| C87 | Every rank gets the same sizing function | Props/Velocity | bbox and hmin agree; sizes proved to be 1 on every other rank; concrete two-rank call |
| C88 | The compiled geometry helpers stay inside their buffers and compute row by row | Props/Native | checked-buffer model of the C++ loops (every subscript and memcpy may fail); loop invariant: the written prefix is the specified list |
| C89 | delaunay2 and delaunay3 return the triangulation of the given points | Props/Native | checked-buffer model with CGAL as a parameter; positive part with NDEBUG, inverted assertion and unchecked lengths proved |
| C90 | The gradient limiter stays inside its buffers | Props/NativeHJ | checked-buffer version of FastHJ; simulation by the functional model of C01-C06 |
| C91 | The returned sizing function varies by at most grade | Model/Sizing, Props/SizingGrade, Props/SizingLip | composition of the pipeline stages with the sweep bound of C03; index clamping of the edge pad; node spacing of the padded axes; negation by witnesses for narrow cells and the other padding styles; Lipschitz constants of multilinear interpolation by induction over the axes |
| C92 | The limited sizes are the grid distance transform of the requested sizes | Model/Limgrad, Props/LimgradForm | cones as competitors in C04 for the lower bound, C02 along grid paths for the upper; monotonicity and relabelling by composing both |
| C93 | sliver_removal returns a well formed mesh inside the domain | Model/SliverCall, Props/SliverCall | the two exits of the loop end in fix_mesh / _termination (C81's lemmas); centroids are invariant under the reordering of C32 |
| C94 | sliver_removal moves points by a bounded amount | Model/SliverCall, Props/SliverCall | induction over the passes with the geometric bound on step; an explicit run attains it |
| C95 | Rows are identified by their bytes | Model/Bytes, Props/Bytes | injectivity of fixed-width little-endian encodings, also after dropping trailing zeros; transfer of C31/C35 along an order-equivalent injective key |
| C96 | Domains never overestimate the distance to their boundary | Props/Lipschitz | smooth blends as infima of weighted means, primitives as distances or projections, structural induction; counterexamples for shrinking and Repeat |
| C97 | The unit of length does not matter | Verif/Props/Units.lean | Simulation: every function of the run commutes with the change of units (lists of points are mapped, cells stay), by case analysis function by function, then induction over the passes of the loop. The real 2-D and 3-D tools meet the hypotheses for v = 0; a witness shows that the guard dgrad2 < deps breaks the claim. |
| C98 | The first triangulation covers the domain at the requested spacing | Verif/Props/Initial.lean | The front end is run symbolically to the call of serialPoints (setup_of, start_of); the staggered grid is characterised by integer indices, from which separation, bounds and covering follow by rounding; depth from the Lipschitz property of C96. |
| C99 | Asking for more resolution never makes the mesh coarser | Verif/Props/SizingMono.lean | Stage by stage: the clamped request is an explicit min/max formula, monotone in the options; the timestep stage is a maximum; the limiter is compared through C92 (distance transform); padding preserves linear inequalities; interpolation is a convex combination. |
| C100 | The unit of length does not matter for the sizing function | Verif/Props/SizingUnits.lean | Each stage is shown homogeneous as a function (including exceptions and NaN); the limiter by induction over stencil, sweep and loop; the constant 99999 is absorbed by the clamp. |
| C101 | The numbering of a mesh does not matter | Verif.Props.Renumber | Counting of cells around an edge or facet is invariant under renumbering; the characterisations of C34/C35 and the Euler count of is_manifold transfer it to the functions. |
| C102 | The sizing function's region is the region meshed | Verif.Props.Workflow | C15_returned_box gives the box of the returned object; the bbox merge of generate_mesh turns it into the domain; C58 and C98 then apply to that domain. |
| C103 | The order and nesting of set operations do not matter | Verif.Props.SetAlgebra | min/max folds are invariant under permutation and nesting; smooth bounds from C25. |
| C104 | Mirroring the velocity model mirrors the sizes | Sizing | Relate the two runs stage by stage by reversal of the indices (units, water, criteria, clamp, Courant), the limiter by C92_relabel up to its tolerance, the pads because both sides get the same width, the interpolant because linspace is symmetric. False for even stencils: witness. |
| C105 | The gradient limiter's 32-bit index arithmetic is exact up to 2^31 - 2 nodes | HJ32 | checked 32-bit operations and rounded quotient; refinement to Model/NativeHJ; 2^31-1 is prime (Lucas-Lehmer), so a grid of that size is a row whose last node overflows |
| C106 | The gradation guarantees hold in floating-point arithmetic | LimgradFl | the limiter over an abstract ordered set with rounded add and mul; invariants of C01-C05 redone with monotonicity only; binary64 shown to be monotone, idempotent and 2^-53 accurate |
| C107 | Inside and outside of box domains are decided exactly despite floating-point arithmetic | SdfFl | Model eval with a rounding after each addition; min, max and negation commute with a monotone odd rounding, so by induction over the geometry the result is the rounded exact value. |
| C108 | Cells are oriented correctly in floating-point arithmetic unless degenerate up to rounding | VolFl | A calculus of accumulated relative errors (k roundings of terms of size B); fix_mesh is generic in the volume, so its run lemma applies to the rounded volume. |
| C109 | Size limits and time step hold in floating-point arithmetic | SizingFl | the clamp, Courant and gradation stages over arbitrary rounded operations; lower bounds pass through the limiter by C106; binary64 witness in 3-D |
| C110 | get_edges reports every edge of the requested cells exactly once | Verif.Props.DtEdges | get_edges as a fold over the selected cells with addresses, neighbours and circulators of CGAL as parameters and the set order as a parameter; the tie-break by address keeps exactly the smallest selected cell around an edge, so the list is duplicate free and complete. |
| C111 | sliver_removal's triangulation follows the moved points | Verif.Props.SliverDt | The loop of sliver_removal with the triangulation object in its state; invariant: the object is valid, has no two vertices in one place and its vertex array is pold. Refinement of the loop model of C59-C61, C93, C94. |
| C112 | Every iteration triangulates exactly the current points and none is ever added | GenerateDt | The meshing loop with a new triangulation object in every pass, CGAL being a parameter with its documented insertion behaviour as hypothesis; the hypotheses of C54, C55 and C81 about the triangulation are discharged, lengths are tracked through movement, projection, clean-up and linting. |
| C113 | Slower rock never gets larger cells | SizingSpeed | The comparison of two calls of C99 is proved for two velocity models at once (request, Courant stage, limiter as distance transform, padding, interpolation); preparation of the velocities (units, water) is shown monotone; a 4 x 2 model shows that the gradient criterion is not. |
| C114 | When Laplacian smoothing stops | LaplaceStop | the loop is unfolded into the sequence of sweeps and the first index whose bars do not grow by tol; termination by decay of the successive differences (weights that have not reached a fixed vertex shrink geometrically); a six-triangle mesh refutes the documented rule |
| C115 | Repeated smoothing converges to the fixed-point smoother | LaplaceStop | the error vanishes on the boundary and is averaged elsewhere, so it decays; a boundary bar never changes, so with tol <= 0 the loop runs max_iter sweeps |
| C116 | The final clean-up of a 2-D mesh deletes exactly the poor boundary triangles | Cleanup | compose fix_mesh (identity on cells as position sets when points are apart), C37 (deletion exact) and the final fix_mesh; compare triangles as multisets of vertex positions |
| C117 | Default 2-D clean-up with smoothing | CleanupSmooth | compose C37 (deletion), C42 (smoothing) and the fix_mesh correspondence, carrying the kept triangles and neighbour averages through the renumbering |
| C118 | The final clean-up of a 3-D mesh loses no tetrahedron | CleanupSmooth | the 3-D branch of the termination is fix_mesh only; use the fix_mesh correspondence |
| C119 | Sizing options left out take their documented values | SizingDefaults | evaluate the pipeline on the default options and compute the stages that are on |
| C120 | A 3-D model that does not vary in y gets the sizes of the 2-D model | SizingExtrude | stage by stage: windows average equal values, the dimension cancels in the Courant stage, the limited sizes are the distance transforms of C92, padding is done axis by axis |
| C121 | Sizes just outside the region of the velocity model | InterpOutside | weights of linear continuation on each axis, induction over the axes, composed with the gradation theorem C91 and the lower bound C19; negation by an actual call without gradation |
| C122 | A layered velocity model gives layered sizes | SizingLayers | each stage maps layered arrays to layered arrays; for the limiter through the closed form C92; padding copies values inside the range of the model |
| C123 | Disks and balls in floating-point arithmetic | BallFl | rounded evaluation order modelled with a rounding parameter; relative errors of nonnegative terms accumulate multiplicatively and are halved by the square root; binary64 on the reals satisfies the hypotheses |
| C124 | fix_mesh gives a canonical mesh and cleaning twice is cleaning once | FixTwice | The stages of fix_mesh are shown to depend only on the representatives (strictly sorted by key) and on the keys of the rows; both are the same for renumbered meshes and for the result of a first call. Idempotence is proved for an unchanged extent (in particular for meshes without unused vertices and without merged vertices) and refuted in general with a far unused vertex. |
| C125 | The order of the points does not matter | Verif.Props.PointOrder | Renaming invariance of bars, forces, fixed-point search, movement, projection and removal of outside cells, pass by pass; the final fix_mesh (C124_numbering) removes the renaming. |
| C126 | The checks accept meshes with vertices that no entity uses | Verif.Props.LinterUnused | The property is false of the code. With an unused vertex numbered below a used one the pointer array of vertex_to_entities is too short for the largest used vertex: prove that do_any_overlap, linter and the last pass of a 3-D run raise IndexError, give two orders of the same points and triangulation of which one returns a mesh and the other raises, and prove the exact condition (unused vertices last) under which do_any_overlap succeeds and is exact, and under which the checks of a 3-D run change nothing. |
| C127 | Where the domain is placed does not matter | Verif.Props.Translate | Each pass commutes with the motion by the lemmas of C97 at scale one, where the guard of the Newton steps cannot matter. In the last pass the clean-up keeps the same cells at the moved positions (C116, C117, C118), so the two cleaned meshes are renumberings of each other; the level-set improvement and the centroid test then respect the renumbering (C101). A rational witness shows that within the tolerance the clean-up depends on the position. |
| C128 | sliver_removal does not depend on the unit of length or on where the mesh is | Verif.Props.SliverUnits | A simulation between the two loops: angles and the normalised gradient are invariant, the kept cells and bad cells are the same, the moved points correspond; the final fix_mesh is covered by C97 (units) and C127 (position). |
| C129 | Overlap tests in floating-point arithmetic | Verif.Props.InsideFl | Every product, sum and quotient of the tests is followed by a rounding function of relative error u; accumulated error by the Near calculus, then the mesh-level theorem through C49_overlap; witness in the binary64 model by kernel evaluation. |
| C130 | Cells kept by the final clean-up are inside the domain in spite of rounding | Verif.Props.OutsideFl | Near calculus for the centroid of d+1 vertices, C107_translated and C123 for the level-set functions, exact functions Lipschitz in the largest coordinate change; closure under the sharp set operations. |
| C131 | Projection of outside points in floating-point arithmetic | Verif.Props.ProjectFl | Every operation of the step followed by a rounding; relative error of the difference quotient, of the sum of squares and of the step; C107 for the correctly rounded distance of box domains; kernel evaluation of the binary64 witness. |
| C132 | Sliver detection survives rounding | Props/DihedralFl | Model every operation with a rounding; the Near calculus bounds unit vectors, products and the norm of the cross product; the quotient is within 5120u/sigma^2 of the cosine of the dihedral angle; detection follows by monotonicity of acos. A flat kite in exact binary64 (with a proved computable square root) has all six cosines beyond +-1, so it is missed. |
| C133 | Every geometry is evaluated accurately in double precision | ShapesFl | model every evaluation with one rounding per operation and an abstract np.dot, np.cos, np.sin; compose error bounds (Near) by induction over the geometry, with the non-expansiveness of norms, min, max and the smooth blends; combine with C96 and C130 |
| C134 | The truss always pushes outwards, and not too hard | Outward | Models: Forces, MeshLoop (existing). The virial of the forces is the sum over the bars of compression times length; as the target lengths exceed the lengths in the mean, some bar is compressed; expansion of the squares. Upper bound: triangle inequality and the documented scaling of the targets. Proved for all dimensions and then instantiated with the passes of C54. |
| C135 | Truss forces in floating-point arithmetic | ForcesFl | Model ForcesFl: _compute_forces operation by operation with a rounding after each, powers, roots and long sums as parameters of stated accuracy (instance: double precision). Error calculus of Rounding/BallFl/ShapesFl; the sparse sum is a fold in the order of the triples. |
| C136 | A call of generate_mesh does not depend on what was done before, but it changes what comes after | Verif.Props.Seed | generate_mesh is modelled again with the state of the generator passed through (Model/Seed); a call is shown equal to the call of Model/Generate with the numbers that follow the seed, and the state left behind is computed. |
| C137 | Pictures of domains and of mesh sizes | Verif.Props.Display | Pictures are modelled as a target (window or file) and the list of dots or pixels; membership in the list is characterised, and the two parts that are false (the file name of show, the ranks other than 0) are refuted. |
| C138 | Triangle quality is computed accurately, except for nearly flat triangles | QualFl | Model/QualFl follows simp_qual operation by operation with a rounding function; error bounds are propagated in the calculus of C123/C134 (Within), the subtractions b+c-a by the slack of the triangle. The clean-up is C37_exact with the computed qualities (NaN is below nothing). False as stated for flat triangles: in binary64 the quality of (0,0),(1,1),(4,4) is NaN and the entity survives (kernel computation in exact rational binary64). |
| C139 | Fixed points in floating-point arithmetic | FixedFl | Model/FixedFl: _closest_node, zeroing of the forces, update and projection with a rounding function; triangulation, forces and level sets as computed are parameters. Induction over passes: computed distance 0 exactly for equal nodes, so the fixed point itself is found; rnd(x + rnd(dt*0)) = x. For box domains the computed sign is exact (C107), so the property holds in full; on curved boundaries it is false (binary64 witness on a disk, by kernel computation over the rationals transported to the reals). |
| C140 | Laplacian smoothing in floating-point arithmetic | Verif.Props.LaplaceFl | the loop with every operation rounded; a relation 'c roundings relative to B' that is preserved by sums, products with weights and division by their sum; induction over the sweeps; a mesh of doubles as witness that the box is left |
| C141 | The sizing function evaluated in floating-point arithmetic | Verif.Props.InterpFl | scipy's weighted sum over the corners with every operation rounded; weights of an axis add up to the weight so far within (1+u)^2; induction over the axes, then over the corners; nodes by computing with 0 and 1; a constant array of doubles as witness |
| C142 | Vertices at the same position are merged in floating-point arithmetic | FixMeshFl | Floating-point numbers with sign bits; the model of C31/C32 with the byte string of the snapped row as the key. The two snapped numbers are equal, so the error bounds of division, rounding to integers and multiplication give the distance; the negation is shown on a square of two triangles in double precision. |
| C143 | Sizes that are not numbers are noticed | NanFl | The operations are parameters with the IEEE 754 rules for NaN, infinities and zeros as hypotheses; these rules are proved for a format with 53-bit rounding and overflow. NaN is followed from the sizes through the sum over all bars to the forces and the maximum. |
| C144 | One bad size affects only its neighbourhood | NanInit | Operations with the IEEE 754 rules as in C143. The minimum of sizes one of which is NaN is NaN, so every comparison of the rejection method is false; the negation is shown on a square in double precision. |
| C145 | The coordinates of the returned mesh are numbers | NanFinish | Operations with the IEEE 754 rules as in C143; invariants of the five sweeps (length, unchanged rows, NaN rows stay NaN) and the centroid test; the negation is shown on two triangles in double precision. |
| C146 | The gradient limiter when some requested sizes are NaN | LimgradNan | The limiter of C106 on `Option F` (none = NaN), with std::min_element as the left fold that replaces the smallest so far; the run is shown to be the run of C106 on the graph without the NaN cells, so the theorems of C106 apply; a NaN tolerance, step or first cell makes every comparison false. |
| C147 | A NaN in the sizing function stays in the grid intervals it touches | InterpNan | The interpolation of C141 on `Option K` (none = NaN): the interval of a point is characterised independently (half-open box, first and last interval beyond the ends) and is unique; a left fold with a NaN is NaN, without one it is the fold of C141. |
| C148 | A NaN velocity spoils the size of its own cell only | SizingNan | The size pipeline over the abstract floating-point operations of C134 with the laws of IEEE NaN; each stage is shown to keep a NaN, the maximum of an array with a NaN is NaN, and stages other than the gradient criterion are pointwise. |

## Findings

Where a property is false of the pinned code, the theorem proved is its negation with a witness
(`_false`) beside the part that does hold (`_partial`). Statements proved about the code that
contradict what a user would expect:

| id | finding |
|---|---|
| C08 | a requested timestep raises sizes above hmax |
| C09 | gradation after the Courant stage lowers sizes again: the timestep is not respected |
| C10 | inside a `linear_ramp` pad the wavelength criterion does not hold |
| C12 | options of inactive stages, and all options on ranks > 0, are not validated |
| C13, C14 | zero velocities in row 0 only are not replaced; the caller's array is modified in place |
| C16 | pad widths are counted with spacing L/n but the axes use L/(n-1): padding moves the model |
| C26 | smooth Difference reverses its operands |
| C27, C29 | bounding box of multi-axis rotations and smooth unions too small; corners stale after translation and for differences |
| C47 | `calc_volume_grad` is minus the gradient of `simp_vol` |
| C50 | `is_manifold` compares two counts only; raises on closed surfaces |
| C53 | max_iter = 0 is accepted and never terminates |
| C55 | fixed points are ignored in parallel and with user points, moved by the final 2-D smoothing and by subdomain projection |
| C63 | a rank with nothing to export skips its sends and receives: its neighbour hangs or consumes a stale message of another iteration |
| C68 | the export array is read d doubles past its end on every call |
| C69 | vertices needed by a neighbour can be left out (bounding-box filter; one side only) |
| C70 | with no received points one own vertex is deleted |
| C73 | triangle radius-edge ratios are wrong |
| C74 | a domain with a SizeFunction of another box is replaced by the hull box |
| C75, C87 | NaN sizes for uniform velocity with grad > 0; ranks > 0 get the constant size 1 |
| C78 | an assertion checked on rank 0 only leaves the other ranks waiting |
| C82, C83 | the last filter leaves unused vertices; the last Newton step can invert cells |
| C85, C86 | write_velocity_model ignores units; velocity_data without nz, nx raises; binary files with a 2-D bbox never work |
| C89 | inverted length assertions in c_delaunay2/3 |
| C94 | sliver_removal enlarges its step by a quarter in every pass that does not change the number of slivers: moves far beyond h0 are possible; ranks > 0 get (True, True) |
| C96 | shrinking stretches and Repeat of an asymmetric shape overestimate distances |
| C97 | the Newton guard `dgrad2 < deps` compares a pure number with a length; fix_mesh rounds on a grid anchored at the origin |
| C104 | with an even `stencil_size` (the default 10) the window of the gradient criterion is shifted by half a cell: the sizes of a mirrored model are not the mirrored sizes |
| C105 | gradient limiting on a grid of 2^31 - 1 or more nodes (for instance 1300^3) overflows a 32-bit product |
| C107 | `translate=` costs exactness: a point outside a translated box can be reported on its boundary |
| C108 | fix_mesh can make a nearly degenerate counter-clockwise triangle clockwise, and `simp_vol` of a returned triangle can be negative |
| C109 | with a time step a 3-D size can come out (a rounding error) below hmin: 119.48.. requested, `dt` = 1/128, `cr_max` = 0.681.., `space_order` = 5 |
| C110 | `get_edges` reads past the end of an array shorter than the number of cells |
| C111 | `sliver_removal` loses a vertex when a point is moved onto the old place of a later one, even if both end up in different places |
| C113 | with the gradient criterion a faster layer can get smaller cells: 100 m becomes 9.1 m when the last row of a model goes from 2000 to 4000 m/s |
| C114 | `laplacian2` stops after a sweep in which no bar grows, however much bars shrink: default tolerance, bar 70 → 68 in the first sweep, loop ends |
| C121 | without gradation the size is extrapolated linearly outside the model and can be negative within 0.1 hmin of it: 1500 beside 5000 m/s with 10 m nodes gives -375 m at 15 m outside |
| C123 | `Disk` and `Ball` signs are right up to a relative band of a few ulps of the radius; (1, 2^-30) is reported on the boundary of the unit disk |
| C124 | `fix_mesh` is not idempotent: the snapping length is a fraction of the extent of all points, used or not; with `delete_unused` a second call can merge vertices the first one kept |
| C126 | `vertex_to_entities` counts only used vertices: an unused vertex numbered below a used one makes `do_any_overlap`, `linter` and 3-D `generate_mesh(perform_checks=True)` raise IndexError; it depends on the order of the points |
| C127 | the snapping grid of `fix_mesh` is anchored at the origin of coordinates, not at the mesh: a translated call returns its arrays in another order, and two points within the tolerance are merged in one place and kept in another |
| C129 | `vertex_in_entity3` takes 4x4 determinants of untranslated coordinates: metre-size tetrahedra about 100 km from the origin are misjudged, good neighbours are reported as overlapping and one is deleted by `linter`; the same mesh at the origin is left alone |
| C131 | the difference increment `sqrt(eps) * h0` does not take the size of the coordinates into account: beyond about 2^27 h0 from the origin it is lost, all derivatives are 0 and outside points are never brought back |
| C132 | the argument of `acos` in `calc_dihedral_angles` is not clamped: for flat and nearly flat cells rounding takes the cosine beyond ±1, the angle is NaN, the comparisons are false, and the worst slivers are not selected for treatment; `sliver_removal` then reports success |
| C136 | a call of `generate_mesh` without `points` resets NumPy's global random generator (`np.random.seed(opts["seed"])`), so a caller's own seed is lost; and `seed` is documented as float or int, but `np.random.seed` rejects floats |
| C137 | `generation/mesh_generator.py`, `sizing/mesh_size_function.py` | every `show(filename=...)` ignores the file name (`_show(self, filename=None, ...)`); `plot_sizing_function` ends with `return ax` outside `if comm.rank == 0`, so it raises `UnboundLocalError` on every other rank; the tolerance 0.01 of `show` is absolute, so for domains in metres almost no sample is drawn |
| C138 | `geometry/utils.py:252-274`, `457-460` | `simp_qual` is NaN for flat triangles when rounding makes `b + c - a` negative, e.g. (0,0), (1,1), (4,4) in double precision; `NaN < min_qual` is False, so `delete_boundary_entities` keeps flat boundary triangles, the worst ones there are (with a RuntimeWarning). |
| C139 | `generation/mesh_generator.py:768-783` | the projection also moves fixed points: one in the closed disk around (1,1) of radius 3/2 next to the rim has the computed distance 2.2e-16 > 0 and is moved in the first pass, so `pfix` is not found among the returned points by comparison. On box domains this cannot happen. |
| C140 | `geometry/utils.py:612-614` | the averaging of `laplacian2` can move a vertex outside the bounding box of the mesh by one unit in the last place (sum of seven equal doubles divided by 7), so a later domain test `fd <= 0` without tolerance can flip. |
| C141 | `sizing/mesh_size_function.py:397-405` | the sizing function can be below `hmin` by one unit in the last place between the nodes of its grid (a grid of 50s evaluates to 50 - 2^-47 at (1/2, 1/17)), so a test `fh(x) >= hmin` without tolerance fails. |
| C142 | `geometry/utils.py:160,228-229` | `unique_rows` compares bytes, so `fix_mesh` does not merge two vertices at the same position if a coordinate is `0.0` in one and `-0.0` in the other; it also never merges `1e-300` with `-1e-300`. The mesh keeps a crack along the common side. |
| C143 | `generation/mesh_generator.py:512-521` | only the process of rank 0 evaluates the largest movement, so NaN sizes stop a serial run with an AssertionError but on the other processes of a parallel run the coordinates silently become NaN and are inserted in the next triangulation. |
| C144 | `generation/mesh_generator.py:837-849` | a single NaN (or zero) size at a grid point makes `r0.min()` NaN (zero) and the rejection method discards every grid point; with corners or `pfix` the run goes on with these alone, silently (a two-triangle mesh of a Rectangle). |
| C145 | `generation/mesh_generator.py:486-493, 741-759` | a boundary vertex where the level-set function is NaN comes back with NaN coordinates and its cells are dropped without a message. |
| C146 | `sizing/cpp/FastHJ.cpp:71` | a NaN in the first cell (or a NaN `grade`) makes the tolerance of the gradient limiter NaN, every comparison false, and the sizes come back unlimited without a message; a NaN in any other cell only stays where it is. |
| C147 | `sizing/mesh_size_function.py:397-405` | a NaN entry makes the sizing function NaN also at the neighbouring grid nodes just below it, whose own entries are numbers (a weight of 0 times NaN); each rank's local copy spreads it further. |
| C148 | `sizing/mesh_size_function.py:445` | with `grad > 0` one NaN velocity makes every mesh size of the model NaN, silently (the limiter is then off too, C146, and the initial points vanish, C144). |

## Coverage

From the citations in `Model/*.lean` (`tools/mkcoverage.py`). Functions without a module are not modelled.

| file | function | modelled in |
|---|---|---|
| decomp/blocker.py | blocker | Blocker |
| generation/cpp/delaunay.cpp | c_circumballs2 | Simplex |
| generation/cpp/delaunay.cpp | c_circumballs3 | Simplex |
| generation/cpp/delaunay.cpp | c_delaunay2 | Native, Simplex |
| generation/cpp/delaunay.cpp | c_delaunay3 | Native |
| generation/cpp/delaunay.cpp | circumballs2 | Simplex |
| generation/cpp/delaunay.cpp | circumballs3 | Native |
| generation/cpp/delaunay.cpp | delaunay2 | Native |
| generation/cpp/delaunay.cpp | delaunay3 | Native |
| generation/cpp/delaunay_class.cpp | __repr__ | DtWrapper |
| generation/cpp/delaunay_class.cpp | insert | DtWrapper, Ghost |
| generation/cpp/delaunay_class.cpp | remove | DtWrapper |
| generation/cpp/delaunay_class.cpp | move | DtWrapper |
| generation/cpp/delaunay_class.cpp | get_edges | DtEdges |
| generation/cpp/delaunay_class.cpp | number_of_vertices | –  |
| generation/cpp/delaunay_class.cpp | number_of_faces | –  |
| generation/cpp/delaunay_class.cpp | finite_vertices | DtWrapper |
| generation/cpp/delaunay_class.cpp | get_finite_cells | DtEdges, DtWrapper |
| generation/cpp/delaunay_class.cpp | get_finite_vertices | DtEdges, DtWrapper |
| generation/cpp/delaunay_class3.cpp | __repr__ | DtWrapper |
| generation/cpp/delaunay_class3.cpp | insert | DtWrapper, Ghost |
| generation/cpp/delaunay_class3.cpp | move | DtWrapper |
| generation/cpp/delaunay_class3.cpp | remove | DtWrapper |
| generation/cpp/delaunay_class3.cpp | number_of_vertices | –  |
| generation/cpp/delaunay_class3.cpp | get_edges | DtEdges |
| generation/cpp/delaunay_class3.cpp | number_of_cells | –  |
| generation/cpp/delaunay_class3.cpp | finite_vertices | –  |
| generation/cpp/delaunay_class3.cpp | get_finite_cells | DtWrapper |
| generation/cpp/delaunay_class3.cpp | get_finite_vertices | DtEdges, DtWrapper |
| generation/mesh_generator.py | silence | – display only |
| generation/mesh_generator.py | talk | – display only |
| generation/mesh_generator.py | _select_verbosity | Options |
| generation/mesh_generator.py | sliver_removal | MeshLoop, Options, Sliver, SliverCall, SliverDt |
| generation/mesh_generator.py | generate_mesh | Domain, FixedFl, Forces, Generate, GenerateDt, Ghost, MeshLoop, Mpi, NanFinish, NanFl, NanInit, Options, OutsideFl, Parallel, Seed |
| generation/mesh_generator.py | _calc_dihedral_angles | DihedralFl, Sliver |
| generation/mesh_generator.py | _minmax | Options |
| generation/mesh_generator.py | _check_bbox | Options |
| generation/mesh_generator.py | _unpack_sizing | Options |
| generation/mesh_generator.py | _unpack_domain | Options |
| generation/mesh_generator.py | _parse_kwargs | Options |
| generation/mesh_generator.py | _termination | MeshLoop |
| generation/mesh_generator.py | _get_edges | Forces, NanFl, Topology |
| generation/mesh_generator.py | _compute_forces | Forces, ForcesFl, NanFl |
| generation/mesh_generator.py | _add_ghost_vertices | Ghost |
| generation/mesh_generator.py | _remove_triangles_outside | NanFinish, OutsideFl, Project |
| generation/mesh_generator.py | _improve_level_set_newton | NanFinish, Project |
| generation/mesh_generator.py | _project_points_back_newton | FixedFl, NanFl, Project, ProjectFl |
| generation/mesh_generator.py | _user_defined_points | Blocker, Parallel |
| generation/mesh_generator.py | _generate_initial_points | InitPoints, MeshLoop, Mpi, NanInit, OutsideFl, Parallel, Seed |
| generation/mesh_generator.py | _initialize_points | Generate, MeshLoop, Parallel, Seed |
| generation/mesh_generator.py | _form_extents | InitPoints, Mpi, Parallel |
| generation/mesh_generator.py | _dist | SliverDt |
| generation/mesh_generator.py | _unpack_pfix | MeshLoop |
| generation/mesh_generator.py | _select_cgal_dim | –  |
| generation/mesh_generator.py | _get_topology | DtWrapper, GenerateDt |
| generation/mesh_generator.py | _closest_node | FixedFl, MeshLoop |
| generation/utils.py | odd | InitPoints |
| generation/utils.py | create_staggered_grid | InitPoints |
| generation/utils.py | make_init_points | InitPoints |
| generation/utils.py | dense | Forces, ForcesFl, Laplace, NanFl |
| geometry/cpp/fast_geometry.cpp | vectorSortIntArr | Native, Topology |
| geometry/cpp/fast_geometry.cpp | unique_edges | Native, Topology |
| geometry/cpp/fast_geometry.cpp | l2_norm | DihedralFl, Simplex |
| geometry/cpp/fast_geometry.cpp | cross_product | DihedralFl |
| geometry/cpp/fast_geometry.cpp | dot_product | DihedralFl, Simplex |
| geometry/cpp/fast_geometry.cpp | c_dblock | Sdf, SdfFl, ShapesFl |
| geometry/cpp/fast_geometry.cpp | dblock_fast | Native, Sdf |
| geometry/cpp/fast_geometry.cpp | c_drectangle | Sdf, SdfFl, ShapesFl |
| geometry/cpp/fast_geometry.cpp | drectangle_fast | Sdf |
| geometry/cpp/fast_geometry.cpp | c_remove_external_entities2 | Native, Topology |
| geometry/cpp/fast_geometry.cpp | remove_external_entities2 | Native |
| geometry/cpp/fast_geometry.cpp | c_remove_external_entities3 | Native, Topology |
| geometry/cpp/fast_geometry.cpp | remove_external_entities3 | Native |
| geometry/cpp/fast_geometry.cpp | c_calc_dihedral_angles | DihedralFl, Native, Simplex, Sliver |
| geometry/cpp/fast_geometry.cpp | calc_dihedral_angles | Native |
| geometry/cpp/fast_geometry.cpp | c_calc_3x3determinant | Native, Simplex |
| geometry/cpp/fast_geometry.cpp | calc_3x3determinant | Native, Simplex |
| geometry/cpp/fast_geometry.cpp | c_calc_4x4determinant | InsideFl, Native, Simplex |
| geometry/cpp/fast_geometry.cpp | calc_4x4determinant | Native, Simplex |
| geometry/cpp/fast_geometry.cpp | c_calc_volume_grad | Native, Simplex |
| geometry/cpp/fast_geometry.cpp | calc_volume_grad | Native |
| geometry/cpp/fast_geometry.cpp | c_calc_circumsphere_grad | Native, Simplex |
| geometry/cpp/fast_geometry.cpp | calc_circumsphere_grad | Native |
| geometry/signed_distance_functions.py | _generate_samples | Display |
| geometry/signed_distance_functions.py | _show | Display |
| geometry/signed_distance_functions.py | _length | Sdf, ShapesFl |
| geometry/signed_distance_functions.py | corners | Domain |
| geometry/signed_distance_functions.py | _gather_corners | Domain |
| geometry/signed_distance_functions.py | _manipulate | Domain, SdfFl, ShapesFl |
| geometry/signed_distance_functions.py | _configure_manipulations | Domain |
| geometry/signed_distance_functions.py | _scale_back | Domain, ShapesFl |
| geometry/signed_distance_functions.py | _translate_back | SdfFl |
| geometry/signed_distance_functions.py | _rotate_back | Domain, ShapesFl |
| geometry/signed_distance_functions.py | _build_stretch | Domain, ShapesFl |
| geometry/signed_distance_functions.py | _build_rotation | Domain, ShapesFl |
| geometry/signed_distance_functions.py | _build_translation | Domain |
| geometry/signed_distance_functions.py | Repeat.__init__ | Domain |
| geometry/signed_distance_functions.py | Repeat.eval | Domain, Sdf |
| geometry/signed_distance_functions.py | Repeat.show | Display |
| geometry/signed_distance_functions.py | _loop_call | Sdf |
| geometry/signed_distance_functions.py | Union.__init__ | Domain, SdfFl, ShapesFl |
| geometry/signed_distance_functions.py | Union._smooth_union | Domain, Sdf, SdfFl, ShapesFl |
| geometry/signed_distance_functions.py | Union.eval | Domain, Sdf, SdfFl, ShapesFl |
| geometry/signed_distance_functions.py | Union.show | Display, Domain, SdfFl, ShapesFl |
| geometry/signed_distance_functions.py | Intersection.__init__ | Domain, SdfFl, ShapesFl |
| geometry/signed_distance_functions.py | Intersection._smooth_intersection | Domain, Sdf, SdfFl, ShapesFl |
| geometry/signed_distance_functions.py | Intersection.eval | Domain, Sdf, SdfFl, ShapesFl |
| geometry/signed_distance_functions.py | Intersection.show | Display, Domain, SdfFl, ShapesFl |
| geometry/signed_distance_functions.py | Difference.__init__ | Domain, SdfFl, ShapesFl |
| geometry/signed_distance_functions.py | Difference._smooth_difference | Domain, Sdf, SdfFl, ShapesFl |
| geometry/signed_distance_functions.py | Difference.eval | Domain, Sdf, SdfFl, ShapesFl |
| geometry/signed_distance_functions.py | Difference.show | Display, Domain, SdfFl, ShapesFl |
| geometry/signed_distance_functions.py | Disk.__init__ | Domain, ShapesFl |
| geometry/signed_distance_functions.py | Disk.eval | Domain, Sdf, ShapesFl |
| geometry/signed_distance_functions.py | Disk.show | Display, Sdf, ShapesFl |
| geometry/signed_distance_functions.py | Ball.__init__ | Domain, Sdf, ShapesFl |
| geometry/signed_distance_functions.py | Ball.eval | Domain, Sdf, ShapesFl |
| geometry/signed_distance_functions.py | Ball.show | Display, Sdf, ShapesFl |
| geometry/signed_distance_functions.py | Rectangle.__init__ | Domain, Sdf, SdfFl, ShapesFl |
| geometry/signed_distance_functions.py | Rectangle.eval | Domain, Sdf, SdfFl, ShapesFl |
| geometry/signed_distance_functions.py | Rectangle.show | Display, Sdf, SdfFl, ShapesFl |
| geometry/signed_distance_functions.py | Cube.__init__ | Domain, Sdf, SdfFl, ShapesFl |
| geometry/signed_distance_functions.py | Cube.eval | Domain, Sdf, SdfFl, ShapesFl |
| geometry/signed_distance_functions.py | Cube.show | Display, Sdf, SdfFl, ShapesFl |
| geometry/signed_distance_functions.py | Torus.__init__ | Domain, Sdf, ShapesFl |
| geometry/signed_distance_functions.py | Torus.eval | Domain, Sdf, ShapesFl |
| geometry/signed_distance_functions.py | Torus.show | Display, Sdf, ShapesFl |
| geometry/signed_distance_functions.py | Prism.__init__ | Domain, Sdf, ShapesFl |
| geometry/signed_distance_functions.py | Prism.eval | Domain, Sdf, ShapesFl |
| geometry/signed_distance_functions.py | Prism.show | Display, Sdf, ShapesFl |
| geometry/signed_distance_functions.py | Cylinder.__init__ | Domain, Sdf, ShapesFl |
| geometry/signed_distance_functions.py | Cylinder.eval | Domain, Sdf, ShapesFl |
| geometry/signed_distance_functions.py | Cylinder.show | Display, Sdf, ShapesFl |
| geometry/signed_distance_functions.py | _ddisk | BallFl, Sdf, ShapesFl |
| geometry/signed_distance_functions.py | dball | BallFl, Sdf, ShapesFl |
| geometry/signed_distance_functions.py | drectangle | Sdf |
| geometry/signed_distance_functions.py | dblock | Sdf |
| geometry/utils.py | calc_re_ratios | Simplex |
| geometry/utils.py | remove_external_entities | Topology |
| geometry/utils.py | vertex_to_entities | Topology |
| geometry/utils.py | unique_rows | Bytes, Np |
| geometry/utils.py | simp_vol | FixMesh, Np, Simplex, VolFl |
| geometry/utils.py | fix_mesh | FixMesh, FixMeshFl, MeshLoop, Np |
| geometry/utils.py | simp_qual | Linter, QualFl, Simplex |
| geometry/utils.py | get_edges | Topology |
| geometry/utils.py | unique_row_view | Bytes, Np |
| geometry/utils.py | get_boundary_edges | Np, Topology |
| geometry/utils.py | get_winded_boundary_edges | Winding |
| geometry/utils.py | get_boundary_vertices | Topology |
| geometry/utils.py | get_boundary_entities | Topology |
| geometry/utils.py | get_facets | Topology |
| geometry/utils.py | get_boundary_facets | Topology |
| geometry/utils.py | delete_boundary_entities | Linter, QualFl, Topology |
| geometry/utils.py | _sparse | Laplace |
| geometry/utils.py | laplacian2_fixed_point | Laplace, MeshLoop |
| geometry/utils.py | laplacian2 | Laplace, LaplaceFl |
| geometry/utils.py | is_manifold | Topology |
| geometry/utils.py | vertex_in_entity2 | InsideFl, Simplex |
| geometry/utils.py | vertex_in_entity3 | InsideFl, Simplex |
| geometry/utils.py | get_centroids | InsideFl, Simplex |
| geometry/utils.py | do_any_overlap | InsideFl, Linter |
| geometry/utils.py | linter | Linter |
| migration/cpp/cpputils.cpp | build_vtoe2 | WhereTo |
| migration/cpp/cpputils.cpp | build_vtoe3 | WhereTo |
| migration/cpp/cpputils.cpp | calc_4x4dete | –  |
| migration/cpp/cpputils.cpp | c_where_to2 | WhereTo |
| migration/cpp/cpputils.cpp | where_to2 | WhereTo |
| migration/cpp/cpputils.cpp | c_where_to3 | WhereTo |
| migration/cpp/cpputils.cpp | where_to3 | WhereTo |
| migration/migration.py | localize_sizing_function | InitPoints, Interp, InterpFl, InterpNan, Mpi, Parallel |
| migration/migration.py | localize_points | Distribute, Mpi, Parallel |
| migration/migration.py | aggregate | Distribute, Mpi, Parallel |
| migration/migration.py | enqueue | Mpi, WhereTo |
| migration/migration.py | exchange | Exchange, Mpi, Parallel |
| sizing/cpp/FastHJ.cpp | sub2ind | HJ32, Limgrad |
| sizing/cpp/FastHJ.cpp | ind2sub | HJ32, Limgrad |
| sizing/cpp/FastHJ.cpp | IsNegative | –  |
| sizing/cpp/FastHJ.cpp | findIndices | HJ32, Limgrad, NativeHJ |
| sizing/cpp/FastHJ.cpp | c_limgrad | HJ32, Limgrad, LimgradFl, LimgradNan, NativeHJ |
| sizing/cpp/FastHJ.cpp | limgrad | HJ32, NativeHJ |
| sizing/mesh_size_function.py | get_sizing_function_from_segy | Sizing, SizingFl, SizingNan, Velocity |
| sizing/mesh_size_function.py | write_velocity_model | Velocity |
| sizing/mesh_size_function.py | plot_sizing_function | Display |
| sizing/mesh_size_function.py | _build_sizing_function | Interp, InterpFl, InterpNan, Velocity |
| sizing/mesh_size_function.py | _wavelength_sizing | Sizing, SizingNan |
| sizing/mesh_size_function.py | _gradient_sizing | Sizing, SizingNan |
| sizing/mesh_size_function.py | _enforce_courant_sizing | Sizing, SizingFl, SizingNan |
| sizing/mesh_size_function.py | _enforce_gradation_sizing | Limgrad, LimgradFl, LimgradNan, Sizing, SizingFl |
| sizing/mesh_size_function.py | _get_dimensions | Sizing, Velocity |
| sizing/mesh_size_function.py | _get_vectors | Interp, Sizing |
| sizing/mesh_size_function.py | _build_domain_pad | Sizing, Velocity |
| sizing/mesh_size_function.py | _pad_it | Sizing |
| sizing/mesh_size_function.py | read_velocity_model | ReadBin, Velocity |
| sizing/mesh_size_function.py | _read_bin | ReadBin, Velocity |
| sizing/mesh_size_function.py | _read_segy | ReadBin, Velocity |
| sizing/mesh_size_function.py | _initialize_sizing_function | Velocity |
| sizing/size_function.py | SizeFunction.__init__ | Velocity |
| sizing/size_function.py | SizeFunction.eval | Velocity |
