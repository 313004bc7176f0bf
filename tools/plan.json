{
"C01": [
"Model/Limgrad",
"in-place sweep as fold over a value function and an activity map on node numbers; invariant by induction over relaxations/sweeps"
],
"C02": [
"Model/Limgrad",
"invariant: every violated edge has an endpoint marked in this sweep or still to be visited"
],
"C03": [
"Model/Limgrad",
"potential argument: each update lowers the sum of values by more than ftol; explicit bound; negation for the fixed cap by a propagation-speed argument on a long chain"
],
"C04": [
"Model/Limgrad",
"invariant g <= current field for every graded competitor g"
],
"C05": [
"Model/Limgrad",
"no relaxation fires on a graded field; minimum (hence ftol) preserved"
],
"C06": [
"Model/Limgrad",
"integer arithmetic of sub2ind/ind2sub; bijection with column-major flatten"
],
"C07": [
"Model/Sizing",
"pipeline of stages as functions on fields; lower bound through each stage, pads included"
],
"C08": [
"Model/Sizing",
"partial: proved when the Courant stage is inactive; negation witness otherwise"
],
"C09": [
"Model/Sizing",
"partial: proved after the Courant stage when grade = 0; negation witness with gradation"
],
"C10": [
"Model/Sizing",
"upper bound through stages; partial: false inside a linear ramp (negation)"
],
"C11": [
"Model/Sizing",
"normalisation formula on a list of variances"
],
"C12": [
"Model/Sizing",
"Except-valued option checks; partial: negative wl with grad = 0 is accepted (negation)"
],
"C13": [
"Model/Sizing",
"partial; negation when all zeros are in row 0"
],
"C14": [
"Model/Sizing",
"heap-cell model of the caller's array; partial; negation for unit conversion"
],
"C15": [
"Model/Sizing",
"np.pad per axis on lists; block and border theorems"
],
"C16": [
"Model/Interp",
"negation witness; partial: pads that are a whole number of grid spacings"
],
"C17": [
"Model/ReadBin",
"reshape/transpose/flip as index maps over all permutations of 3 axes"
],
"C18": [
"Model/ReadBin",
"lists of traces"
],
"C19": [
"Model/Interp",
"piecewise (bi)linear interpolation on linspace grids"
],
"C20": [
"Model/Sdf",
"min/max algebra over K; distance statements over the sup norm and the Euclidean norm"
],
"C21": [
"Model/Sdf",
"flat-array loop versus pointwise map"
],
"C22": [
"Model/Sdf",
"Euclidean norm over reals"
],
"C23": [
"Model/Sdf",
"sqrt algebra over reals"
],
"C24": [
"Model/Sdf",
"reduce over lists, induction"
],
"C25": [
"Model/Sdf",
"loop induction over lists"
],
"C26": [
"Model/Sdf",
"partial (two domains) plus negation for three"
],
"C27": [
"Model/Domain",
"inductive type of domain expressions; structural induction; negations for multi-axis rotation and smooth union"
],
"C28": [
"Model/Domain",
"matrix/vector identities"
],
"C29": [
"Model/Domain",
"partial plus negation for translate/rotate"
],
"C30": [
"Model/Sdf",
"mod arithmetic over a floor ring"
],
"C31": [
"Model/FixMesh",
"np.unique with index/inverse specification, index maps on lists"
],
"C32": [
"Model/FixMesh",
"same"
],
"C33": [
"Model/FixMesh",
"antisymmetry of simp_vol"
],
"C34": [
"Model/Topology",
"sort + dedup of pairs"
],
"C35": [
"Model/Topology",
"multiplicity counts"
],
"C36": [
"Model/Topology",
"stable sort by key + difference pointer"
],
"C37": [
"Model/Topology",
"filter by membership and quality"
],
"C38": [
"Model/Winding",
"loop with visited set, measure, walk invariant"
],
"C39": [
"Model/Topology",
"filter"
],
"C40": [
"Model/Laplace",
"weighted averages, invariant over iterations"
],
"C41": [
"Model/Laplace",
"assembled matrix entries; discrete maximum principle"
],
"C42": [
"Model/Simplex",
"barycentric coordinates"
],
"C43": [
"Model/Simplex",
"real inequality"
],
"C44": [
"Model/Simplex",
"ring identities"
],
"C45": [
"Model/Simplex",
"Matrix.det expansion"
],
"C46": [
"Model/Simplex",
"HasDerivAt of the circumradius"
],
"C47": [
"Model/Simplex",
"affine expansion; sign finding"
],
"C48": [
"Model/Simplex",
"cross product identities"
],
"C49": [
"Model/Linter",
"list comprehension model"
],
"C50": [
"Model/Topology",
"partial plus negation"
],
"C51": [
"Model/Options",
"Except-valued option checks"
],
"C52": [
"Model/Options",
"elementwise min/max"
],
"C53": [
"Model/MeshLoop",
"fuelled loop; termination count; non-termination for max_iter = 0"
],
"C54": [
"Model/Forces",
"sum over bars"
],
"C55": [
"Model/MeshLoop",
"loop invariant (partial) plus negations"
],
"C56": [
"Model/Project",
"pointwise"
],
"C57": [
"Model/Project",
"pointwise, five iterations"
],
"C58": [
"Model/MeshLoop",
"last stage filter"
],
"C59": [
"Model/InitPoints",
"filter and draw"
],
"C60": [
"Model/InitPoints",
"arange arithmetic"
],
"C61": [
"Model/Sliver",
"loop with abstract geometry"
],
"C62": [
"Model/Mpi, Model/Exchange",
"transition system; diamond property gives schedule independence; explicit execution gives completion"
],
"C63": [
"Model/Exchange",
"negation: hanging witness for every schedule, lost message; exact condition"
],
"C64": [
"Model/Aggregate",
"prefix sums"
],
"C65": [
"Model/Blocker",
"interval arithmetic"
],
"C66": [
"Model/Exchange",
"transition system"
],
"C67": [
"Model/WhereTo",
"packing loop"
],
"C68": [
"Model/WhereTo",
"partial plus negation"
],
"C69": [
"Model/WhereTo",
"partial plus negation"
],
"C70": [
"Model/Ghost",
"partial plus negation"
],
"C71": [
"Model/Interp",
"constant fields, node agreement"
],
"C72": [
"Model/DtWrapper",
"state machine with abstract CGAL"
],
"C73": [
"Model/Simplex",
"partial (3-D); negation for 2-D"
],
"C74": [
"Model/Options",
"the bbox merge of generate_mesh; partial (equal boxes / no SizeFunction) plus negation"
],
"C75": [
"Model/Sizing",
"IEEE-like values with NaN in the requested size; partial plus negation (uniform velocity with grad > 0)"
],
"C76": [
"Model/Parallel",
"every rank as a process (Model/Mpi) composed of localize_sizing_function, allreduce, bcast, exchange, serial pass, aggregate; PReach composition; the specification is the relation Together (passes side by side)"
],
"C77": [
"Model/Parallel",
"confluence of the MPI semantics (diamond property) applied to the whole run"
],
"C78": [
"Model/Parallel",
"false: negation (rank 0 raises in the movement check, rank 1 then waits for ever in every execution)"
],
"C79": [
"Model/Parallel",
"invariant of the process of each rank (Yields), preserved by every step; no assumptions on the other ranks"
],
"C80": [
"Props/LintOnce",
"the overlap test is invariant under renumbering and under vertex order; every overlap of the result is one of the input, and linter deletes one member of each"
],
"C81": [
"Props/Returned",
"every path through _termination ends with fix_mesh, whose result is clean; the Newton step keeps the number of vertices and the last filter takes a sublist; in parallel, invariant over all executions"
],
"C82": [
"Props/Returned",
"refuted by a run on one tetrahedron; the set of vertices is that of a clean mesh, the cells are those inside"
],
"C83": [
"Props/Returned",
"refuted by a run on one tetrahedron (vertex moved through the opposite face after the last orientation); cells whose vertices do not move stay oriented"
],
"C84": [
"Props/Velocity",
"composition of the reader, the size pipeline and the interpolant; proved at every node, for binary and SEG-Y files"
],
"C85": [
"Props/Velocity",
"model of write_velocity_model; equality proved for m/s and no water, refuted otherwise by concrete calls"
],
"C86": [
"Props/Velocity",
"equality of the two calls if nz, nx, ny are passed; otherwise proved to raise for every array / every binary file with a 2-D bbox"
],
"C87": [
"Props/Velocity",
"bbox and hmin agree; sizes proved to be 1 on every other rank; concrete two-rank call"
],
"C88": [
"Props/Native",
"checked-buffer model of the C++ loops (every subscript and memcpy may fail); loop invariant: the written prefix is the specified list"
],
"C89": [
"Props/Native",
"checked-buffer model with CGAL as a parameter; positive part with NDEBUG, inverted assertion and unchecked lengths proved"
],
"C90": [
"Props/NativeHJ",
"checked-buffer version of FastHJ; simulation by the functional model of C01-C06"
],
"C91": [
"Model/Sizing, Props/SizingGrade, Props/SizingLip",
"composition of the pipeline stages with the sweep bound of C03; index clamping of the edge pad; node spacing of the padded axes; negation by witnesses for narrow cells and the other padding styles; Lipschitz constants of multilinear interpolation by induction over the axes"
],
"C92": [
"Model/Limgrad, Props/LimgradForm",
"cones as competitors in C04 for the lower bound, C02 along grid paths for the upper; monotonicity and relabelling by composing both"
],
"C93": [
"Model/SliverCall, Props/SliverCall",
"the two exits of the loop end in fix_mesh / _termination (C81's lemmas); centroids are invariant under the reordering of C32"
],
"C94": [
"Model/SliverCall, Props/SliverCall",
"induction over the passes with the geometric bound on step; an explicit run attains it"
],
"C95": [
"Model/Bytes, Props/Bytes",
"injectivity of fixed-width little-endian encodings, also after dropping trailing zeros; transfer of C31/C35 along an order-equivalent injective key"
],
"C96": [
"Props/Lipschitz",
"smooth blends as infima of weighted means, primitives as distances or projections, structural induction; counterexamples for shrinking and Repeat"
],
"C97": [
"Verif/Props/Units.lean",
"Simulation: every function of the run commutes with the change of units (lists of points are mapped, cells stay), by case analysis function by function, then induction over the passes of the loop. The real 2-D and 3-D tools meet the hypotheses for v = 0; a witness shows that the guard dgrad2 < deps breaks the claim."
],
"C98": [
"Verif/Props/Initial.lean",
"The front end is run symbolically to the call of serialPoints (setup_of, start_of); the staggered grid is characterised by integer indices, from which separation, bounds and covering follow by rounding; depth from the Lipschitz property of C96."
],
"C99": [
"Verif/Props/SizingMono.lean",
"Stage by stage: the clamped request is an explicit min/max formula, monotone in the options; the timestep stage is a maximum; the limiter is compared through C92 (distance transform); padding preserves linear inequalities; interpolation is a convex combination."
],
"C100": [
"Verif/Props/SizingUnits.lean",
"Each stage is shown homogeneous as a function (including exceptions and NaN); the limiter by induction over stencil, sweep and loop; the constant 99999 is absorbed by the clamp."
],
"C101": [
"Verif.Props.Renumber",
"Counting of cells around an edge or facet is invariant under renumbering; the characterisations of C34/C35 and the Euler count of is_manifold transfer it to the functions."
],
"C102": [
"Verif.Props.Workflow",
"C15_returned_box gives the box of the returned object; the bbox merge of generate_mesh turns it into the domain; C58 and C98 then apply to that domain."
],
"C103": [
"Verif.Props.SetAlgebra",
"min/max folds are invariant under permutation and nesting; smooth bounds from C25."
],
"C104": [
"Sizing",
"Relate the two runs stage by stage by reversal of the indices (units, water, criteria, clamp, Courant), the limiter by C92_relabel up to its tolerance, the pads because both sides get the same width, the interpolant because linspace is symmetric. False for even stencils: witness."
],
"C105": [
"HJ32",
"checked 32-bit operations and rounded quotient; refinement to Model/NativeHJ; 2^31-1 is prime (Lucas-Lehmer), so a grid of that size is a row whose last node overflows"
],
"C106": [
"LimgradFl",
"the limiter over an abstract ordered set with rounded add and mul; invariants of C01-C05 redone with monotonicity only; binary64 shown to be monotone, idempotent and 2^-53 accurate"
],
"C107": [
"SdfFl",
"Model eval with a rounding after each addition; min, max and negation commute with a monotone odd rounding, so by induction over the geometry the result is the rounded exact value."
],
"C108": [
"VolFl",
"A calculus of accumulated relative errors (k roundings of terms of size B); fix_mesh is generic in the volume, so its run lemma applies to the rounded volume."
],
"C109": [
"SizingFl",
"the clamp, Courant and gradation stages over arbitrary rounded operations; lower bounds pass through the limiter by C106; binary64 witness in 3-D"
],
"C110": [
"Verif.Props.DtEdges",
"get_edges as a fold over the selected cells with addresses, neighbours and circulators of CGAL as parameters and the set order as a parameter; the tie-break by address keeps exactly the smallest selected cell around an edge, so the list is duplicate free and complete."
],
"C111": [
"Verif.Props.SliverDt",
"The loop of sliver_removal with the triangulation object in its state; invariant: the object is valid, has no two vertices in one place and its vertex array is pold. Refinement of the loop model of C59-C61, C93, C94."
],
"C112": [
"GenerateDt",
"The meshing loop with a new triangulation object in every pass, CGAL being a parameter with its documented insertion behaviour as hypothesis; the hypotheses of C54, C55 and C81 about the triangulation are discharged, lengths are tracked through movement, projection, clean-up and linting."
],
"C113": [
"SizingSpeed",
"The comparison of two calls of C99 is proved for two velocity models at once (request, Courant stage, limiter as distance transform, padding, interpolation); preparation of the velocities (units, water) is shown monotone; a 4 x 2 model shows that the gradient criterion is not."
],
"C114": [
"LaplaceStop",
"the loop is unfolded into the sequence of sweeps and the first index whose bars do not grow by tol; termination by decay of the successive differences (weights that have not reached a fixed vertex shrink geometrically); a six-triangle mesh refutes the documented rule"
],
"C115": [
"LaplaceStop",
"the error vanishes on the boundary and is averaged elsewhere, so it decays; a boundary bar never changes, so with tol <= 0 the loop runs max_iter sweeps"
],
"C116": [
"Cleanup",
"compose fix_mesh (identity on cells as position sets when points are apart), C37 (deletion exact) and the final fix_mesh; compare triangles as multisets of vertex positions"
],
"C117": [
"CleanupSmooth",
"compose C37 (deletion), C42 (smoothing) and the fix_mesh correspondence, carrying the kept triangles and neighbour averages through the renumbering"
],
"C118": [
"CleanupSmooth",
"the 3-D branch of the termination is fix_mesh only; use the fix_mesh correspondence"
],
"C119": [
"SizingDefaults",
"evaluate the pipeline on the default options and compute the stages that are on"
],
"C120": [
"SizingExtrude",
"stage by stage: windows average equal values, the dimension cancels in the Courant stage, the limited sizes are the distance transforms of C92, padding is done axis by axis"
],
"C121": [
"InterpOutside",
"weights of linear continuation on each axis, induction over the axes, composed with the gradation theorem C91 and the lower bound C19; negation by an actual call without gradation"
],
"C122": [
"SizingLayers",
"each stage maps layered arrays to layered arrays; for the limiter through the closed form C92; padding copies values inside the range of the model"
],
"C123": [
"BallFl",
"rounded evaluation order modelled with a rounding parameter; relative errors of nonnegative terms accumulate multiplicatively and are halved by the square root; binary64 on the reals satisfies the hypotheses"
],
"C124": [
"FixTwice",
"The stages of fix_mesh are shown to depend only on the representatives (strictly sorted by key) and on the keys of the rows; both are the same for renumbered meshes and for the result of a first call. Idempotence is proved for an unchanged extent (in particular for meshes without unused vertices and without merged vertices) and refuted in general with a far unused vertex."
],
"C125": [
"Verif.Props.PointOrder",
"Renaming invariance of bars, forces, fixed-point search, movement, projection and removal of outside cells, pass by pass; the final fix_mesh (C124_numbering) removes the renaming."
],
"C126": [
"Verif.Props.LinterUnused",
"The property is false of the code. With an unused vertex numbered below a used one the pointer array of vertex_to_entities is too short for the largest used vertex: prove that do_any_overlap, linter and the last pass of a 3-D run raise IndexError, give two orders of the same points and triangulation of which one returns a mesh and the other raises, and prove the exact condition (unused vertices last) under which do_any_overlap succeeds and is exact, and under which the checks of a 3-D run change nothing."
],
"C127": [
"Verif.Props.Translate",
"Each pass commutes with the motion by the lemmas of C97 at scale one, where the guard of the Newton steps cannot matter. In the last pass the clean-up keeps the same cells at the moved positions (C116, C117, C118), so the two cleaned meshes are renumberings of each other; the level-set improvement and the centroid test then respect the renumbering (C101). A rational witness shows that within the tolerance the clean-up depends on the position."
],
"C128": [
"Verif.Props.SliverUnits",
"A simulation between the two loops: angles and the normalised gradient are invariant, the kept cells and bad cells are the same, the moved points correspond; the final fix_mesh is covered by C97 (units) and C127 (position)."
],
"C129": [
"Verif.Props.InsideFl",
"Every product, sum and quotient of the tests is followed by a rounding function of relative error u; accumulated error by the Near calculus, then the mesh-level theorem through C49_overlap; witness in the binary64 model by kernel evaluation."
],
"C130": [
"Verif.Props.OutsideFl",
"Near calculus for the centroid of d+1 vertices, C107_translated and C123 for the level-set functions, exact functions Lipschitz in the largest coordinate change; closure under the sharp set operations."
],
"C131": [
"Verif.Props.ProjectFl",
"Every operation of the step followed by a rounding; relative error of the difference quotient, of the sum of squares and of the step; C107 for the correctly rounded distance of box domains; kernel evaluation of the binary64 witness."
],
"C132": [
"Props/DihedralFl",
"Model every operation with a rounding; the Near calculus bounds unit vectors, products and the norm of the cross product; the quotient is within 5120u/sigma^2 of the cosine of the dihedral angle; detection follows by monotonicity of acos. A flat kite in exact binary64 (with a proved computable square root) has all six cosines beyond +-1, so it is missed."
],
"C133": [
"ShapesFl",
"model every evaluation with one rounding per operation and an abstract np.dot, np.cos, np.sin; compose error bounds (Near) by induction over the geometry, with the non-expansiveness of norms, min, max and the smooth blends; combine with C96 and C130"
],
"C134": [
"Outward",
"Models: Forces, MeshLoop (existing). The virial of the forces is the sum over the bars of compression times length; as the target lengths exceed the lengths in the mean, some bar is compressed; expansion of the squares. Upper bound: triangle inequality and the documented scaling of the targets. Proved for all dimensions and then instantiated with the passes of C54."
],
"C135": [
"ForcesFl",
"Model ForcesFl: _compute_forces operation by operation with a rounding after each, powers, roots and long sums as parameters of stated accuracy (instance: double precision). Error calculus of Rounding/BallFl/ShapesFl; the sparse sum is a fold in the order of the triples."
],
"C136": [
"Verif.Props.Seed",
"generate_mesh is modelled again with the state of the generator passed through (Model/Seed); a call is shown equal to the call of Model/Generate with the numbers that follow the seed, and the state left behind is computed."
],
"C137": [
"Verif.Props.Display",
"Pictures are modelled as a target (window or file) and the list of dots or pixels; membership in the list is characterised, and the two parts that are false (the file name of show, the ranks other than 0) are refuted."
],
"C138": [
"QualFl",
"Model/QualFl follows simp_qual operation by operation with a rounding function; error bounds are propagated in the calculus of C123/C134 (Within), the subtractions b+c-a by the slack of the triangle. The clean-up is C37_exact with the computed qualities (NaN is below nothing). False as stated for flat triangles: in binary64 the quality of (0,0),(1,1),(4,4) is NaN and the entity survives (kernel computation in exact rational binary64)."
],
"C139": [
"FixedFl",
"Model/FixedFl: _closest_node, zeroing of the forces, update and projection with a rounding function; triangulation, forces and level sets as computed are parameters. Induction over passes: computed distance 0 exactly for equal nodes, so the fixed point itself is found; rnd(x + rnd(dt*0)) = x. For box domains the computed sign is exact (C107), so the property holds in full; on curved boundaries it is false (binary64 witness on a disk, by kernel computation over the rationals transported to the reals)."
],
"C140": [
"Verif.Props.LaplaceFl",
"the loop with every operation rounded; a relation 'c roundings relative to B' that is preserved by sums, products with weights and division by their sum; induction over the sweeps; a mesh of doubles as witness that the box is left"
],
"C141": [
"Verif.Props.InterpFl",
"scipy's weighted sum over the corners with every operation rounded; weights of an axis add up to the weight so far within (1+u)^2; induction over the axes, then over the corners; nodes by computing with 0 and 1; a constant array of doubles as witness"
],
"C142": [
"FixMeshFl",
"Floating-point numbers with sign bits; the model of C31/C32 with the byte string of the snapped row as the key. The two snapped numbers are equal, so the error bounds of division, rounding to integers and multiplication give the distance; the negation is shown on a square of two triangles in double precision."
],
"C143": [
"NanFl",
"The operations are parameters with the IEEE 754 rules for NaN, infinities and zeros as hypotheses; these rules are proved for a format with 53-bit rounding and overflow. NaN is followed from the sizes through the sum over all bars to the forces and the maximum."
],
"C144": [
"NanInit",
"Operations with the IEEE 754 rules as in C143. The minimum of sizes one of which is NaN is NaN, so every comparison of the rejection method is false; the negation is shown on a square in double precision."
],
"C145": [
"NanFinish",
"Operations with the IEEE 754 rules as in C143; invariants of the five sweeps (length, unchanged rows, NaN rows stay NaN) and the centroid test; the negation is shown on two triangles in double precision."
],
"C146": [
"LimgradNan",
"The limiter of C106 on `Option F` (none = NaN), with std::min_element as the left fold that replaces the smallest so far; the run is shown to be the run of C106 on the graph without the NaN cells, so the theorems of C106 apply; a NaN tolerance, step or first cell makes every comparison false."
],
"C147": [
"InterpNan",
"The interpolation of C141 on `Option K` (none = NaN): the interval of a point is characterised independently (half-open box, first and last interval beyond the ends) and is unique; a left fold with a NaN is NaN, without one it is the fold of C141."
],
"C148": [
"SizingNan",
"The size pipeline over the abstract floating-point operations of C134 with the laws of IEEE NaN; each stage is shown to keep a NaN, the maximum of an array with a NaN is NaN, and stages other than the gradient criterion are pointwise."
]
}