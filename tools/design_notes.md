
## Findings

Where a property is false of the pinned code, the theorem proved is its negation with a witness
(`_false`) beside the part that does hold (`_partial`). Statements proved about the code that
contradict what a user would expect:

| id | finding |
|---|---|
| C08 | a requested timestep raises sizes above hmax |
| C09 | gradation after the Courant stage lowers sizes again: the timestep is not respected |
| C10 | inside a `linear_ramp` pad the wavelength criterion does not hold |
| C12 | options of inactive stages, and all options on ranks > 0, are not validated |
| C13, C14 | zero velocities in row 0 only are not replaced; the caller's array is modified in place |
| C16 | pad widths are counted with spacing L/n but the axes use L/(n-1): padding moves the model |
| C26 | smooth Difference reverses its operands |
| C27, C29 | bounding box of multi-axis rotations and smooth unions too small; corners stale after translation and for differences |
| C47 | `calc_volume_grad` is minus the gradient of `simp_vol` |
| C50 | `is_manifold` compares two counts only; raises on closed surfaces |
| C53 | max_iter = 0 is accepted and never terminates |
| C55 | fixed points are ignored in parallel and with user points, moved by the final 2-D smoothing and by subdomain projection |
| C63 | a rank with nothing to export skips its sends and receives: its neighbour hangs or consumes a stale message of another iteration |
| C68 | the export array is read d doubles past its end on every call |
| C69 | vertices needed by a neighbour can be left out (bounding-box filter; one side only) |
| C70 | with no received points one own vertex is deleted |
| C73 | triangle radius-edge ratios are wrong |
| C74 | a domain with a SizeFunction of another box is replaced by the hull box |
| C75, C87 | NaN sizes for uniform velocity with grad > 0; ranks > 0 get the constant size 1 |
| C78 | an assertion checked on rank 0 only leaves the other ranks waiting |
| C82, C83 | the last filter leaves unused vertices; the last Newton step can invert cells |
| C85, C86 | write_velocity_model ignores units; velocity_data without nz, nx raises; binary files with a 2-D bbox never work |
| C89 | inverted length assertions in c_delaunay2/3 |
| C94 | sliver_removal enlarges its step by a quarter in every pass that does not change the number of slivers: moves far beyond h0 are possible; ranks > 0 get (True, True) |
| C96 | shrinking stretches and Repeat of an asymmetric shape overestimate distances |
| C97 | the Newton guard `dgrad2 < deps` compares a pure number with a length; fix_mesh rounds on a grid anchored at the origin |
| C104 | with an even `stencil_size` (the default 10) the window of the gradient criterion is shifted by half a cell: the sizes of a mirrored model are not the mirrored sizes |
| C105 | gradient limiting on a grid of 2^31 - 1 or more nodes (for instance 1300^3) overflows a 32-bit product |
| C107 | `translate=` costs exactness: a point outside a translated box can be reported on its boundary |
| C108 | fix_mesh can make a nearly degenerate counter-clockwise triangle clockwise, and `simp_vol` of a returned triangle can be negative |
| C109 | with a time step a 3-D size can come out (a rounding error) below hmin: 119.48.. requested, `dt` = 1/128, `cr_max` = 0.681.., `space_order` = 5 |
| C110 | `get_edges` reads past the end of an array shorter than the number of cells |
| C111 | `sliver_removal` loses a vertex when a point is moved onto the old place of a later one, even if both end up in different places |
| C113 | with the gradient criterion a faster layer can get smaller cells: 100 m becomes 9.1 m when the last row of a model goes from 2000 to 4000 m/s |
| C114 | `laplacian2` stops after a sweep in which no bar grows, however much bars shrink: default tolerance, bar 70 → 68 in the first sweep, loop ends |
| C121 | without gradation the size is extrapolated linearly outside the model and can be negative within 0.1 hmin of it: 1500 beside 5000 m/s with 10 m nodes gives -375 m at 15 m outside |
| C123 | `Disk` and `Ball` signs are right up to a relative band of a few ulps of the radius; (1, 2^-30) is reported on the boundary of the unit disk |
| C124 | `fix_mesh` is not idempotent: the snapping length is a fraction of the extent of all points, used or not; with `delete_unused` a second call can merge vertices the first one kept |
| C126 | `vertex_to_entities` counts only used vertices: an unused vertex numbered below a used one makes `do_any_overlap`, `linter` and 3-D `generate_mesh(perform_checks=True)` raise IndexError; it depends on the order of the points |
| C127 | the snapping grid of `fix_mesh` is anchored at the origin of coordinates, not at the mesh: a translated call returns its arrays in another order, and two points within the tolerance are merged in one place and kept in another |
| C129 | `vertex_in_entity3` takes 4x4 determinants of untranslated coordinates: metre-size tetrahedra about 100 km from the origin are misjudged, good neighbours are reported as overlapping and one is deleted by `linter`; the same mesh at the origin is left alone |
| C131 | the difference increment `sqrt(eps) * h0` does not take the size of the coordinates into account: beyond about 2^27 h0 from the origin it is lost, all derivatives are 0 and outside points are never brought back |
| C132 | the argument of `acos` in `calc_dihedral_angles` is not clamped: for flat and nearly flat cells rounding takes the cosine beyond ±1, the angle is NaN, the comparisons are false, and the worst slivers are not selected for treatment; `sliver_removal` then reports success |
| C136 | a call of `generate_mesh` without `points` resets NumPy's global random generator (`np.random.seed(opts["seed"])`), so a caller's own seed is lost; and `seed` is documented as float or int, but `np.random.seed` rejects floats |
| C137 | `generation/mesh_generator.py`, `sizing/mesh_size_function.py` | every `show(filename=...)` ignores the file name (`_show(self, filename=None, ...)`); `plot_sizing_function` ends with `return ax` outside `if comm.rank == 0`, so it raises `UnboundLocalError` on every other rank; the tolerance 0.01 of `show` is absolute, so for domains in metres almost no sample is drawn |
| C138 | `geometry/utils.py:252-274`, `457-460` | `simp_qual` is NaN for flat triangles when rounding makes `b + c - a` negative, e.g. (0,0), (1,1), (4,4) in double precision; `NaN < min_qual` is False, so `delete_boundary_entities` keeps flat boundary triangles, the worst ones there are (with a RuntimeWarning). |
| C139 | `generation/mesh_generator.py:768-783` | the projection also moves fixed points: one in the closed disk around (1,1) of radius 3/2 next to the rim has the computed distance 2.2e-16 > 0 and is moved in the first pass, so `pfix` is not found among the returned points by comparison. On box domains this cannot happen. |
| C140 | `geometry/utils.py:612-614` | the averaging of `laplacian2` can move a vertex outside the bounding box of the mesh by one unit in the last place (sum of seven equal doubles divided by 7), so a later domain test `fd <= 0` without tolerance can flip. |
| C141 | `sizing/mesh_size_function.py:397-405` | the sizing function can be below `hmin` by one unit in the last place between the nodes of its grid (a grid of 50s evaluates to 50 - 2^-47 at (1/2, 1/17)), so a test `fh(x) >= hmin` without tolerance fails. |
| C142 | `geometry/utils.py:160,228-229` | `unique_rows` compares bytes, so `fix_mesh` does not merge two vertices at the same position if a coordinate is `0.0` in one and `-0.0` in the other; it also never merges `1e-300` with `-1e-300`. The mesh keeps a crack along the common side. |
| C143 | `generation/mesh_generator.py:512-521` | only the process of rank 0 evaluates the largest movement, so NaN sizes stop a serial run with an AssertionError but on the other processes of a parallel run the coordinates silently become NaN and are inserted in the next triangulation. |
| C144 | `generation/mesh_generator.py:837-849` | a single NaN (or zero) size at a grid point makes `r0.min()` NaN (zero) and the rejection method discards every grid point; with corners or `pfix` the run goes on with these alone, silently (a two-triangle mesh of a Rectangle). |
| C145 | `generation/mesh_generator.py:486-493, 741-759` | a boundary vertex where the level-set function is NaN comes back with NaN coordinates and its cells are dropped without a message. |
| C146 | `sizing/cpp/FastHJ.cpp:71` | a NaN in the first cell (or a NaN `grade`) makes the tolerance of the gradient limiter NaN, every comparison false, and the sizes come back unlimited without a message; a NaN in any other cell only stays where it is. |
| C147 | `sizing/mesh_size_function.py:397-405` | a NaN entry makes the sizing function NaN also at the neighbouring grid nodes just below it, whose own entries are numbers (a weight of 0 times NaN); each rank's local copy spreads it further. |
| C148 | `sizing/mesh_size_function.py:445` | with `grad > 0` one NaN velocity makes every mesh size of the model NaN, silently (the limiter is then off too, C146, and the initial points vanish, C144). |
