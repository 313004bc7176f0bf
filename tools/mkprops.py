#!/usr/bin/env python3
"""Generates /verif/properties.jsonl (source of truth for the property list)."""
import json
P=[]
def p(title, statement, quantifier, why, anchors):
    P.append(dict(id="C%02d"%(len(P)+1), title=title, statement=statement, quantifier=quantifier, why_tests_cant=why, anchors=anchors))
HJ="SeismicMesh/sizing/cpp/FastHJ.cpp"; MSF="SeismicMesh/sizing/mesh_size_function.py"
SDF="SeismicMesh/geometry/signed_distance_functions.py"; GU="SeismicMesh/geometry/utils.py"
FG="SeismicMesh/geometry/cpp/fast_geometry.cpp"; MG="SeismicMesh/generation/mesh_generator.py"
MU="SeismicMesh/generation/utils.py"; BL="SeismicMesh/decomp/blocker.py"; MI="SeismicMesh/migration/migration.py"
CU="SeismicMesh/migration/cpp/cpputils.cpp"; DC="SeismicMesh/generation/cpp/delaunay_class.cpp"; DL="SeismicMesh/generation/cpp/delaunay.cpp"
SF="SeismicMesh/sizing/size_function.py"

# ---- sizing: gradient limiter
p("Gradation only refines, never below the finest size",
  "limgrad / the grade option never increases a mesh size at any grid node, and never produces a size smaller than the smallest size of the input field.",
  "all grid shapes, all size fields, all non-negative grading rates and spacings, all iteration caps",
  "the relaxation order is data dependent and in-place; a test samples a handful of fields",[HJ+":c_limgrad",MSF+":_enforce_gradation_sizing"])
p("Gradation bound holds on convergence",
  "When the limiter stops because no node is active any more, the sizes of any two grid-adjacent nodes differ by at most elen*grade plus the tolerance ftol.",
  "all grid shapes (2-D and 3-D), fields, rates, and all numbers of sweeps",
  "needs an invariant over every intermediate state of an in-place Gauss-Seidel sweep",[HJ+":c_limgrad"])
p("The limiter converges; the cap of 10000 sweeps is the only way to lose the bound",
  "For every field with positive minimum the number of sweeps until no node is active is finite and explicitly bounded; with a cap at least that bound the returned field satisfies the gradation bound. (With the shipped fixed cap the bound is not enforced for every input.)",
  "all grids, all fields with positive minimum size",
  "termination/convergence is a statement about all inputs; no finite test suite establishes it",[HJ+":c_limgrad",MSF+":_enforce_gradation_sizing"])
p("The limiter never over-refines",
  "The limited field dominates every field that lies below the input and satisfies the gradation condition itself: the limiter returns sizes at least as large as the best possible graded field.",
  "all grids, all input fields, all competitor graded fields, all sweep counts",
  "optimality quantifies over all competitor fields",[HJ+":c_limgrad"])
p("Limiting is the identity on graded fields and idempotent",
  "A field that already satisfies the gradation bound is returned unchanged, and limiting the converged result again changes nothing.",
  "all grids, all fields", "idempotence must hold for every field",[HJ+":c_limgrad"])
p("Column-major node numbering is consistent",
  "The conversion of a linear node number to (i,j,k) and back is a bijection on the grid; the stencil used by the limiter is exactly the set of in-range axis neighbours (clamped at the border to the node itself), and Fortran-order flatten/reshape in Python addresses the same nodes, so the limiter's result at array position (i,j,k) belongs to grid node (i,j,k).",
  "all grid shapes and all nodes", "index arithmetic must be right for all sizes, including size-1 axes",[HJ+":sub2ind",HJ+":ind2sub",MSF+":_enforce_gradation_sizing"])
p("hmin is a lower bound of the sizing function on its grid",
  "Every grid value (as far as it is a number, see C75) of the sizing function returned by get_sizing_function_from_segy is >= hmin, whatever combination of wl, grad, dt, grade, pad_style and domain_pad is used (given hmin <= hmax).",
  "all velocity models, all option combinations", "the bound must survive five composed stages for all inputs",[MSF+":get_sizing_function_from_segy"])
p("hmax is an upper bound of the sizing function",
  "Every grid value of the returned sizing function is <= hmax.",
  "all velocity models and option combinations", "interaction of stages: the Courant stage runs after the clamp",[MSF+":get_sizing_function_from_segy",MSF+":_enforce_courant_sizing"])
p("Requested timestep respects the Courant number",
  "With dt and cr_max given, at every grid node of the returned sizing function the Courant number vp*dt*space_order/h is at most cr_max.",
  "all velocity models and option combinations", "interaction of the Courant stage with the later gradation stage",[MSF+":_enforce_courant_sizing",MSF+":get_sizing_function_from_segy"])
p("Wavelength resolution",
  "With wl cells per wavelength requested at frequency freq (and no dt), every grid size is at most max(hmin, vp/(freq*wl)), also after clamping, gradation.",
  "all velocity models, all grad/grade settings", "composition of stages for all inputs",[MSF+":_wavelength_sizing",MSF+":get_sizing_function_from_segy"])
p("Gradient-based refinement stays in its documented range",
  "The size requested by the grad option lies between grad/1.1 and 10*grad at every node, equals 10*grad where the local variance is minimal, and is monotone decreasing in the local variance; without a timestep option the returned size is at most max(hmin, this request).",
  "all velocity fields with a non-constant, non-negative window variance", "normalisation must hold for all fields",[MSF+":_gradient_sizing"])
p("Sizing options are validated",
  "get_sizing_function_from_segy raises on unknown option names, on bbox lengths other than 4 or 6, on negative wl/freq/grad/grade/cr_max/dt/domain_pad, space_order < 1 and unknown pad styles.",
  "all option dictionaries", "decision logic over all option combinations",[MSF+":get_sizing_function_from_segy",MSF+":_wavelength_sizing",MSF+":_enforce_courant_sizing",MSF+":_pad_it"])
p("Zero velocities are replaced by the water velocity",
  "Every grid node with velocity below 1e-3 m/s is replaced by vp_water (or the call raises when vp_water is out of [1300,1800]); no other node is changed.",
  "all velocity models", "the guard looks at row indices, so the outcome depends on where the zeros are",[MSF+":get_sizing_function_from_segy"])
p("The caller's velocity array is not modified",
  "Calling get_sizing_function_from_segy(velocity_data=a) leaves a unchanged, so calling it twice with the same array gives the same sizing function.",
  "all arrays, all unit options, all call histories", "aliasing is a statement about call histories",[MSF+":get_sizing_function_from_segy"])
p("Domain padding extends exactly the documented sides",
  "domain_pad = d > 0 enlarges the bbox by d at -z, -x, +x (and -y, +y) and leaves the +z side fixed; the padded array contains the unpadded array unchanged as a block; pad_style edge repeats the nearest border value, constant uses the maximum, linear_ramp interpolates between border value and maximum; d = 0 changes nothing and d < 0 raises.",
  "all arrays, paddings, pad styles", "must hold for all shapes and pad widths",[MSF+":_build_domain_pad",MSF+":_pad_it"])
p("Padding does not move the velocity model",
  "Evaluating the padded sizing function at a node of the original grid returns the same value as the unpadded sizing function.",
  "all models and pads", "depends on grid-spacing arithmetic for all shapes",[MSF+":_build_domain_pad",MSF+":_get_dimensions",MSF+":_get_vectors"])
p("Binary velocity files are read in the right order",
  "For every permutation axes_order, read_velocity_model on a binary file with nz*nx*ny values returns an array of shape (nz,nx,ny) in which each file value occurs at exactly one position, namely the position given by axes_order / axes_order_sort with the z axis flipped.",
  "all sizes, all axis permutations, both storage orders, all file contents", "the inverse-permutation bookkeeping must be right for all permutations and sizes",[MSF+":_read_bin"])
p("SEG-Y traces become columns, deepest sample first",
  "Reading a SEG-Y file with nx traces of nz samples yields an (nz,nx) array in which column k is trace k reversed.",
  "all files", "for all sizes",[MSF+":_read_segy"])
p("The sizing function interpolates its grid",
  "The returned sizing function reproduces every grid value at its grid node and, inside the bbox, stays between the minimum and maximum of the surrounding grid values (hence >= hmin).",
  "all grids (2-D), all query points in the bbox", "for all query points",[MSF+":_build_sizing_function",MSF+":_get_vectors"])
# ---- SDF
p("Rectangle and Cube signed distances have the right sign and depth",
  "Rectangle/Cube.eval(x) is <= 0 exactly for points of the closed box and < 0 exactly in its interior; inside, -eval(x) is the exact distance to the boundary; everywhere eval is 1-Lipschitz, so it never overestimates the distance.",
  "all boxes, all points", "for all points",[SDF+":Rectangle",SDF+":Cube",FG+":c_drectangle",FG+":c_dblock"])
p("C++ box distances equal the Python reference",
  "drectangle_fast/dblock_fast return, for every flat point array, exactly the list of values drectangle/dblock return point by point.",
  "all point arrays, all boxes", "for all arrays",[FG+":c_drectangle",FG+":c_dblock",SDF+":drectangle",SDF+":dblock"])
p("Disk and Ball are exact signed distance functions",
  "Disk/Ball.eval(x) is <= 0 exactly inside the closed ball, and |eval(x)| is the Euclidean distance from x to the sphere.",
  "all centres, radii, points", "for all points",[SDF+":Disk",SDF+":Ball",SDF+":_ddisk",SDF+":dball"])
p("Torus, Cylinder and Prism describe the documented solids",
  "Torus(r1,r2): eval <= 0 iff the distance to the circle of radius r1 in the xz-plane is <= r2. Cylinder(h,r): eval <= 0 iff sqrt(x^2+z^2) <= r and |y| <= h/2, and 0 iff on its surface. Prism(b,h): eval <= 0 iff |z| <= h and (x,y) lies in the triangle.",
  "all parameters and points","for all points",[SDF+":Torus",SDF+":Cylinder",SDF+":Prism"])
p("Sharp set operations compute Boolean set algebra",
  "With smoothness 0, Union/Intersection/Difference of any positive number of domains is negative exactly on the union / intersection / first-minus-all-others of the domains' interiors (and <= 0 on the closed sets for union and intersection).",
  "all lists of domains, all points","any number of operands, all points",[SDF+":Union",SDF+":Intersection",SDF+":Difference"])
p("Smooth union and intersection are bounded blends",
  "With smoothness k > 0 and n domains, smooth Union lies between min - (n-1)k/4 and min and smooth Intersection between max and max + (n-1)k/4; for two domains whose distances differ by at least k they equal the sharp result, and they do not depend on the order of the two domains.",
  "all lists of domains, all k > 0, all points","iterated blend for any number of operands",[SDF+":Union._smooth_union",SDF+":Intersection._smooth_intersection",SDF+":_loop_call"])
p("Smooth Difference subtracts every domain after the first",
  "With smoothness k > 0, Difference([A,B1,...,Bn]) contains no point of any Bi's interior and no point outside A.",
  "all lists of domains, all k > 0, all points","depends on operand count and order",[SDF+":Difference._smooth_difference",SDF+":Difference.eval"])
p("The advertised bounding box encloses the domain",
  "For every domain object, every point with eval(x) <= 0 lies in domain.bbox, for every nesting of set operations and every translate/rotate/stretch manipulation.",
  "all domain expressions (nested set operations, manipulations), all points","structural induction over all expressions",[SDF+":_configure_manipulations",SDF+":_build_rotation",SDF+":Union",SDF+":Torus",SDF+":Prism",SDF+":Cylinder"])
p("Manipulations move the shape as documented",
  "A shape built with stretch v, rotation (counter-clockwise about the z, y and x axes, in that order) and translation t evaluates at the image of y under stretch-then-rotate-then-translate exactly as the unmanipulated shape evaluates at y; each inverse map undoes the forward map, and without stretch the map is an isometry.",
  "all shapes, angles, vectors and points","for all points and angles",[SDF+":_manipulate",SDF+":_scale_back",SDF+":_rotate_back",SDF+":_translate_back"])
p("Automatically fixed corner points lie on the domain boundary",
  "The corner points that generate_mesh adds to the fixed points lie on the boundary of the domain (|eval| <= 1000*deps).",
  "all domains, manipulations","for all domains",[SDF+":corners",SDF+":_build_translation",SDF+":_build_rotation",MG+":generate_mesh"])
p("Repeat is periodic inside its bounding box",
  "Repeat(bbox,domain,period).eval(x) <= 0 implies x in bbox, and within the box membership is invariant under shifting by one period along an axis.",
  "all boxes, domains, positive periods, points","for all points and shifts",[SDF+":Repeat"])
# ---- mesh utilities
p("fix_mesh returns a clean mesh",
  "After fix_mesh(delete_unused=True): all connectivity entries are valid vertex indices, every vertex is used by some entity, no two entities have the same vertices (counted with multiplicity), and no two vertices fall in the same snapping cell.",
  "all meshes with in-range connectivity","for all meshes",[GU+":fix_mesh",GU+":unique_rows",GU+":unique_row_view"])
p("fix_mesh preserves the geometry",
  "Every entity returned by fix_mesh consists (as a set of snapped vertex positions) of the vertices of an input entity, and every input entity is represented; returned vertices are input vertices. Merged vertices differ by at most ptol times the largest extent of the point set.",
  "all meshes","correctness of composed index maps for all meshes",[GU+":fix_mesh"])
p("fix_mesh orients entities consistently",
  "With fix_orientation every entity returned by fix_mesh has non-negative signed volume (2-D and 3-D).",
  "all meshes","for all meshes",[GU+":fix_mesh",GU+":simp_vol"])
p("unique_edges / mesh bars",
  "unique_edges returns each undirected edge of the input exactly once as (min,max) in lexicographic order; the bars used for the forces are exactly the undirected edges of the triangles/tetrahedra.",
  "all connectivity tables","for all inputs",[FG+":unique_edges",FG+":vectorSortIntArr",MG+":_get_edges"])
p("Boundary edges, facets and vertices",
  "get_boundary_edges (2-D) returns exactly the edges contained in exactly one triangle, get_boundary_facets exactly the triangular faces contained in exactly one tetrahedron, each once; get_boundary_vertices returns exactly the vertices of those, sorted, each once.",
  "all meshes whose entities have distinct vertices","for all meshes",[GU+":get_edges",GU+":get_boundary_edges",GU+":get_facets",GU+":get_boundary_facets",GU+":get_boundary_vertices"])
p("vertex_to_entities inverts the connectivity",
  "vtoe[ptr[v]:ptr[v+1]] lists exactly the entities containing vertex v.",
  "all meshes (in which vertices 0..n-1 all occur), all vertices","pointer arithmetic for all meshes",[GU+":vertex_to_entities"])
p("Boundary entity deletion removes exactly the poor boundary entities",
  "delete_boundary_entities removes exactly the entities that touch a boundary vertex and have quality below min_qual; every other entity survives (up to renumbering).",
  "all 2-D meshes, thresholds","for all meshes",[GU+":get_boundary_entities",GU+":delete_boundary_entities"])
p("Winded boundary is a walk",
  "get_winded_boundary_edges terminates, returns each boundary edge at most once, consecutive edges share a vertex, and the walk stops only when no unvisited boundary edge continues it; on a mesh whose boundary is a single closed loop every boundary edge is returned.",
  "all 2-D meshes","termination and coverage for all meshes",[GU+":get_winded_boundary_edges"])
p("remove_external_entities keeps exactly the entities touching the block",
  "An entity survives remove_external_entities exactly when at least one of its vertices lies in the closed block; the order of the survivors and the vertices are unchanged.",
  "all meshes and blocks, 2-D and 3-D","for all meshes",[GU+":remove_external_entities",FG+":c_remove_external_entities2",FG+":c_remove_external_entities3"])
p("Laplacian smoothing keeps boundary and fixed points and stays in the hull",
  "laplacian2 never moves boundary vertices or the vertices closest to pfix, never changes the connectivity, and all its iterates stay in the bounding box of the input vertices.",
  "all meshes, all iteration counts and tolerances","invariant over all iterations",[GU+":laplacian2"])
p("Fixed-point Laplacian smoothing: boundary kept, maximum principle",
  "Any solution of the linear system assembled by laplacian2_fixed_point keeps boundary vertices, places each interior vertex at the weighted average of its neighbours, stays within the coordinate range of the boundary vertices, and is unique, if every vertex is connected to the boundary.",
  "all 2-D meshes whose vertices are all connected to the boundary","for all meshes",[GU+":laplacian2_fixed_point"])
p("Point-in-triangle and point-in-tetrahedron tests",
  "vertex_in_entity2 is true exactly for points of the closed non-degenerate triangle; vertex_in_entity3 exactly for points of the open non-degenerate tetrahedron, independent of vertex orientation.",
  "all points and non-degenerate simplices","for all points",[GU+":vertex_in_entity2",GU+":vertex_in_entity3",FG+":c_calc_4x4determinant"])
p("Triangle quality measure",
  "simp_qual of a non-degenerate triangle lies in (0,1], equals 1 exactly for equilateral triangles, and is invariant under vertex permutation, translation and scaling.",
  "all non-degenerate triangles","inequality for all triangles",[GU+":simp_qual"])
p("Signed simplex volumes",
  "simp_vol changes sign under swapping two vertices, is translation invariant, and vanishes exactly for degenerate simplices; subdividing a simplex at any point preserves the total; the value is normalised: it is the determinant of the edge vectors over dim! (so unit corner simplices give 1, 1/2, 1/6) and scales with the determinant of a linear map.",
  "all simplices","algebraic identities for all coordinates",[GU+":simp_vol"])
p("Determinant kernels",
  "calc_3x3determinant and calc_4x4determinant return the determinant of the row-major matrix.",
  "all matrices","for all matrices",[FG+":c_calc_3x3determinant",FG+":c_calc_4x4determinant"])
p("Circumsphere gradient used for sliver perturbation",
  "For a non-degenerate tetrahedron calc_circumsphere_grad returns the gradient of the squared circumradius with respect to the first vertex, so a small step along it increases the circumradius.",
  "all non-degenerate tetrahedra","for all coordinates",[FG+":c_calc_circumsphere_grad"])
p("Volume gradient",
  "calc_volume_grad returns the gradient of the signed tetrahedron volume with respect to vertex 0.",
  "all tetrahedra","for all coordinates",[FG+":c_calc_volume_grad"])
p("Dihedral angles",
  "calc_dihedral_angles returns for each of the six edges the angle between the two faces meeting at that edge: its cosine argument is in [-1,1] and equals the cosine of the angle between the face half-planes; each edge is treated exactly once.",
  "all non-degenerate tetrahedra","for all coordinates",[FG+":c_calc_dihedral_angles"])
p("Overlap linting",
  "do_any_overlap reports exactly the pairs (i,j), i != j, of entities sharing a vertex such that the centroid of i lies in entity j; linter deletes from each reported pair the entity of lower quality and nothing else before clean-up.",
  "all 2-D meshes","for all meshes",[GU+":do_any_overlap",GU+":linter",GU+":get_centroids"])
p("is_manifold detects non-manifold meshes",
  "is_manifold returns True exactly if every edge belongs to one or two triangles and every boundary vertex has exactly two boundary edges.",
  "all 2-D meshes","for all meshes",[GU+":is_manifold"])
# ---- generation
p("generate_mesh / sliver_removal options are validated",
  "Unknown option names raise ValueError and all documented names are accepted; verbose must be 0 or >= 1; an integer in the bbox raises; a non-callable non-scalar edge_length and a non-callable domain raise; negative h0 or max_iter raise.",
  "all option dictionaries","decision logic over all inputs",[MG+":_parse_kwargs",MG+":_select_verbosity",MG+":_check_bbox",MG+":_unpack_sizing",MG+":_unpack_domain"])
p("Bounding boxes of domain and sizing function are merged to their hull",
  "The bbox used for meshing contains both the domain's and the sizing function's bbox and is the smallest such box.",
  "all pairs of boxes","for all boxes",[MG+":_minmax"])
p("Mesh generation performs exactly max_iter triangulations",
  "generate_mesh and sliver_removal terminate for every max_iter accepted by validation; generate_mesh triangulates exactly max_iter times.",
  "all max_iter >= 0","termination is not testable",[MG+":generate_mesh",MG+":sliver_removal"])
p("Truss forces are balanced and repulsive",
  "The force vectors assigned to the vertices sum to zero, each bar pushes its end points apart or not at all, and the target lengths are scaled so that the sum of their dim-th powers is L0mult^dim times that of the actual lengths, with L0mult = 6/5 in two and 11/10 in three dimensions; each pass of the loop displaces every vertex by delta_t times its force (except those nearest to fixed points) before projecting back.",
  "all meshes, all positive sizing functions","for all meshes",[MG+":_compute_forces",MU+":dense"])
p("Fixed points stay fixed",
  "Points passed as pfix are vertices of the returned mesh, unmoved.",
  "all domains, all fixed point sets, serial and parallel, any iteration count","invariant over all iterations and later stages",[MG+":generate_mesh",MG+":_unpack_pfix",MG+":_closest_node",MG+":_termination",MG+":_user_defined_points"])
p("Only outside points are projected back",
  "The projection step leaves every point with non-positive distance unchanged; a point outside a half-space with unit normal is moved exactly onto its boundary along the normal.",
  "all point sets and distance functions","for all points",[MG+":_project_points_back_newton"])
p("Level-set improvement moves boundary vertices only",
  "The final Newton clean-up changes only vertices on the mesh boundary, leaves those already on the level set unchanged, and does not change connectivity.",
  "all meshes and distance functions","for all meshes",[MG+":_improve_level_set_newton"])
p("Returned cells lie inside the domain",
  "Every cell of the mesh returned by generate_mesh (rank 0) has its centroid strictly inside the domain: fd(centroid) < -0.001*h0, evaluated on the returned vertices.",
  "all domains, sizing functions, options, iteration counts","for all runs",[MG+":generate_mesh",MG+":_remove_triangles_outside"])
p("Initial point density",
  "Initial points outside the geps-enlarged domain are discarded; a candidate is kept exactly if its random number is below (r0m/h)^dim; with default options r0m is the smallest candidate size over all ranks, so candidates where the size is minimal are always kept, and for a constant size all inside candidates are kept. All ranks use the same r0m.",
  "all point sets, size fields, random draws in [0,1)","for all random draws",[MG+":_generate_initial_points"])
p("Parallel initial grids tile the domain",
  "If the blocks are at least h0 wide, the grids generated by the ranks are disjoint and ordered along every grid line in the direction of the decomposition axis, the gap between consecutive ranks' grids is positive and below 2*h0, exactly h0 between rank 0 and 1; together they reach both ends of the domain and every position on the axis is closer than h0 to a grid point; every rank's points lie in the extent announced for it.",
  "all boxes, sizes, ranks, h0","for all sizes",[MU+":make_init_points",MU+":create_staggered_grid"])
p("Sliver removal success means no slivers",
  "If sliver_removal reports that no slivers are left and the final clean-up merges no vertices, no cell of the returned mesh (other than cells with three vertices on one line, whose angles are NaN) has a dihedral angle outside the requested bounds; the set of cells treated in each pass is exactly the set of cells with an out-of-bounds angle, each once; only first vertices of such cells are moved.",
  "all meshes, bounds","for all meshes and runs",[MG+":sliver_removal",MG+":_calc_dihedral_angles"])
# ---- parallel
p("Ghost exchange is deadlock-free and schedule independent",
  "If every rank has ghosts for each existing neighbour, then under every interleaving of the ranks and every MPI buffering behaviour (eager or rendezvous per message) exchange completes on all ranks and rank r returns the points sent by r+1 followed by those sent by r-1.",
  "all numbers of ranks, all schedules, all buffering policies, all messages","schedules cannot be enumerated by tests",[MI+":exchange"])
p("Ghost exchange completes even if a rank has nothing to send",
  "exchange completes on all ranks for every combination of export counts (including zero), and no message is left undelivered.",
  "all export counts, ranks, schedules","schedules and counts",[MI+":exchange"])
p("Aggregation is the disjoint union of the local meshes",
  "The mesh gathered on rank 0 consists of the local vertices concatenated in rank order and, for each rank, its cells renumbered so that they reference the same coordinates; all indices are in range.",
  "all numbers of ranks, all local meshes","offset arithmetic for all sizes",[MI+":aggregate"])
p("Domain decomposition covers all points",
  "blocker assigns every point to at least one block, every block extent encloses its points, and rejects dimensions other than 2 and 3 and too few points.",
  "all point sets, axes, block counts","for all point sets",[BL+":blocker"])
p("User points reach their ranks",
  "localize_points delivers block r to rank r and the same extents to all ranks, without deadlock, for every number of ranks, schedule and buffering policy, if there are as many blocks as ranks; together the ranks hold all user points.",
  "all rank counts, schedules","schedules",[MI+":localize_points",MG+":_user_defined_points",BL+":blocker"])
p("Export packing",
  "where_to returns the number of points to send below and above in its header, then the coordinates of the points sent below, then of those sent above, each in ascending vertex order; a vertex appears at most once; and unpacking in exchange recovers exactly these lists.",
  "all point sets and neighbour relations, 2-D and 3-D","index arithmetic for all sizes",[CU+":c_where_to2",CU+":c_where_to3",MI+":exchange"])
p("Export buffer accesses are in bounds",
  "All reads and writes of the export buffer are within its allocated size.",
  "all point sets","memory safety for all inputs",[CU+":c_where_to2",CU+":c_where_to3",CU+":where_to2"])
p("Every vertex a neighbour needs is exported",
  "Each vertex of a non-degenerate local element whose circumball meets a neighbour's block is exported to that neighbour.",
  "all local meshes and extents","for all meshes",[CU+":c_where_to2",MI+":enqueue"])
p("Ghost vertices are removed after each iteration",
  "After each parallel iteration exactly the received ghost vertices are deleted and all own vertices remain.",
  "all iterations, all ghost counts (including none)","for all counts and histories",[MG+":_add_ghost_vertices",MG+":generate_mesh",MI+":exchange"])
p("Localised sizing functions agree with the global one",
  "In parallel each rank's local sizing function agrees with the global one at the local grid nodes, everywhere for constant sizes, and covers the rank's slab with a margin of at least 2*h0 on every side.",
  "all boxes, rank counts, sizes","for all ranks",[MI+":localize_sizing_function",MG+":_unpack_sizing"])
p("Delaunay wrapper keeps vertex numbering consistent",
  "After any sequence of insert, move and remove operations, calling get_finite_vertices and then get_finite_cells returns cells whose indices refer to the returned vertex array; if points have only been inserted (no position twice), get_finite_cells alone refers to the points in the order they were passed.",
  "all operation histories","histories",[DC+":get_finite_vertices",DC+":get_finite_cells",DC+":insert"])
p("Radius-edge ratios are computed per entity",
  "calc_re_ratios returns one ratio per entity, circumradius over shortest edge.",
  "all meshes, dim 2 and 3","for all meshes",[GU+":calc_re_ratios",DL+":circumballs2",DL+":circumballs3"])
p("The domain passed is the domain meshed",
  "generate_mesh(domain, edge_length) meshes the region described by the domain object it is given, whatever sizing function is used with it.",
  "all domains, all sizing functions","quantifies over all combinations of domain and sizing function boxes",[MG+":generate_mesh"])
p("The sizing function contains no NaN",
  "For a finite positive velocity model and valid options every grid value of the returned sizing function is a number.",
  "all velocity models, all option combinations","depends on data-dependent divisions",[MSF+":_gradient_sizing",MSF+":_wavelength_sizing"])
p("The parallel run completes under every schedule",
  "generate_mesh on P > 1 ranks: if in every pass every rank has vertices to export to each existing neighbour and no rank raises, then under every interleaving of the ranks and every MPI buffering behaviour all ranks return, no message is left over, and the result is the one obtained by running the passes side by side: every rank does its serial pass with the ghost points its neighbours export in the same pass, and in the last pass rank 0 finishes with the mesh collected from all ranks. Holds for generated initial points and for user points.",
  "all rank counts, point sets, iteration counts, schedules, buffering behaviours","schedules of a whole run cannot be enumerated",[MG+":generate_mesh",MG+":_initialize_points",MG+":_add_ghost_vertices",MG+":_termination",MI+":exchange",MI+":aggregate",MI+":localize_points",MI+":localize_sizing_function"])
p("The outcome of a parallel run does not depend on the schedule",
  "For the same input, two executions of generate_mesh on P ranks that both end on a rank end there with the same mesh or the same exception; and if one execution ends on all ranks every other execution can be continued to that same final state.",
  "all inputs, all pairs of executions","quantifies over pairs of schedules",[MG+":generate_mesh",MI+":exchange",MI+":aggregate"])
p("An exception on one rank ends the run on all ranks",
  "If one rank raises during the iterations, every other rank of the parallel run raises or returns as well; no rank waits for ever.",
  "all inputs, ranks, schedules","failure at any point of any schedule",[MG+":generate_mesh",MI+":exchange"])
p("What the ranks of a parallel run return",
  "In every execution of generate_mesh on several ranks, complete or not: only rank 0 returns a mesh and the other ranks return (True, True); a rank returns after exactly max_iter passes; and every cell of the returned mesh has its centroid strictly inside the domain, fd(centroid) < -0.001*h0.",
  "all inputs, executions, messages","quantifies over all executions",[MG+":generate_mesh",MG+":_termination",MI+":aggregate"])
p("Linting leaves no overlapping entities",
  "If linter returns on a triangle or tetrahedron mesh without unused vertices and its clean-up merges no vertices, do_any_overlap reports no overlap on the returned mesh: no entity's centroid lies in another entity that shares a vertex with it.",
  "all meshes, qualities, thresholds","the deletions interact: it must hold for all configurations",[GU+":linter",GU+":do_any_overlap",GU+":delete_boundary_entities"])
p("The returned mesh is well formed",
  "The mesh returned by generate_mesh has dim+1 vertex numbers in every cell, all of them indices of returned vertices, and no two cells with the same set of vertices; in a parallel run the indices returned by rank 0 are in range and the cells distinct in every execution.",
  "all domains, sizes, options, point sets, iteration counts, schedules","end-to-end invariant over all runs",[MG+":generate_mesh",MG+":_termination",GU+":fix_mesh",GU+":linter"])
p("Every returned vertex is used",
  "Every vertex returned by generate_mesh belongs to a returned cell.",
  "all domains, sizes, options, point sets","end-to-end property over all runs",[MG+":generate_mesh",MG+":_improve_level_set_newton",MG+":_remove_triangles_outside"])
p("Returned cells are positively oriented",
  "Every cell returned by generate_mesh has a non-negative signed volume (simp_vol).",
  "all domains, sizes, options, point sets","end-to-end property over all runs",[MG+":generate_mesh",MG+":_improve_level_set_newton",GU+":fix_mesh"])
p("Mesh sizes follow the velocity file",
  "For every binary file (byte order, axes order, sort style, item type) and every SEG-Y file, get_sizing_function_from_segy with the wavelength option alone returns a function whose bbox is the given one and which, at the node i samples below the top, j along x and k along y, evaluates to min(hmax, max(hmin, v/(freq*wl))) where v is the velocity (in m/s) the file holds for (i, j, k), sizes above 99999 being cut to 99999.",
  "all files, grid shapes, orders, units, options hmin, hmax, wl, freq","end-to-end over all files and grids",[MSF+":get_sizing_function_from_segy",MSF+":read_velocity_model",MSF+":_build_sizing_function","SeismicMesh/sizing/size_function.py:SizeFunction"])
p("write_velocity_model writes the model the sizes are computed from",
  "With the same file, reading options, bbox and padding, write_velocity_model writes the velocities (in m/s, as its units attribute says) from which get_sizing_function_from_segy computes the mesh sizes, with the same shape.",
  "all files, options, paddings","relates two calls over all inputs",[MSF+":write_velocity_model",MSF+":get_sizing_function_from_segy"])
p("It does not matter where the velocities come from",
  "Passing an array as velocity_data gives the sizing function of a file holding that array, in 2-D and 3-D; nz, nx and ny are only needed to read a binary file.",
  "all arrays, files, options","all inputs",[MSF+":get_sizing_function_from_segy",MSF+":_initialize_sizing_function",MSF+":_read_bin"])
p("Every rank gets the same sizing function",
  "get_sizing_function_from_segy returns, on every rank of the communicator, a SizeFunction with the same bbox, the same hmin and the same sizes; if it raises on one rank it raises on all.",
  "all inputs, all ranks","all ranks and inputs",[MSF+":get_sizing_function_from_segy"])
p("The compiled geometry helpers stay inside their buffers and compute row by row",
  "remove_external_entities2/3, calc_dihedral_angles, calc_volume_grad, calc_circumsphere_grad and unique_edges, called with arrays of the right shape whose vertex numbers are in range, access no memory outside their buffers and return the row-wise results: for every entity and vertex in order the signed distance to the box, six dihedral angles per cell in cell order, one gradient per row, the sorted distinct edges. Vertex numbers are not checked: a number >= N reads outside the array of points.",
  "all meshes and array lengths","memory safety and index arithmetic over all sizes",["SeismicMesh/geometry/cpp/fast_geometry.cpp:remove_external_entities2","SeismicMesh/geometry/cpp/fast_geometry.cpp:remove_external_entities3","SeismicMesh/geometry/cpp/fast_geometry.cpp:calc_dihedral_angles","SeismicMesh/geometry/cpp/fast_geometry.cpp:calc_volume_grad","SeismicMesh/geometry/cpp/fast_geometry.cpp:calc_circumsphere_grad","SeismicMesh/geometry/cpp/fast_geometry.cpp:unique_edges"])
p("delaunay2 and delaunay3 return the triangulation of the given points",
  "delaunay2(x, y) and delaunay3(x, y, z) return one row of vertex numbers per finite face (cell) of CGAL's Delaunay triangulation of the points, numbered by position; arrays of different lengths are rejected.",
  "all coordinate arrays, build modes","all sizes and both build modes",["SeismicMesh/generation/cpp/delaunay.cpp:delaunay2","SeismicMesh/generation/cpp/delaunay.cpp:delaunay3","SeismicMesh/generation/cpp/delaunay.cpp:c_delaunay2","SeismicMesh/generation/cpp/delaunay.cpp:c_delaunay3"])
p("The gradient limiter stays inside its buffers",
  "limgrad(dims, elen, dfdx, imax, ffun) with a non-empty array ffun whose size is the product of dims accesses no memory outside its buffers, for any grid, field and number of sweeps, and returns the limited field of the same size. The sizes are not compared: a larger product of dims reads behind the end in the first pass.",
  "all grids, fields, steps, caps","index arithmetic over all grid sizes and sweeps",["SeismicMesh/sizing/cpp/FastHJ.cpp:limgrad","SeismicMesh/sizing/cpp/FastHJ.cpp:c_limgrad","SeismicMesh/sizing/cpp/FastHJ.cpp:ind2sub"])
p("The returned sizing function varies by at most grade",
  "With grade > 0, the sizing function returned by get_sizing_function_from_segy changes by at most grade per unit of length between neighbouring nodes of its grid, and hence between any two points of its bbox (up to the limiter's tolerance hmax*sqrt(eps)), padding included.",
  "all velocity models, grids, bboxes, options, padding styles","end-to-end over all inputs",[MSF+":get_sizing_function_from_segy",MSF+":_enforce_gradation_sizing",MSF+":_build_domain_pad",MSF+":_pad_it"])
p("The limited sizes are the grid distance transform of the requested sizes",
  "On convergence the gradient limiter returns at every node p the minimum over all nodes q of (requested size at q + grade*elen*number of grid steps from p to q), up to its tolerance per step. Hence larger requests never give smaller sizes, a change of the requests by d changes the result by at most d, and transposing or mirroring the array gives the transposed or mirrored result, all up to the tolerance.",
  "all grids, fields, steps, sweep caps (converged runs; the lower bound for all)","for all fields and sweep orders",[MSF+":_enforce_gradation_sizing","SeismicMesh/sizing/cpp/FastHJ.cpp:c_limgrad"])
p("sliver_removal returns a well formed mesh inside the domain",
  "Whatever the points, domain and options, a mesh returned by sliver_removal (with or without slivers left) has four vertex numbers per cell, all of them indices of returned vertices, no two cells with the same vertices, no unused vertex, and non-negative signed volumes; if the clean-up merges no vertices (and perform_checks is off, or success is reported), every cell has its centroid inside the domain passed by a margin of geps_mult*h0.",
  "all point sets, domains, sizes, options, numbers of iterations","end-to-end over all runs",[MG+":sliver_removal",MG+":_termination",MG+":_remove_triangles_outside",GU+":fix_mesh"])
p("sliver_removal moves points by a bounded amount",
  "With the default gamma and preserve=False, every vertex returned by sliver_removal is one of the given points moved by at most 0.4*h0*(1.25^(max_iter-1)-1); the bound is attained, so the perturbation is not limited to a fraction of h0. Hence vertices of a domain described by a distance function leave it by at most that bound.",
  "all point sets, domains, sizes, iteration counts","all runs of all lengths",[MG+":sliver_removal",FG+":calc_circumsphere_grad"])
p("Rows are identified by their bytes",
  "unique_rows(A) returns B, I, J with B = A[I], A = B[J], the rows of B being the distinct rows of A and I their first positions, for rows of any item size and any bit patterns; unique_row_view returns each distinct row once with its number of occurrences; so fix_mesh and the boundary functions, which compare rows as byte strings, neither confuse different rows nor miss equal ones as long as vertex numbers fit into the integer type.",
  "all arrays, item sizes and row widths","all bit patterns, including trailing zero bytes",[GU+":unique_rows",GU+":unique_row_view",GU+":fix_mesh",GU+":get_boundary_edges",GU+":get_boundary_facets"])
p("Domains never overestimate the distance to their boundary",
  "For every domain built from the primitives (rotated, translated, stretched by factors of at least 1) by any nesting of sharp or smooth unions, intersections and differences, eval changes by at most the distance moved; hence no point closer to x than |eval(x)| is on the other side of the boundary. The same holds of Repeat of a shape symmetric to the coordinate planes. Stretches by a factor a < 1 weaken the bound to 1/a, and Repeat of an asymmetric shape does overestimate.",
  "all nestings of set operations, all points","all points and all nestings of operations",[SDF+":Union",SDF+":Intersection",SDF+":Difference",SDF+":Repeat",SDF+":Disk",SDF+":Cylinder",SDF+":Prism",SDF+":Torus"])
p("The unit of length does not matter",
  "Calling generate_mesh on one process a second time with the domain, edge lengths, bbox, h0, fixed points, user points and subdomains multiplied by s > 0 (and, as far as rounding in fix_mesh allows, moved by a vector v) gives the same error, or the same cells and the transformed points after the same number of triangulations, for every number of passes, as long as the triangulation library and the byte order of the points number the transformed points alike and the guard of the projections is idle. That guard replaces a squared gradient (a pure number) below deps (a length): for level sets with small gradients the result depends on the unit.",
  "all domains, sizing functions, options, scalings, numbers of passes","a relation between two whole runs, for all inputs and scalings",[MG+":generate_mesh",MG+":_project_points_back_newton",MG+":_improve_level_set_newton",MG+":_compute_forces",MG+":_generate_initial_points",GU+":fix_mesh",GU+":linter"])
p("The first triangulation covers the domain at the requested spacing",
  "Without user points, generate_mesh on one process starts from the fixed points followed by distinct points of the bounding box (enlarged above by less than 1.5*h0) with eval < geps_mult*h0, any two of which differ by at least h0 in some coordinate. If the edge length is constant (and r0m_is_h0 is off), every point of the box that lies in the domain by more than sqrt(dim)/2*h0 - geps_mult*h0 is within h0/2 of an initial point in every coordinate, for every domain whose eval does not overestimate distances: no hole is left unmeshed.",
  "all domains, boxes, edge lengths, options (one process)","all boxes and spacings, including those where the spacing does not divide the box",[MG+":generate_mesh",MG+":_generate_initial_points",MG+":_unpack_domain",MG+":_unpack_sizing",MU+":create_staggered_grid",MU+":make_init_points"])
p("Asking for more resolution never makes the mesh coarser",
  "Take two calls of get_sizing_function_from_segy on the same velocity model and bbox where the first asks for at least as much resolution: hmin, hmax, dt not larger, wl and freq not smaller, grad (the size at the steepest gradient) and grade not larger or additionally switched on, everything else equal. Then both sizing functions have the same grid and bbox, and at every point of the bbox, padding included, the first size is at most the second, exactly without gradation and up to the limiter's tolerance (hmax*sqrt(eps) per grid step) with it. wl and grad may be switched on if the other one was on already; with both off the sizes are hmin everywhere.",
  "all pairs of option sets, velocity models, grids, bboxes and points (with gradation: a size range of at most 9999 steps)","a relation between two calls, for all inputs and options",[MSF+":get_sizing_function_from_segy",MSF+":_wavelength_sizing",MSF+":_gradient_sizing",MSF+":_enforce_courant_sizing",MSF+":_enforce_gradation_sizing",MSF+":_build_domain_pad"])
p("The unit of length does not matter for the sizing function",
  "If the bbox, the velocities, hmin, hmax, grad and domain_pad are all multiplied by s > 0, get_sizing_function_from_segy raises the same exception as before or returns the same sizing function in the new unit (same grid, sizes and bbox times s, and so at every point), for any number of sweeps of the limiter, provided no velocity is taken for water (below 1e-3) in either unit and the sizes are at most 99999 in both units or both criteria wl and grad are on. A call with units=km-s is the call with the velocities times 1000. Sizes above 99999 are cut, in whatever unit.",
  "all scalings, velocity models, grids, bboxes, options and points","a relation between two calls, for all inputs and scalings",[MSF+":get_sizing_function_from_segy",MSF+":_wavelength_sizing",MSF+":_gradient_sizing",MSF+":_enforce_courant_sizing",MSF+":_enforce_gradation_sizing",MSF+":_build_domain_pad","SeismicMesh/sizing/cpp/FastHJ.cpp:c_limgrad"])
p("The numbering of a mesh does not matter",
  "If the vertices of a mesh are renumbered by an injective map, its cells listed in another order and the vertices of each cell listed in another order, then the edges of the mesh, its boundary edges, boundary facets (3-D) and boundary vertices are the renumbered ones (each of them once, as often as before), and is_manifold gives the same verdict.",
  "all triangle and tetrahedral meshes, renumberings, orders of cells and of vertices in cells","a relation between two calls for all meshes and all permutations",[GU+":get_edges",GU+":get_boundary_edges",GU+":get_boundary_facets",GU+":get_boundary_vertices",GU+":is_manifold",MG+":_get_edges"])
p("The sizing function's region is the region meshed",
  "In the documented workflow ef = get_sizing_function_from_segy(file, bbox, domain_pad=d, ...), generate_mesh(domain=Rectangle(bbox) or Cube(bbox), edge_length=ef) on one process, whatever the velocities and options: h0 is hmin, the region meshed is the bbox enlarged by d except at the top, all returned cells have their centroid in it by more than 0.001*hmin, and the first triangulation is of the fixed points and distinct points of that region (up to a margin of 1.5*hmin above), any two of which differ by at least hmin in some coordinate.",
  "all files, velocity arrays, sizing options, paddings, meshing options, numbers of passes","end-to-end over two calls, for all inputs",[MSF+":get_sizing_function_from_segy",MSF+":_build_domain_pad",SF+":SizeFunction",MG+":generate_mesh",MG+":_unpack_sizing",MG+":_minmax",MG+":_generate_initial_points"])
p("The order and nesting of set operations do not matter",
  "Without smoothness, reordering the domains of a Union or Intersection, or the subtracted domains of a Difference, gives a domain with the same eval everywhere, the same bbox and the same corners up to order; a Union of a Union is the Union of all domains, likewise for Intersection and for repeated Difference (the same object); subtracting several domains is subtracting their Union, and intersecting with a Union is the Union of the Intersections. With smoothness k > 0 reordering n domains changes eval by at most (n-1)*k/4, not at all for n = 2, and for n = 3 it does change it.",
  "all lists of domains, nestings, points, smoothnesses","equations between calls for all domains and points",[SDF+":Union",SDF+":Intersection",SDF+":Difference",SDF+":_gather_corners"])
p("Mirroring the velocity model mirrors the sizes",
  "If the velocity array given to get_sizing_function_from_segy is reversed in x (or in y, or both) and everything else is kept, the call has the same outcome (same exception, or both return), the same grid shape and bbox, and the returned size at a point is the size the original model gives at the mirror image of the point: the left and the right side of a model are treated alike.",
  "for all velocity arrays, shapes, bboxes, options (criteria, Courant, gradation, padding, units), both or either mirrored axes and all points of the bbox","The result depends on windowed filters with reflecting boundaries, sweep orders of the limiter and pad rules at both ends; a test compares one array with its mirror image, not every array and option.",[MSF+':get_sizing_function_from_segy', MSF+':_gradient_sizing', MSF+':_enforce_gradation_sizing', MSF+':_pad_it'])
p("The gradient limiter's 32-bit index arithmetic is exact up to 2^31 - 2 nodes",
  "limgrad(dims, elen, dfdx, imax, ffun), whose node numbers are 32-bit ints and one of which goes through a quotient of doubles, computes on every grid with at most 2^31 - 2 nodes exactly what it would compute with unbounded integers and exact quotients: no signed overflow, no narrowing, no wrong rounding. On a larger grid no call with at least one sweep returns.",
  "all grid shapes, fields, sweep limits and roundings with relative error 2^-53","overflow shows only on grids of billions of nodes; the rounding argument ranges over all quotients",[FG+':limgrad'] if False else ['SeismicMesh/sizing/cpp/FastHJ.cpp:limgrad','SeismicMesh/sizing/cpp/FastHJ.cpp:c_limgrad','SeismicMesh/sizing/cpp/FastHJ.cpp:sub2ind','SeismicMesh/sizing/cpp/FastHJ.cpp:ind2sub'])
p("The gradation guarantees hold in floating-point arithmetic",
  "The gradient limiting of cell sizes, with every addition and multiplication rounded as the machine rounds it (any monotone rounding that keeps representable numbers), never increases a size, never goes below the smallest input size, never goes below a field that obeys the rounded gradation, leaves fields that obey it unchanged, ends within the cap if the largest size is within cap - 1 rounded steps of the smallest, and on ending leaves no size above a neighbour plus grade times spacing plus the tolerance; with relative error u per operation this bound is the exact one times at most (1+u)^3.",
  "all arrays of representable sizes, grades, spacings, caps and monotone roundings (binary64 included)","rounding behaviour over all fields and grids cannot be sampled",['SeismicMesh/sizing/cpp/FastHJ.cpp:c_limgrad','SeismicMesh/sizing/mesh_size_function.py:_enforce_gradation_sizing'])
p("Inside and outside of box domains are decided exactly despite floating-point arithmetic",
  "For every Rectangle and Cube that was not translated, rotated or stretched, and for every nesting of Union, Intersection and Difference (smoothness 0) of such boxes, eval in double precision returns the exact signed value rounded once: it is negative exactly for points strictly inside, zero exactly on the boundary, positive exactly outside, with relative error 2^-53, however close the point is to the boundary. With translated boxes the absolute error is at most six rounding units of the largest coordinate, points farther from the boundary than that are classified correctly, and closer ones may be misclassified.",
  "all nestings of set operations of any number of boxes, all coordinates and points, every monotone symmetric rounding that does not round non-zero differences to zero (in particular binary64)","Points within an ulp of a boundary are not hit by tests, and the trees of set operations are unbounded.",['SeismicMesh/geometry/signed_distance_functions.py:Rectangle.eval','SeismicMesh/geometry/signed_distance_functions.py:Cube.eval','SeismicMesh/geometry/signed_distance_functions.py:Union.eval','SeismicMesh/geometry/signed_distance_functions.py:Intersection.eval','SeismicMesh/geometry/signed_distance_functions.py:Difference.eval','SeismicMesh/geometry/signed_distance_functions.py:_translate_back','SeismicMesh/geometry/cpp/fast_geometry.cpp:c_drectangle','SeismicMesh/geometry/cpp/fast_geometry.cpp:c_dblock'])
p("Cells are oriented correctly in floating-point arithmetic unless degenerate up to rounding",
  "simp_vol in double precision differs from the exact signed area by at most 6*2^-53*D^2 and from the exact signed volume by at most 10*2^-53*D^3, D being the largest difference of coordinates of the vertices, in whatever order the products are added; so every cell returned by fix_mesh whose area or volume exceeds that bound in absolute value is positively oriented. The bound is needed: for nearly collinear vertices fix_mesh turns a counter-clockwise triangle clockwise, and simp_vol of the returned triangle can still be negative.",
  "all meshes, coordinates, point keys, both dimensions, all orders of summation, every rounding of relative error u","rounding errors of nearly degenerate cells are not hit by tests and the bound ranges over all coordinates",['SeismicMesh/geometry/utils.py:simp_vol','SeismicMesh/geometry/utils.py:fix_mesh'])
p("Size limits and time step hold in floating-point arithmetic",
  "Computed with rounded operations in the order of the code, the sizes of get_sizing_function_from_segy (before padding) satisfy: without a time step every size is between hmin and hmax exactly; with a time step no size of a 2-D model is below hmin, and in any dimension no size is below hmin*(1-u)^2/(1+u), where u is the unit round-off (in 3-D the limit can really be missed by such an amount); with a time step and no gradation, vp*dt*space_order/size is at most cr_max*(1+u)^2/(1-u)^3 at every node.",
  "every grid, dimension, velocity array, requested sizes, options and rounding function (monotone, idempotent, relative error u); binary64 in particular","the roundings depend on every bit of every input; a test sees finitely many bit patterns",['SeismicMesh/sizing/mesh_size_function.py:_enforce_courant_sizing','SeismicMesh/sizing/mesh_size_function.py:get_sizing_function_from_segy','SeismicMesh/sizing/mesh_size_function.py:_enforce_gradation_sizing','SeismicMesh/sizing/cpp/FastHJ.cpp:c_limgrad'])
p("get_edges reports every edge of the requested cells exactly once",
  "For a two- or three-dimensional triangulation object, get_edges called with a 0/1 array over the finite cells (in the order of get_finite_cells) returns every pair of vertex numbers that bounds a common edge of a cell marked 1, each exactly once and in no other cell's name: no edge is missing, none is repeated in either direction, and no edge of an unmarked cell alone appears. The numbers agree with the arrays returned by get_finite_vertices/get_finite_cells right before. An array shorter than the number of cells is read past its end.",
  "every triangulation whose neighbour and circulator relations are those of its cells, every memory layout of the cells (addresses), every iteration order of the hash set, every mask","the result depends on pointer addresses and on hash iteration order, so a test sees only one of the possible orders",['SeismicMesh/generation/cpp/delaunay_class.cpp:get_edges','SeismicMesh/generation/cpp/delaunay_class3.cpp:get_edges'])
p("sliver_removal's triangulation follows the moved points",
  "sliver_removal keeps one incremental triangulation. In the first pass its vertex array contains every given position exactly once (a permutation of the points if they are distinct); in every later pass only the rows that changed are moved, no dead vertex is touched, and the vertex array then is the array of points, row by row in the same order, except that a point put on the place another vertex occupies at that moment is lost - also when that other vertex moves away later in the same pass. Consequently every returned vertex descends from a given point and is within the bound of C94 of it.",
  "every point set, domain, sizing, option set and number of passes; every CGAL triangulation whose insert and move behave as documented","the state of the triangulation object is the result of all earlier passes; tests see a few runs and never a collision of vertices",['SeismicMesh/generation/mesh_generator.py:sliver_removal','SeismicMesh/generation/mesh_generator.py:_dist','SeismicMesh/generation/mesh_generator.py:_get_topology','SeismicMesh/generation/cpp/delaunay_class3.cpp:move'])
p("Every iteration triangulates exactly the current points and none is ever added",
  "In every iteration of generate_mesh on one process the vertex array of the triangulation holds every current point exactly once (coinciding points are merged), and the cell table has d+1 different in-range vertex numbers per cell which name the vertices of CGAL's cells. Hence the number of points never grows from one iteration to the next, the returned mesh has at most as many vertices as the call started with, fixed points and corners stay vertices, and the returned cells are well formed.",
  "all domains, sizes, options, start points, numbers of iterations, and every CGAL that documents one vertex per inserted position","quantifies over all histories of the loop and all vertex orders CGAL may choose",['SeismicMesh/generation/mesh_generator.py:generate_mesh','SeismicMesh/generation/mesh_generator.py:_get_topology','SeismicMesh/generation/cpp/delaunay_class.cpp:insert','SeismicMesh/generation/cpp/delaunay_class.cpp:get_finite_vertices'])
p("Slower rock never gets larger cells",
  "Take two calls of get_sizing_function_from_segy with the same options and bbox, without the velocity-gradient criterion (grad=0), on two velocity models of the same shape, the first nowhere faster than the second and with water at the same nodes. Then both sizing functions have the same grid and bbox and at every point of the bbox, padding included, the first size is at most the second, up to the limiter's tolerance when gradation is on. With the gradient criterion this need not hold.",
  "all pairs of velocity models, grid shapes, bounding boxes, units, paddings, gradings and points of the domain","a comparison of two runs at every point for every ordered pair of velocity models",['SeismicMesh/sizing/mesh_size_function.py:get_sizing_function_from_segy','SeismicMesh/sizing/mesh_size_function.py:_wavelength_sizing','SeismicMesh/sizing/mesh_size_function.py:_enforce_courant_sizing'])
p("When Laplacian smoothing stops",
  "laplacian2 repeats one sweep (fixed vertices stay, every other vertex goes to the average of its neighbours, weighted by common triangles) at most max_iter times and, as documented, ceases when movement < tol; with a positive tolerance it stops by itself whatever max_iter is. The code only counts bars that grow: a sweep that shortens bars by more than tol also ends the loop.",
  "all valid triangle meshes with all vertices used, all tolerances, max_iter, fixed points","the number of sweeps is unbounded and the stop rule is about every bar of every iterate",['SeismicMesh/geometry/utils.py:laplacian2'])
p("Repeated smoothing converges to the fixed-point smoother",
  "laplacian2_fixed_point solves at once what laplacian2 approaches: with no stopping tolerance the result of laplacian2 tends to the unique solution of the linear system of laplacian2_fixed_point as max_iter grows.",
  "all valid triangle meshes whose vertices are connected to the boundary, all coordinates","a limit over all numbers of sweeps",['SeismicMesh/geometry/utils.py:laplacian2','SeismicMesh/geometry/utils.py:laplacian2_fixed_point'])
p("The final clean-up of a 2-D mesh deletes exactly the poor boundary triangles",
  "When generate_mesh finishes in 2-D on one process with mesh_improvement=False (or subdomains given) and perform_checks=False, the clean-up of the last triangulation keeps every triangle except those that have a vertex on the boundary of the mesh and quality (2 x inradius / circumradius) below 0.15: no other triangle is lost, no such triangle survives, no triangle is invented or deformed, and the clean-up succeeds whenever at least one triangle is to be kept. (Afterwards triangles with centroid outside by more than h0/1000 are dropped.)",
  "all 2-D triangulations with vertices further apart than the merging tolerance of fix_mesh, all domains, sizes, numbers of iterations","The set of deleted triangles depends on the whole boundary of an arbitrary mesh; the renumbering of vertices between the steps hides mistakes from tests of single functions",['SeismicMesh/generation/mesh_generator.py:_termination','SeismicMesh/geometry/utils.py:delete_boundary_entities','SeismicMesh/geometry/utils.py:fix_mesh'])
p("Default 2-D clean-up with smoothing",
  "When mesh generation in 2-D ends with the default options (smoothing on, no linting), the triangles returned are exactly the triangles of the last pass that are not poor-quality triangles at the boundary, each still joining the same vertices, and the vertices are at the unique solution of the smoothing equations of that kept mesh: vertices on its boundary stay where they are and every interior vertex is the average of its neighbours. The clean-up succeeds whenever the kept mesh is connected to its boundary and its smoothed vertices stay further apart than the merging tolerance; the linear solver is taken to be exact.",
  "all 2-D vertex lists and triangle lists reaching the end of the iteration, all runs of the iteration with one process","composition of deletion, smoothing and repair over all meshes; a test sees a few meshes and cannot see uniqueness of the solution",["SeismicMesh/generation/mesh_generator.py:_termination","SeismicMesh/geometry/utils.py:laplacian2_fixed_point","SeismicMesh/geometry/utils.py:delete_boundary_entities","SeismicMesh/geometry/utils.py:fix_mesh"])
p("The final clean-up of a 3-D mesh loses no tetrahedron",
  "When 3-D mesh generation ends, the clean-up returns one tetrahedron for each tetrahedron of the last pass, joining the same vertices at the same positions: nothing is deleted, moved or smoothed in 3-D, whatever the options for smoothing and boundary deletion, as long as the vertices are further apart than the merging tolerance.",
  "all 3-D vertex and tetrahedron lists, all option settings with linting off, all runs with one process","over all meshes and all option combinations",["SeismicMesh/generation/mesh_generator.py:_termination","SeismicMesh/geometry/utils.py:fix_mesh"])
p("Sizing options left out take their documented values",
  "get_sizing_function_from_segy called without options succeeds and gives 150 m at every node; with wl as the only option the size at a node is v/(2 wl) kept within 150 m and 10 km (2 Hz, velocities in m/s); with dt as the only option it is the larger of 150 m and v dt (Courant number 1, order 1). Gradation, gradient criterion and padding are off unless asked for.",
  "all positive velocity models, grids, boxes, and all values of the one option given","ranges over all models and option values",["SeismicMesh/sizing/mesh_size_function.py:get_sizing_function_from_segy","SeismicMesh/sizing/mesh_size_function.py:_wavelength_sizing","SeismicMesh/sizing/mesh_size_function.py:_enforce_courant_sizing"])
p("A 3-D model that does not vary in y gets the sizes of the 2-D model",
  "If a 3-D velocity array repeats a 2-D array along y, get_sizing_function_from_segy with the same options and the same z and x limits has the same outcome for both (same exception, or both return), and at every node within the range of the model in y the 3-D velocities and sizes are those of the 2-D call (sizes up to the tolerance of the limiter, exactly without gradation): criteria, time step, gradation and padding treat both cases alike. In the pad style edge and without padding the 3-D sizing function at (z, x, y) is the 2-D one at (z, x) for every y. With gradation the sizes have to span at most 9999 steps of the limiter.",
  "all 2-D velocity models, all numbers of repetitions, all options and boxes","relates two calls over all models and options",["SeismicMesh/sizing/mesh_size_function.py:get_sizing_function_from_segy","SeismicMesh/sizing/mesh_size_function.py:_enforce_courant_sizing","SeismicMesh/sizing/mesh_size_function.py:_enforce_gradation_sizing","SeismicMesh/sizing/mesh_size_function.py:_build_domain_pad"])
p("Sizes just outside the region of the velocity model",
  "The sizing function is also evaluated outside its region (points up to 0.1 h0 outside the domain are kept by the generator), where it continues the outermost cells linearly. There its size differs from the size at the nearest point of the region by at most the largest difference between neighbouring nodes times the distance in units of the node spacing (for several axes: half of the product of 1 + 2 t minus a half); so with gradation the size stays above hmin minus the graded step times that number.",
  "every size grid, every region, every point outside it in 2-D and 3-D, every set of options","the points at which the size is requested depend on the whole run and lie anywhere around the region",['SeismicMesh/sizing/mesh_size_function.py:_build_sizing_function','SeismicMesh/generation/mesh_generator.py:generate_mesh'])
p("A layered velocity model gives layered sizes",
  "If the velocity depends on the depth only, the sizes of get_sizing_function_from_segy depend on the depth only: two nodes of the same depth within the range of the model get the same size, exactly without gradation and up to the tolerance of the limiter with it, whatever the options; without padding or with edge padding the same holds of the sizing function at any two points of its region at the same depth. (The other two pad styles put other sizes into the pads.)",
  "every layered model in 2-D and 3-D, every grid, every set of options in the range where the limiter converges","the sizes go through box filters with reflecting ends, a sequential limiter whose order of updates is not symmetric, and padding; only a proof for all grids shows that none of them breaks the symmetry",['SeismicMesh/sizing/mesh_size_function.py:get_sizing_function_from_segy','SeismicMesh/sizing/mesh_size_function.py:_gradient_sizing','SeismicMesh/sizing/mesh_size_function.py:_enforce_gradation_sizing','SeismicMesh/sizing/cpp/limgrad.cpp:limgrad'])
p("Disks and balls in floating-point arithmetic",
  "In floating-point arithmetic with relative error u per operation (2^-53 for doubles, overflow and underflow aside) Disk.eval and Ball.eval have the right sign at every point whose distance from the centre is not within about three (disk) or four (ball) roundings of the radius, and the computed signed distance differs from the exact one by at most (1+u)^4 - 1, respectively (1+u)^5 - 1, times the larger of the radius and the distance to the centre. Sharp unions, intersections and differences add no error. The band is needed: a point outside the unit disk can be reported on its boundary.",
  "every centre, radius and point, every rounding of that accuracy","the points at which signed distances are evaluated are produced by the iteration; rounding errors cannot be enumerated",['SeismicMesh/geometry/signed_distance_functions.py:_ddisk','SeismicMesh/geometry/signed_distance_functions.py:dball','SeismicMesh/geometry/signed_distance_functions.py:Disk','SeismicMesh/geometry/signed_distance_functions.py:Ball'])
p("fix_mesh gives a canonical mesh and cleaning twice is cleaning once",
  "If no two vertices are within the tolerance of each other, fix_mesh returns identical vertex and connectivity arrays whatever the numbering of the vertices, the order of the entities and the order of the vertices within an entity. Calling fix_mesh again on its own result returns the same arrays.",
  "all meshes, dimensions, tolerances and option values; all renumberings","Tests can compare a few renumberings of a few meshes; the claim is about all of them, and the second half turns out to depend on the extent of the points.",['SeismicMesh/geometry/utils.py:fix_mesh','SeismicMesh/geometry/utils.py:unique_rows','SeismicMesh/geometry/utils.py:unique_row_view'])
p("The order of the points does not matter",
  "Two serial calls of generate_mesh that differ only in the order in which the user's points are listed (and in the order in which the triangulator lists vertices and cells) have the same points after each pass and return the same vertex and cell arrays, entry by entry, or raise the same exception, in exact arithmetic, provided that in each pass the triangulation of the points does not depend on their order, each fixed point has one closest vertex, and in the last pass no two vertices are within the clean-up tolerance.",
  "All domains, sizing functions, options (in 3-D with perform_checks off), point sets, permutations of them, numbers of passes.","All permutations of all point sets; the loop feeds its own output to the next pass, and positions of fixed points and boundary vertices are handled by index.",['SeismicMesh/generation/mesh_generator.py:generate_mesh','SeismicMesh/generation/mesh_generator.py:_compute_forces','SeismicMesh/geometry/utils.py:fix_mesh'])
p("The checks accept meshes with vertices that no entity uses",
  "do_any_overlap and linter, and generate_mesh with perform_checks=True in 3-D, work on every mesh whose entities refer to existing vertices, whether or not some vertices belong to no entity and wherever these are in the vertex list; in particular the outcome does not depend on the order in which the same points are listed.",
  "every list of points, every list of entities of the right width with vertex numbers in range, every position of unused vertices, every sort of the incidences; for generate_mesh every serial 3-D run, domain and triangulation","The failure depends on the numbering of vertices the user does not control (the triangulator's), not on shape or size; a test mesh normally has all its vertices used.",['SeismicMesh/geometry/utils.py:do_any_overlap','SeismicMesh/geometry/utils.py:linter','SeismicMesh/geometry/utils.py:vertex_to_entities','SeismicMesh/generation/mesh_generator.py:_termination'])
p("Where the domain is placed does not matter",
  "Two serial calls of generate_mesh that differ by a translation only - domain, bounding box, sizing function, fixed points, user points and subdomains all moved by the same vector - do the same thing: after every pass they hold the same points, moved; they end in the same pass; and they return the same mesh, moved, except for the numbering of its vertices and cells (the final clean-up sorts by coordinates snapped to a grid anchored at the origin). If one raises an exception, so does the other. Holds as long as no two vertices of the last triangulation are within the tolerance of the clean-up; within that tolerance the clean-up of one and the same mesh depends on where it is.",
  "every translation, every domain, sizing function, option set without checks, fixed and user points, every number of passes, 2-D with and without smoothing and 3-D, and every triangulator that commutes with the translation","a test compares a few positions of a few domains and cannot tell which pairs of positions agree; the order of the returned arrays already differs for most of them",['SeismicMesh/generation/mesh_generator.py: generate_mesh, _termination, _improve_level_set_newton', 'SeismicMesh/geometry/utils.py: fix_mesh, delete_boundary_entities, laplacian2_fixed_point'])
p("sliver_removal does not depend on the unit of length or on where the mesh is",
  "Expressing a sliver_removal call in another unit (points, domain, signed distances, sizes and bounding boxes multiplied by s) gives the same outcome in the other unit: the same error, or the same cells, the same verdict and vertices multiplied by s, pass by pass. Moving everything by a vector gives the moved points in every pass and, at the end, the same verdict and the moved mesh up to the numbering of its vertices and cells. The direction in which a sliver's vertex is pushed is the same in both.",
  "all points, domains, sizes, options, scale factors, translations, numbers of passes, and all triangulators that commute with the change","A test compares two calls on one mesh; the claim relates every pair of calls that differ by a change of unit or position, for every number of passes.",['SeismicMesh/generation/mesh_generator.py: sliver_removal, _calc_dihedral_angles', 'SeismicMesh/geometry/cpp/fast_geometry.cpp: c_calc_circumsphere_grad, c_calc_dihedral_angles'])
p("Overlap tests in floating-point arithmetic",
  "do_any_overlap, evaluated with every operation rounded, reports a pair of cells that share a vertex whenever the exact centroid of the first lies inside the second by more than an explicit margin, and never reports a pair whose exact centroid lies outside by more than that margin. In 2-D the margin depends on the shape of the triangle, and on the position only through the rounding of the centroid; in 3-D it grows with the third power of the largest coordinate, so metre-size tetrahedra 100 km from the origin fall below it: two good neighbours can be reported as overlapping and one of them deleted by linter, although the same mesh moved to the origin is left alone.",
  "every mesh of triangles or tetrahedra, every vertex numbering, every rounding with relative error u, every pair of cells outside the margin; the failure far from the origin by a witness in double precision","Tests use unit-size domains at the origin, where the margins are negligible; the bound must hold for all coordinates and the loss of accuracy appears only far away.",['SeismicMesh/geometry/utils.py: do_any_overlap, vertex_in_entity2, vertex_in_entity3, get_centroids, linter', 'SeismicMesh/geometry/cpp/fast_geometry.cpp: c_calc_4x4determinant'])
p("Cells kept by the final clean-up are inside the domain in spite of rounding",
  "With rounded centroids and a domain evaluated in floating-point arithmetic, every cell kept by the last removal of generate_mesh has its exact centroid strictly inside the domain as soon as an explicit multiple of u B (u the relative error of an operation, B the largest coordinate; 13 u B for combinations of possibly translated boxes) is below 0.001 h0, and no cell whose exact centroid is inside by more than 0.001 h0 plus that tolerance is lost; the result is a subsequence of the given cells. The same margins bound the choice of the initial points. Holds for boxes, disks, balls and sharp unions, intersections and differences of them.",
  "every domain of these kinds, every mesh, every h0 and every rounding of relative error u","Tests compare areas on one domain near the origin; the effect of rounding depends on the position and must be bounded for all coordinates.",['SeismicMesh/generation/mesh_generator.py: generate_mesh, _remove_triangles_outside, _generate_initial_points', 'SeismicMesh/geometry/signed_distance_functions.py: Rectangle, Cube, Disk, Ball, Union, Intersection, Difference', 'SeismicMesh/geometry/cpp/fast_geometry.cpp: c_drectangle, c_dblock'])
p("Projection of outside points in floating-point arithmetic",
  "In the step that brings outside points back (one finite-difference Newton step with the increment sqrt(eps) h0), with every operation rounded: for a domain made of axis-parallel boxes and a point next to one of its flat faces, the coordinates along the face do not change and the point lands on the face up to a fraction 16 u B / deps + 16 u of its distance plus one rounding of the coordinate. The fraction grows with the distance B of the domain from the origin: when the increment is lost in the rounding of the coordinates the step does nothing, and points stay outside however far out they are, although the same domain at the origin works.",
  "every sharp combination of boxes, every point near a flat face, every rounding of relative error u, every increment with 64 u B below it; the failure for every rounding that loses the increment, with a witness in double precision","Tests use domains at the origin; the accuracy of the numerical gradient depends on the ratio of the coordinates to h0 and must be bounded for all of them.",['SeismicMesh/generation/mesh_generator.py: generate_mesh, _project_points_back_newton'])
p("Sliver detection survives rounding",
  "The dihedral angles that sliver_removal computes in double precision decide about the same cells as the exact angles, up to explicit margins: a cell whose angles are all within the bounds (with the margins) is left alone, a cell with an angle out of bounds (with the margins) is moved; in particular flat cells are detected.",
  "all meshes and bounds, all cells whose faces have angles with sines of at least sigma, every rounding of relative error u <= sigma^2/25600, every acos with an absolute error of at most eps","The computed cosine differs from the exact one by an amount that depends on the shape of the faces, and it can exceed 1, which turns the angle into NaN; which cells this concerns is a question about all coordinates and all roundings.",['SeismicMesh/geometry/cpp/fast_geometry.cpp: c_calc_dihedral_angles, l2_norm, dot_product, cross_product', 'SeismicMesh/generation/mesh_generator.py: _calc_dihedral_angles, sliver_removal'])
p("Every geometry is evaluated accurately in double precision",
  "For every geometry made of the seven primitives, translated, rotated and stretched in any way, and of sharp and smooth unions, intersections and differences, the signed distance computed in floating-point arithmetic differs from the exact one by at most a small multiple of the unit roundoff times the size of the geometry and of the coordinates; points farther from the boundary than that are classified correctly, and every cell that the last step of generate_mesh returns has its centroid inside the exact domain.",
  "all geometries of any nesting, all points, all parameters (stretch vectors not zero, smoothness not negative), every rounding of relative error u <= 1/16, every order of summation in np.dot","The rounding errors of a geometry are a function of all its parameters and of the point, and they pass through square roots, rotations, divisions by computed lengths and smooth blends; tests can only sample them.",['SeismicMesh/geometry/signed_distance_functions.py: Rectangle, Cube, Disk, Ball, Torus, Prism, Cylinder, Union, Intersection, Difference, _manipulate, _rotate_back, _scale_back', 'SeismicMesh/geometry/cpp/fast_geometry.cpp: c_drectangle, c_dblock', 'SeismicMesh/generation/mesh_generator.py: _remove_triangles_outside'])
p("The truss always pushes outwards, and not too hard",
  "While the mesh is being generated the points cannot come to rest in the interior: in every pass over a triangulation with distinct vertices and at least one kept cell the bar forces do positive work on the positions with respect to every point of space, whatever the (positive) sizing function; whichever single vertex is held fixed, another one feels a non-zero force; without fixed points the cloud of points, before it is projected back, lies further away from every point of space in the mean square; with at most one fixed point and no subdomains, a pass that leaves all points unmoved has pushed a point out of the domain and brought it back by a Newton step. Conversely the movement is bounded: if no edge is longer than R times the size wanted at its midpoint, no size exceeds H and no vertex has more than D edges, then no point is moved by more than dt * D * 1.2 R H (1.1 R H in 3-D), and if that is below 1000 h0 the pass does not stop with the convergence error.",
  "all point sets, triangulations, sizing functions, signed distance functions, dimensions 2 and 3, and all passes of a serial run","Equilibria are a matter of all configurations; a test sees the movement of a few meshes.",['SeismicMesh/generation/mesh_generator.py:_compute_forces', 'SeismicMesh/generation/mesh_generator.py:generate_mesh'])
p("Truss forces in floating-point arithmetic",
  "Rounding does not make the forces of the truss attract, drift or lose their balance: every component of the force an edge exerts points exactly away from its other end point or is exactly zero; the two ends of an edge get exactly opposite contributions; an edge clearly longer than its target exerts exactly no force, so a vertex all of whose edges are long does not drift; the force of an edge is the exact one up to 16 roundings of target plus length; the target lengths satisfy the documented scaling up to about three roundings per edge; the force on a vertex is the sum over its edges up to one rounding per edge of the vertex; and the forces on all vertices add up to zero up to D roundings, D being the largest number of edges of a vertex.",
  "all vertex arrays, meshes of triangles or tetrahedra, positive sizing functions and rounding functions of relative error u up to 1/16 (double precision included)","Tests compare forces with a tolerance on a few meshes; that signs are never wrong and errors accumulate only as stated is a statement about all inputs and rounding errors.",['SeismicMesh/generation/mesh_generator.py:_compute_forces', 'SeismicMesh/generation/utils.py:dense'])
p("A call of generate_mesh does not depend on what was done before, but it changes what comes after",
  "On one process the mesh (or the exception) of a call of generate_mesh depends on its arguments only: not on the state of NumPy's global random generator, not on which meshes were generated before in the same program, and with `points` given not even on the seed. In return a call without `points` that gets as far as its loop resets the caller's generator to a state fixed by the seed and the number of candidate points: numbers the caller draws afterwards no longer depend on the caller's own seed.",
  "every generator (a seeding function that may reject, and a step function on any type of states), every call, every two programs of calls and other uses of the generator before it, every initial state","Ranges over all histories of a program; a test fixes one history, and in a test suite each test usually starts from a fresh seed.",['SeismicMesh/generation/mesh_generator.py:_generate_initial_points', 'SeismicMesh/generation/mesh_generator.py:_initialize_points', 'SeismicMesh/generation/mesh_generator.py:generate_mesh'])
p("Pictures of domains and of mesh sizes",
  "show() of a domain draws dots that lie in its bounding box enlarged by 0.01 and whose distance is below 0.01, coloured with that distance, at most as many as samples were requested; show(filename=f) writes the picture to f. plot_sizing_function, called on every rank, draws on rank 0 (to the file, if a name is given) the mesh size on a grid of step 50 that covers the box, with every stride-th row, refuses everything but 2-D sizing functions, and returns on the other ranks.",
  "every domain and bounding box, every sequence of random numbers in [0,1), every number of samples and file name; every box, sizing function, stride and rank","Ranges over all draws of the random sampling, all grids and all ranks; drawing is not checked by tests.",['SeismicMesh/geometry/signed_distance_functions.py:_show', 'SeismicMesh/geometry/signed_distance_functions.py:_generate_samples', 'SeismicMesh/sizing/mesh_size_function.py:plot_sizing_function'])
p("Triangle quality is computed accurately, except for nearly flat triangles",
  "simp_qual evaluated in floating-point arithmetic of relative precision u returns, for a triangle any two of whose sides together exceed the third by at least k times the perimeter (k >= 960 u), its true quality (inradius times 2 over circumradius) with a relative error of at most 960 u / k; a triangle of quality Q with Q^2 >= 7680 u has a computed quality within 7680 u / Q. delete_boundary_entities therefore keeps every entity off the boundary and every entity whose quality is clearly above the bound, and deletes every boundary entity whose quality is clearly below it. Flat boundary triangles should be deleted as well.",
  "all vertex positions of triangles in dimension at most 4, all meshes and bounds, all roundings of the given relative precision","rounding errors depend on the operands; the failing triangles are those whose computed side lengths violate the triangle inequality, a thin set that no sample of shapes reaches",['SeismicMesh/geometry/utils.py:simp_qual', 'SeismicMesh/geometry/utils.py:delete_boundary_entities'])
p("Fixed points in floating-point arithmetic",
  "In the passes of generate_mesh on one process, evaluated in floating-point arithmetic, a point passed as pfix that lies in the closed domain keeps its coordinates bit for bit: it is found again among the vertices of every triangulation, feels no force and is not projected.",
  "all domains and subdomains, all fixed points with floating-point coordinates, all forces, triangulations that keep their points, numbers of passes, roundings of relative precision below 1","whether a point on the boundary is projected depends on the last bit of the computed distance",['SeismicMesh/generation/mesh_generator.py:generate_mesh', 'SeismicMesh/generation/mesh_generator.py:_closest_node', 'SeismicMesh/generation/mesh_generator.py:_project_points_back_newton'])
p("Laplacian smoothing in floating-point arithmetic",
  "In floating-point arithmetic `laplacian2` succeeds on every non-empty valid triangle mesh, keeps the connectivity and every boundary vertex exactly, and keeps every fixed point that is exactly a vertex of the input. If all vertices are used, its result differs from as many exact averaging sweeps by at most ((1+u)^(m(D+2)) - 1) B, where u is the unit roundoff, m the number of sweeps made, D the largest number of neighbours and B the largest coordinate; so vertices leave the bounding box of the input by no more than that. (They can leave it by one unit in the last place.)",
  "all triangle meshes, all coordinates, all roundings of relative accuracy u and all computed square roots, all numbers of iterations, tolerances and fixed points","rounding errors of individual meshes are invisible to tests with tolerances, and the errors of the sweeps accumulate with the number of iterations",['SeismicMesh/geometry/utils.py: laplacian2 (550-631), _sparse (472-491)'])
p("The sizing function evaluated in floating-point arithmetic",
  "Evaluating a sizing function (linear interpolation on its grid, every operation rounded, unit roundoff u) at any point of the box of a grid of dimension d whose values lie between lo >= 0 and hi gives a value between (1-u)^(2d+1+2^d) lo and (1+u)^(2d+1+2^d) hi; so positive sizes on the grid give positive sizes everywhere in the box. At the nodes of the grid, the last ones included, the value of the array is returned exactly, and so the sizing function that a rank works with in parallel agrees exactly with the global one at the nodes of its local grid. (In double precision the value can be below hmin by one unit in the last place even if all grid values equal hmin.)",
  "all dimensions, grids, arrays of values and points in the box, all monotone roundings of relative accuracy u that keep 1","whether hmin is respected everywhere depends on the rounding of the weights at the point evaluated, which no finite set of points covers",['SeismicMesh/sizing/mesh_size_function.py: _build_sizing_function (391-408), _get_vectors (514-523)', 'SeismicMesh/migration/migration.py: localize_sizing_function (16-53)'])
p("Vertices at the same position are merged in floating-point arithmetic",
  "In floating-point arithmetic fix_mesh merges all vertices with equal coordinates (a == b in Python), and merges only vertices whose coordinates differ by no more than the snapping length up to rounding. The first half is false of the code: 0.0 and -0.0 are equal numbers with different bytes, and rows are compared byte by byte, so two copies of a vertex can remain with the default tolerance. Vertices at the same position are merged exactly if no zero coordinate differs in sign; vertices with a coordinate of opposite signs (also -1e-300 and 1e-300) are never merged.",
  "all meshes with rows in range, all vertices including signed zeros, all tolerances, all rounding functions (closeness: with relative error u), 2-D and 3-D, with or without the orientation step, without delete_unused","tests build meshes whose vertices have no negative zeros; that only close vertices merge must hold for every mesh and every rounding.",["SeismicMesh/geometry/utils.py: fix_mesh (204-249)", "SeismicMesh/geometry/utils.py: unique_rows (133-172)"])
p("Sizes that are not numbers are noticed",
  "If the sizing function returns NaN or an infinity at the midpoint of a bar with an end point that is not held (for NaN: any vertex of any cell that is not held), or zero at the midpoints of all bars, the pass of generate_mesh in which this happens ends with the assertion about the largest movement instead of going on with points that are not numbers; conversely, if a pass goes on, every force applied to a vertex is neither NaN nor infinite. False of the code in parallel runs: only the process of rank 0 checks; every other process goes on with coordinates that are NaN.",
  "all floating-point formats and roundings that satisfy the IEEE 754 rules for NaN, infinities and zeros, all meshes in 2-D and 3-D, all sizing and level-set functions, all held vertices, all ranks","depends on how NaN and infinities travel through every operation of a pass, for any mesh and sizing function; tests use sizing functions that return positive numbers.",["SeismicMesh/generation/mesh_generator.py: generate_mesh (496-523)", "SeismicMesh/generation/mesh_generator.py: _compute_forces (691-712)", "SeismicMesh/generation/mesh_generator.py: _project_points_back_newton (762-784)"])
p("One bad size affects only its neighbourhood",
  "A sizing function that is NaN or zero at one grid point discards only that grid point from the first points of generate_mesh, or the call ends with an exception. False of the code with default options: the smallest size becomes NaN (or zero) and all grid points are discarded; the run goes on with the fixed points (for a Rectangle or Cube on one process its corners) without an exception, and ends with the assertion 'No vertices to mesh with!' only if there are none. If any grid point is kept, no size at a grid point inside the domain is NaN, and none is zero unless one is negative. With r0m_is_h0 a NaN size discards only its own grid point. A NaN of the level-set function discards only its own grid point.",
  "all floating-point formats that satisfy the IEEE 754 rules for NaN and zeros, all grids, random numbers, sizing and level-set functions, fixed points, dimensions; one process","how NaN travels through minimum, power, quotient and comparison for any grid and any sizing function; tests use sizing functions that return positive numbers.",["SeismicMesh/generation/mesh_generator.py: _generate_initial_points (808-852)", "SeismicMesh/generation/mesh_generator.py: generate_mesh (432-446)"])
p("The coordinates of the returned mesh are numbers",
  "If the level-set function is NaN at points with a NaN coordinate, no cell returned by generate_mesh has a vertex with a NaN coordinate, cells are only removed by the last step, and only boundary vertices move. That no returned point has a NaN coordinate is false of the code: a boundary vertex where the level-set function is NaN is returned with all its coordinates NaN, without an exception, and all its cells are silently removed.",
  "all floating-point formats that satisfy the IEEE 754 rules for NaN, all meshes before the last step, all level-set functions, all sets of boundary vertices, all tolerances, all dimensions","depends on how NaN travels through five Newton iterations and the centroid test for any mesh; tests use level-set functions that are numbers everywhere.",["SeismicMesh/generation/mesh_generator.py: _improve_level_set_newton (741-759)", "SeismicMesh/generation/mesh_generator.py: _remove_triangles_outside (734-738)", "SeismicMesh/generation/mesh_generator.py: generate_mesh (480-494)"])
p("The gradient limiter when some requested sizes are NaN",
  "When the size field handed to the gradation step contains NaN cells (a NaN in the velocity model, or a comparison with one), the cells of the result that are NaN are exactly those of the input, the numbers do not grow and do not fall below the smallest requested number, no NaN refines its neighbours, and adjacent cells that are both numbers differ by at most grade times the element length plus the tolerance. The last part is false of the code: a NaN in the very first cell (the corner z = min, x = min, or a NaN grade or element length) makes the tolerance NaN, and then nothing is limited at all, without an error; a NaN grade is not refused.",
  "every grid size, every assignment of NaN and numbers to the cells, every gradation and element length (NaN included), every iteration cap, every rounded arithmetic of the numbers","a NaN silently makes comparisons false, so a run with one looks like a normal one; which of the cells decides is a property of std::min_element and of the order of the cells, and the spread through thousands of sweeps cannot be enumerated",['SeismicMesh/sizing/cpp/FastHJ.cpp: c_limgrad', 'SeismicMesh/sizing/mesh_size_function.py: _enforce_gradation_sizing'])
p("A NaN in the sizing function stays in the grid intervals it touches",
  "The sizing function built from a velocity model (and the local copy that each rank builds of it) evaluates to NaN at a point exactly when a corner of the grid interval of the point is NaN; at every other point it returns the number it would return whatever stood in the NaN entries; at a grid node whose entry is a number it returns that number. The last part is false of the code: interpolation multiplies the NaN by a weight of 0 and adds it, so a node whose upper neighbour along any combination of axes is NaN evaluates to NaN although its own entry is a number; and a rank's local copy is NaN in every local interval one corner of which is.",
  "every dimension, every grid vector of at least two increasing nodes, every assignment of NaN and numbers to the entries, every point inside or outside the grid, every rounded arithmetic","the set of points that turn NaN depends on how the interpolation finds the interval of a point and on weights that are zero; a test at a few points shows neither the boundary of that set nor that the values elsewhere are untouched",['SeismicMesh/sizing/mesh_size_function.py: _build_sizing_function', 'SeismicMesh/migration/migration.py: localize_sizing_function'])
p("A NaN velocity spoils the size of its own cell only",
  "When get_sizing_function_from_segy is given a velocity model in which some entries are NaN, the size computed for a NaN entry (before the gradient limiter) is NaN, hmin, hmax, the water velocity and the time step notwithstanding, and the sizes of the other entries are what they would be without it; with no criterion switched on the velocities do not matter at all. The part about the other entries is false of the code when the velocity-gradient criterion is on: one NaN makes the size of every node of the model NaN, without an error (the maximum of the filtered variance is NaN and everything is divided by it).",
  "every grid, every velocity model with any number of NaN entries, every option (units, wl, freq, grad, bounds, time step), every floating-point format and rounding, every window filter that keeps a NaN at its own node","NaN passes every check in the code because comparisons with it are false; which stages keep it local and which spread it depends on the combination of options",['SeismicMesh/sizing/mesh_size_function.py: get_sizing_function_from_segy', 'SeismicMesh/sizing/mesh_size_function.py: _wavelength_sizing', 'SeismicMesh/sizing/mesh_size_function.py: _gradient_sizing', 'SeismicMesh/sizing/mesh_size_function.py: _enforce_courant_sizing'])
if __name__=="__main__":
    with open("/verif/properties.jsonl","w") as f:
        for q in P: f.write(json.dumps(q,ensure_ascii=False)+"\n")
    print(len(P))
