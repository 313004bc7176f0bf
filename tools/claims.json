{
"C01":{"status": "proved", "module": "Verif.Props.Limgrad", "theorems": ["SM.Limgrad.C01_gradation_only_refines", "SM.Limgrad.C01_rejects_negative"], "note": "Any array shape, field, cap; doubles idealised as an ordered field."},
"C02":{"status": "proved", "module": "Verif.Props.Limgrad", "theorems": ["SM.Limgrad.C02_bound_on_convergence"], "note": "Convergence flag is ghost information (the C++ break at FastHJ.cpp:92)."},
"C03":{"status": "proved", "module": "Verif.Props.Limgrad", "theorems": ["SM.Limgrad.C03_converges", "SM.Limgrad.C03_some_cap_suffices", "SM.Limgrad.C03_sweeps", "SM.Limgrad.C03_shipped", "SM.Limgrad.C03_fixed_cap_insufficient", "SM.Limgrad.C03_shipped_cap_insufficient"], "note": "Two explicit bounds on the number of sweeps (one from the tolerance; one from the range of the sizes: at most (max-min)/(elen*grade)+1 sweeps, so the shipped 10000 suffice for a range of 9999 steps); and the negative half: for every fixed cap (also the shipped 10000) a field exists on which the returned field violates the bound."},
"C04":{"status": "proved", "module": "Verif.Props.Limgrad", "theorems": ["SM.Limgrad.C04_never_over_refines"], "note": ""},
"C05":{"status": "proved", "module": "Verif.Props.Limgrad", "theorems": ["SM.Limgrad.C05_identity_on_graded", "SM.Limgrad.C05_idempotent"], "note": ""},
"C06":{"status": "proved", "module": "Verif.Props.Limgrad", "theorems": ["SM.Limgrad.C06_bijection", "SM.Limgrad.C06_stencil", "SM.Limgrad.C06_python_order"], "note": ""},
"C07":{"status": "proved", "module": "Verif.Props.Sizing", "theorems": ["SM.Sizing.C07_hmin_lower_bound"], "note": "All stages incl. padding; numeric values (NaN: C75)."},
"C08":{"status": "partial", "module": "Verif.Props.Sizing", "theorems": ["SM.Sizing.C08_hmax_false", "SM.Sizing.C08_hmax_upper_bound_partial"], "note": "False with a timestep (witness); proved when the Courant stage asks for nothing above hmax."},
"C09":{"status": "partial", "module": "Verif.Props.Sizing", "theorems": ["SM.Sizing.C09_courant_partial", "SM.Sizing.C09_courant_false", "SM.Sizing.C09_graded_partial"], "note": "True with grade = 0 at every node incl. all pad styles, and with grade > 0 if neighbouring velocities differ by at most grade*(depth/nz)*cr_max/(dt*space_order); false for steeper velocities, where gradation reduces sizes afterwards (witness).", "modules": ["Verif.Props.SizingCourant"]},
"C10":{"status": "partial", "module": "Verif.Props.Sizing", "theorems": ["SM.Sizing.C10_wavelength_partial", "SM.Sizing.C10_ramp_false"], "note": "Proved everywhere except inside a linear_ramp pad, where it is false (witness)."},
"C100":{"status": "proved", "module": "Verif.Props.SizingUnits", "theorems": ["SM.Sizing.C100_units", "SM.Sizing.C100_everywhere", "SM.Sizing.C100_km", "SM.Sizing.C100_limit"], "note": "C100_limit shows that the condition about 99999 cannot be dropped."},
"C101":{"status": "proved", "module": "Verif.Props.Renumber", "theorems": ["SM.Topology.C101_bars", "SM.Topology.C101_boundary_edges", "SM.Topology.C101_boundary_facets", "SM.Topology.C101_boundary_vertices", "SM.Topology.C101_is_manifold"], "note": "is_manifold for 2-D meshes with a boundary, the case where the function is defined."},
"C102":{"status": "proved", "module": "Verif.Props.Workflow", "theorems": ["SM.Workflow.C102_region2", "SM.Workflow.C102_start2", "SM.Workflow.C102_region3", "SM.Workflow.C102_start3"], "note": "Velocity arrays with a shape other than nz, nx, ny are assumed to raise (parameter odd)."},
"C103":{"status": "proved", "module": "Verif.Props.SetAlgebra", "modules": ["Verif.Props.Sdf"], "theorems": ["SM.Domain.C103_order", "SM.Domain.C103_nesting", "SM.Domain.C103_laws", "SM.Domain.C103_smooth_order", "SM.Domain.C103_smooth_order_matters", "SM.Sdf.C25_symmetric"], "note": "Exact arithmetic."},
"C104":{"status": "partial", "module": "Verif.Props.SizingMirror", "theorems": ["SM.Sizing.C104_same_outcome", "SM.Sizing.C104_mirror_partial", "SM.Interp.C104_everywhere_partial", "SM.Sizing.C104_even_stencil_false"], "note": "Proved for x, y or both mirrored, all options, with the gradient criterion off or an odd stencil in the mirrored directions; exact without gradation, up to the limiter's tolerance with it (size range at most 9999 limiter steps). False with the gradient criterion and an even stencil, such as the default 10 (witness)."},
"C105":{"status": "proved", "module": "Verif.Props.HJ32", "theorems": ["SM.HJ32.C105_no_overflow", "SM.HJ32.C105_overflow", "SM.HJ32.C105_quotient", "SM.HJ32.binary64_rounds"], "note": "The field values stay in an ordered field; the machine arithmetic is that of the node numbers. Rounds is what is used of binary64 and binary64_rounds shows that rounding to 53 significant bits has it. Finding: a 1300^3 model overflows.", "modules": ["Verif.Lemmas.Binary64"]},
"C106":{"status": "proved", "module": "Verif.Props.LimgradFl", "modules": ["Verif.Lemmas.Binary64"], "theorems": ["SM.LimgradFl.C106_only_refines", "SM.LimgradFl.C106_never_over_refines", "SM.LimgradFl.C106_bound", "SM.LimgradFl.C106_sweeps", "SM.LimgradFl.C106_identity", "SM.LimgradFl.C106_error", "SM.LimgradFl.C106_binary64", "SM.LimgradFl.C106_exact"], "note": "NaN, overflow to infinity and subnormal numbers are outside binary64 of Lemmas/Binary64 (exponent unbounded, ties away from zero); the abstract theorems only need Rounded."},
"C107":{"status": "proved", "module": "Verif.Props.SdfFl", "modules": ["Verif.Model.SdfFl", "Verif.Lemmas.Binary64"], "theorems": ["SM.SdfFl.C107_correctly_rounded", "SM.SdfFl.C107_classification", "SM.SdfFl.C107_error", "SM.SdfFl.C107_translated", "SM.SdfFl.C107_translated_classification", "SM.SdfFl.C107_binary64", "SM.SdfFl.C107_translated_boundary", "SM.SdfFl.C107_model"], "note": "For any monotone odd rounding that never rounds a non-zero number to zero; instantiated with 53-bit rounding. C107_translated_boundary shows that the restriction to untranslated boxes is needed. C107_model links the exact case to the signed distance model of the other claims."},
"C108":{"status": "proved", "module": "Verif.Props.VolFl", "modules": ["Verif.Model.VolFl", "Verif.Lemmas.Rounding", "Verif.Lemmas.Binary64"], "theorems": ["SM.VolFl.C108_area", "SM.VolFl.C108_volume", "SM.VolFl.C108_oriented2", "SM.VolFl.C108_oriented3", "SM.VolFl.C108_binary64", "SM.VolFl.C108_flipped", "SM.VolFl.C108_still_negative"], "note": "Relative error u per operation; no overflow or underflow. C108_flipped and C108_still_negative are binary64 witnesses (valid for both tie rules) that the exception for degenerate cells is needed."},
"C109":{"status": "proved", "module": "Verif.Props.SizingFl", "modules": ["Verif.Model.SizingFl"], "theorems": ["SM.SizingFl.C109_limits", "SM.SizingFl.C109_hmin_2d", "SM.SizingFl.C109_hmin", "SM.SizingFl.C109_courant", "SM.SizingFl.C109_exact", "SM.SizingFl.C109_binary64", "SM.SizingFl.C109_below_hmin"], "note": "Limits exact without a time step; in 2-D hmin exact with a time step; general bound and Courant bound with explicit rounding factors; binary64 (53 bits, no underflow/overflow) is an instance; C109_below_hmin is a binary64 input whose 3-D size is below hmin. One number format for the whole computation."},
"C11":{"status": "proved", "module": "Verif.Props.Sizing", "theorems": ["SM.Sizing.C11_variance", "SM.Sizing.C11_window", "SM.Sizing.C11_gradient_range", "SM.Sizing.C11_zero_variance_nan", "SM.Sizing.C11_returned"], "note": "Holds whenever the window variance is positive somewhere; otherwise the code yields NaN (C75). C11_returned bounds the sizes actually returned (unpadded block). C11_window: the variance is the one over the window around the node, reflected at the borders.", "modules": ["Verif.Props.Window"]},
"C110":{"status": "proved", "module": "Verif.Props.DtEdges", "modules": ["Verif.Model.DtEdges"], "theorems": ["SM.DtEdges.C110_edges2", "SM.DtEdges.C110_edges3", "SM.DtEdges.C110_current", "SM.DtEdges.C110_short"], "note": "CGAL's neighbour and circulator relations are hypotheses (Planar, Spatial), the address of each cell and the iteration order of the hash set are universally quantified."},
"C111":{"status": "proved", "module": "Verif.Props.SliverDt", "modules": ["Verif.Model.SliverDt"], "theorems": ["SM.SliverDt.C111_pass", "SM.SliverDt.C111_exact", "SM.SliverDt.C111_first", "SM.SliverDt.C111_lost", "SM.SliverDt.C111_refines", "SM.SliverDt.C111_returned"], "note": "CGAL's insert and move are parameters with their documented behaviour as hypotheses (Lawful, Moves: a moved vertex keeps its place in the iteration order; moving onto another vertex deletes it). Exact arithmetic: a move shorter than about 1e-162, whose square underflows, is not noticed by the code."},
"C112":{"status": "proved", "module": "Verif.Props.GenerateDt", "modules": ["Verif.Model.GenerateDt"], "theorems": ["SM.GenerateDt.C112_triangulation", "SM.GenerateDt.C112_fixed_points", "SM.GenerateDt.C112_never_added", "SM.GenerateDt.C112_well_formed", "SM.GenerateDt.C112_relaxes2", "SM.GenerateDt.C112_relaxes3"], "note": "CGAL's insertion into an empty triangulation is a parameter with its documented behaviour as hypothesis (Fills: one vertex per position, d+1 different vertices per cell); slab_call is a whole call with a CGAL that satisfies it."},
"C113":{"status": "proved", "module": "Verif.Props.SizingSpeed", "modules": ["Verif.Model.Sizing"], "theorems": ["SM.Sizing.C113_slower", "SM.Sizing.C113_everywhere", "SM.Sizing.C113_gradient"], "note": "Exact arithmetic. With gradation the size range must be at most 9999 steps (C03); C113_gradient shows the gradient criterion has to be excluded."},
"C114":{"status": "partial", "module": "Verif.Props.LaplaceStop", "modules": [], "theorems": ["SM.Laplace.C114_sweeps_partial", "SM.Laplace.C114_terminates", "SM.Laplace.C114_shrinking_ignored"], "note": "Proved: the call returns a member of the sequence of sweeps, the exact stop rule (no bar grows by tol of its new length), and that with tol > 0 it always ends by itself. The documented rule (movement < tol) is false: C114_shrinking_ignored."},
"C115":{"status": "proved", "module": "Verif.Props.LaplaceStop", "modules": [], "theorems": ["SM.Laplace.C115_converges"], "note": "Exact arithmetic; the multigrid solver is external and taken to return the solution of the system (C41)."},
"C116":{"status": "proved", "module": "Verif.Props.Cleanup", "modules": [], "theorems": ["SM.MeshLoop.C116_termination", "SM.MeshLoop.C116_run", "SM.MeshLoop.C116_succeeds"], "note": "Triangles are compared by the positions of their vertices, because fix_mesh renumbers. C116_termination: clean-up of any mesh; C116_run: of a whole serial run (with the later removal of outside triangles); C116_succeeds: no exception. With smoothing (mesh_improvement) the vertices move afterwards, which C81/C83 treat."},
"C117":{"status": "proved", "module": "Verif.Props.CleanupSmooth", "modules": [], "theorems": ["SM.MeshLoop.C117_termination", "SM.MeshLoop.C117_target", "SM.MeshLoop.C117_succeeds", "SM.MeshLoop.C117_run"], "note": "The sparse solver is assumed exact whenever a solution exists; the kept mesh has to be connected to its boundary (Moored) for uniqueness, and the smoothed vertices further apart than fix_mesh's tolerance (Spread) for the vertices not to be merged."},
"C118":{"status": "proved", "module": "Verif.Props.CleanupSmooth", "modules": [], "theorems": ["SM.MeshLoop.C118_termination", "SM.MeshLoop.C118_run"], "note": "With perform_checks off; with it on the linter may delete tetrahedra (C39)."},
"C119":{"status": "proved", "module": "Verif.Props.SizingDefaults", "modules": [], "theorems": ["SM.Sizing.C119_none", "SM.Sizing.C119_wl", "SM.Sizing.C119_dt"], "note": "Added after mutant W66 (default hmin) survived."},
"C12":{"status": "partial", "module": "Verif.Props.Sizing", "theorems": ["SM.Sizing.C12_raises_partial", "SM.Sizing.C12_negative_accepted", "SM.Sizing.C12_only_rank0"], "note": "Exact characterisation of the raising calls; the documented validation is false for inactive stages and on ranks > 0."},
"C120":{"status": "proved", "module": "Verif.Props.SizingExtrude", "modules": [], "theorems": ["SM.Sizing.C120_nodes", "SM.Sizing.C120_same_outcome", "SM.Interp.C120_everywhere"], "note": "With gradation the statement assumes, as C104 does, that the sizes span at most 9999 steps of the limiter (its cap of sweeps, C03)."},
"C121":{"status": "partial", "module": "Verif.Props.InterpOutside", "theorems": ["SM.Interp.C121_near", "SM.Interp.C121_hmin_partial", "SM.Interp.C121_excess_depth", "SM.Interp.C121_excess_width", "SM.Interp.C121_ungraded_false"], "note": "Deviation from the nearest point of the region proved for every grid; lower bound proved for graded calls. Without gradation the size can be negative within 0.1 hmin of the region (witness)."},
"C122":{"status": "proved", "module": "Verif.Props.SizingLayers", "theorems": ["SM.Sizing.C122_nodes", "SM.Interp.C122_everywhere"], "note": "Exact without gradation, up to the limiter's tolerance with it."},
"C123":{"status": "proved", "module": "Verif.Props.BallFl", "modules": ["Verif.Model.BallFl"], "theorems": ["SM.BallFl.C123_disk_sign", "SM.BallFl.C123_ball_sign", "SM.BallFl.C123_disk_error", "SM.BallFl.C123_ball_error", "SM.BallFl.C123_model", "SM.BallFl.C123_set_operations", "SM.BallFl.C123_binary64", "SM.BallFl.C123_band_needed"], "note": "Without manipulations (rotate, stretch, translate); round to nearest with 53 bits, overflow and underflow not modelled."},
"C124":{"status": "partial", "module": "Verif.Props.FixTwice", "modules": [], "theorems": ["SM.FixMesh.C124_numbering", "SM.FixMesh.C124_twice_partial", "SM.FixMesh.C124_twice_exact", "SM.FixMesh.C124_idempotent_false"], "note": "Canonical numbering proved. Idempotence is false of the code in general (C124_idempotent_false: deleting a far unused vertex shrinks the snapping length, so a second call merges more); it is proved when the extent of the points is unchanged (C124_twice_partial), in particular for meshes without unused or merged vertices (C124_twice_exact, entry by entry)."},
"C125":{"status": "proved", "module": "Verif.Props.PointOrder", "theorems": ["SM.Generate.C125_point_order", "SM.Generate.C125_returned"], "note": "Exact arithmetic; uniqueness of the Delaunay triangulation (points in general position) is the hypothesis `Generic.other`. In 3-D the theorem is for runs with perform_checks off: with it on, the outcome can depend on the order (C126)."},
"C126":{"status": "partial", "module": "Verif.Props.LinterUnused", "theorems": ["SM.Linter.C126_overlap_raises", "SM.Linter.C126_overlap_partial", "SM.Linter.C126_linter_raises", "SM.Linter.C126_linter3_partial", "SM.MeshLoop.C126_run_raises", "SM.MeshLoop.C126_run_partial", "SM.Generate.C126_order_false"], "note": "False of the code: vertex_to_entities numbers only the vertices that occur, do_any_overlap looks vertices up by their own number. An unused vertex below a used one makes do_any_overlap, linter and 3-D generate_mesh(perform_checks=True) raise IndexError (three theorems); C126_order_false gives one set of points and one triangulation for which one order returns a mesh and the other raises. Proved instead: do_any_overlap succeeds exactly when unused vertices come last, and then reports exactly the overlapping neighbours; the linter then does what fix_mesh does on a mesh without overlaps, and a 3-D run with checks ends as one without."},
"C127":{"status": "proved", "module": "Verif.Props.Translate", "modules": ["Verif.Props.Units", "Verif.Props.Cleanup", "Verif.Props.CleanupSmooth"], "theorems": ["SM.Generate.C127_plain2", "SM.Generate.C127_smoothed2", "SM.Generate.C127_moved3", "SM.Generate.C127_tolerance_false"], "note": "Serial runs without perform_checks. The triangulator is assumed to commute with the translation and to return proper triangulations; the smoothing solver is exact; arithmetic is exact. C127_tolerance_false shows why the distance hypothesis is needed."},
"C128":{"status": "proved", "module": "Verif.Props.SliverUnits", "theorems": ["SM.Sliver.C128_units", "SM.Sliver.C128_moved", "SM.Sliver.C128_direction"], "note": "Units: exact equality of outcomes; only with preserve the guard of the Newton steps must be idle (it is not dimensionless, C97). Position: with perform_checks off and, in every pass, vertices farther apart than the tolerance of fix_mesh; up to numbering, because the snapping grid is anchored at the origin (C127). perturb is the normalised gradient for cells of nonzero volume; for flat cells the code replaces infinities by 1, and the theorems take any perturb that does not depend on the change."},
"C129":{"status": "proved", "module": "Verif.Props.InsideFl", "theorems": ["SM.InsideFl.C129_overlap3", "SM.InsideFl.C129_overlap2", "SM.InsideFl.C129_tetrahedron", "SM.InsideFl.C129_triangle", "SM.InsideFl.C129_weights", "SM.InsideFl.C129_far_deletes", "SM.InsideFl.C129_far_good"], "note": "Margin form proved for all roundings of relative error u (no overflow or underflow). C129_far_deletes is the finding: in the binary64 model (ties rounded up; the witness was checked with both tie rules) a good neighbour 74-147 km from the origin is reported and deleted."},
"C13":{"status": "partial", "module": "Verif.Props.Sizing", "theorems": ["SM.Sizing.C13_water_partial", "SM.Sizing.C13_row0_false"], "note": "False when all zero velocities are in array row 0."},
"C130":{"status": "proved", "module": "Verif.Props.OutsideFl", "theorems": ["SM.OutsideFl.C130_boxes", "SM.OutsideFl.C130_removal", "SM.OutsideFl.C130_points", "SM.OutsideFl.C130_centroid", "SM.OutsideFl.C130_disk", "SM.OutsideFl.C130_ball", "SM.OutsideFl.C130_set_operations"], "note": "Rounding of relative error u; overflow and underflow not modelled. The positions p are the given doubles; rounding in the movement of the points is not part of this claim."},
"C131":{"status": "proved", "module": "Verif.Props.ProjectFl", "theorems": ["SM.ProjectFl.C131_face", "SM.ProjectFl.C131_boxes", "SM.ProjectFl.C131_stuck", "SM.ProjectFl.C131_far"], "note": "Flat faces only (near corners and for curved boundaries the exact step is itself only approximate). C131_far: a square 100 h0 wide at 2^30 h0 from the origin; the projection is the identity there."},
"C132":{"status": "partial", "module": "Verif.Props.DihedralFl", "modules": ["Verif.Lemmas.Sqrt64"], "theorems": ["SM.DihedralFl.C132_cosine", "SM.DihedralFl.C132_detect_partial", "SM.DihedralFl.C132_flat_missed"], "note": "False of the code for flat and nearly flat cells: the argument of acos is not clamped, and C132_flat_missed is a flat cell with well-shaped faces of which all six angles are NaN in binary64 (both tie rules), so it is not selected for any bounds, while the exact computation selects it. C132_detect_partial proves detection for cells whose offending cosine is at least 5120u/sigma^2 away from +-1, and that cells within the bounds with margins are left alone. Operations are assumed not to be fused; overflow and underflow are not modelled."},
"C133":{"status": "proved", "module": "Verif.Props.ShapesFl", "modules": ["Verif.Model.ShapesFl"], "theorems": ["SM.ShapesFl.C133_error", "SM.ShapesFl.C133_simple", "SM.ShapesFl.C133_side", "SM.ShapesFl.C133_model", "SM.ShapesFl.C133_returned", "SM.ShapesFl.C133_double"], "note": "Real-number rounding model without overflow, underflow and NaN; cos and sin accurate to 2u, np.dot in any order of summation. The bound grows with the nesting depth only through the number of smooth operands. Repeat is not included (np.mod jumps). The geometry's exact evaluation is that of C20-C30 and C96 (Domain.mk*)."},
"C134":{"status": "proved", "module": "Verif.Props.Outward", "modules": [], "theorems": ["SM.Forces.C134_virial", "SM.Forces.C134_never_at_rest", "SM.Forces.C134_bounded", "SM.MeshLoop.C134_pass", "SM.MeshLoop.C134_equilibrium", "SM.MeshLoop.C134_runs2", "SM.MeshLoop.C134_runs3", "SM.MeshLoop.C134_forces2", "SM.MeshLoop.C134_forces3", "SM.MeshLoop.C134_step2", "SM.MeshLoop.C134_step3", "SM.MeshLoop.C134_rest2", "SM.MeshLoop.C134_rest3"], "note": "Serial passes, exact arithmetic. virial/never_at_rest/bounded are about every force vector satisfying the specification Balanced of C54 (which C54_triangles/C54_tetrahedra prove of the computed forces); pass/equilibrium are about every pass satisfying Relaxes (proved by C54_pass2, C54_pass3 with factors 6/5 and 11/10); runs2/runs3: the pass succeeds, so no error of any kind, in particular not the convergence assertion."},
"C135":{"status": "proved", "module": "Verif.Props.ForcesFl", "modules": ["Verif.Model.ForcesFl"], "theorems": ["SM.ForcesFl.C135_triangles", "SM.ForcesFl.C135_tetrahedra", "SM.ForcesFl.C135_still", "SM.ForcesFl.C135_double"], "note": "Rounding after every operation, no overflow or underflow; the sizing function is taken as computed; NumPy's power, root and sum are parameters whose accuracy is a hypothesis (C135_double: it holds for correctly rounded powers and roots and left-to-right sums in double precision)."},
"C136":{"status": "proved", "module": "Verif.Props.Seed", "modules": ["Verif.Model.Seed"], "theorems": ["SM.Seed.C136_numbers", "SM.Seed.C136_history", "SM.Seed.C136_points", "SM.Seed.C136_resets", "SM.Seed.C136_always", "SM.Seed.C136_clobbers"], "note": "One process; the sign distance function, the sizing function and the triangulation are functions (they use no random numbers). The reset of the caller's generator is a side effect the documentation does not mention."},
"C137":{"status": "partial", "module": "Verif.Props.Display", "modules": ["Verif.Model.Display"], "theorems": ["SM.Display.C137_show_partial", "SM.Display.C137_false_file", "SM.Display.C137_plot", "SM.Display.C137_covers", "SM.Display.C137_refuses", "SM.Display.C137_false_ranks"], "note": "False of the code in two points: every show method passes filename=None on, so no file is ever written and a window is opened; and plot_sizing_function raises UnboundLocalError on every rank but 0. The rest is proved. Axes, labels and colour bars, negative strides and empty grids are not modelled."},
"C138":{"status": "partial", "module": "Verif.Props.QualFl", "modules": [], "theorems": ["SM.QualFl.C138_accuracy", "SM.QualFl.C138_good", "SM.QualFl.C138_delete_partial", "SM.QualFl.C138_flat_kept"], "note": "Accuracy is proved in full. The last sentence is false of the code: the computed lengths of a flat triangle can violate the triangle inequality, the quality is then NaN, and NaN < min_qual is False, so flat boundary triangles survive delete_boundary_entities (C138_flat_kept, in binary64). Overflow and underflow are not modelled."},
"C139":{"status": "partial", "module": "Verif.Props.FixedFl", "modules": [], "theorems": ["SM.FixedFl.C139_kept", "SM.FixedFl.C139_boxes", "SM.FixedFl.C139_no_force", "SM.FixedFl.C139_curved_moves"], "note": "Proved in full for sharp combinations of boxes without translate, corners included, and for any domain whose computed value at the fixed point is not positive. False on curved boundaries: a fixed point in the closed disk has a positive computed distance and the projection moves it in the first pass (C139_curved_moves, binary64). The last pass (clean-up, smoothing) is not part of it: see C55."},
"C14":{"status": "partial", "module": "Verif.Props.Sizing", "theorems": ["SM.Sizing.C14_caller_array_partial", "SM.Sizing.C14_caller_array_false"], "note": "False: unit conversion and water replacement write into the caller's array."},
"C140":{"status": "proved", "module": "Verif.Props.LaplaceFl", "modules": ["Verif.Model.LaplaceFl"], "theorems": ["SM.LaplaceFl.C140_kept", "SM.LaplaceFl.C140_accuracy", "SM.LaplaceFl.C140_range", "SM.LaplaceFl.C140_leaves_box"], "note": "The number of sweeps is the one the code makes with its computed stop test; the exact sweeps it is compared with hold the boundary and the vertices that the computed distances select for the fixed points. Overflow and underflow are not modelled. C140_leaves_box: in double precision a vertex can leave the bounding box by one unit in the last place, so the rounding term in C140_range is needed."},
"C141":{"status": "proved", "module": "Verif.Props.InterpFl", "modules": ["Verif.Model.InterpFl"], "theorems": ["SM.InterpFl.C141_range", "SM.InterpFl.C141_positive", "SM.InterpFl.C141_nodes", "SM.InterpFl.C141_local_nodes", "SM.InterpFl.C141_below"], "note": "The order of operations is that of scipy's `_evaluate_linear`, which is external. Grid vectors are the computed ones. Overflow and underflow are not modelled. C141_below: a constant sizing function 50 evaluates to less than 50 in double precision, so the rounding term in C141_range is needed."},
"C142":{"status": "partial", "module": "Verif.Props.FixMeshFl", "modules": [], "theorems": ["SM.FixMeshFl.C142_close", "SM.FixMeshFl.C142_duplicates_partial", "SM.FixMeshFl.C142_signs", "SM.FixMeshFl.C142_duplicates_kept"], "note": "The first half of the property is false of the code: C142_duplicates_kept proves that fix_mesh in double precision with the default tolerance leaves two copies of the vertices of a common side whose coordinates are 0.0 in one and -0.0 in the other. C142_duplicates_partial characterises which vertices at the same position are merged (no zero coordinate with different signs), C142_signs shows that opposite signs prevent a merge, C142_close proves the second half. Overflow and underflow are not modelled."},
"C143":{"status": "partial", "module": "Verif.Props.NanFl", "modules": [], "theorems": ["SM.NanFl.C143_nan", "SM.NanFl.C143_infinite", "SM.NanFl.C143_zeros", "SM.NanFl.C143_finite", "SM.NanFl.C143_other_ranks"], "note": "Proved for serial runs and for the process of rank 0: C143_nan, C143_infinite, C143_zeros, C143_finite. C143_other_ranks proves that the property is false of the other processes of a parallel run: no exception is raised and the end points of the bar become NaN. python -O removes the assertion and is not modelled."},
"C144":{"status": "partial", "module": "Verif.Props.NanInit", "modules": [], "theorems": ["SM.NanInit.C144_nan", "SM.NanInit.C144_zero", "SM.NanInit.C144_kept_partial", "SM.NanInit.C144_option", "SM.NanInit.C144_domain", "SM.NanInit.C144_silent"], "note": "The property is false of the code with default options: C144_silent proves that a single NaN size in the middle of a square discards all nine grid points and the run goes on with the four corners. C144_nan and C144_zero characterise what happens, C144_kept_partial is the converse, C144_option proves the property for r0m_is_h0, C144_domain for NaN values of the level-set function. User points and the collective minimum of parallel runs are not modelled."},
"C145":{"status": "partial", "module": "Verif.Props.NanFinish", "modules": [], "theorems": ["SM.NanFinish.C145_cells_partial", "SM.NanFinish.C145_vertex", "SM.NanFinish.C145_nan_returned"], "note": "The second half of the property is false of the code: C145_nan_returned proves that the last step returns a vertex with NaN coordinates for a level-set function that is NaN at one corner of a square. C145_cells_partial proves the first half, C145_vertex characterises which vertices become NaN. The set of boundary vertices is a parameter (C35 describes it)."},
"C146":{"status": "partial", "module": "Verif.Props.LimgradNan", "modules": [], "theorems": ["SM.LimgradNan.C146_switched_off", "SM.LimgradNan.C146_errors", "SM.LimgradNan.C146_isolated", "SM.LimgradNan.C146_only_refines", "SM.LimgradNan.C146_bound_partial", "SM.LimgradNan.C146_never_over_refines", "SM.LimgradNan.C146_witness"], "note": "The gradation bound is false of the code when the first cell, the gradation or the element length is NaN (C146_switched_off for every such input, C146_witness for a concrete one); everything else holds for all inputs. Operations on two numbers are assumed to give numbers (no inf - inf)."},
"C147":{"status": "partial", "module": "Verif.Props.InterpNan", "modules": [], "theorems": ["SM.InterpNan.C147_cell", "SM.InterpNan.C147_nan", "SM.InterpNan.C147_elsewhere", "SM.InterpNan.C147_node_partial", "SM.InterpNan.C147_node_lost", "SM.InterpNan.C147_local", "SM.InterpNan.C147_witness"], "note": "The part about nodes is false of the code (C147_node_lost for every such grid, C147_witness in double precision); C147_node_partial says when it holds. scipy's half-open intervals (find_interval_ascending) are part of the model; operations on two numbers are assumed to give numbers."},
"C148":{"status": "partial", "module": "Verif.Props.SizingNan", "modules": [], "theorems": ["SM.SizingNan.C148_own", "SM.SizingNan.C148_everything", "SM.SizingNan.C148_others_partial", "SM.SizingNan.C148_ignored", "SM.SizingNan.C148_witness"], "note": "The claim about the other entries is false of the code with grad > 0 (C148_everything for every such input, C148_witness in double precision); C148_others_partial proves it otherwise. The NaN must stand where the velocity was not a water velocity (below 1e-3), since removing one may switch the water replacement off. The window filter is a parameter; option names and padding are not part of this model."},
"C15":{"status": "proved", "module": "Verif.Props.Sizing", "modules": ["Verif.Props.Velocity"], "theorems": ["SM.Sizing.C15_pad_2d", "SM.Sizing.C15_pad_3d", "SM.Sizing.C15_pad_edges", "SM.Velocity.C15_returned_box"], "note": "Ordered bbox assumed for the truncation int(pad/dz)."},
"C16":{"status": "partial", "module": "Verif.Props.Interp", "theorems": ["SM.Interp.C16_pad_keeps_model_partial", "SM.Interp.C16_pad_moves_model", "SM.Interp.C16_shift_2d", "SM.Interp.C16_shift_3d", "SM.Interp.C16_pad_keeps_model_3d_partial"], "note": "False of the code in general: the number of pad cells uses the spacing L/n while linspace uses L/(n-1) (witness). Proved for pads that are a whole number of grid spacings in each direction (2-D, 3-D), and for all pads that values move by at most one cell along each axis.", "modules": ["Verif.Props.PadShift"]},
"C17":{"status": "proved", "module": "Verif.Props.ReadBin", "theorems": ["SM.ReadBin.C17_read_bin", "SM.ReadBin.C17_one_to_one", "SM.ReadBin.C17_byte_order", "SM.ReadBin.C17_rejects"], "note": "Byte level; non-negative axes_order of length three."},
"C18":{"status": "proved", "module": "Verif.Props.ReadBin", "theorems": ["SM.ReadBin.C18_read_segy", "SM.ReadBin.C18_dispatch"], "note": "segyio itself is trusted to deliver traces of equal length."},
"C19":{"status": "proved", "module": "Verif.Props.Interp", "theorems": ["SM.Interp.C19_between_corners", "SM.Interp.C19_reproduces_nodes", "SM.Interp.C19_size_function_bounds", "SM.Interp.C19_hmin", "SM.Interp.C19_outside_unbounded"], "note": "Any number of axes; extrapolation outside the box has no bound (witness)."},
"C20":{"status": "proved", "module": "Verif.Props.Sdf", "theorems": ["SM.Sdf.C20_rectangle", "SM.Sdf.C20_block", "SM.Sdf.C20_never_overestimates", "SM.Domain.C20_rectangle_object", "SM.Domain.C20_cube_object"], "note": "", "modules": ["Verif.Props.DomainObjects"]},
"C21":{"status": "proved", "module": "Verif.Props.Sdf", "theorems": ["SM.Sdf.C21_rectangle", "SM.Sdf.C21_block"], "note": ""},
"C22":{"status": "proved", "module": "Verif.Props.Sdf", "theorems": ["SM.Sdf.C22_disk", "SM.Sdf.C22_ball", "SM.Domain.C22_disk_object", "SM.Domain.C22_ball_object"], "note": "", "modules": ["Verif.Props.DomainObjects"]},
"C23":{"status": "proved", "module": "Verif.Props.Sdf", "theorems": ["SM.Sdf.C23_torus", "SM.Sdf.C23_cylinder", "SM.Sdf.C23_prism", "SM.Domain.C23_objects"], "note": "", "modules": ["Verif.Props.DomainObjects"]},
"C24":{"status": "proved", "module": "Verif.Props.Sdf", "theorems": ["SM.Sdf.C24_union", "SM.Sdf.C24_intersection", "SM.Sdf.C24_difference", "SM.Domain.C24_objects"], "note": "", "modules": ["Verif.Props.DomainObjects"]},
"C25":{"status": "proved", "module": "Verif.Props.Sdf", "theorems": ["SM.Sdf.C25_smooth_union", "SM.Sdf.C25_smooth_intersection", "SM.Sdf.C25_sharp_far", "SM.Sdf.C25_symmetric", "SM.Domain.C25_objects", "SM.Domain.C25_objects_two"], "note": "", "modules": ["Verif.Props.DomainObjects"]},
"C26":{"status": "partial", "module": "Verif.Props.Sdf", "theorems": ["SM.Sdf.C26_smooth_difference_false", "SM.Sdf.C26_smooth_difference_partial", "SM.Domain.C26_objects_partial"], "note": "False of the code: the smooth difference reverses its operand list; negation proved with a witness, plus what does hold.", "modules": ["Verif.Props.DomainObjects"]},
"C27":{"status": "partial", "module": "Verif.Props.Domain", "theorems": ["SM.Domain.C27_bbox_encloses_partial", "SM.Domain.C27_rotation_false", "SM.Domain.C27_smooth_union_false"], "note": "False for rotations about two axes and for smooth unions (witnesses); proved for the remaining objects."},
"C28":{"status": "proved", "module": "Verif.Props.Domain", "theorems": ["SM.Domain.C28_stretch_is_documented", "SM.Domain.C28_rotation_is_documented", "SM.Domain.C28_inverse", "SM.Domain.C28_eval", "SM.Domain.C28_isometry"], "note": ""},
"C29":{"status": "partial", "module": "Verif.Props.Domain", "theorems": ["SM.Domain.C29_corners_partial", "SM.Domain.C29_plain_rectangle_keeps_all", "SM.Domain.C29_corners_false", "SM.Domain.C29_difference_false"], "note": "False after translation and for differences (witnesses); proved for the rest."},
"C30":{"status": "proved", "module": "Verif.Props.Sdf", "theorems": ["SM.Sdf.C30_repeat", "SM.Sdf.C30_central_cell", "SM.Domain.C30_object"], "note": "", "modules": ["Verif.Props.DomainObjects"]},
"C31":{"status": "proved", "module": "Verif.Props.FixMesh", "theorems": ["SM.FixMesh.C31_clean", "SM.FixMesh.C31_keep_unused", "SM.FixMesh.C31_empty_raises"], "note": "For every key (snapping + byte encoding) and every injective row encoding. Entities that become degenerate by merging are kept by the code."},
"C32":{"status": "proved", "module": "Verif.Props.FixMesh", "theorems": ["SM.FixMesh.C32_geometry", "SM.FixMesh.C32_exact", "SM.FixMesh.C32_snap_close", "SM.FixMesh.C32_coordinates", "SM.FixMesh.C32_tolerance"], "note": "Exact arithmetic for the snapping grid."},
"C33":{"status": "proved", "module": "Verif.Props.FixMesh", "theorems": ["SM.FixMesh.C33_oriented2", "SM.FixMesh.C33_oriented3"], "note": "Exact arithmetic."},
"C34":{"status": "proved", "module": "Verif.Props.Topology", "theorems": ["SM.Topology.C34_unique_edges_exact", "SM.Topology.C34_unique_edges_sorted", "SM.Topology.C34_bars2", "SM.Topology.C34_bars3"], "note": "Entries are non-negative integers."},
"C35":{"status": "proved", "module": "Verif.Props.Topology", "theorems": ["SM.Topology.C35_boundary_edges", "SM.Topology.C35_boundary_facets", "SM.Topology.C35_boundary_vertices2", "SM.Topology.C35_boundary_vertices3", "SM.Topology.C35_dim_raises", "SM.Topology.C35_edges3_wrong"], "note": "Finding (C35_edges3_wrong): get_boundary_edges with dim=3 looks for edges that occur twice and returns nothing on a single tetrahedron."},
"C36":{"status": "proved", "module": "Verif.Props.Adjacency", "theorems": ["SM.Topology.C36_inverse", "SM.Topology.C36_unused_vertex_breaks"], "note": "For every tie-breaking of argsort. The hypothesis that all vertices occur is necessary (C36_unused_vertex_breaks)."},
"C37":{"status": "proved", "module": "Verif.Props.Adjacency", "theorems": ["SM.Topology.C37_boundary_entities", "SM.Topology.C37_exact"], "note": "For meshes all of whose vertices are used and distinct; the quality function is a parameter (simp_qual itself: C43)."},
"C38":{"status": "proved", "module": "Verif.Props.Winding", "theorems": ["SM.Winding.C38_walk", "SM.Winding.C38_single_loop", "SM.Winding.C38_closed_raises", "SM.Winding.C38_other_loops_dropped"], "note": "Finding: with several boundary loops only the loop through the first edge is returned (C38_other_loops_dropped)."},
"C39":{"status": "proved", "module": "Verif.Props.Adjacency", "theorems": ["SM.Topology.C39_external2", "SM.Topology.C39_external3"], "note": "Real arithmetic; flat C++ buffers via C30."},
"C40":{"status": "proved", "module": "Verif.Props.Laplace", "theorems": ["SM.Laplace.C40_smoothing", "SM.Laplace.C40_bounding_box", "SM.Laplace.C40_one_iteration"], "note": "Exact arithmetic in an ordered field; needs a valid non-empty triangle mesh (indices in range, every vertex used)."},
"C41":{"status": "proved", "module": "Verif.Props.Laplace", "theorems": ["SM.Laplace.C41_system", "SM.Laplace.C41_range", "SM.Laplace.C41_unique"], "note": "The AMG solver (pyamg) is external: the theorems are about exact solutions of the assembled linear system."},
"C42":{"status": "proved", "module": "Verif.Props.Simplex", "theorems": ["SM.Simplex.C42_triangle", "SM.Simplex.C42_tetrahedron", "SM.Simplex.C42_flat_tetrahedron", "SM.Simplex.C42_flat_triangle"], "note": "Exact real arithmetic. A degenerate triangle (zero denominator: inf or nan) and a flat tetrahedron contain no point."},
"C43":{"status": "proved", "module": "Verif.Props.Quality", "theorems": ["SM.Simplex.C43_range", "SM.Simplex.C43_equilateral", "SM.Simplex.C43_perm", "SM.Simplex.C43_translate", "SM.Simplex.C43_scale", "SM.Simplex.C43_mesh", "SM.Simplex.C43_fourth_vertex_ignored"], "note": "Triangles. Finding: for tetrahedra the fourth vertex is ignored."},
"C44":{"status": "proved", "module": "Verif.Props.Simplex", "theorems": ["SM.Simplex.C44_degenerate1", "SM.Simplex.C44_degenerate2", "SM.Simplex.C44_degenerate3", "SM.Simplex.C44_swap1", "SM.Simplex.C44_perm2", "SM.Simplex.C44_perm3", "SM.Simplex.C44_translate", "SM.Simplex.C44_subdivide", "SM.Simplex.C44_rows", "SM.Simplex.C44_value", "SM.Simplex.C44_linear", "SM.Simplex.C44_unit"], "note": "1-, 2- and 3-D signed volumes."},
"C45":{"status": "proved", "module": "Verif.Props.Simplex", "theorems": ["SM.Simplex.C45_det3", "SM.Simplex.C45_det4"], "note": ""},
"C46":{"status": "proved", "module": "Verif.Props.Gradient", "theorems": ["SM.Simplex.C46_gradient", "SM.Simplex.C46_exists", "SM.Simplex.C46_increases"], "note": ""},
"C47":{"status": "partial", "module": "Verif.Props.Gradient", "theorems": ["SM.Simplex.C47_minus_gradient_partial", "SM.Simplex.C47_sign_wrong"], "note": "The code returns minus the gradient of simp_vol; the claim as stated is false."},
"C48":{"status": "proved", "module": "Verif.Props.Dihedral", "theorems": ["SM.Simplex.C48_angle", "SM.Simplex.C48_cosine", "SM.Simplex.C48_defined", "SM.Simplex.C48_edges", "SM.Simplex.C48_cell", "SM.Simplex.C48_mesh"], "note": ""},
"C49":{"status": "proved", "module": "Verif.Props.Linter", "theorems": ["SM.Linter.C49_overlap", "SM.Linter.C49_overlap2", "SM.Linter.C49_overlap3", "SM.Linter.C49_linter", "SM.Linter.C49_tie_deletes_both"], "note": "Finding: of an equal-quality pair overlapping each other both members are deleted."},
"C50":{"status": "partial", "module": "Verif.Props.Manifold", "theorems": ["SM.Topology.C50_exact_partial", "SM.Topology.C50_true_if_manifold", "SM.Topology.C50_accepts_nonmanifold", "SM.Topology.C50_closed_surface_raises"], "note": "False in general: the code only compares the number of boundary edges and boundary vertices. Proved: exact when no edge is in more than two triangles and there is a boundary; counterexamples for the rest."},
"C51":{"status": "proved", "module": "Verif.Props.Options", "theorems": ["SM.Gen.C51_unknown_name", "SM.Gen.C51_names_accepted", "SM.Gen.C51_generate_mesh", "SM.Gen.C51_sliver_removal", "SM.Gen.C51_max_iter", "SM.Gen.C51_valid_accepted"], "note": "Keyword arguments as a Python value type; both directions (rejected / accepted). h0 = 0 and max_iter = 0 are accepted by the code, as the theorems say."},
"C52":{"status": "proved", "module": "Verif.Props.Options", "theorems": ["SM.Gen.C52_hull", "SM.Gen.C52_domain_box"], "note": "For boxes of equal dimension; boxes of different dimension are silently truncated by zip."},
"C53":{"status": "partial", "module": "Verif.Props.MeshLoop", "modules": ["Verif.Props.Generate", "Verif.Props.Sliver"], "theorems": ["SM.MeshLoop.C53_exact_partial", "SM.Generate.C53_generate_mesh_partial", "SM.MeshLoop.C53_never_returns", "SM.MeshLoop.C53_zero_diverges", "SM.Sliver.C53_sliver_removal_partial", "SM.Sliver.C53_sliver_zero"], "note": "generate_mesh: proved for every positive integer max_iter (exactly max_iter triangulations); the accepted value 0 and non-integers never terminate (proved). sliver_removal: over after at most max_iter passes for every positive integer; for max_iter = 0 it only returns if it finds no slivers (proved)."},
"C54":{"status": "proved", "module": "Verif.Props.Forces", "theorems": ["SM.Forces.C54_triangles", "SM.Forces.C54_tetrahedra", "SM.Forces.C54_repulsive", "SM.MeshLoop.C54_pass2", "SM.MeshLoop.C54_pass3"], "note": "Exact real arithmetic; sqrt and powers over the reals.", "modules": ["Verif.Props.Pass"]},
"C55":{"status": "partial", "module": "Verif.Props.MeshLoop", "modules": ["Verif.Props.Generate"], "theorems": ["SM.MeshLoop.C55_loop_partial", "SM.Generate.C55_generate_mesh_partial", "SM.MeshLoop.C55_returned3_partial", "SM.MeshLoop.C55_parallel_ignored", "SM.MeshLoop.C55_user_points_ignored", "SM.Generate.C55_generate_user_points", "SM.MeshLoop.C55_smoothing_moves", "SM.MeshLoop.C55_subdomain_moves", "SM.Generate.C55_fixed_points", "SM.Generate.C55_corners_partial"], "note": "False of the code in general: ignored in parallel and with user points, moved by the final 2-D smoothing and by subdomain projection (each proved). Proved: serial loop keeps fixed points inside the domain in every iteration; returned by a 3-D run if on the level set and isolated."},
"C56":{"status": "proved", "module": "Verif.Props.Project", "theorems": ["SM.Project.C56_inside_unmoved", "SM.Project.C56_half_space", "SM.Project.C56_direction"], "note": "Exact real arithmetic, level-set function evaluated row by row."},
"C57":{"status": "proved", "module": "Verif.Props.Project", "theorems": ["SM.Project.C57_triangles", "SM.Project.C57_tetrahedra"], "note": "Boundary vertices characterised by shared-facet counts (C35)."},
"C58":{"status": "proved", "module": "Verif.Props.MeshLoop", "modules": ["Verif.Props.Generate"], "theorems": ["SM.MeshLoop.C58_inside", "SM.Generate.C58_generate_mesh"], "note": "Delaunay triangulation, solver, linter and aggregation are arbitrary parameters. C58_generate_mesh is about the whole call on one process."},
"C59":{"status": "proved", "module": "Verif.Props.InitPoints", "modules": ["Verif.Props.Parallel"], "theorems": ["SM.Init.C59_serial", "SM.Init.C59_minimal_kept", "SM.Init.C59_parallel", "SM.Init.C59_none_inside", "SM.Parallel.C59_messages"], "note": "Random numbers are a parameter in [0,1). The message-passing run (allreduce, broadcasts of the extents) is C59_messages: every schedule."},
"C60":{"status": "proved", "module": "Verif.Props.InitPoints", "theorems": ["SM.Init.C60_rectangle", "SM.Init.C60_cuboid", "SM.Init.C60_extents", "SM.Init.C60_narrow_empty", "SM.Init.C60_axis_out_of_range", "SM.Init.C60_ranks2", "SM.Init.C60_ranks3", "SM.Init.C60_extents_sharp"], "note": "Exact reals. The width condition is needed (C60_narrow_empty); an axis number not below the dimension makes every rank generate the whole grid."},
"C61":{"status": "proved", "module": "Verif.Props.Sliver", "theorems": ["SM.Sliver.C61_detect", "SM.Sliver.C61_success", "SM.Sliver.C61_moves", "SM.Sliver.C61_degenerate_missed", "SM.Sliver.C61_degrees"], "note": "Detection is exact for every cell without three collinear vertices (flat cells included); such collinear cells are never detected (C61_degenerate_missed). Finding: the default max bound is 180 degrees (documented 170), so the maximum is never enforced by default.", "modules": ["Verif.Props.SliverCall"]},
"C62":{"status": "proved", "module": "Verif.Props.Exchange", "theorems": ["SM.Exchange.C62_exchange", "SM.Exchange.C62_iterated"], "note": "All rank counts, schedules and buffering policies of the message-passing semantics in Model/Mpi.lean; also for any number of consecutive exchanges."},
"C63":{"status": "partial", "module": "Verif.Props.Exchange", "theorems": ["SM.Exchange.C63_iff_partial", "SM.Exchange.C63_nothing_to_send", "SM.Exchange.C63_false", "SM.Exchange.C63_mixes_iterations"], "note": "False of the code: a rank with nothing to send returns without receiving. C63_iff_partial characterises exactly when the exchange completes and delivers everything; C63_false and C63_mixes_iterations are counterexamples (a rank that hangs; a stale message consumed by the next exchange)."},
"C64":{"status": "proved", "module": "Verif.Props.Distribute", "theorems": ["SM.Distribute.C64_aggregate", "SM.Distribute.C64_same_coordinates", "SM.Distribute.C64_in_range", "SM.Distribute.C64_end_to_end"], "note": "All rank counts, schedules, buffering policies."},
"C65":{"status": "proved", "module": "Verif.Props.Blocker", "theorems": ["SM.Blocker.C65_covers", "SM.Blocker.C65_blocks", "SM.Blocker.C65_extents", "SM.Blocker.C65_accepts", "SM.Blocker.C65_count", "SM.Blocker.C65_shared", "SM.Blocker.C65_dropped"], "note": "Exact arithmetic over any ordered field. C65_shared and C65_dropped show that blocks may share points and may be fewer than asked for."},
"C66":{"status": "proved", "module": "Verif.Props.Blocker", "modules": ["Verif.Props.Blocker", "Verif.Props.Distribute"], "theorems": ["SM.Blocker.C66_user_points", "SM.Blocker.C66_empty_block_hangs", "SM.Distribute.C66_localize", "SM.Distribute.C66_too_few"], "note": "Under the property's proviso that there are as many blocks as ranks; without it a rank hangs (C66_too_few, C66_empty_block_hangs). localize_sizing_function is not part of this program."},
"C67":{"status": "proved", "module": "Verif.Props.WhereTo", "theorems": ["SM.WhereTo.C67_packing", "SM.WhereTo.C67_unpacks", "SM.WhereTo.C67_end_to_end"], "note": "For every point set, face table and CGAL predicate: header counts, order and contents of the packed buffer, and what exchange on the neighbour recovers."},
"C68":{"status": "partial", "module": "Verif.Props.WhereTo", "theorems": ["SM.WhereTo.C68_reads_false", "SM.WhereTo.C68_writes_iff_partial", "SM.WhereTo.C68_writes_false"], "note": "False of the code: the NumPy copy always reads d doubles behind the buffer; the writes are in bounds exactly when not every vertex is exported. The negation and the exact condition are proved."},
"C69":{"status": "partial", "module": "Verif.Props.WhereTo", "theorems": ["SM.WhereTo.C69_false_filter", "SM.WhereTo.C69_false_filter3", "SM.WhereTo.C69_false_one_side", "SM.WhereTo.C69_somewhere_partial", "SM.WhereTo.C69_direction_partial", "SM.WhereTo.C69_two_dim_partial", "SM.WhereTo.C69_enqueue_partial"], "note": "False of the code (bounding-box pre-filter; a vertex is exported to one side only): counterexamples proved, and the property under the bounding-box condition for a rank with one neighbour; C69_enqueue_partial states the destination of each exported vertex in terms of the announced extents, for the whole of enqueue."},
"C70":{"status": "partial", "module": "Verif.Props.Ghost", "theorems": ["SM.Ghost.C70_iff_partial", "SM.Ghost.C70_false_none", "SM.Ghost.C70_false_duplicate", "SM.Ghost.C70_loop_partial"], "note": "False of the code: with no received points one own vertex is deleted, and likewise if a received point coincides with an own vertex or another received point. Proved: the exact condition (iff) under which all own vertices remain, and that the loop's deletion is this one. CGAL's insertion order is an assumption (Appends)."},
"C71":{"status": "proved", "module": "Verif.Props.Interp", "modules": ["Verif.Props.Parallel"], "theorems": ["SM.Interp.C71_agrees_at_nodes", "SM.Interp.C71_constant", "SM.Interp.C71_cover", "SM.Interp.C71_slabs_tile", "SM.Parallel.C71_transfer"], "note": "The upper margin is in [2*h0,3*h0) because arange excludes its end point. C71_transfer: in every schedule each rank receives the interpolant of its own slab."},
"C72":{"status": "proved", "module": "Verif.Props.DtWrapper", "theorems": ["SM.DtWrapper.C72_consistent", "SM.DtWrapper.C72_range", "SM.DtWrapper.C72_stale", "SM.DtWrapper.C72_inserted"], "note": "For every history of calls; CGAL's operations are parameters assumed to keep a valid triangulation valid. C72_stale shows the renumbering call is needed."},
"C73":{"status": "partial", "module": "Verif.Props.Quality", "theorems": ["SM.Simplex.C73_tets_partial", "SM.Simplex.C73_triangles_raise", "SM.Simplex.C73_one_triangle_empty", "SM.Simplex.C73_two_triangles_share_radius", "SM.Simplex.C73_dim_raises"], "note": "True for tetrahedra; false for triangles (witnesses proved)."},
"C74":{"status": "partial", "module": "Verif.Props.Options", "theorems": ["SM.Gen.C74_same_box_partial", "SM.Gen.C74_replaced", "SM.Gen.C74_false"], "note": "The property is false of the code: with a SizeFunction whose box differs, the domain is silently replaced by the hull box (witness: a disk). Proved for equal boxes."},
"C75":{"status": "partial", "module": "Verif.Props.Sizing", "theorems": ["SM.Sizing.C75_sizes_are_numbers_partial", "SM.Sizing.C75_uniform_velocity_nan", "SM.Sizing.C75_zero_frequency"], "note": "False for uniform velocity with grad > 0."},
"C76":{"status": "proved", "module": "Verif.Props.Parallel", "theorems": ["SM.Parallel.C76_generated", "SM.Parallel.C76_user_points", "SM.Parallel.C76_boxes"], "note": "Specification: the inductive relation Together (Verif/Props/Parallel.lean), which is in terms of the serial pass MeshLoop.step and the points exported by the neighbours. The assumption that every rank has something to export (Talks) is needed: without it the run can hang (C63). Example: 2 ranks, 7 points, 2 iterations (Verif/Props/ParallelExample.lean)."},
"C77":{"status": "proved", "module": "Verif.Props.Parallel", "theorems": ["SM.Parallel.C77_deterministic"], "note": "Unconditional; CGAL and the solver are functions of their arguments in the model."},
"C78":{"status": "partial", "module": "Verif.Props.Parallel", "theorems": ["SM.Parallel.C78_false_exception"], "note": "The property is false of the code; the theorem is its negation: when rank 0 raises in a pass that is not the last one (the assertion on the movement is checked by rank 0 only) rank 1 waits for ever in every execution. Instance with h0 = 0 in Verif/Props/ParallelExample.lean."},
"C79":{"status": "proved", "module": "Verif.Props.ParallelSafe", "theorems": ["SM.Parallel.C79_inside", "SM.Parallel.C79_roles", "SM.Parallel.C79_iterations"], "note": "For every reachable state of every execution, without assumptions on messages or other ranks."},
"C80":{"status": "proved", "module": "Verif.Props.LintOnce", "theorems": ["SM.Linter.C80_triangles", "SM.Linter.C80_tetrahedra"], "note": "Exact arithmetic. Hypotheses: every listed vertex is used (fix_mesh with delete_unused gives this) and no two vertices have the same rounding key."},
"C81":{"status": "proved", "module": "Verif.Props.Returned", "theorems": ["SM.MeshLoop.C81_generate_mesh", "SM.Parallel.C81_parallel"], "note": "Assumes of CGAL only that cells have dim+1 vertices (serial part). ToolsOk: row keys are injective, the volume changes sign when two vertices are exchanged, and the linter is the modelled geometry.linter."},
"C82":{"status": "partial", "module": "Verif.Props.Returned", "theorems": ["SM.MeshLoop.C82_used_partial", "SM.MeshLoop.C82_unused", "SM.MeshLoop.C82_call"], "note": "Finding: false. The final Newton clean-up moves vertices and then cells are removed without removing their vertices (no fix_mesh afterwards). Proved: the returned vertices are exactly the vertices of a clean mesh of which the returned cells are those inside; all are used if no cell is dropped by the last filter."},
"C83":{"status": "partial", "module": "Verif.Props.Returned", "theorems": ["SM.MeshLoop.C83_oriented_partial", "SM.MeshLoop.C83_inverted", "SM.MeshLoop.C83_call"], "note": "Finding: false. The Newton clean-up after the last orientation step can invert a cell. Proved: a returned cell without boundary vertices off the level set is positively oriented."},
"C84":{"status": "proved", "module": "Verif.Props.Velocity", "theorems": ["SM.Velocity.C84_binary_file", "SM.Velocity.C84_segy_file"], "note": "One theorem per file kind, from the bytes/traces to SizeFunction.eval at every node (exact arithmetic; float32 rounding of the grid vectors not modelled)."},
"C85":{"status": "partial", "module": "Verif.Props.Velocity", "theorems": ["SM.Velocity.C85_written_model_partial", "SM.Velocity.C85_units_ignored", "SM.Velocity.C85_water_not_filled"], "note": "True for velocities in m/s without water nodes; false with units (the written values are unconverted but labelled m/s) and with zero velocities."},
"C86":{"status": "partial", "module": "Verif.Props.Velocity", "theorems": ["SM.Velocity.C86_array_as_file_partial", "SM.Velocity.C86_array_needs_shape", "SM.Velocity.C86_binary_needs_3d"], "note": "True if nz, nx, ny are passed; velocity_data without nz or nx raises TypeError for every array; binary files with three axes never work with a 2-D bbox."},
"C87":{"status": "partial", "module": "Verif.Props.Velocity", "theorems": ["SM.Velocity.C87_same_box_partial", "SM.Velocity.C87_other_ranks_one", "SM.Velocity.C87_call", "SM.Velocity.C87_rank0_raises"], "note": "bbox and hmin agree on all ranks; the sizes do not: ranks > 0 return the constant 1 (generate_mesh later replaces it); an exception on rank 0 leaves the other ranks in the broadcast."},
"C88":{"status": "proved", "module": "Verif.Props.Native", "theorems": ["SM.Native.C88_gather", "SM.Native.C88_remove_external2", "SM.Native.C88_remove_external3", "SM.Native.C88_dihedral", "SM.Native.C88_dihedral_sliver", "SM.Native.C88_volume_grad", "SM.Native.C88_circum_grad", "SM.Native.C88_unique_edges", "SM.Native.C88_unique_edges_odd", "SM.Native.C88_unchecked", "SM.Native.C88_in_bounds"], "note": "Buffers are lists with checked subscripts; 32-bit overflow and array conversion are not modelled."},
"C89":{"status": "partial", "module": "Verif.Props.Native", "theorems": ["SM.Native.C89_delaunay2_partial", "SM.Native.C89_delaunay3_partial", "SM.Native.C89_assert_false", "SM.Native.C89_assert3_false", "SM.Native.C89_short_false", "SM.Native.C89_short3_false"], "note": "False as stated: shorter arrays are read past their end, and without NDEBUG the inverted assertion aborts every proper call. With NDEBUG and sufficient lengths the result is CGAL's table (CGAL is a parameter)."},
"C90":{"status": "proved", "module": "Verif.Props.NativeHJ", "theorems": ["SM.NativeHJ.C90_limgrad", "SM.NativeHJ.C90_unchecked", "SM.NativeHJ.C90_short_dims"], "note": "32-bit overflow not modelled."},
"C91":{"status": "partial", "module": "Verif.Props.SizingGrade", "theorems": ["SM.Sizing.C91_nodes_partial", "SM.Sizing.C91_interior", "SM.Sizing.C91_slope_2d_partial", "SM.Sizing.C91_slope_3d_partial", "SM.Sizing.C91_x_false", "SM.Sizing.C91_constant_pad_false", "SM.Sizing.C91_ramp_pad_false", "SM.Interp.interp_lipschitz", "SM.Interp.C91_everywhere_2d_partial", "SM.Interp.C91_everywhere_3d_partial"], "note": "True of neighbouring nodes in steps of depth/nz, and per unit of length along depth, for a size range of at most 9999 steps and no or edge padding. False of the code along x/y when the cells are narrower than high (the limiter uses depth/nz for all axes) and for the padding styles constant and linear_ramp; both proved by witnesses.", "modules": ["Verif.Props.SizingLip"]},
"C92":{"status": "proved", "module": "Verif.Props.LimgradForm", "theorems": ["SM.Limgrad.C92_lower", "SM.Limgrad.C92_upper", "SM.Limgrad.C92_monotone", "SM.Limgrad.C92_relabel", "SM.Limgrad.C92_transpose"], "note": "Convergence is the flag of C03; C03_shipped gives it for a size range of 9999 steps."},
"C93":{"status": "proved", "module": "Verif.Props.SliverCall", "theorems": ["SM.Sliver.C93_well_formed", "SM.Sliver.C93_inside"], "note": "sliver_removal end to end"},
"C94":{"status": "proved", "module": "Verif.Props.SliverCall", "theorems": ["SM.Sliver.C94_passes", "SM.Sliver.C94_returned", "SM.Sliver.C94_outside", "SM.Sliver.C94_attained"], "note": "bound on the movement, attained by an example"},
"C95":{"status": "proved", "module": "Verif.Props.Bytes", "theorems": ["SM.Bytes.C95_unique_rows", "SM.Bytes.C95_row_view", "SM.Bytes.C95_fix_mesh", "SM.Bytes.C95_boundary_edges", "SM.Bytes.C95_boundary_facets"], "note": "byte keys of integer rows"},
"C96":{"status": "proved", "module": "Verif.Props.Lipschitz", "theorems": ["SM.Domain.C96_lipschitz", "SM.Domain.C96_never_overestimates", "SM.Domain.C96_repeat", "SM.Domain.C96_shrunk_false", "SM.Domain.C96_repeat_false"], "note": "exact arithmetic; the two exceptions named in the statement are proved too"},
"C97":{"status": "partial", "module": "Verif.Props.Units", "modules": [], "theorems": ["SM.Units.C97_units", "SM.Units.C97_box2", "SM.Units.C97_box3", "SM.Units.C97_tools2", "SM.Units.C97_tools3", "SM.Units.C97_guard_false"], "note": "Proved for any number of passes, any s > 0, with the real tools for v = 0, provided the guard of the Newton steps is idle and the triangulation library and the byte order of points number the transformed points alike. C97_guard_false: without the condition on the guard the claim is false of the code. For v != 0 fix_mesh rounds to a grid anchored at the origin: C97_units then needs the hypothesis that keys correspond."},
"C98":{"status": "proved", "module": "Verif.Props.Initial", "modules": [], "theorems": ["SM.Initial.C98_spread2", "SM.Initial.C98_spread3", "SM.Initial.C98_depth"], "note": "One process; exact arithmetic. The covering needs a constant edge length, r0m_is_h0 off and random numbers below 1."},
"C99":{"status": "proved", "module": "Verif.Props.SizingMono", "theorems": ["SM.Sizing.C99_finer", "SM.Sizing.C99_everywhere", "SM.Sizing.C99_no_criterion"], "note": "For the shipped sweep cap; C99_no_criterion is the case with both criteria off."}
}
