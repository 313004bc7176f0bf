import Verif.Lemmas.Binary64
import Verif.Lemmas.Rounding
import Verif.Lemmas.Sqrt64
import Verif.Model.BallFl
import Verif.Model.Display
import Verif.Model.DtEdges
import Verif.Model.ForcesFl
import Verif.Model.GenerateDt
import Verif.Model.InterpFl
import Verif.Model.LaplaceFl
import Verif.Model.SdfFl
import Verif.Model.Seed
import Verif.Model.ShapesFl
import Verif.Model.Sizing
import Verif.Model.SizingFl
import Verif.Model.SliverDt
import Verif.Model.VolFl
import Verif.Props.Adjacency
import Verif.Props.BallFl
import Verif.Props.Blocker
import Verif.Props.Bytes
import Verif.Props.Cleanup
import Verif.Props.CleanupSmooth
import Verif.Props.Dihedral
import Verif.Props.DihedralFl
import Verif.Props.Display
import Verif.Props.Distribute
import Verif.Props.Domain
import Verif.Props.DomainObjects
import Verif.Props.DtEdges
import Verif.Props.DtWrapper
import Verif.Props.Exchange
import Verif.Props.FixMesh
import Verif.Props.FixMeshFl
import Verif.Props.FixTwice
import Verif.Props.FixedFl
import Verif.Props.Forces
import Verif.Props.ForcesFl
import Verif.Props.Generate
import Verif.Props.GenerateDt
import Verif.Props.Ghost
import Verif.Props.Gradient
import Verif.Props.HJ32
import Verif.Props.InitPoints
import Verif.Props.Initial
import Verif.Props.InsideFl
import Verif.Props.Interp
import Verif.Props.InterpFl
import Verif.Props.InterpNan
import Verif.Props.InterpOutside
import Verif.Props.Laplace
import Verif.Props.LaplaceFl
import Verif.Props.LaplaceStop
import Verif.Props.Limgrad
import Verif.Props.LimgradFl
import Verif.Props.LimgradForm
import Verif.Props.LimgradNan
import Verif.Props.LintOnce
import Verif.Props.Linter
import Verif.Props.LinterUnused
import Verif.Props.Lipschitz
import Verif.Props.Manifold
import Verif.Props.MeshLoop
import Verif.Props.NanFinish
import Verif.Props.NanFl
import Verif.Props.NanInit
import Verif.Props.Native
import Verif.Props.NativeHJ
import Verif.Props.Options
import Verif.Props.OutsideFl
import Verif.Props.Outward
import Verif.Props.PadShift
import Verif.Props.Parallel
import Verif.Props.ParallelSafe
import Verif.Props.Pass
import Verif.Props.PointOrder
import Verif.Props.Project
import Verif.Props.ProjectFl
import Verif.Props.QualFl
import Verif.Props.Quality
import Verif.Props.ReadBin
import Verif.Props.Renumber
import Verif.Props.Returned
import Verif.Props.Sdf
import Verif.Props.SdfFl
import Verif.Props.Seed
import Verif.Props.SetAlgebra
import Verif.Props.ShapesFl
import Verif.Props.Simplex
import Verif.Props.Sizing
import Verif.Props.SizingCourant
import Verif.Props.SizingDefaults
import Verif.Props.SizingExtrude
import Verif.Props.SizingFl
import Verif.Props.SizingGrade
import Verif.Props.SizingLayers
import Verif.Props.SizingLip
import Verif.Props.SizingMirror
import Verif.Props.SizingMono
import Verif.Props.SizingNan
import Verif.Props.SizingSpeed
import Verif.Props.SizingUnits
import Verif.Props.Sliver
import Verif.Props.SliverCall
import Verif.Props.SliverDt
import Verif.Props.SliverUnits
import Verif.Props.Topology
import Verif.Props.Translate
import Verif.Props.Units
import Verif.Props.Velocity
import Verif.Props.VolFl
import Verif.Props.WhereTo
import Verif.Props.Winding
import Verif.Props.Window
import Verif.Props.Workflow

/-! Axiom audit: generated by tools/mkmanifest.py; prints the axioms of every theorem claimed in MANIFEST.json. -/

#print axioms SM.Limgrad.C01_gradation_only_refines
#print axioms SM.Limgrad.C01_rejects_negative
#print axioms SM.Limgrad.C02_bound_on_convergence
#print axioms SM.Limgrad.C03_converges
#print axioms SM.Limgrad.C03_some_cap_suffices
#print axioms SM.Limgrad.C03_sweeps
#print axioms SM.Limgrad.C03_shipped
#print axioms SM.Limgrad.C03_fixed_cap_insufficient
#print axioms SM.Limgrad.C03_shipped_cap_insufficient
#print axioms SM.Limgrad.C04_never_over_refines
#print axioms SM.Limgrad.C05_identity_on_graded
#print axioms SM.Limgrad.C05_idempotent
#print axioms SM.Limgrad.C06_bijection
#print axioms SM.Limgrad.C06_stencil
#print axioms SM.Limgrad.C06_python_order
#print axioms SM.Sizing.C07_hmin_lower_bound
#print axioms SM.Sizing.C08_hmax_false
#print axioms SM.Sizing.C08_hmax_upper_bound_partial
#print axioms SM.Sizing.C09_courant_partial
#print axioms SM.Sizing.C09_courant_false
#print axioms SM.Sizing.C09_graded_partial
#print axioms SM.Sizing.C10_wavelength_partial
#print axioms SM.Sizing.C10_ramp_false
#print axioms SM.Sizing.C11_variance
#print axioms SM.Sizing.C11_window
#print axioms SM.Sizing.C11_gradient_range
#print axioms SM.Sizing.C11_zero_variance_nan
#print axioms SM.Sizing.C11_returned
#print axioms SM.Sizing.C12_raises_partial
#print axioms SM.Sizing.C12_negative_accepted
#print axioms SM.Sizing.C12_only_rank0
#print axioms SM.Sizing.C13_water_partial
#print axioms SM.Sizing.C13_row0_false
#print axioms SM.Sizing.C14_caller_array_partial
#print axioms SM.Sizing.C14_caller_array_false
#print axioms SM.Sizing.C15_pad_2d
#print axioms SM.Sizing.C15_pad_3d
#print axioms SM.Sizing.C15_pad_edges
#print axioms SM.Velocity.C15_returned_box
#print axioms SM.Interp.C16_pad_keeps_model_partial
#print axioms SM.Interp.C16_pad_moves_model
#print axioms SM.Interp.C16_shift_2d
#print axioms SM.Interp.C16_shift_3d
#print axioms SM.Interp.C16_pad_keeps_model_3d_partial
#print axioms SM.ReadBin.C17_read_bin
#print axioms SM.ReadBin.C17_one_to_one
#print axioms SM.ReadBin.C17_byte_order
#print axioms SM.ReadBin.C17_rejects
#print axioms SM.ReadBin.C18_read_segy
#print axioms SM.ReadBin.C18_dispatch
#print axioms SM.Interp.C19_between_corners
#print axioms SM.Interp.C19_reproduces_nodes
#print axioms SM.Interp.C19_size_function_bounds
#print axioms SM.Interp.C19_hmin
#print axioms SM.Interp.C19_outside_unbounded
#print axioms SM.Sdf.C20_rectangle
#print axioms SM.Sdf.C20_block
#print axioms SM.Sdf.C20_never_overestimates
#print axioms SM.Domain.C20_rectangle_object
#print axioms SM.Domain.C20_cube_object
#print axioms SM.Sdf.C21_rectangle
#print axioms SM.Sdf.C21_block
#print axioms SM.Sdf.C22_disk
#print axioms SM.Sdf.C22_ball
#print axioms SM.Domain.C22_disk_object
#print axioms SM.Domain.C22_ball_object
#print axioms SM.Sdf.C23_torus
#print axioms SM.Sdf.C23_cylinder
#print axioms SM.Sdf.C23_prism
#print axioms SM.Domain.C23_objects
#print axioms SM.Sdf.C24_union
#print axioms SM.Sdf.C24_intersection
#print axioms SM.Sdf.C24_difference
#print axioms SM.Domain.C24_objects
#print axioms SM.Sdf.C25_smooth_union
#print axioms SM.Sdf.C25_smooth_intersection
#print axioms SM.Sdf.C25_sharp_far
#print axioms SM.Sdf.C25_symmetric
#print axioms SM.Domain.C25_objects
#print axioms SM.Domain.C25_objects_two
#print axioms SM.Sdf.C26_smooth_difference_false
#print axioms SM.Sdf.C26_smooth_difference_partial
#print axioms SM.Domain.C26_objects_partial
#print axioms SM.Domain.C27_bbox_encloses_partial
#print axioms SM.Domain.C27_rotation_false
#print axioms SM.Domain.C27_smooth_union_false
#print axioms SM.Domain.C28_stretch_is_documented
#print axioms SM.Domain.C28_rotation_is_documented
#print axioms SM.Domain.C28_inverse
#print axioms SM.Domain.C28_eval
#print axioms SM.Domain.C28_isometry
#print axioms SM.Domain.C29_corners_partial
#print axioms SM.Domain.C29_plain_rectangle_keeps_all
#print axioms SM.Domain.C29_corners_false
#print axioms SM.Domain.C29_difference_false
#print axioms SM.Sdf.C30_repeat
#print axioms SM.Sdf.C30_central_cell
#print axioms SM.Domain.C30_object
#print axioms SM.FixMesh.C31_clean
#print axioms SM.FixMesh.C31_keep_unused
#print axioms SM.FixMesh.C31_empty_raises
#print axioms SM.FixMesh.C32_geometry
#print axioms SM.FixMesh.C32_exact
#print axioms SM.FixMesh.C32_snap_close
#print axioms SM.FixMesh.C32_coordinates
#print axioms SM.FixMesh.C32_tolerance
#print axioms SM.FixMesh.C33_oriented2
#print axioms SM.FixMesh.C33_oriented3
#print axioms SM.Topology.C34_unique_edges_exact
#print axioms SM.Topology.C34_unique_edges_sorted
#print axioms SM.Topology.C34_bars2
#print axioms SM.Topology.C34_bars3
#print axioms SM.Topology.C35_boundary_edges
#print axioms SM.Topology.C35_boundary_facets
#print axioms SM.Topology.C35_boundary_vertices2
#print axioms SM.Topology.C35_boundary_vertices3
#print axioms SM.Topology.C35_dim_raises
#print axioms SM.Topology.C35_edges3_wrong
#print axioms SM.Topology.C36_inverse
#print axioms SM.Topology.C36_unused_vertex_breaks
#print axioms SM.Topology.C37_boundary_entities
#print axioms SM.Topology.C37_exact
#print axioms SM.Winding.C38_walk
#print axioms SM.Winding.C38_single_loop
#print axioms SM.Winding.C38_closed_raises
#print axioms SM.Winding.C38_other_loops_dropped
#print axioms SM.Topology.C39_external2
#print axioms SM.Topology.C39_external3
#print axioms SM.Laplace.C40_smoothing
#print axioms SM.Laplace.C40_bounding_box
#print axioms SM.Laplace.C40_one_iteration
#print axioms SM.Laplace.C41_system
#print axioms SM.Laplace.C41_range
#print axioms SM.Laplace.C41_unique
#print axioms SM.Simplex.C42_triangle
#print axioms SM.Simplex.C42_tetrahedron
#print axioms SM.Simplex.C42_flat_tetrahedron
#print axioms SM.Simplex.C42_flat_triangle
#print axioms SM.Simplex.C43_range
#print axioms SM.Simplex.C43_equilateral
#print axioms SM.Simplex.C43_perm
#print axioms SM.Simplex.C43_translate
#print axioms SM.Simplex.C43_scale
#print axioms SM.Simplex.C43_mesh
#print axioms SM.Simplex.C43_fourth_vertex_ignored
#print axioms SM.Simplex.C44_degenerate1
#print axioms SM.Simplex.C44_degenerate2
#print axioms SM.Simplex.C44_degenerate3
#print axioms SM.Simplex.C44_swap1
#print axioms SM.Simplex.C44_perm2
#print axioms SM.Simplex.C44_perm3
#print axioms SM.Simplex.C44_translate
#print axioms SM.Simplex.C44_subdivide
#print axioms SM.Simplex.C44_rows
#print axioms SM.Simplex.C44_value
#print axioms SM.Simplex.C44_linear
#print axioms SM.Simplex.C44_unit
#print axioms SM.Simplex.C45_det3
#print axioms SM.Simplex.C45_det4
#print axioms SM.Simplex.C46_gradient
#print axioms SM.Simplex.C46_exists
#print axioms SM.Simplex.C46_increases
#print axioms SM.Simplex.C47_minus_gradient_partial
#print axioms SM.Simplex.C47_sign_wrong
#print axioms SM.Simplex.C48_angle
#print axioms SM.Simplex.C48_cosine
#print axioms SM.Simplex.C48_defined
#print axioms SM.Simplex.C48_edges
#print axioms SM.Simplex.C48_cell
#print axioms SM.Simplex.C48_mesh
#print axioms SM.Linter.C49_overlap
#print axioms SM.Linter.C49_overlap2
#print axioms SM.Linter.C49_overlap3
#print axioms SM.Linter.C49_linter
#print axioms SM.Linter.C49_tie_deletes_both
#print axioms SM.Topology.C50_exact_partial
#print axioms SM.Topology.C50_true_if_manifold
#print axioms SM.Topology.C50_accepts_nonmanifold
#print axioms SM.Topology.C50_closed_surface_raises
#print axioms SM.Gen.C51_unknown_name
#print axioms SM.Gen.C51_names_accepted
#print axioms SM.Gen.C51_generate_mesh
#print axioms SM.Gen.C51_sliver_removal
#print axioms SM.Gen.C51_max_iter
#print axioms SM.Gen.C51_valid_accepted
#print axioms SM.Gen.C52_hull
#print axioms SM.Gen.C52_domain_box
#print axioms SM.MeshLoop.C53_exact_partial
#print axioms SM.Generate.C53_generate_mesh_partial
#print axioms SM.MeshLoop.C53_never_returns
#print axioms SM.MeshLoop.C53_zero_diverges
#print axioms SM.Sliver.C53_sliver_removal_partial
#print axioms SM.Sliver.C53_sliver_zero
#print axioms SM.Forces.C54_triangles
#print axioms SM.Forces.C54_tetrahedra
#print axioms SM.Forces.C54_repulsive
#print axioms SM.MeshLoop.C54_pass2
#print axioms SM.MeshLoop.C54_pass3
#print axioms SM.MeshLoop.C55_loop_partial
#print axioms SM.Generate.C55_generate_mesh_partial
#print axioms SM.MeshLoop.C55_returned3_partial
#print axioms SM.MeshLoop.C55_parallel_ignored
#print axioms SM.MeshLoop.C55_user_points_ignored
#print axioms SM.Generate.C55_generate_user_points
#print axioms SM.MeshLoop.C55_smoothing_moves
#print axioms SM.MeshLoop.C55_subdomain_moves
#print axioms SM.Generate.C55_fixed_points
#print axioms SM.Generate.C55_corners_partial
#print axioms SM.Project.C56_inside_unmoved
#print axioms SM.Project.C56_half_space
#print axioms SM.Project.C56_direction
#print axioms SM.Project.C57_triangles
#print axioms SM.Project.C57_tetrahedra
#print axioms SM.MeshLoop.C58_inside
#print axioms SM.Generate.C58_generate_mesh
#print axioms SM.Init.C59_serial
#print axioms SM.Init.C59_minimal_kept
#print axioms SM.Init.C59_parallel
#print axioms SM.Init.C59_none_inside
#print axioms SM.Parallel.C59_messages
#print axioms SM.Init.C60_rectangle
#print axioms SM.Init.C60_cuboid
#print axioms SM.Init.C60_extents
#print axioms SM.Init.C60_narrow_empty
#print axioms SM.Init.C60_axis_out_of_range
#print axioms SM.Init.C60_ranks2
#print axioms SM.Init.C60_ranks3
#print axioms SM.Init.C60_extents_sharp
#print axioms SM.Sliver.C61_detect
#print axioms SM.Sliver.C61_success
#print axioms SM.Sliver.C61_moves
#print axioms SM.Sliver.C61_degenerate_missed
#print axioms SM.Sliver.C61_degrees
#print axioms SM.Exchange.C62_exchange
#print axioms SM.Exchange.C62_iterated
#print axioms SM.Exchange.C63_iff_partial
#print axioms SM.Exchange.C63_nothing_to_send
#print axioms SM.Exchange.C63_false
#print axioms SM.Exchange.C63_mixes_iterations
#print axioms SM.Distribute.C64_aggregate
#print axioms SM.Distribute.C64_same_coordinates
#print axioms SM.Distribute.C64_in_range
#print axioms SM.Distribute.C64_end_to_end
#print axioms SM.Blocker.C65_covers
#print axioms SM.Blocker.C65_blocks
#print axioms SM.Blocker.C65_extents
#print axioms SM.Blocker.C65_accepts
#print axioms SM.Blocker.C65_count
#print axioms SM.Blocker.C65_shared
#print axioms SM.Blocker.C65_dropped
#print axioms SM.Blocker.C66_user_points
#print axioms SM.Blocker.C66_empty_block_hangs
#print axioms SM.Distribute.C66_localize
#print axioms SM.Distribute.C66_too_few
#print axioms SM.WhereTo.C67_packing
#print axioms SM.WhereTo.C67_unpacks
#print axioms SM.WhereTo.C67_end_to_end
#print axioms SM.WhereTo.C68_reads_false
#print axioms SM.WhereTo.C68_writes_iff_partial
#print axioms SM.WhereTo.C68_writes_false
#print axioms SM.WhereTo.C69_false_filter
#print axioms SM.WhereTo.C69_false_filter3
#print axioms SM.WhereTo.C69_false_one_side
#print axioms SM.WhereTo.C69_somewhere_partial
#print axioms SM.WhereTo.C69_direction_partial
#print axioms SM.WhereTo.C69_two_dim_partial
#print axioms SM.WhereTo.C69_enqueue_partial
#print axioms SM.Ghost.C70_iff_partial
#print axioms SM.Ghost.C70_false_none
#print axioms SM.Ghost.C70_false_duplicate
#print axioms SM.Ghost.C70_loop_partial
#print axioms SM.Interp.C71_agrees_at_nodes
#print axioms SM.Interp.C71_constant
#print axioms SM.Interp.C71_cover
#print axioms SM.Interp.C71_slabs_tile
#print axioms SM.Parallel.C71_transfer
#print axioms SM.DtWrapper.C72_consistent
#print axioms SM.DtWrapper.C72_range
#print axioms SM.DtWrapper.C72_stale
#print axioms SM.DtWrapper.C72_inserted
#print axioms SM.Simplex.C73_tets_partial
#print axioms SM.Simplex.C73_triangles_raise
#print axioms SM.Simplex.C73_one_triangle_empty
#print axioms SM.Simplex.C73_two_triangles_share_radius
#print axioms SM.Simplex.C73_dim_raises
#print axioms SM.Gen.C74_same_box_partial
#print axioms SM.Gen.C74_replaced
#print axioms SM.Gen.C74_false
#print axioms SM.Sizing.C75_sizes_are_numbers_partial
#print axioms SM.Sizing.C75_uniform_velocity_nan
#print axioms SM.Sizing.C75_zero_frequency
#print axioms SM.Parallel.C76_generated
#print axioms SM.Parallel.C76_user_points
#print axioms SM.Parallel.C76_boxes
#print axioms SM.Parallel.C77_deterministic
#print axioms SM.Parallel.C78_false_exception
#print axioms SM.Parallel.C79_inside
#print axioms SM.Parallel.C79_roles
#print axioms SM.Parallel.C79_iterations
#print axioms SM.Linter.C80_triangles
#print axioms SM.Linter.C80_tetrahedra
#print axioms SM.MeshLoop.C81_generate_mesh
#print axioms SM.Parallel.C81_parallel
#print axioms SM.MeshLoop.C82_used_partial
#print axioms SM.MeshLoop.C82_unused
#print axioms SM.MeshLoop.C82_call
#print axioms SM.MeshLoop.C83_oriented_partial
#print axioms SM.MeshLoop.C83_inverted
#print axioms SM.MeshLoop.C83_call
#print axioms SM.Velocity.C84_binary_file
#print axioms SM.Velocity.C84_segy_file
#print axioms SM.Velocity.C85_written_model_partial
#print axioms SM.Velocity.C85_units_ignored
#print axioms SM.Velocity.C85_water_not_filled
#print axioms SM.Velocity.C86_array_as_file_partial
#print axioms SM.Velocity.C86_array_needs_shape
#print axioms SM.Velocity.C86_binary_needs_3d
#print axioms SM.Velocity.C87_same_box_partial
#print axioms SM.Velocity.C87_other_ranks_one
#print axioms SM.Velocity.C87_call
#print axioms SM.Velocity.C87_rank0_raises
#print axioms SM.Native.C88_gather
#print axioms SM.Native.C88_remove_external2
#print axioms SM.Native.C88_remove_external3
#print axioms SM.Native.C88_dihedral
#print axioms SM.Native.C88_dihedral_sliver
#print axioms SM.Native.C88_volume_grad
#print axioms SM.Native.C88_circum_grad
#print axioms SM.Native.C88_unique_edges
#print axioms SM.Native.C88_unique_edges_odd
#print axioms SM.Native.C88_unchecked
#print axioms SM.Native.C88_in_bounds
#print axioms SM.Native.C89_delaunay2_partial
#print axioms SM.Native.C89_delaunay3_partial
#print axioms SM.Native.C89_assert_false
#print axioms SM.Native.C89_assert3_false
#print axioms SM.Native.C89_short_false
#print axioms SM.Native.C89_short3_false
#print axioms SM.NativeHJ.C90_limgrad
#print axioms SM.NativeHJ.C90_unchecked
#print axioms SM.NativeHJ.C90_short_dims
#print axioms SM.Sizing.C91_nodes_partial
#print axioms SM.Sizing.C91_interior
#print axioms SM.Sizing.C91_slope_2d_partial
#print axioms SM.Sizing.C91_slope_3d_partial
#print axioms SM.Sizing.C91_x_false
#print axioms SM.Sizing.C91_constant_pad_false
#print axioms SM.Sizing.C91_ramp_pad_false
#print axioms SM.Interp.interp_lipschitz
#print axioms SM.Interp.C91_everywhere_2d_partial
#print axioms SM.Interp.C91_everywhere_3d_partial
#print axioms SM.Limgrad.C92_lower
#print axioms SM.Limgrad.C92_upper
#print axioms SM.Limgrad.C92_monotone
#print axioms SM.Limgrad.C92_relabel
#print axioms SM.Limgrad.C92_transpose
#print axioms SM.Sliver.C93_well_formed
#print axioms SM.Sliver.C93_inside
#print axioms SM.Sliver.C94_passes
#print axioms SM.Sliver.C94_returned
#print axioms SM.Sliver.C94_outside
#print axioms SM.Sliver.C94_attained
#print axioms SM.Bytes.C95_unique_rows
#print axioms SM.Bytes.C95_row_view
#print axioms SM.Bytes.C95_fix_mesh
#print axioms SM.Bytes.C95_boundary_edges
#print axioms SM.Bytes.C95_boundary_facets
#print axioms SM.Domain.C96_lipschitz
#print axioms SM.Domain.C96_never_overestimates
#print axioms SM.Domain.C96_repeat
#print axioms SM.Domain.C96_shrunk_false
#print axioms SM.Domain.C96_repeat_false
#print axioms SM.Units.C97_units
#print axioms SM.Units.C97_box2
#print axioms SM.Units.C97_box3
#print axioms SM.Units.C97_tools2
#print axioms SM.Units.C97_tools3
#print axioms SM.Units.C97_guard_false
#print axioms SM.Initial.C98_spread2
#print axioms SM.Initial.C98_spread3
#print axioms SM.Initial.C98_depth
#print axioms SM.Sizing.C99_finer
#print axioms SM.Sizing.C99_everywhere
#print axioms SM.Sizing.C99_no_criterion
#print axioms SM.Sizing.C100_units
#print axioms SM.Sizing.C100_everywhere
#print axioms SM.Sizing.C100_km
#print axioms SM.Sizing.C100_limit
#print axioms SM.Topology.C101_bars
#print axioms SM.Topology.C101_boundary_edges
#print axioms SM.Topology.C101_boundary_facets
#print axioms SM.Topology.C101_boundary_vertices
#print axioms SM.Topology.C101_is_manifold
#print axioms SM.Workflow.C102_region2
#print axioms SM.Workflow.C102_start2
#print axioms SM.Workflow.C102_region3
#print axioms SM.Workflow.C102_start3
#print axioms SM.Domain.C103_order
#print axioms SM.Domain.C103_nesting
#print axioms SM.Domain.C103_laws
#print axioms SM.Domain.C103_smooth_order
#print axioms SM.Domain.C103_smooth_order_matters
#print axioms SM.Sizing.C104_same_outcome
#print axioms SM.Sizing.C104_mirror_partial
#print axioms SM.Interp.C104_everywhere_partial
#print axioms SM.Sizing.C104_even_stencil_false
#print axioms SM.HJ32.C105_no_overflow
#print axioms SM.HJ32.C105_overflow
#print axioms SM.HJ32.C105_quotient
#print axioms SM.HJ32.binary64_rounds
#print axioms SM.LimgradFl.C106_only_refines
#print axioms SM.LimgradFl.C106_never_over_refines
#print axioms SM.LimgradFl.C106_bound
#print axioms SM.LimgradFl.C106_sweeps
#print axioms SM.LimgradFl.C106_identity
#print axioms SM.LimgradFl.C106_error
#print axioms SM.LimgradFl.C106_binary64
#print axioms SM.LimgradFl.C106_exact
#print axioms SM.SdfFl.C107_correctly_rounded
#print axioms SM.SdfFl.C107_classification
#print axioms SM.SdfFl.C107_error
#print axioms SM.SdfFl.C107_translated
#print axioms SM.SdfFl.C107_translated_classification
#print axioms SM.SdfFl.C107_binary64
#print axioms SM.SdfFl.C107_translated_boundary
#print axioms SM.SdfFl.C107_model
#print axioms SM.VolFl.C108_area
#print axioms SM.VolFl.C108_volume
#print axioms SM.VolFl.C108_oriented2
#print axioms SM.VolFl.C108_oriented3
#print axioms SM.VolFl.C108_binary64
#print axioms SM.VolFl.C108_flipped
#print axioms SM.VolFl.C108_still_negative
#print axioms SM.SizingFl.C109_limits
#print axioms SM.SizingFl.C109_hmin_2d
#print axioms SM.SizingFl.C109_hmin
#print axioms SM.SizingFl.C109_courant
#print axioms SM.SizingFl.C109_exact
#print axioms SM.SizingFl.C109_binary64
#print axioms SM.SizingFl.C109_below_hmin
#print axioms SM.DtEdges.C110_edges2
#print axioms SM.DtEdges.C110_edges3
#print axioms SM.DtEdges.C110_current
#print axioms SM.DtEdges.C110_short
#print axioms SM.SliverDt.C111_pass
#print axioms SM.SliverDt.C111_exact
#print axioms SM.SliverDt.C111_first
#print axioms SM.SliverDt.C111_lost
#print axioms SM.SliverDt.C111_refines
#print axioms SM.SliverDt.C111_returned
#print axioms SM.GenerateDt.C112_triangulation
#print axioms SM.GenerateDt.C112_fixed_points
#print axioms SM.GenerateDt.C112_never_added
#print axioms SM.GenerateDt.C112_well_formed
#print axioms SM.GenerateDt.C112_relaxes2
#print axioms SM.GenerateDt.C112_relaxes3
#print axioms SM.Sizing.C113_slower
#print axioms SM.Sizing.C113_everywhere
#print axioms SM.Sizing.C113_gradient
#print axioms SM.Laplace.C114_sweeps_partial
#print axioms SM.Laplace.C114_terminates
#print axioms SM.Laplace.C114_shrinking_ignored
#print axioms SM.Laplace.C115_converges
#print axioms SM.MeshLoop.C116_termination
#print axioms SM.MeshLoop.C116_run
#print axioms SM.MeshLoop.C116_succeeds
#print axioms SM.MeshLoop.C117_termination
#print axioms SM.MeshLoop.C117_target
#print axioms SM.MeshLoop.C117_succeeds
#print axioms SM.MeshLoop.C117_run
#print axioms SM.MeshLoop.C118_termination
#print axioms SM.MeshLoop.C118_run
#print axioms SM.Sizing.C119_none
#print axioms SM.Sizing.C119_wl
#print axioms SM.Sizing.C119_dt
#print axioms SM.Sizing.C120_nodes
#print axioms SM.Sizing.C120_same_outcome
#print axioms SM.Interp.C120_everywhere
#print axioms SM.Interp.C121_near
#print axioms SM.Interp.C121_hmin_partial
#print axioms SM.Interp.C121_excess_depth
#print axioms SM.Interp.C121_excess_width
#print axioms SM.Interp.C121_ungraded_false
#print axioms SM.Sizing.C122_nodes
#print axioms SM.Interp.C122_everywhere
#print axioms SM.BallFl.C123_disk_sign
#print axioms SM.BallFl.C123_ball_sign
#print axioms SM.BallFl.C123_disk_error
#print axioms SM.BallFl.C123_ball_error
#print axioms SM.BallFl.C123_model
#print axioms SM.BallFl.C123_set_operations
#print axioms SM.BallFl.C123_binary64
#print axioms SM.BallFl.C123_band_needed
#print axioms SM.FixMesh.C124_numbering
#print axioms SM.FixMesh.C124_twice_partial
#print axioms SM.FixMesh.C124_twice_exact
#print axioms SM.FixMesh.C124_idempotent_false
#print axioms SM.Generate.C125_point_order
#print axioms SM.Generate.C125_returned
#print axioms SM.Linter.C126_overlap_raises
#print axioms SM.Linter.C126_overlap_partial
#print axioms SM.Linter.C126_linter_raises
#print axioms SM.Linter.C126_linter3_partial
#print axioms SM.MeshLoop.C126_run_raises
#print axioms SM.MeshLoop.C126_run_partial
#print axioms SM.Generate.C126_order_false
#print axioms SM.Generate.C127_plain2
#print axioms SM.Generate.C127_smoothed2
#print axioms SM.Generate.C127_moved3
#print axioms SM.Generate.C127_tolerance_false
#print axioms SM.Sliver.C128_units
#print axioms SM.Sliver.C128_moved
#print axioms SM.Sliver.C128_direction
#print axioms SM.InsideFl.C129_overlap3
#print axioms SM.InsideFl.C129_overlap2
#print axioms SM.InsideFl.C129_tetrahedron
#print axioms SM.InsideFl.C129_triangle
#print axioms SM.InsideFl.C129_weights
#print axioms SM.InsideFl.C129_far_deletes
#print axioms SM.InsideFl.C129_far_good
#print axioms SM.OutsideFl.C130_boxes
#print axioms SM.OutsideFl.C130_removal
#print axioms SM.OutsideFl.C130_points
#print axioms SM.OutsideFl.C130_centroid
#print axioms SM.OutsideFl.C130_disk
#print axioms SM.OutsideFl.C130_ball
#print axioms SM.OutsideFl.C130_set_operations
#print axioms SM.ProjectFl.C131_face
#print axioms SM.ProjectFl.C131_boxes
#print axioms SM.ProjectFl.C131_stuck
#print axioms SM.ProjectFl.C131_far
#print axioms SM.DihedralFl.C132_cosine
#print axioms SM.DihedralFl.C132_detect_partial
#print axioms SM.DihedralFl.C132_flat_missed
#print axioms SM.ShapesFl.C133_error
#print axioms SM.ShapesFl.C133_simple
#print axioms SM.ShapesFl.C133_side
#print axioms SM.ShapesFl.C133_model
#print axioms SM.ShapesFl.C133_returned
#print axioms SM.ShapesFl.C133_double
#print axioms SM.Forces.C134_virial
#print axioms SM.Forces.C134_never_at_rest
#print axioms SM.Forces.C134_bounded
#print axioms SM.MeshLoop.C134_pass
#print axioms SM.MeshLoop.C134_equilibrium
#print axioms SM.MeshLoop.C134_runs2
#print axioms SM.MeshLoop.C134_runs3
#print axioms SM.MeshLoop.C134_forces2
#print axioms SM.MeshLoop.C134_forces3
#print axioms SM.MeshLoop.C134_step2
#print axioms SM.MeshLoop.C134_step3
#print axioms SM.MeshLoop.C134_rest2
#print axioms SM.MeshLoop.C134_rest3
#print axioms SM.ForcesFl.C135_triangles
#print axioms SM.ForcesFl.C135_tetrahedra
#print axioms SM.ForcesFl.C135_still
#print axioms SM.ForcesFl.C135_double
#print axioms SM.Seed.C136_numbers
#print axioms SM.Seed.C136_history
#print axioms SM.Seed.C136_points
#print axioms SM.Seed.C136_resets
#print axioms SM.Seed.C136_always
#print axioms SM.Seed.C136_clobbers
#print axioms SM.Display.C137_show_partial
#print axioms SM.Display.C137_false_file
#print axioms SM.Display.C137_plot
#print axioms SM.Display.C137_covers
#print axioms SM.Display.C137_refuses
#print axioms SM.Display.C137_false_ranks
#print axioms SM.QualFl.C138_accuracy
#print axioms SM.QualFl.C138_good
#print axioms SM.QualFl.C138_delete_partial
#print axioms SM.QualFl.C138_flat_kept
#print axioms SM.FixedFl.C139_kept
#print axioms SM.FixedFl.C139_boxes
#print axioms SM.FixedFl.C139_no_force
#print axioms SM.FixedFl.C139_curved_moves
#print axioms SM.LaplaceFl.C140_kept
#print axioms SM.LaplaceFl.C140_accuracy
#print axioms SM.LaplaceFl.C140_range
#print axioms SM.LaplaceFl.C140_leaves_box
#print axioms SM.InterpFl.C141_range
#print axioms SM.InterpFl.C141_positive
#print axioms SM.InterpFl.C141_nodes
#print axioms SM.InterpFl.C141_local_nodes
#print axioms SM.InterpFl.C141_below
#print axioms SM.FixMeshFl.C142_close
#print axioms SM.FixMeshFl.C142_duplicates_partial
#print axioms SM.FixMeshFl.C142_signs
#print axioms SM.FixMeshFl.C142_duplicates_kept
#print axioms SM.NanFl.C143_nan
#print axioms SM.NanFl.C143_infinite
#print axioms SM.NanFl.C143_zeros
#print axioms SM.NanFl.C143_finite
#print axioms SM.NanFl.C143_other_ranks
#print axioms SM.NanInit.C144_nan
#print axioms SM.NanInit.C144_zero
#print axioms SM.NanInit.C144_kept_partial
#print axioms SM.NanInit.C144_option
#print axioms SM.NanInit.C144_domain
#print axioms SM.NanInit.C144_silent
#print axioms SM.NanFinish.C145_cells_partial
#print axioms SM.NanFinish.C145_vertex
#print axioms SM.NanFinish.C145_nan_returned
#print axioms SM.LimgradNan.C146_switched_off
#print axioms SM.LimgradNan.C146_errors
#print axioms SM.LimgradNan.C146_isolated
#print axioms SM.LimgradNan.C146_only_refines
#print axioms SM.LimgradNan.C146_bound_partial
#print axioms SM.LimgradNan.C146_never_over_refines
#print axioms SM.LimgradNan.C146_witness
#print axioms SM.InterpNan.C147_cell
#print axioms SM.InterpNan.C147_nan
#print axioms SM.InterpNan.C147_elsewhere
#print axioms SM.InterpNan.C147_node_partial
#print axioms SM.InterpNan.C147_node_lost
#print axioms SM.InterpNan.C147_local
#print axioms SM.InterpNan.C147_witness
#print axioms SM.SizingNan.C148_own
#print axioms SM.SizingNan.C148_everything
#print axioms SM.SizingNan.C148_others_partial
#print axioms SM.SizingNan.C148_ignored
#print axioms SM.SizingNan.C148_witness
