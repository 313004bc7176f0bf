
## Coverage

From the citations in `Model/*.lean` (`tools/mkcoverage.py`). Functions without a module are not modelled.

| file | function | modelled in |
|---|---|---|
| decomp/blocker.py | blocker | Blocker |
| generation/cpp/delaunay.cpp | c_circumballs2 | Simplex |
| generation/cpp/delaunay.cpp | c_circumballs3 | Simplex |
| generation/cpp/delaunay.cpp | c_delaunay2 | Native, Simplex |
| generation/cpp/delaunay.cpp | c_delaunay3 | Native |
| generation/cpp/delaunay.cpp | circumballs2 | Simplex |
| generation/cpp/delaunay.cpp | circumballs3 | Native |
| generation/cpp/delaunay.cpp | delaunay2 | Native |
| generation/cpp/delaunay.cpp | delaunay3 | Native |
| generation/cpp/delaunay_class.cpp | __repr__ | DtWrapper |
| generation/cpp/delaunay_class.cpp | insert | DtWrapper, Ghost |
| generation/cpp/delaunay_class.cpp | remove | DtWrapper |
| generation/cpp/delaunay_class.cpp | move | DtWrapper |
| generation/cpp/delaunay_class.cpp | get_edges | DtEdges |
| generation/cpp/delaunay_class.cpp | number_of_vertices | –  |
| generation/cpp/delaunay_class.cpp | number_of_faces | –  |
| generation/cpp/delaunay_class.cpp | finite_vertices | DtWrapper |
| generation/cpp/delaunay_class.cpp | get_finite_cells | DtEdges, DtWrapper |
| generation/cpp/delaunay_class.cpp | get_finite_vertices | DtEdges, DtWrapper |
| generation/cpp/delaunay_class3.cpp | __repr__ | DtWrapper |
| generation/cpp/delaunay_class3.cpp | insert | DtWrapper, Ghost |
| generation/cpp/delaunay_class3.cpp | move | DtWrapper |
| generation/cpp/delaunay_class3.cpp | remove | DtWrapper |
| generation/cpp/delaunay_class3.cpp | number_of_vertices | –  |
| generation/cpp/delaunay_class3.cpp | get_edges | DtEdges |
| generation/cpp/delaunay_class3.cpp | number_of_cells | –  |
| generation/cpp/delaunay_class3.cpp | finite_vertices | –  |
| generation/cpp/delaunay_class3.cpp | get_finite_cells | DtWrapper |
| generation/cpp/delaunay_class3.cpp | get_finite_vertices | DtEdges, DtWrapper |
| generation/mesh_generator.py | silence | – display only |
| generation/mesh_generator.py | talk | – display only |
| generation/mesh_generator.py | _select_verbosity | Options |
| generation/mesh_generator.py | sliver_removal | MeshLoop, Options, Sliver, SliverCall, SliverDt |
| generation/mesh_generator.py | generate_mesh | Domain, FixedFl, Forces, Generate, GenerateDt, Ghost, MeshLoop, Mpi, NanFinish, NanFl, NanInit, Options, OutsideFl, Parallel, Seed |
| generation/mesh_generator.py | _calc_dihedral_angles | DihedralFl, Sliver |
| generation/mesh_generator.py | _minmax | Options |
| generation/mesh_generator.py | _check_bbox | Options |
| generation/mesh_generator.py | _unpack_sizing | Options |
| generation/mesh_generator.py | _unpack_domain | Options |
| generation/mesh_generator.py | _parse_kwargs | Options |
| generation/mesh_generator.py | _termination | MeshLoop |
| generation/mesh_generator.py | _get_edges | Forces, NanFl, Topology |
| generation/mesh_generator.py | _compute_forces | Forces, ForcesFl, NanFl |
| generation/mesh_generator.py | _add_ghost_vertices | Ghost |
| generation/mesh_generator.py | _remove_triangles_outside | NanFinish, OutsideFl, Project |
| generation/mesh_generator.py | _improve_level_set_newton | NanFinish, Project |
| generation/mesh_generator.py | _project_points_back_newton | FixedFl, NanFl, Project, ProjectFl |
| generation/mesh_generator.py | _user_defined_points | Blocker, Parallel |
| generation/mesh_generator.py | _generate_initial_points | InitPoints, MeshLoop, Mpi, NanInit, OutsideFl, Parallel, Seed |
| generation/mesh_generator.py | _initialize_points | Generate, MeshLoop, Parallel, Seed |
| generation/mesh_generator.py | _form_extents | InitPoints, Mpi, Parallel |
| generation/mesh_generator.py | _dist | SliverDt |
| generation/mesh_generator.py | _unpack_pfix | MeshLoop |
| generation/mesh_generator.py | _select_cgal_dim | –  |
| generation/mesh_generator.py | _get_topology | DtWrapper, GenerateDt |
| generation/mesh_generator.py | _closest_node | FixedFl, MeshLoop |
| generation/utils.py | odd | InitPoints |
| generation/utils.py | create_staggered_grid | InitPoints |
| generation/utils.py | make_init_points | InitPoints |
| generation/utils.py | dense | Forces, ForcesFl, Laplace, NanFl |
| geometry/cpp/fast_geometry.cpp | vectorSortIntArr | Native, Topology |
| geometry/cpp/fast_geometry.cpp | unique_edges | Native, Topology |
| geometry/cpp/fast_geometry.cpp | l2_norm | DihedralFl, Simplex |
| geometry/cpp/fast_geometry.cpp | cross_product | DihedralFl |
| geometry/cpp/fast_geometry.cpp | dot_product | DihedralFl, Simplex |
| geometry/cpp/fast_geometry.cpp | c_dblock | Sdf, SdfFl, ShapesFl |
| geometry/cpp/fast_geometry.cpp | dblock_fast | Native, Sdf |
| geometry/cpp/fast_geometry.cpp | c_drectangle | Sdf, SdfFl, ShapesFl |
| geometry/cpp/fast_geometry.cpp | drectangle_fast | Sdf |
| geometry/cpp/fast_geometry.cpp | c_remove_external_entities2 | Native, Topology |
| geometry/cpp/fast_geometry.cpp | remove_external_entities2 | Native |
| geometry/cpp/fast_geometry.cpp | c_remove_external_entities3 | Native, Topology |
| geometry/cpp/fast_geometry.cpp | remove_external_entities3 | Native |
| geometry/cpp/fast_geometry.cpp | c_calc_dihedral_angles | DihedralFl, Native, Simplex, Sliver |
| geometry/cpp/fast_geometry.cpp | calc_dihedral_angles | Native |
| geometry/cpp/fast_geometry.cpp | c_calc_3x3determinant | Native, Simplex |
| geometry/cpp/fast_geometry.cpp | calc_3x3determinant | Native, Simplex |
| geometry/cpp/fast_geometry.cpp | c_calc_4x4determinant | InsideFl, Native, Simplex |
| geometry/cpp/fast_geometry.cpp | calc_4x4determinant | Native, Simplex |
| geometry/cpp/fast_geometry.cpp | c_calc_volume_grad | Native, Simplex |
| geometry/cpp/fast_geometry.cpp | calc_volume_grad | Native |
| geometry/cpp/fast_geometry.cpp | c_calc_circumsphere_grad | Native, Simplex |
| geometry/cpp/fast_geometry.cpp | calc_circumsphere_grad | Native |
| geometry/signed_distance_functions.py | _generate_samples | Display |
| geometry/signed_distance_functions.py | _show | Display |
| geometry/signed_distance_functions.py | _length | Sdf, ShapesFl |
| geometry/signed_distance_functions.py | corners | Domain |
| geometry/signed_distance_functions.py | _gather_corners | Domain |
| geometry/signed_distance_functions.py | _manipulate | Domain, SdfFl, ShapesFl |
| geometry/signed_distance_functions.py | _configure_manipulations | Domain |
| geometry/signed_distance_functions.py | _scale_back | Domain, ShapesFl |
| geometry/signed_distance_functions.py | _translate_back | SdfFl |
| geometry/signed_distance_functions.py | _rotate_back | Domain, ShapesFl |
| geometry/signed_distance_functions.py | _build_stretch | Domain, ShapesFl |
| geometry/signed_distance_functions.py | _build_rotation | Domain, ShapesFl |
| geometry/signed_distance_functions.py | _build_translation | Domain |
| geometry/signed_distance_functions.py | Repeat.__init__ | Domain |
| geometry/signed_distance_functions.py | Repeat.eval | Domain, Sdf |
| geometry/signed_distance_functions.py | Repeat.show | Display |
| geometry/signed_distance_functions.py | _loop_call | Sdf |
| geometry/signed_distance_functions.py | Union.__init__ | Domain, SdfFl, ShapesFl |
| geometry/signed_distance_functions.py | Union._smooth_union | Domain, Sdf, SdfFl, ShapesFl |
| geometry/signed_distance_functions.py | Union.eval | Domain, Sdf, SdfFl, ShapesFl |
| geometry/signed_distance_functions.py | Union.show | Display, Domain, SdfFl, ShapesFl |
| geometry/signed_distance_functions.py | Intersection.__init__ | Domain, SdfFl, ShapesFl |
| geometry/signed_distance_functions.py | Intersection._smooth_intersection | Domain, Sdf, SdfFl, ShapesFl |
| geometry/signed_distance_functions.py | Intersection.eval | Domain, Sdf, SdfFl, ShapesFl |
| geometry/signed_distance_functions.py | Intersection.show | Display, Domain, SdfFl, ShapesFl |
| geometry/signed_distance_functions.py | Difference.__init__ | Domain, SdfFl, ShapesFl |
| geometry/signed_distance_functions.py | Difference._smooth_difference | Domain, Sdf, SdfFl, ShapesFl |
| geometry/signed_distance_functions.py | Difference.eval | Domain, Sdf, SdfFl, ShapesFl |
| geometry/signed_distance_functions.py | Difference.show | Display, Domain, SdfFl, ShapesFl |
| geometry/signed_distance_functions.py | Disk.__init__ | Domain, ShapesFl |
| geometry/signed_distance_functions.py | Disk.eval | Domain, Sdf, ShapesFl |
| geometry/signed_distance_functions.py | Disk.show | Display, Sdf, ShapesFl |
| geometry/signed_distance_functions.py | Ball.__init__ | Domain, Sdf, ShapesFl |
| geometry/signed_distance_functions.py | Ball.eval | Domain, Sdf, ShapesFl |
| geometry/signed_distance_functions.py | Ball.show | Display, Sdf, ShapesFl |
| geometry/signed_distance_functions.py | Rectangle.__init__ | Domain, Sdf, SdfFl, ShapesFl |
| geometry/signed_distance_functions.py | Rectangle.eval | Domain, Sdf, SdfFl, ShapesFl |
| geometry/signed_distance_functions.py | Rectangle.show | Display, Sdf, SdfFl, ShapesFl |
| geometry/signed_distance_functions.py | Cube.__init__ | Domain, Sdf, SdfFl, ShapesFl |
| geometry/signed_distance_functions.py | Cube.eval | Domain, Sdf, SdfFl, ShapesFl |
| geometry/signed_distance_functions.py | Cube.show | Display, Sdf, SdfFl, ShapesFl |
| geometry/signed_distance_functions.py | Torus.__init__ | Domain, Sdf, ShapesFl |
| geometry/signed_distance_functions.py | Torus.eval | Domain, Sdf, ShapesFl |
| geometry/signed_distance_functions.py | Torus.show | Display, Sdf, ShapesFl |
| geometry/signed_distance_functions.py | Prism.__init__ | Domain, Sdf, ShapesFl |
| geometry/signed_distance_functions.py | Prism.eval | Domain, Sdf, ShapesFl |
| geometry/signed_distance_functions.py | Prism.show | Display, Sdf, ShapesFl |
| geometry/signed_distance_functions.py | Cylinder.__init__ | Domain, Sdf, ShapesFl |
| geometry/signed_distance_functions.py | Cylinder.eval | Domain, Sdf, ShapesFl |
| geometry/signed_distance_functions.py | Cylinder.show | Display, Sdf, ShapesFl |
| geometry/signed_distance_functions.py | _ddisk | BallFl, Sdf, ShapesFl |
| geometry/signed_distance_functions.py | dball | BallFl, Sdf, ShapesFl |
| geometry/signed_distance_functions.py | drectangle | Sdf |
| geometry/signed_distance_functions.py | dblock | Sdf |
| geometry/utils.py | calc_re_ratios | Simplex |
| geometry/utils.py | remove_external_entities | Topology |
| geometry/utils.py | vertex_to_entities | Topology |
| geometry/utils.py | unique_rows | Bytes, Np |
| geometry/utils.py | simp_vol | FixMesh, Np, Simplex, VolFl |
| geometry/utils.py | fix_mesh | FixMesh, FixMeshFl, MeshLoop, Np |
| geometry/utils.py | simp_qual | Linter, QualFl, Simplex |
| geometry/utils.py | get_edges | Topology |
| geometry/utils.py | unique_row_view | Bytes, Np |
| geometry/utils.py | get_boundary_edges | Np, Topology |
| geometry/utils.py | get_winded_boundary_edges | Winding |
| geometry/utils.py | get_boundary_vertices | Topology |
| geometry/utils.py | get_boundary_entities | Topology |
| geometry/utils.py | get_facets | Topology |
| geometry/utils.py | get_boundary_facets | Topology |
| geometry/utils.py | delete_boundary_entities | Linter, QualFl, Topology |
| geometry/utils.py | _sparse | Laplace |
| geometry/utils.py | laplacian2_fixed_point | Laplace, MeshLoop |
| geometry/utils.py | laplacian2 | Laplace, LaplaceFl |
| geometry/utils.py | is_manifold | Topology |
| geometry/utils.py | vertex_in_entity2 | InsideFl, Simplex |
| geometry/utils.py | vertex_in_entity3 | InsideFl, Simplex |
| geometry/utils.py | get_centroids | InsideFl, Simplex |
| geometry/utils.py | do_any_overlap | InsideFl, Linter |
| geometry/utils.py | linter | Linter |
| migration/cpp/cpputils.cpp | build_vtoe2 | WhereTo |
| migration/cpp/cpputils.cpp | build_vtoe3 | WhereTo |
| migration/cpp/cpputils.cpp | calc_4x4dete | –  |
| migration/cpp/cpputils.cpp | c_where_to2 | WhereTo |
| migration/cpp/cpputils.cpp | where_to2 | WhereTo |
| migration/cpp/cpputils.cpp | c_where_to3 | WhereTo |
| migration/cpp/cpputils.cpp | where_to3 | WhereTo |
| migration/migration.py | localize_sizing_function | InitPoints, Interp, InterpFl, InterpNan, Mpi, Parallel |
| migration/migration.py | localize_points | Distribute, Mpi, Parallel |
| migration/migration.py | aggregate | Distribute, Mpi, Parallel |
| migration/migration.py | enqueue | Mpi, WhereTo |
| migration/migration.py | exchange | Exchange, Mpi, Parallel |
| sizing/cpp/FastHJ.cpp | sub2ind | HJ32, Limgrad |
| sizing/cpp/FastHJ.cpp | ind2sub | HJ32, Limgrad |
| sizing/cpp/FastHJ.cpp | IsNegative | –  |
| sizing/cpp/FastHJ.cpp | findIndices | HJ32, Limgrad, NativeHJ |
| sizing/cpp/FastHJ.cpp | c_limgrad | HJ32, Limgrad, LimgradFl, LimgradNan, NativeHJ |
| sizing/cpp/FastHJ.cpp | limgrad | HJ32, NativeHJ |
| sizing/mesh_size_function.py | get_sizing_function_from_segy | Sizing, SizingFl, SizingNan, Velocity |
| sizing/mesh_size_function.py | write_velocity_model | Velocity |
| sizing/mesh_size_function.py | plot_sizing_function | Display |
| sizing/mesh_size_function.py | _build_sizing_function | Interp, InterpFl, InterpNan, Velocity |
| sizing/mesh_size_function.py | _wavelength_sizing | Sizing, SizingNan |
| sizing/mesh_size_function.py | _gradient_sizing | Sizing, SizingNan |
| sizing/mesh_size_function.py | _enforce_courant_sizing | Sizing, SizingFl, SizingNan |
| sizing/mesh_size_function.py | _enforce_gradation_sizing | Limgrad, LimgradFl, LimgradNan, Sizing, SizingFl |
| sizing/mesh_size_function.py | _get_dimensions | Sizing, Velocity |
| sizing/mesh_size_function.py | _get_vectors | Interp, Sizing |
| sizing/mesh_size_function.py | _build_domain_pad | Sizing, Velocity |
| sizing/mesh_size_function.py | _pad_it | Sizing |
| sizing/mesh_size_function.py | read_velocity_model | ReadBin, Velocity |
| sizing/mesh_size_function.py | _read_bin | ReadBin, Velocity |
| sizing/mesh_size_function.py | _read_segy | ReadBin, Velocity |
| sizing/mesh_size_function.py | _initialize_sizing_function | Velocity |
| sizing/size_function.py | SizeFunction.__init__ | Velocity |
| sizing/size_function.py | SizeFunction.eval | Velocity |
