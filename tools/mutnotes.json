{
 "L9": {
  "note": "a smaller cap did not falsify the theorems; C03_sweeps and C03_shipped (10000 sweeps suffice for a size range of 9999 steps) were added and fail under the edit",
  "tightened": [
   "SM.Limgrad.C03_sweeps",
   "SM.Limgrad.C03_shipped"
  ]
 },
 "F5": {
  "tightened": [
   "SM.Simplex.C44_value",
   "SM.Simplex.C44_linear",
   "SM.Simplex.C44_unit"
  ],
  "note": "C44 only spoke about sign and invariance; normalisation and scaling by linear maps were added"
 },
 "F7": {
  "note": "rounding direction is not part of C31; C32 (exact vertices) fails as it should"
 },
 "N2": {
  "note": "C34 uses the C++ sort/unique model, not insertBy: not affected by this edit"
 },
 "X3": {
  "note": "equivalent program: the final all/all test still compares s4"
 },
 "Z4": {
  "note": "C10 is stated for the velocities after unit conversion; the units are part of C84/C85/C87, which fail"
 },
 "Z8": {
  "note": "the specification used the model's own list of option names; it now has its own, and fails under the edit",
  "tightened": [
   "SM.Sizing.C12_raises_partial"
  ]
 },
 "Z14": {
  "note": "C15 fails; C08 remains true of the edited program (the repeated value is still at most hmax)"
 },
 "Z17": {
  "note": "C11 spoke about the request only; C11_returned (effect on the returned sizes) was added and fails under the edit",
  "tightened": [
   "SM.Sizing.C11_returned"
  ]
 },
 "R6": {
  "note": "C17 (order of the samples in a binary file) is not affected by the suffix test; C18_dispatch and C84 fail"
 },
 "M7": {
  "note": "C58 is about termination of the loop and stays true; the edit is caught by C55_returned3_partial and C81-C83, C93"
 },
 "G1": {
  "note": "no theorem noticed the missing factor h0; C97 (change of units) was added and fails under the edit",
  "tightened": [
   "SM.Units.C97_units"
  ]
 },
 "G3": {
  "note": "C59 spoke about serialPoints only, not about the box of the call; C98 was added and fails under the edit",
  "tightened": [
   "SM.Initial.C98_spread2",
   "SM.Initial.C98_spread3"
  ]
 },
 "H5": {
  "note": "C67/C69 were stated for the boxes returned by neighbours; C69_enqueue_partial (in terms of the announced extents) was added and fails under the edit",
  "tightened": [
   "SM.WhereTo.C69_enqueue_partial"
  ]
 },
 "VA9": {
  "note": "C84 was stated with no padding; C15_returned_box (the bbox of the returned object with any padding) was added and fails under the edit",
  "tightened": [
   "SM.Velocity.C15_returned_box"
  ]
 },
 "NA17": {
  "note": "the functions C88 is about do not copy through memcpy; C89 and C90 fail"
 },
 "PA1": {
  "note": "C71 spoke about the interpolants only, C76 failed; C71_transfer (which rank receives which interpolant) was added and fails under the edit",
  "tightened": [
   "SM.Parallel.C71_transfer"
  ]
 },
 "PA7": {
  "note": "C59 spoke about the points only, C76 failed; C59_messages (points and extents all ranks end up with) was added and fails under the edit",
  "tightened": [
   "SM.Parallel.C59_messages"
  ]
 },
 "PA8": {
  "note": "dead check for more than one process: the extent of an empty point set raises before (generated points) and blocker drops empty blocks (user points); the serial check is in Model/Options and Model/Generate"
 },
 "GA3": {
  "note": "C55_user_points_ignored did not go through the whole call, only C97 failed; C55_generate_user_points (a call with user points starts from exactly those) was added and fails under the edit",
  "tightened": [
   "SM.Generate.C55_generate_user_points"
  ]
 },
 "W21": {
  "note": "the specification of the forward map used the same matrices; C28_rotation_is_documented now says what a rotation by the given angles is, and fails under the edit",
  "tightened": [
   "SM.Domain.C28_rotation_is_documented"
  ]
 },
 "W24": {
  "note": "get_finite_vertices renumbers, so the original C72 remains true under the edit; C72_inserted (numbers of get_finite_cells alone after insertions only) was added and fails",
  "tightened": [
   "SM.DtWrapper.C72_inserted"
  ]
 },
 "W26": {
  "note": "added C32_tolerance: the tolerance is ptol times the largest coordinate difference between two vertices",
  "tightened": [
   "SM.FixMesh.C32_tolerance"
  ]
 },
 "W29": {
  "note": "added C54_pass2/3: the pass of the loop uses factor 6/5 in 2-D and 11/10 in 3-D",
  "tightened": [
   "SM.MeshLoop.C54_pass2",
   "SM.MeshLoop.C54_pass3"
  ]
 },
 "W30": {
  "note": "the fixed points and the geometry's corners are vertices of the mesh",
  "tightened": [
   "SM.Generate.C55_fixed_points",
   "SM.Generate.C55_corners_partial"
  ]
 },
 "W38": {
  "note": "tiling stated for the candidate points of the parallel call",
  "tightened": [
   "SM.Init.C60_ranks2",
   "SM.Init.C60_ranks3"
  ]
 },
 "W43": {
  "note": "no claim said when the loop stops; new claims C114 and C115",
  "tightened": [
   "SM.Laplace.C114_sweeps_partial",
   "SM.Laplace.C114_shrinking_ignored"
  ]
 },
 "W49": {
  "note": "survived: no claim pinned the 0.15 bound; new claim C116 states exactly which triangles the final clean-up deletes",
  "tightened": [
   "SM.MeshLoop.C116_termination"
  ]
 },
 "W47": {
  "note": "survived on the mutated commit (C107); the statement of C54_pass2/3 has since been tightened to the full displaced positions, which fails under this edit",
  "tightened": [
   "SM.MeshLoop.C54_pass2"
  ]
 },
 "W48": {
  "note": "survived; Relaxes in C54_pass2/3 used the model helper projectAll: now stated with an independent specification 'pulled' (Newton steps for domain, then band of 2/3 h0 for each subdomain)",
  "tightened": [
   "SM.MeshLoop.C54_pass2"
  ]
 },
 "W50": {
  "note": "survived on the mutated commit (C107); C55_fixed_points, added since, states exactly which corners become fixed points and fails under this edit",
  "tightened": [
   "SM.Generate.C55_fixed_points"
  ]
 },
 "W54": {
  "note": "caught by C102_region3 and C102_start3 (C52/C74, named when seeding, are generic in the evaluator of the box)",
  "tightened": [
   "SM.Workflow.C102_region3"
  ]
 },
 "W66": {
  "note": "survived; new claim C119 pins the defaults: C119_none fails under this edit",
  "tightened": [
   "SM.Sizing.C119_none",
   "SM.Sizing.C119_wl",
   "SM.Sizing.C119_dt"
  ]
 },
 "W71": {
  "note": "survived (only an example failed); added C61_degrees, which states the bounds in degrees on the call",
  "tightened": [
   "SM.Sliver.C61_degrees"
  ]
 },
 "W72": {
  "note": "killed by C61_moves and C94_*; C93 is not false under it (its statement holds for both values of preserve)",
  "tightened": []
 },
 "U09": {
  "note": "the theorems spoke of the distance formula only; now also of the objects built by the constructors from the user's arguments",
  "tightened": [
   "SM.Domain.C22_disk_object",
   "SM.Domain.C22_ball_object"
  ]
 },
 "U10": {
  "note": "object-level theorem added",
  "tightened": [
   "SM.Domain.C20_cube_object"
  ]
 },
 "U11": {
  "note": "object-level theorem added",
  "tightened": [
   "SM.Domain.C30_object"
  ]
 },
 "U12": {
  "note": "object-level theorem added",
  "tightened": [
   "SM.Domain.C26_objects_partial"
  ]
 },
 "U20": {
  "note": "C70 speaks of the ghosts dropped by numpy indexing, not of remove: not broken by this edit; C72 failed as expected",
  "tightened": []
 },
 "U23": {
  "note": "C31 holds for every key, so it is not broken by a wrong extent; C32_tolerance failed as expected",
  "tightened": []
 },
 "U29": {
  "note": "C76 (what the ranks receive) fails; C69 is about enqueue for the rank it is given, and C79 (roles, iterations, centroids) is still true of the edited program",
  "tightened": []
 },
 "U30": {
  "note": "the initial grid is specified by C98, which fails; the English of C59 starts from the grid points and is still true of the edited program",
  "tightened": []
 },
 "U31": {
  "note": "the initial grid is specified by C98, which fails; the English of C59 starts from the grid points and is still true of the edited program",
  "tightened": []
 },
 "U32": {
  "note": "the initial grid is specified by C98, which fails; the English of C59 starts from the grid points and is still true of the edited program",
  "tightened": []
 },
 "U35": {
  "note": "the announced extents are specified by C60, which fails; C69 takes the extents as given",
  "tightened": []
 },
 "U46": {
  "note": "C81 fails; C79 and C53 are still true of the edited program (centroids of the remaining cells, number of triangulations)",
  "tightened": []
 },
 "U63": {
  "note": "C71 is about transfer and evaluation of the sizing, which the edit leaves unchanged; the call that uses it is the subject of C76_user_points, which fails.",
  "tightened": []
 },
 "U64": {
  "note": "C66 and C79 are about localisation and iteration, proved for any starting points; that user points are the starting points is C76_user_points, which fails to prove after the edit.",
  "tightened": []
 },
 "U62": {
  "note": "No theorem said which boxes the packing routine is given in a run with generated points: the layout of the announced extents appeared on both sides of C76_generated. Tightened: C76_boxes says that they are the boxes of the points of the neighbouring ranks, widened by 5 h0 along the split axis (and C60_extents_sharp that they are no larger).",
  "tightened": [
   "SM.Parallel.C76_boxes"
  ]
 },
 "U51": {
  "note": "C89 is about del.DT2/DT3, which do not use load3; C88_volume_grad and C88_circum_grad fail.",
  "tightened": []
 },
 "U55": {
  "note": "get_edges/unique edges do not sort rows in Python, the compiled unique_edges does (modelled separately), so C34 remains true; C31 and C35 fail.",
  "tightened": []
 },
 "U61": {
  "note": "C79 and C77 are about an iteration with given extents; which extents a run has is in C59_messages and C76_generated, which no longer prove (gatherExt_run).",
  "tightened": []
 },
 "U81": {
  "note": "No theorem depended on the value of a division by zero: C75 excluded freq = 0. Tightened: C75_sizes_are_numbers_partial now allows any frequency if no velocity is 0, and C75_zero_frequency states that the size is then hmax.",
  "tightened": [
   "SM.Sizing.C75_zero_frequency"
  ]
 },
 "U83": {
  "note": "C92 is about resampling one axis and does not use the spacing; C91 fails.",
  "tightened": []
 },
 "U85": {
  "note": "C02 is about the compiled limgrad, which the edit leaves unchanged; that the result is used is in C91, which fails.",
  "tightened": []
 },
 "U95": {
  "note": "C34 is about unique_edges and get_bars, which do not use subRows; C35 fails.",
  "tightened": []
 },
 "U108": {
  "note": "C86 is about what is read; shapeOf is used in the written file only, C85 fails.",
  "tightened": []
 },
 "Y17": {
  "note": "C134_pass took C54's pass relation as a hypothesis; C134_step2/3, C134_rest2/3 and C134_forces2/3 state it for the steps and the computed forces themselves.",
  "tightened": [
   "SM.MeshLoop.C134_forces2",
   "SM.MeshLoop.C134_forces3",
   "SM.MeshLoop.C134_step2",
   "SM.MeshLoop.C134_step3",
   "SM.MeshLoop.C134_rest2",
   "SM.MeshLoop.C134_rest3"
  ]
 },
 "MX13": {
  "note": "Only the meaning of a successful run was stated; C88_in_bounds now states what a successful access of the model says, and fails for this edit.",
  "tightened": [
   "SM.Native.C88_in_bounds"
  ]
 },
 "MX15": {
  "note": "Claims wrongly guessed: C51 (option checks) and C52 (hull of boxes) stay true of the edited program; C74, which the edit makes false, fails.",
  "tightened": []
 },
 "MX16": {
  "note": "Claim wrongly guessed: C21 is about boxes and stays true; C24 and C25, which the edit makes false, fail (C24_intersection, C25_sharp_far).",
  "tightened": []
 },
 "MX17": {
  "note": "Claim wrongly guessed: C44 is about simp_vol and stays true; C45 (determinants), which the edit makes false, fails (C45_det3, C45_det4).",
  "tightened": []
 },
 "MX19": {
  "note": "Claim wrongly guessed: C13 is about zero velocities and stays true; C75, which the edit makes false, fails (C75_uniform_velocity_nan).",
  "tightened": []
 }
}