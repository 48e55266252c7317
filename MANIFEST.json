{
 "claims": [
  {
   "property": "C01",
   "status": "proved",
   "theorems": [
    "Verif.Spline.C01_nonneg",
    "Verif.Spline.C01_sum_one",
    "Verif.Spline.C01_outside",
    "Verif.Spline.C01_length"
   ],
   "note": ""
  },
  {
   "property": "C02",
   "status": "proved",
   "theorems": [
    "Verif.Spline.C02_support",
    "Verif.Spline.C02_local"
   ],
   "note": ""
  },
  {
   "property": "C03",
   "status": "proved",
   "theorems": [
    "Verif.Spline.C03_bounds",
    "Verif.Spline.C03_endpoints"
   ],
   "note": ""
  },
  {
   "property": "C04",
   "status": "proved",
   "theorems": [
    "Verif.Spline.C04_iteratedDeriv",
    "Verif.Spline.C04_at_knots",
    "Verif.Spline.C04_iterate",
    "Verif.Spline.C04_defined"
   ],
   "note": "derivative? models failure of the divisions; C04_defined says when it succeeds"
  },
  {
   "property": "C05",
   "status": "proved",
   "theorems": [
    "Verif.Spline.C05_insert",
    "Verif.Spline.C05_crop",
    "Verif.Spline.C05_insert_first_knot_violated"
   ],
   "note": "knots are inserted after the first knot; the witness shows that the guard is needed"
  },
  {
   "property": "C06",
   "status": "proved",
   "theorems": [
    "Verif.Spline.C06_definite",
    "Verif.Spline.C06_integral",
    "Verif.Spline.C06_additive",
    "Verif.Spline.C06_running"
   ],
   "note": "over the reals for the Lebesgue interval integral; running/additive over any ordered field"
  },
  {
   "property": "C07",
   "status": "proved",
   "theorems": [
    "Verif.Spline.C07_scale",
    "Verif.Spline.C07_domain",
    "Verif.Spline.C07_derivative"
   ],
   "note": "any ordered field, any positive factor"
  },
  {
   "property": "C08",
   "status": "proved",
   "theorems": [
    "Verif.Spline.C08_multiplicity",
    "Verif.Spline.C08_breaks",
    "Verif.Spline.C08_comm",
    "Verif.Spline.C08_idem",
    "Verif.Spline.C08_hash",
    "Verif.Spline.C08_clamped"
   ],
   "note": "any ordered field"
  },
  {
   "property": "C09",
   "status": "proved",
   "theorems": [
    "Verif.Spline.C09_neg_mul",
    "Verif.Spline.C09_num",
    "Verif.Spline.C09_add",
    "Verif.Spline.C09_sub",
    "Verif.Spline.C09_mul",
    "Verif.Spline.C09_pow",
    "Verif.Spline.C09_insert_knots",
    "Verif.Spline.C09_pow_zero_violated"
   ],
   "note": "any ordered field; linear solve by contract (regular matrix, characterised by C136, exact solution); error bound from the 1e-10 threshold is explicit. Power 0 returns the spline itself (shown as violation; the property is claimed for n>=1)"
  },
  {
   "property": "C10",
   "status": "proved",
   "theorems": [
    "Verif.Collision.C10_2d_at",
    "Verif.Collision.C10_2d",
    "Verif.Collision.C10_3d",
    "Verif.Collision.C10_cylinder",
    "Verif.Collision.C10_environment"
   ],
   "note": "If all imposed coefficients are non-positive, the vehicle region and the obstacle region are apart by the safety distance minus the slack at every time."
  },
  {
   "property": "C11",
   "status": "partial",
   "theorems": [
    "Verif.Collision.C11_rectangle",
    "Verif.Collision.C11_polyhedron",
    "Verif.Collision.C11_3d_partial",
    "Verif.Collision.C11_3d_violated"
   ],
   "note": "2D proved for rectangles and polyhedra. In 3D the constraints ignore the radius, so a sphere can stick out (C11_3d_violated); the centre stays inside (C11_3d_partial)."
  },
  {
   "property": "C12",
   "status": "proved",
   "theorems": [
    "Verif.Collision.C12_fleet"
   ],
   "note": "Every pair of shapes of different vehicles stays apart."
  },
  {
   "property": "C13",
   "status": "proved",
   "theorems": [
    "Verif.Vehicles.C13_norm_inf",
    "Verif.Vehicles.C13_norm_2",
    "Verif.Vehicles.C13_3d_norm_inf",
    "Verif.Vehicles.C13_3d_norm_2",
    "Verif.Vehicles.C13_1d",
    "Verif.Vehicles.C13_signals"
   ],
   "note": "Holonomic, Holonomic3D and Holonomic1D; limits on the derivatives of the physical-time path and on every stored sample."
  },
  {
   "property": "C14",
   "status": "partial",
   "theorems": [
    "Verif.Vehicles.C14_dubins",
    "Verif.Vehicles.C14_dubins_signals",
    "Verif.Vehicles.C14_steer_motion",
    "Verif.Vehicles.C14_steer_angle",
    "Verif.Vehicles.C14_steer_stored_partial",
    "Verif.Vehicles.C14_steer_stored_violated"
   ],
   "note": "Dubins: speed, turn rate and heading proved at all times. Bicycle and AGV: speed, steering angle and motion of the exact trajectory proved. The stored steering angle is bounded only when no sample takes the small-speed branch; in that branch arctan2 of two signed derivatives can exceed 90 degrees (C14_steer_stored_violated)."
  },
  {
   "property": "C15",
   "status": "proved",
   "theorems": [
    "Verif.Vehicles.C15_limits",
    "Verif.Vehicles.C15_reproduces"
   ],
   "note": "thrust and rate in bounds on the whole horizon; accelerations reproduced; the angle turns at the computed rate wherever arctan2 is smooth (thrust not straight down)"
  },
  {
   "property": "C16",
   "status": "partial",
   "theorems": [
    "Verif.Vehicles.C16_partial",
    "Verif.Vehicles.C16_exact_partial",
    "Verif.Vehicles.C16_violated",
    "Verif.Vehicles.C16_quad3d_partial",
    "Verif.Vehicles.C16_quad3d_violated",
    "Verif.Vehicles.C16_trailer",
    "Verif.Vehicles.C16_all_vehicles"
   ],
   "note": "The check is exact for tolerance below 1 (with the input read as a norm). It is false for tolerance >= 1 (misplaced parenthesis, C16_violated) and for Quadrotor3D in free fall (C16_quad3d_violated)."
  },
  {
   "property": "C17",
   "status": "proved",
   "theorems": [
    "Verif.Vehicles.C17_integrate_once",
    "Verif.Vehicles.C17_velocity",
    "Verif.Vehicles.C17_integrate_twice"
   ],
   "note": ""
  },
  {
   "property": "C18",
   "status": "proved",
   "theorems": [
    "Verif.Vehicles.C18_hitched",
    "Verif.Vehicles.C18_no_slip",
    "Verif.Vehicles.C18_signals",
    "Verif.Vehicles.C18_plan_slip"
   ],
   "note": ""
  },
  {
   "property": "C19",
   "status": "partial",
   "theorems": [
    "Verif.Planner.C19_partial",
    "Verif.Planner.C19_unit_height_partial",
    "Verif.Planner.C19_violated"
   ],
   "note": "corner cutting at the lower left diagonal unless the cell height is 1"
  },
  {
   "property": "C20",
   "status": "partial",
   "theorems": [
    "Verif.Planner.C20_terminates",
    "Verif.Planner.C20_partial",
    "Verif.Planner.C20_obstacle_violated",
    "Verif.Planner.C20_violated"
   ],
   "note": "terminates always; a path is found unless the goal is among the last open cells; violated on concrete grids"
  },
  {
   "property": "C21",
   "status": "partial",
   "theorems": [
    "Verif.Fleet.C21_partial",
    "Verif.Fleet.C21_symmetric",
    "Verif.Fleet.C21_full",
    "Verif.Fleet.C21_one_violated",
    "Verif.Fleet.C21_two_violated",
    "Verif.Fleet.C21_circular"
   ],
   "note": "holds in full for the full interconnection and for circular fleets of three or more; circular fleets of one or two list a vehicle twice (violations proved)"
  },
  {
   "property": "C22",
   "status": "partial",
   "theorems": [
    "Verif.Fleet.C22_antisymmetric",
    "Verif.Fleet.C22_plane",
    "Verif.Fleet.C22_space",
    "Verif.Fleet.C22_accepts",
    "Verif.Fleet.C22_dict_violated"
   ],
   "note": "antisymmetric for every configuration that is accepted, and the rotated difference of the user's positions; dicts with two entries under keys other than 0 and 1 raise"
  },
  {
   "property": "C23",
   "status": "partial",
   "theorems": [
    "Verif.Fleet.C23_partial",
    "Verif.Fleet.C23_plane_partial",
    "Verif.Fleet.C23_two_violated",
    "Verif.Fleet.C23_one_violated"
   ],
   "note": "all fleets with the full interconnection and circular fleets of three or more, also stated from the configuration given by the user; circular fleets of one and two are violations"
  },
  {
   "property": "C24",
   "status": "proved",
   "theorems": [
    "Verif.ADMM.C24_feasible",
    "Verif.ADMM.C24_optimal",
    "Verif.ADMM.C24_defined",
    "Verif.ADMM.C24_singular"
   ],
   "note": "closed form for linear equality couplings in the coordinates of the future spline piece; exact arithmetic"
  },
  {
   "property": "C25",
   "status": "proved",
   "theorems": [
    "Verif.ADMM.C25_parameter",
    "Verif.ADMM.C25_extrapolates",
    "Verif.ADMM.C25_recursion",
    "Verif.ADMM.C25_rejected",
    "Verif.ADMM.C25_growth",
    "Verif.ADMM.C25_first",
    "Verif.ADMM.C25_rejections"
   ],
   "note": "any history of updates; real arithmetic"
  },
  {
   "property": "C26",
   "status": "partial",
   "theorems": [
    "Verif.ADMM.C26_symmetric",
    "Verif.ADMM.C26_shared",
    "Verif.ADMM.C26_exchange",
    "Verif.ADMM.C26_partial",
    "Verif.ADMM.C26_formation",
    "Verif.ADMM.C26_sizes_violated"
   ],
   "note": "exchange proved whenever it succeeds; it succeeds when a vehicle shares the same entries with all neighbours (proved for every formation); other couplings send vectors of the wrong size"
  },
  {
   "property": "C27",
   "status": "partial",
   "theorems": [
    "Verif.ADMM.C27_solve",
    "Verif.ADMM.C27_store",
    "Verif.ADMM.C27_init_partial",
    "Verif.ADMM.C27_init_violated"
   ],
   "note": "solve and store in full; the initialisation performs init_iter times max_iter_per_update iterations"
  },
  {
   "property": "C28",
   "status": "partial",
   "theorems": [
    "Verif.Environment.C28_motion",
    "Verif.Environment.C28_position",
    "Verif.Environment.C28_velocity",
    "Verif.Environment.C28_segments_partial",
    "Verif.Environment.C28_segments_violated"
   ],
   "note": "One segment: proved for all measurements. Several segments: proved without acceleration; with acceleration the code is wrong (witness)."
  },
  {
   "property": "C29",
   "status": "partial",
   "theorems": [
    "Verif.Environment.C29_keeps",
    "Verif.Environment.C29_free",
    "Verif.Environment.C29_turns_partial",
    "Verif.Environment.C29_choice",
    "Verif.Environment.C29_axis",
    "Verif.Environment.C29_twice_violated"
   ],
   "note": "Speed and position are always kept; an obstacle hitting one thing turns; several simultaneous hits can cancel (witness)."
  },
  {
   "property": "C30",
   "status": "partial",
   "theorems": [
    "Verif.Timing.C30_obstacle",
    "Verif.Timing.C30_count",
    "Verif.Timing.C30_set_state_violated",
    "Verif.Timing.C30_vehicle_ideal",
    "Verif.Timing.C30_vehicle_partial",
    "Verif.Timing.C30_horizon",
    "Verif.Timing.C30_vehicle_time",
    "Verif.Timing.C30_vehicle_violated"
   ],
   "note": "Obstacles and ideal vehicles: proved. The non-ideal branch truncates without rounding (witness with exact float values); set_state breaks alignment of obstacle logs (witness)."
  },
  {
   "property": "C31",
   "status": "partial",
   "theorems": [
    "Verif.Environment.C31_new",
    "Verif.Environment.C31_partial",
    "Verif.Environment.C31_fill_violated"
   ],
   "note": "Proved for additions; fill_room with a new obstacle is not counted (witness)."
  },
  {
   "property": "C32",
   "status": "partial",
   "theorems": [
    "Verif.Timing.C32_stops",
    "Verif.Timing.C32_advance",
    "Verif.Timing.C32_step_partial",
    "Verif.Timing.C32_zero_violated",
    "Verif.Timing.C32_final_violated",
    "Verif.Timing.C32_step_violated"
   ],
   "note": "Stopping and regular advance proved for all runs; zero steps, the last update of a run, and steps other than the default update time violate it (witnesses)."
  },
  {
   "property": "C33",
   "status": "partial",
   "theorems": [
    "Verif.Timing.C33_range",
    "Verif.Timing.C33_horizon",
    "Verif.Timing.C33_partial",
    "Verif.Timing.C33_long_violated",
    "Verif.Timing.C33_rounding_violated",
    "Verif.Timing.C33_horizon_violated"
   ],
   "note": "Range proved for all times; no drift proved for every update history on a grid with updates up to a knot interval; the exceptions are violations (witnesses)."
  },
  {
   "property": "C34",
   "status": "proved",
   "theorems": [
    "Verif.Problems.C34_joined",
    "Verif.Problems.C34_smooth"
   ],
   "note": "For every number of segments, all positive motion times, all splines of one degree."
  },
  {
   "property": "C35",
   "status": "partial",
   "theorems": [
    "Verif.OptiLayer.C35_distinct",
    "Verif.OptiLayer.C35_created_partial",
    "Verif.OptiLayer.C35_limit_violated",
    "Verif.OptiLayer.C35_underscore_violated"
   ],
   "note": "Distinctness proved for every history of labels. Objects beyond the recursion limit, and labels that end with an underscore and digits, are not created (witnesses)."
  },
  {
   "property": "C36",
   "status": "partial",
   "theorems": [
    "Verif.OptiLayer.C36_all",
    "Verif.OptiLayer.C36_partial",
    "Verif.OptiLayer.C36_zero_violated",
    "Verif.OptiLayer.C36_constant_violated"
   ],
   "note": "Proved for all lengths and skips but skip=[0,0], which drops the whole constraint (witness); constraints between constants are dropped."
  },
  {
   "property": "C37",
   "status": "proved",
   "theorems": [
    "Verif.Geometry.C37_segments",
    "Verif.Geometry.C37_lines_some",
    "Verif.Geometry.C37_lines_none"
   ],
   "note": "any ordered field"
  },
  {
   "property": "C38",
   "status": "partial",
   "theorems": [
    "Verif.Geometry.C38_overlap",
    "Verif.Geometry.C38_center",
    "Verif.Geometry.C38_point",
    "Verif.Geometry.C38_moving_partial",
    "Verif.Geometry.C38_moving_violated"
   ],
   "note": "overlap, centre and stationary point tests exact; the moving-point test is only sound: it samples every 0.5 s and misses fast crossings (violation shown)"
  },
  {
   "property": "C39",
   "status": "proved",
   "theorems": [
    "Verif.Geometry.C39_exact",
    "Verif.Geometry.C39_margin",
    "Verif.Geometry.rect_convexCW"
   ],
   "note": "all strictly convex clockwise polygons"
  },
  {
   "property": "C40",
   "status": "partial",
   "theorems": [
    "Verif.Geometry.C40_sound",
    "Verif.Geometry.C40_detect_partial",
    "Verif.Geometry.C40_violated",
    "Verif.Geometry.C40_slope_violated"
   ],
   "note": "code violates the property in two ways (only two vertices tested; edges with opposite x/y direction never hit); soundness and guarded completeness proved"
  },
  {
   "property": "C41",
   "status": "partial",
   "theorems": [
    "Verif.Frames.C41_stationary",
    "Verif.Frames.C41_moving_partial",
    "Verif.Frames.C41_partial",
    "Verif.Frames.C41_rest_violated",
    "Verif.Frames.C41_large_violated",
    "Verif.Frames.C41_turned_violated"
   ],
   "note": "false of the code for resting, large and turned obstacles; proved for standing obstacles and for moving ones that fit in the frame, at the sampled times"
  },
  {
   "property": "C42",
   "status": "partial",
   "theorems": [
    "Verif.Frames.C42_update_partial",
    "Verif.Frames.C42_one_partial",
    "Verif.Frames.C42_violated"
   ],
   "note": "false of the code with several frames: only the last frame decides"
  },
  {
   "property": "C43",
   "status": "proved",
   "theorems": [
    "Verif.GCode.C43_moves",
    "Verif.GCode.C43_chain",
    "Verif.GCode.C43_end"
   ],
   "note": "the blocks are exactly the movements of the program"
  },
  {
   "property": "C44",
   "status": "proved",
   "theorems": [
    "Verif.GCode.C44_concat",
    "Verif.GCode.C44_vertical"
   ],
   "note": ""
  },
  {
   "property": "C45",
   "status": "partial",
   "theorems": [
    "Verif.GCode.C45_g03_partial",
    "Verif.GCode.C45_g02_partial",
    "Verif.GCode.C45_points_partial",
    "Verif.GCode.C45_height_violated",
    "Verif.GCode.C45_letter_violated"
   ],
   "note": "holds with I and J given and, for G02, the centre at the height of the start; violated otherwise"
  },
  {
   "property": "C46",
   "status": "partial",
   "theorems": [
    "Verif.GCode.C46_single",
    "Verif.GCode.C46_chain",
    "Verif.GCode.C46_split_partial",
    "Verif.GCode.C46_split_violated"
   ],
   "note": "split blocks only without a change of height; violated with one"
  },
  {
   "property": "C47",
   "status": "partial",
   "theorems": [
    "Verif.GCode.Window.C47_partial",
    "Verif.GCode.Window.C47_next",
    "Verif.GCode.Window.C47_short_violated",
    "Verif.GCode.Window.C47_numbers_violated"
   ],
   "note": "holds for numbered rooms and windows not larger than the program; violated otherwise"
  },
  {
   "property": "C48",
   "status": "proved",
   "theorems": [
    "Verif.Gui.C48_inverse",
    "Verif.Gui.C48_move"
   ],
   "note": "scale m \u2260 0"
  },
  {
   "property": "C49",
   "status": "partial",
   "theorems": [
    "Verif.Export.C49_cover",
    "Verif.Export.C49_parameters_partial",
    "Verif.Export.C49_variables_partial",
    "Verif.Export.C49_dictionary_partial",
    "Verif.Export.C49_roundTrip_partial",
    "Verif.Export.C49_transform_partial",
    "Verif.Export.C49_row_violated",
    "Verif.Export.C49_scalar_violated",
    "Verif.Export.C49_transform_violated"
   ],
   "note": "holds except for parameters with one row and several columns, one-row variables in getVariableDict, and spline variables behind a variable with several columns in transformSplines"
  },
  {
   "property": "C50",
   "status": "partial",
   "theorems": [
    "Verif.Export.Bounds.C50_partial",
    "Verif.Export.Bounds.C50_number_violated",
    "Verif.Export.Bounds.C50_array_violated"
   ],
   "note": "holds when scalar constraints have numbers and vector constraints have lists of bounds"
  },
  {
   "property": "C51",
   "status": "proved",
   "theorems": [
    "Verif.Spline.C51_continuous",
    "Verif.Spline.C51_smooth",
    "Verif.Spline.C51_hasDerivAt"
   ],
   "note": "over the reals"
  },
  {
   "property": "C52",
   "status": "proved",
   "theorems": [
    "Verif.Geometry.C52_distance_to_line",
    "Verif.Geometry.C52_distance_between_points"
   ],
   "note": ""
  },
  {
   "property": "C53",
   "status": "proved",
   "theorems": [
    "Verif.Spline.C53_imposed",
    "Verif.Spline.C53_number_not_imposed"
   ],
   "note": ""
  },
  {
   "property": "C54",
   "status": "partial",
   "theorems": [
    "Verif.Vehicles.C54_partial",
    "Verif.Vehicles.C54_violated"
   ],
   "note": "Proved at every time at which both headings are on the same side of zero; false otherwise (C54_violated)."
  },
  {
   "property": "C55",
   "status": "proved",
   "theorems": [
    "Verif.Vehicles.C55_limits",
    "Verif.Vehicles.C55_reproduces",
    "Verif.Vehicles.C55_substitution"
   ],
   "note": "Limits on opposite sides of zero or inside (-pi, pi) as stated in the theorem."
  },
  {
   "property": "C56",
   "status": "proved",
   "theorems": [
    "Verif.Vehicles.C56_norm_inf",
    "Verif.Vehicles.C56_norm_2"
   ],
   "note": ""
  },
  {
   "property": "C57",
   "status": "partial",
   "theorems": [
    "Verif.Vehicles.C57_limits_partial",
    "Verif.Vehicles.C57_reproduces",
    "Verif.Vehicles.C57_violated"
   ],
   "note": "All limits but the roll rate hold for all splines; the roll rate holds for symmetric equal rate limits (the default) and is false otherwise (C57_violated)."
  },
  {
   "property": "C58",
   "status": "partial",
   "theorems": [
    "Verif.Planner.C58_snap",
    "Verif.Planner.C58_round_trip",
    "Verif.Planner.C58_waypoint_inside",
    "Verif.Planner.C58_closest_violated"
   ],
   "note": "all but \"closest\" among the cells around an occupied one, which is violated"
  },
  {
   "property": "C59",
   "status": "partial",
   "theorems": [
    "Verif.Planner.C59_only",
    "Verif.Planner.C59_partial",
    "Verif.Planner.C59_nodup",
    "Verif.Planner.C59_wall_violated",
    "Verif.Planner.C59_aligned_violated",
    "Verif.Planner.C59_other_violated"
   ],
   "note": "exact when boxes are larger (or, aligned, smaller) than a cell in both directions; violated otherwise"
  },
  {
   "property": "C60",
   "status": "proved",
   "theorems": [
    "Verif.Fleet.C60_linked",
    "Verif.Fleet.C60_formation",
    "Verif.Fleet.C60_plane",
    "Verif.Fleet.C60_rendezvous"
   ],
   "note": "vehicle identity is its index; solver tolerances are not modelled"
  },
  {
   "property": "C61",
   "status": "proved",
   "theorems": [
    "Verif.ADMM.C61_fixed_point"
   ],
   "note": "iteration without AMA and acceleration, at the start of a spline piece; the local solver returns a global minimiser of a convex problem"
  },
  {
   "property": "C62",
   "status": "partial",
   "theorems": [
    "Verif.ADMM.C62_admm",
    "Verif.ADMM.C62_zero",
    "Verif.ADMM.C62_dd_partial",
    "Verif.ADMM.C62_dd_violated"
   ],
   "note": "ADMM in full; dual decomposition reports the root of the sum of fourth powers"
  },
  {
   "property": "C63",
   "status": "partial",
   "theorems": [
    "Verif.ADMM.C63_limit",
    "Verif.ADMM.C63_arrival_partial",
    "Verif.ADMM.C63_arrival_violated"
   ],
   "note": "termination in full; with a limit set, arrival is not tested"
  },
  {
   "property": "C64",
   "status": "partial",
   "theorems": [
    "Verif.Timing.C64_partial",
    "Verif.Timing.C64_violated"
   ],
   "note": "Proved for times in the first half of a sample interval; in the second half nothing is found (witness)."
  },
  {
   "property": "C65",
   "status": "partial",
   "theorems": [
    "Verif.OptiLayer.C65_raises",
    "Verif.OptiLayer.C65_partial",
    "Verif.OptiLayer.C65_violated"
   ],
   "note": "Refusal proved without restriction; resolution proved for labels without underscore, violated otherwise (witness)."
  },
  {
   "property": "C66",
   "status": "partial",
   "theorems": [
    "Verif.OptiLayer.C66_partial",
    "Verif.OptiLayer.C66_shapes_violated",
    "Verif.OptiLayer.C66_eps_violated",
    "Verif.OptiLayer.C66_terminal_violated",
    "Verif.OptiLayer.C66_vehicle_labels"
   ],
   "note": "Hyperplanes: proved for vehicles of at most ten shapes; slack variables of several segments and terminal conditions of several vehicles are shared (witnesses)."
  },
  {
   "property": "C67",
   "status": "proved",
   "theorems": [
    "Verif.OptiLayer.C67_kept",
    "Verif.OptiLayer.C67_names"
   ],
   "note": "For every sequence of definitions; constraints between constants impose nothing, skip=[0,0] is excluded (see C36)."
  },
  {
   "property": "C68",
   "status": "proved",
   "theorems": [
    "Verif.OptiLayer.C68_raises",
    "Verif.OptiLayer.C68_value"
   ],
   "note": "For all objects and values."
  },
  {
   "property": "C69",
   "status": "partial",
   "theorems": [
    "Verif.OptiLayer.C69_partial",
    "Verif.OptiLayer.C69_others",
    "Verif.OptiLayer.C69_hyperplanes_partial",
    "Verif.OptiLayer.C69_violated"
   ],
   "note": "Proved for up to ten segments, for variables without segment and for hyperplanes; only the first digit of the segment number is read (witness)."
  },
  {
   "property": "C70",
   "status": "partial",
   "theorems": [
    "Verif.Frames.C70_start_partial",
    "Verif.Frames.C70_update",
    "Verif.Frames.C70_partial",
    "Verif.Frames.C70_violated"
   ],
   "note": "false of the code when the goal is reached two frames early"
  },
  {
   "property": "C71",
   "status": "partial",
   "theorems": [
    "Verif.Frames.C71_base_partial",
    "Verif.Frames.C71_partial",
    "Verif.Frames.C71_terminates",
    "Verif.Frames.C71_obstacles_partial",
    "Verif.Frames.C71_violated"
   ],
   "note": "false of the code at the lower wall; proved if the surroundings of the start are free and in the room"
  },
  {
   "property": "C72",
   "status": "partial",
   "theorems": [
    "Verif.Frames.C72_base_partial",
    "Verif.Frames.C72_scaled",
    "Verif.Frames.C72_partial",
    "Verif.Frames.C72_violated"
   ],
   "note": "false of the code for paths that turn back"
  },
  {
   "property": "C73",
   "status": "partial",
   "theorems": [
    "Verif.Frames.C73_shift_partial",
    "Verif.Frames.C73_shift_violated",
    "Verif.Frames.C73_inside_violated"
   ],
   "note": "false of the code for every shifted frame"
  },
  {
   "property": "C74",
   "status": "proved",
   "theorems": [
    "Verif.Frames.C74_lshape"
   ],
   "note": ""
  },
  {
   "property": "C75",
   "status": "partial",
   "theorems": [
    "Verif.Frames.C75_distance",
    "Verif.Frames.C75_point_partial",
    "Verif.Frames.C75_point_total",
    "Verif.Frames.C75_frame_partial",
    "Verif.Frames.C75_outside_violated",
    "Verif.Frames.C75_border_violated",
    "Verif.Frames.C75_none_violated"
   ],
   "note": "false of the code near the margin and exactly on the right or upper side"
  },
  {
   "property": "C76",
   "status": "partial",
   "theorems": [
    "Verif.Frames.C76_partial",
    "Verif.Frames.C76_violated"
   ],
   "note": "false of the code if all waypoints are far away"
  },
  {
   "property": "C77",
   "status": "proved",
   "theorems": [
    "Verif.Frames.C77_stays",
    "Verif.Frames.C77_target"
   ],
   "note": "limit of the shift at most half the size of the frame, as by default"
  },
  {
   "property": "C78",
   "status": "partial",
   "theorems": [
    "Verif.GCode.C78_partial",
    "Verif.GCode.C78_violated",
    "Verif.GCode.C78_fails_violated"
   ],
   "note": "holds for comments without spaces"
  },
  {
   "property": "C79",
   "status": "partial",
   "theorems": [
    "Verif.GCode.C79_partial",
    "Verif.GCode.C79_violated"
   ],
   "note": "violated exactly for programs that end with a vertical movement"
  },
  {
   "property": "C80",
   "status": "partial",
   "theorems": [
    "Verif.GCode.C80_partial",
    "Verif.GCode.C80_violated"
   ],
   "note": "holds after a reset, which run does not do"
  },
  {
   "property": "C81",
   "status": "partial",
   "theorems": [
    "Verif.GCode.C81_partial",
    "Verif.GCode.C81_same",
    "Verif.GCode.C81_violated"
   ],
   "note": "holds if the calls are at the end of the file"
  },
  {
   "property": "C82",
   "status": "partial",
   "theorems": [
    "Verif.GCode.C82_partial",
    "Verif.GCode.C82_violated"
   ],
   "note": "holds for programs that start with a G00 to a given point; the text conversion itself is not modelled"
  },
  {
   "property": "C83",
   "status": "partial",
   "theorems": [
    "Verif.GCode.C83_partial",
    "Verif.GCode.C83_ends_partial",
    "Verif.GCode.C83_violated"
   ],
   "note": "the end of the last block is missing"
  },
  {
   "property": "C84",
   "status": "partial",
   "theorems": [
    "Verif.GCode.C84_partial",
    "Verif.GCode.C84_violated"
   ],
   "note": "full circles become a point"
  },
  {
   "property": "C85",
   "status": "partial",
   "theorems": [
    "Verif.GCode.C85_partial",
    "Verif.GCode.C85_violated"
   ],
   "note": "the height of the end is not reached"
  },
  {
   "property": "C86",
   "status": "partial",
   "theorems": [
    "Verif.GCode.Window.C86_partial",
    "Verif.GCode.Window.C86_violated"
   ],
   "note": "the centre of an arc that is not split is changed"
  },
  {
   "property": "C87",
   "status": "partial",
   "theorems": [
    "Verif.GCode.C87_partial",
    "Verif.GCode.C87_violated"
   ],
   "note": "rooms of vertical movements are too large"
  },
  {
   "property": "C88",
   "status": "partial",
   "theorems": [
    "Verif.GCode.Window.C88_partial",
    "Verif.GCode.Window.C88_violated"
   ],
   "note": "violated for split circles with variable tolerance"
  },
  {
   "property": "C89",
   "status": "partial",
   "theorems": [
    "Verif.GCode.C89_partial",
    "Verif.GCode.C89_full_violated",
    "Verif.GCode.C89_margin_violated"
   ],
   "note": "holds for the margin to the inside and outside of an arc without splitting that with its margins does not close the circle"
  },
  {
   "property": "C90",
   "status": "partial",
   "theorems": [
    "Verif.GCode.Window.C90_partial",
    "Verif.GCode.Window.C90_violated"
   ],
   "note": "holds if no earlier segment ends in the goal"
  },
  {
   "property": "C91",
   "status": "partial",
   "theorems": [
    "Verif.Gui.C91_partial",
    "Verif.Gui.C91_violated"
   ],
   "note": "holds if the frame is a whole number of cells; otherwise snapping may leave the room"
  },
  {
   "property": "C92",
   "status": "partial",
   "theorems": [
    "Verif.Gui.C92_room_partial",
    "Verif.Gui.C92_same_partial",
    "Verif.Gui.C92_violated"
   ],
   "note": "holds for windows in the origin; fails for every other window"
  },
  {
   "property": "C93",
   "status": "partial",
   "theorems": [
    "Verif.Gui.C93_partial",
    "Verif.Gui.C93_arrows_partial",
    "Verif.Gui.C93_file",
    "Verif.Gui.C93_load_violated",
    "Verif.Gui.C93_closed_violated"
   ],
   "note": "fails after loading with a window elsewhere and after closing the file dialog"
  },
  {
   "property": "C94",
   "status": "partial",
   "theorems": [
    "Verif.Gui.C94_some_partial",
    "Verif.Gui.C94_circles_partial",
    "Verif.Gui.C94_violated"
   ],
   "note": "fails for rectangles"
  },
  {
   "property": "C95",
   "status": "proved",
   "theorems": [
    "Verif.Gui.C95"
   ],
   "note": "sessions without reading a file (a file brings its own two positions)"
  },
  {
   "property": "C96",
   "status": "proved",
   "theorems": [
    "Verif.Gui.C96"
   ],
   "note": ""
  },
  {
   "property": "C97",
   "status": "partial",
   "theorems": [
    "Verif.Gui.C97_partial",
    "Verif.Gui.C97_violated"
   ],
   "note": "a new window exchanges rows and columns"
  },
  {
   "property": "C98",
   "status": "partial",
   "theorems": [
    "Verif.Gui.C98_partial",
    "Verif.Gui.C98_violated"
   ],
   "note": "fails for circles"
  },
  {
   "property": "C99",
   "status": "partial",
   "theorems": [
    "Verif.Gui.C99_partial",
    "Verif.Gui.C99_clicked_partial",
    "Verif.Gui.C99_violated"
   ],
   "note": "points inside the border but closer than the margin are not moved"
  },
  {
   "property": "C100",
   "status": "partial",
   "theorems": [
    "Verif.Gui.C100_partial",
    "Verif.Gui.C100_violated"
   ],
   "note": "fails for every file without a transform"
  },
  {
   "property": "C101",
   "status": "partial",
   "theorems": [
    "Verif.Gui.C101_partial",
    "Verif.Gui.C101_polyline_partial",
    "Verif.Gui.C101_violated"
   ],
   "note": "the rectangle lies on one side of the line"
  },
  {
   "property": "C102",
   "status": "partial",
   "theorems": [
    "Verif.Gui.C102_partial",
    "Verif.Gui.C102_violated",
    "Verif.Gui.C102_axis_violated"
   ],
   "note": "fails if two successive points have a coordinate in common"
  },
  {
   "property": "C103",
   "status": "partial",
   "theorems": [
    "Verif.Gui.C103_partial",
    "Verif.Gui.C103_violated"
   ],
   "note": "fails if the lines are not connected"
  },
  {
   "property": "C104",
   "status": "partial",
   "theorems": [
    "Verif.Export.Bounds.C104_partial",
    "Verif.Export.Bounds.C104_violated"
   ],
   "note": "the restore of an avoided obstacle overrides the shutdown of its rows"
  },
  {
   "property": "C105",
   "status": "partial",
   "theorems": [
    "Verif.Export.C105_partial",
    "Verif.Export.C105_violated",
    "Verif.Export.C105_missing_violated"
   ],
   "note": "matrices are stored by upper-cased name only"
  },
  {
   "property": "C106",
   "status": "proved",
   "theorems": [
    "Verif.Export.C106_eval",
    "Verif.Export.C106_state",
    "Verif.Export.C106_derivative",
    "Verif.Export.C106_derivative_closed",
    "Verif.Export.C106_derivative_left"
   ],
   "note": "all times of the horizon; at knots the derivative of the highest order is the one from the left; that the exported vehicle always uses ten knot intervals is C107"
  },
  {
   "property": "C107",
   "status": "partial",
   "theorems": [
    "Verif.Export.C107_partial",
    "Verif.Export.C107_violated"
   ],
   "note": "ten knot intervals only"
  },
  {
   "property": "C108",
   "status": "partial",
   "theorems": [
    "Verif.Export.C108_error",
    "Verif.Export.C108_partial",
    "Verif.Export.C108_violated",
    "Verif.Export.C108_state_violated"
   ],
   "note": "the exact error is proved; every step starts from the first state and weighs the inputs 5:1"
  },
  {
   "property": "C109",
   "status": "partial",
   "theorems": [
    "Verif.Export.Loop.C109_partial",
    "Verif.Export.Loop.C109_long_violated",
    "Verif.Export.Loop.C109_first_violated",
    "Verif.Export.Loop.C109_freeEnd_violated"
   ],
   "note": "updates within one knot interval, first update without shift, fixed end"
  },
  {
   "property": "C110",
   "status": "partial",
   "theorems": [
    "Verif.Export.Loop.C110_partial",
    "Verif.Export.Loop.C110_violated"
   ],
   "note": "failed updates without shift"
  },
  {
   "property": "C111",
   "status": "partial",
   "theorems": [
    "Verif.Export.Loop.C111_partial",
    "Verif.Export.Loop.C111_violated"
   ],
   "note": "times in whole milliseconds"
  },
  {
   "property": "C112",
   "status": "partial",
   "theorems": [
    "Verif.Export.Loop.C112_partial",
    "Verif.Export.Loop.C112_violated",
    "Verif.Export.Loop.C112_parameter_violated"
   ],
   "note": "initial iterations only; afterwards the clock has been advanced already"
  },
  {
   "property": "C113",
   "status": "proved",
   "theorems": [
    "Verif.Export.C113"
   ],
   "note": ""
  },
  {
   "property": "C114",
   "status": "partial",
   "theorems": [
    "Verif.Export.C114_partial",
    "Verif.Export.C114_violated",
    "Verif.Export.C114_retrieve"
   ],
   "note": "one shared column of each spline; further columns are not moved"
  },
  {
   "property": "C115",
   "status": "partial",
   "theorems": [
    "Verif.Export.Files.C115_label_partial",
    "Verif.Export.Files.C115_path_violated",
    "Verif.Export.Files.C115_roundTrip_partial",
    "Verif.Export.Files.C115_injective_partial",
    "Verif.Export.Files.C115_namespace_violated",
    "Verif.Export.Files.C115_stem_violated"
   ],
   "note": "no dots in the directory, no underscores in names and namespace"
  },
  {
   "property": "C116",
   "status": "partial",
   "theorems": [
    "Verif.Export.Loop.C116_partial",
    "Verif.Export.Loop.C116_twice_violated",
    "Verif.Export.Loop.C116_shift_violated"
   ],
   "note": "one iteration taken back, no shift"
  },
  {
   "property": "C117",
   "status": "partial",
   "theorems": [
    "Verif.GCode.C117_partial",
    "Verif.GCode.C117_digit_violated",
    "Verif.GCode.C117_joined_violated"
   ],
   "note": "words separated by spaces, two-digit commands"
  },
  {
   "property": "C118",
   "status": "partial",
   "theorems": [
    "Verif.Spline.C118_forward",
    "Verif.Spline.C118_roundtrip_partial",
    "Verif.Spline.C118_backward_partial",
    "Verif.Spline.C118_backward_single_interval_violated"
   ],
   "note": "forward proved in full; backward for bases with interior knots"
  },
  {
   "property": "C119",
   "status": "partial",
   "theorems": [
    "Verif.Spline.C119_extrapolate_partial",
    "Verif.Spline.C119_defined",
    "Verif.Spline.C119_close_partial",
    "Verif.Spline.C119_single_interval_violated"
   ],
   "note": "defined exactly for bases with an interior knot; rounding of small entries changes the values by at most 1e-10 times the sum of the absolute coefficients"
  },
  {
   "property": "C120",
   "status": "partial",
   "theorems": [
    "Verif.Spline.C120_shift_partial",
    "Verif.Spline.C120_defined",
    "Verif.Spline.C120_close_partial",
    "Verif.Vehicles.C120_vehicle_partial",
    "Verif.Vehicles.C120_vehicle_close",
    "Verif.Spline.C120_offset_violated",
    "Verif.Spline.C120_repeated_knot_violated",
    "Verif.Spline.C120_short_horizon_violated",
    "Verif.Spline.C120_single_interval_violated"
   ],
   "note": "knots from zero, simple first and last interior knots, at least degree intervals; the knots of a vehicle with at least as many intervals as the degree meet all conditions"
  },
  {
   "property": "C121",
   "status": "partial",
   "theorems": [
    "Verif.Spline.C121_stack",
    "Verif.Spline.C121_discontinuous",
    "Verif.Spline.C121_defined",
    "Verif.Spline.C121_smooth_partial",
    "Verif.Spline.C121_join_partial",
    "Verif.Spline.C121_two_partial",
    "Verif.Spline.C121_joint_violated",
    "Verif.Spline.C121_cubic_violated",
    "Verif.Spline.C121_continuous_violated",
    "Verif.Spline.C121_negative_violated",
    "Verif.Spline.C121_components_violated",
    "Verif.Spline.C121_line_violated",
    "Verif.Spline.C121_negative_values_violated",
    "Verif.Spline.C121_kink_violated",
    "Verif.Spline.C121_store_violated"
   ],
   "note": "any number of segments and components: degree+1 knots at the joints without condition; fewer knots for trajectories that fit when no joint is an evaluation point"
  },
  {
   "property": "C122",
   "status": "partial",
   "theorems": [
    "Verif.Vehicles.C122_holonomic",
    "Verif.Vehicles.C122_tool",
    "Verif.Vehicles.C122_orient_partial",
    "Verif.Vehicles.C122_dubins_partial",
    "Verif.Vehicles.C122_start_partial",
    "Verif.Vehicles.C122_steer_partial",
    "Verif.Vehicles.C122_standstill_partial",
    "Verif.Vehicles.C122_quadrotor_partial",
    "Verif.Vehicles.C122_quadrotor3d_partial",
    "Verif.Vehicles.C122_simple_partial",
    "Verif.Vehicles.C122_trailer_partial",
    "Verif.Vehicles.C122_turn_violated",
    "Verif.Vehicles.C122_deployed_violated",
    "Verif.Vehicles.C122_restart_violated",
    "Verif.Vehicles.C122_delay_violated",
    "Verif.Vehicles.C122_standstill_violated",
    "Verif.Vehicles.C122_backwards_violated",
    "Verif.Vehicles.C122_quadrotor_violated",
    "Verif.Vehicles.C122_quadrotor_initial_violated",
    "Verif.Vehicles.C122_rates_violated",
    "Verif.Vehicles.C122_trailer_violated"
   ],
   "note": "holds without restriction for holonomic vehicles and tools; for headings within half a turn otherwise; dubins, bicycle and AGV only if the remembered position is the predicted one; bicycle and AGV only at speed or when leaving from standstill; planar quadrotor only if velocity and tilt agree with the plan; rates of 3D quadrotors and trailers are not imposed"
  },
  {
   "property": "C123",
   "status": "partial",
   "theorems": [
    "Verif.Vehicles.C123_holonomic",
    "Verif.Vehicles.C123_early",
    "Verif.Vehicles.C123_orient_partial",
    "Verif.Vehicles.C123_dubins_partial",
    "Verif.Vehicles.C123_steer_partial",
    "Verif.Vehicles.C123_quadrotor",
    "Verif.Vehicles.C123_simple",
    "Verif.Vehicles.C123_quadrotor3d_partial",
    "Verif.Vehicles.C123_trailer_partial",
    "Verif.Vehicles.C123_turn_violated",
    "Verif.Vehicles.C123_dubins_violated",
    "Verif.Vehicles.C123_rates_violated"
   ],
   "note": "holds for holonomic vehicles, tools, planar and simple quadrotors; for goal headings within half a turn otherwise; dubins, bicycle and AGV only if the remembered position is the predicted one; the rates of Quadrotor3D are not imposed; the heading of a trailer only if given"
  },
  {
   "property": "C124",
   "status": "proved",
   "theorems": [
    "Verif.Vehicles.C124_soft"
   ],
   "note": "holonomic vehicles in any dimension; the slack constraints are the ones imposed on the coefficients"
  },
  {
   "property": "C125",
   "status": "partial",
   "theorems": [
    "Verif.Vehicles.C125_last_partial",
    "Verif.Vehicles.C125_rendezvous_violated"
   ],
   "note": "only the last coordinate is imposed; stated for a holonomic vehicle with both coordinates free"
  },
  {
   "property": "C126",
   "status": "partial",
   "theorems": [
    "Verif.Timing.C126_within_partial",
    "Verif.Timing.C126_exact_partial",
    "Verif.Timing.C126_late_violated",
    "Verif.Timing.C126_inputs_partial",
    "Verif.Timing.C126_early_violated",
    "Verif.Timing.C126_update_time",
    "Verif.Timing.C126_first"
   ],
   "note": "holds up to less than a sample for updates within the previous plan (ideal prediction), exactly at sample times; late updates are planned from a state in the past, early ones integrate the wrong inputs; integration itself is not part of this claim"
  },
  {
   "property": "C127",
   "status": "proved",
   "theorems": [
    "Verif.Timing.C127_follow",
    "Verif.Timing.C127_no_jump",
    "Verif.Timing.C127_safe"
   ],
   "note": "ideal prediction and ideal update, updates that do not stop the simulation; that plans start in the predicted state is C122"
  },
  {
   "property": "C128",
   "status": "partial",
   "theorems": [
    "Verif.Vehicles.C128_still",
    "Verif.Vehicles.C128_stay_partial",
    "Verif.Vehicles.C128_jump_violated"
   ],
   "note": "holonomic vehicles; the vehicle stands still at the end of its plan, so it stays where it is only if it arrived"
  },
  {
   "property": "C129",
   "status": "partial",
   "theorems": [
    "Verif.Vehicles.C129_integral_partial",
    "Verif.Vehicles.C129_bound_partial",
    "Verif.Vehicles.C129_plan",
    "Verif.Vehicles.C129_free",
    "Verif.Vehicles.C129_again_violated",
    "Verif.Vehicles.C129_init_violated"
   ],
   "note": "first run, without initial time"
  },
  {
   "property": "C130",
   "status": "partial",
   "theorems": [
    "Verif.Spline.C130_end_partial",
    "Verif.Spline.C130_start_violated",
    "Verif.Spline.C130_moving_violated",
    "Verif.Spline.C130_double_violated"
   ],
   "note": "end and motion time are right, the start is not"
  },
  {
   "property": "C131",
   "status": "partial",
   "theorems": [
    "Verif.Timing.C131_stored_partial",
    "Verif.Timing.C131_last_violated"
   ],
   "note": "all instants but the last"
  },
  {
   "property": "C132",
   "status": "partial",
   "theorems": [
    "Verif.Timing.C132_frames_partial",
    "Verif.Timing.C132_default",
    "Verif.Timing.C132_number_violated",
    "Verif.Timing.C132_exact_violated",
    "Verif.Timing.C132_single_violated"
   ],
   "note": "equally spaced frames covering the simulation up to one spacing, between once and twice as many as requested"
  },
  {
   "property": "C133",
   "status": "partial",
   "theorems": [
    "Verif.GCode.Machining.C133_recorded",
    "Verif.GCode.Machining.C133_from",
    "Verif.GCode.Machining.C133_velocity_partial",
    "Verif.GCode.Machining.C133_velocity_violated",
    "Verif.GCode.Machining.C133_clock_partial",
    "Verif.GCode.Machining.C133_clock_violated",
    "Verif.GCode.Machining.C133_inputs_partial",
    "Verif.GCode.Machining.C133_inputs_violated",
    "Verif.GCode.Machining.C133_patience_partial",
    "Verif.GCode.Machining.C133_patience_violated",
    "Verif.GCode.Machining.C133_first_violated"
   ],
   "note": "positions and machining time are right for all histories; velocities and clock only without rejected plans"
  },
  {
   "property": "C134",
   "status": "partial",
   "theorems": [
    "Verif.Vehicles.C134_limits_partial",
    "Verif.Vehicles.C134_later_partial",
    "Verif.Vehicles.C134_bounds",
    "Verif.Vehicles.C134_z_violated",
    "Verif.Vehicles.C134_start_violated"
   ],
   "note": "holds when the plan starts within the limits and ends at rest; jerk except at the knots; fails for the z-axis during machining and right after a start outside the limits"
  },
  {
   "property": "C135",
   "status": "partial",
   "theorems": [
    "Verif.Vehicles.C135_line_partial",
    "Verif.Vehicles.C135_box_partial",
    "Verif.Vehicles.C135_arc_partial",
    "Verif.Vehicles.C135_height_partial",
    "Verif.Vehicles.C135_end",
    "Verif.Vehicles.C135_beyond_violated",
    "Verif.Vehicles.C135_height_violated",
    "Verif.Vehicles.C135_arc_violated"
   ],
   "note": "distance to the infinite line or the full circle; to the segment for axis-parallel blocks; height for sloped blocks only"
  },
  {
   "property": "C136",
   "status": "partial",
   "theorems": [
    "Verif.Spline.C136_regular_iff",
    "Verif.Spline.C136_solve",
    "Verif.Spline.C136_unique",
    "Verif.Spline.C136_add",
    "Verif.Spline.C136_mul",
    "Verif.Spline.C136_deterministic",
    "Verif.Spline.C136_linear",
    "Verif.Spline.C136_many_violated",
    "Verif.Spline.C136_fine_violated"
   ],
   "note": "succeeds exactly when the 501 grid points tell the basis functions apart; fails for more than 501 functions or functions between two grid points"
  },
  {
   "property": "C137",
   "status": "partial",
   "theorems": [
    "Verif.DualDec.C137_fixed_point",
    "Verif.DualDec.C137_bound",
    "Verif.DualDec.C137_progress",
    "Verif.DualDec.C137_step_partial",
    "Verif.DualDec.C137_step_violated"
   ],
   "note": "fixed points, bounds and progress without convexity, at times where no spline is moved (t = 0 in the knot interval); agreement fails for the default step already for two quadratic objectives"
  },
  {
   "property": "C138",
   "status": "partial",
   "theorems": [
    "Verif.Shifted.C138_transform_partial",
    "Verif.Shifted.C138_transform_violated",
    "Verif.Shifted.C138_start_partial",
    "Verif.Shifted.C138_agree_violated",
    "Verif.Shifted.C138_pull_violated",
    "Verif.Shifted.C138_dd_violated"
   ],
   "note": "holds at knots; between knots only the own variables are moved, the copies and prices are not; relies on casadi structures returning copies of their entries"
  },
  {
   "property": "C139",
   "status": "partial",
   "theorems": [
    "Verif.Builds.C139_first",
    "Verif.Builds.C139_own_partial",
    "Verif.Builds.C139_own_violated",
    "Verif.Builds.C139_all"
   ],
   "note": "holds for separate builds, or when vehicles of the same type and number of neighbours have the same data; otherwise the data of the first such vehicle are used"
  },
  {
   "property": "C140",
   "status": "partial",
   "theorems": [
    "Verif.Planner.C140_unit_height_partial",
    "Verif.Planner.C140_partial",
    "Verif.Planner.C140_real_partial",
    "Verif.Planner.C140_violated"
   ],
   "note": "within a factor \u221a2 for cells one unit high and a factor two otherwise, for all grids; the shortest path itself is missed because the heuristic overestimates diagonal ways"
  },
  {
   "property": "C141",
   "status": "partial",
   "theorems": [
    "Verif.Environment.C141_rotating_partial",
    "Verif.Environment.C141_still_partial",
    "Verif.Environment.C141_violated",
    "Verif.Environment.C141_segments_violated",
    "Verif.Environment.C141_measurement_violated"
   ],
   "note": "exact at eighths of a turn and within 1/25 radian in between, for every rate and horizon; not exact in between, wrong in further segments and after measurements that the code drops"
  },
  {
   "property": "C142",
   "status": "partial",
   "theorems": [
    "Verif.Environment.Sim.C142_partial",
    "Verif.Environment.Sim.C142_progress",
    "Verif.Environment.Sim.C142_violated",
    "Verif.Environment.Sim.C142_order_violated",
    "Verif.Environment.Sim.C142_model_violated",
    "Verif.Environment.Sim.C142_shared_violated"
   ],
   "note": "exact for the default model and changes after time zero, or at time zero as first entry without initial value; otherwise refuted. `odeint` is taken to return an exact solution"
  },
  {
   "property": "C143",
   "status": "partial",
   "theorems": [
    "Verif.GCode.MotionTime.C143_least",
    "Verif.GCode.MotionTime.C143_partial",
    "Verif.GCode.MotionTime.C143_total_partial",
    "Verif.GCode.MotionTime.C143_violated"
   ],
   "note": "the formula is the least time for the distance it is given, in all of its cases; for lines that distance is the square of the length, so lines whose length is not one are refuted. The limits are taken along the path"
  },
  {
   "property": "C144",
   "status": "partial",
   "theorems": [
    "Verif.Frames.Guess.C144_partial",
    "Verif.Frames.Guess.C144_violated",
    "Verif.Frames.Guess.C144_corner_violated",
    "Verif.Frames.Guess.C144_start_violated",
    "Verif.Frames.Guess.C144_closed_violated",
    "Verif.Frames.Guess.C144_time_partial",
    "Verif.Frames.Guess.C144_time_violated"
   ],
   "note": "holds for waypoints on a straight line; otherwise the waypoints between the first and the last have no influence, and paths that go out and back give a wrong start, no guess, or a time that is too short. Holonomic vehicles"
  },
  {
   "property": "C145",
   "status": "partial",
   "theorems": [
    "Verif.Environment.Overlap.C145_circles",
    "Verif.Environment.Overlap.C145_symmetric",
    "Verif.Environment.Overlap.C145_answered",
    "Verif.Environment.Overlap.C145_rectangles_partial",
    "Verif.Environment.Overlap.C145_sound_partial",
    "Verif.Environment.Overlap.C145_centre_partial",
    "Verif.Environment.Overlap.C145_circle_rectangle_partial",
    "Verif.Environment.Overlap.C145_corner_violated",
    "Verif.Environment.Overlap.C145_beam_violated",
    "Verif.Environment.Overlap.C145_turned_violated",
    "Verif.Environment.Overlap.C145_room_partial",
    "Verif.Environment.Overlap.C145_room_violated",
    "Verif.Environment.Overlap.C145_round_room_violated"
   ],
   "note": "exact for circles, for rectangles that are not turned, and for circles and polygons in rectangular rooms; a circle at a left corner of a rectangle is missed, beams are replaced by the line through their axis, the orientation during the simulation is not looked at, and turned or round rooms are not handled. Missing: detection for circles against polygons with sloped sides (see C40)"
  },
  {
   "property": "C146",
   "status": "partial",
   "theorems": [
    "Verif.OptiLayer.Assemble.C146_partial",
    "Verif.OptiLayer.Assemble.C146_objective_partial",
    "Verif.OptiLayer.Assemble.C146_constraints_partial",
    "Verif.OptiLayer.Assemble.C146_free_time_partial",
    "Verif.OptiLayer.Assemble.C146_unknown"
   ],
   "note": "for objects with different labels without underscore (C65); symbols made by define_substitute are not covered"
  },
  {
   "property": "C147",
   "status": "partial",
   "theorems": [
    "Verif.OptiLayer.Assemble.C147_partial",
    "Verif.OptiLayer.Assemble.C147_violated",
    "Verif.OptiLayer.Assemble.C147_plain"
   ],
   "note": "holds in Python 2; in Python 3 any condition makes the first update fail"
  },
  {
   "property": "C148",
   "status": "partial",
   "theorems": [
    "Verif.Problems.InitGuess.C148_straight",
    "Verif.Problems.InitGuess.C148_quadrotor",
    "Verif.Problems.InitGuess.C148_frames",
    "Verif.Problems.InitGuess.C148_orient_partial",
    "Verif.Problems.InitGuess.C148_orient_violated"
   ],
   "note": "the holonomic vehicle with orientation gets a zero guess for its orientation; vehicles whose splines are not coordinates (Dubins, bicycle, AGV, trailer) are not covered; rooms are not rotated"
  },
  {
   "property": "C149",
   "status": "partial",
   "theorems": [
    "Verif.Problems.InitGuess.C149_partial",
    "Verif.Problems.InitGuess.C149_array_partial",
    "Verif.Problems.InitGuess.C149_violated"
   ],
   "note": "without argument it raises for every problem; the guess of the trailer is an array instead of a list and not covered"
  },
  {
   "property": "C150",
   "status": "partial",
   "theorems": [
    "Verif.Problems.FramesStep.C150_partial",
    "Verif.Problems.FramesStep.C150_start_violated",
    "Verif.Problems.FramesStep.C150_moving_violated",
    "Verif.Problems.FramesStep.C150_negative_violated"
   ],
   "note": "the segments connect and the times add up, but the guess starts at another instant; a guessed motion time can be negative"
  },
  {
   "property": "C151",
   "status": "partial",
   "theorems": [
    "Verif.Geometry.Shapes.C151_rectangle",
    "Verif.Geometry.Shapes.C151_regular_vertices",
    "Verif.Geometry.Shapes.C151_regular",
    "Verif.Geometry.Shapes.C151_cuboid",
    "Verif.Geometry.Shapes.C151_prism",
    "Verif.Geometry.Shapes.C151_plate",
    "Verif.Geometry.Shapes.C151_turn",
    "Verif.Geometry.Shapes.C151_order",
    "Verif.Geometry.Shapes.C151_limits_partial",
    "Verif.Geometry.Shapes.C151_beam_violated",
    "Verif.Geometry.Shapes.C151_plate_violated"
   ],
   "note": "limits ignore the rounding of a beam, a plate of a beam forgets it; rings are not modelled"
  },
  {
   "property": "C152",
   "status": "partial",
   "theorems": [
    "Verif.Timing.Arrival.C152_partial",
    "Verif.Timing.Arrival.C152_whole",
    "Verif.Timing.Arrival.C152_unchecked_violated",
    "Verif.Timing.Arrival.C152_start_violated"
   ],
   "note": "the end of the plan is cut to whole samples, so the vehicle is within the distance of one sample; terminal conditions are not checked then; a run that starts within a sample of the goal raises. Ideal update"
  },
  {
   "property": "C153",
   "status": "partial",
   "theorems": [
    "Verif.GCode.Extended.C153_move",
    "Verif.GCode.Extended.C153_move_one",
    "Verif.GCode.Extended.C153_sloped_partial",
    "Verif.GCode.Extended.C153_parallel_partial",
    "Verif.GCode.Extended.C153_ring",
    "Verif.GCode.Extended.C153_margin_violated",
    "Verif.GCode.Extended.C153_square_violated",
    "Verif.GCode.Extended.C153_skip_violated"
   ],
   "note": "exact for rings and sloped segments that are not square; axis-parallel segments without margin; a segment in line with the next one is left at its start. Real numbers: the tests of the orientation are exact"
  },
  {
   "property": "C154",
   "status": "partial",
   "theorems": [
    "Verif.GCode.BangBang.C154_partial",
    "Verif.GCode.BangBang.C154_few_violated",
    "Verif.GCode.BangBang.C154_vertical_violated",
    "Verif.GCode.BangBang.C154_instant_violated",
    "Verif.GCode.BangBang.C154_height_violated",
    "Verif.GCode.BangBang.C154_axes_violated",
    "Verif.GCode.BangBang.C154_machining_violated"
   ],
   "note": "feasible per axis in the plane with the default knots, four or more intervals and limits along y at least those along x; fails for fewer intervals, moves along z, slower y axes and the limit on the velocity along the path. Real numbers instead of floats"
  },
  {
   "property": "C155",
   "status": "partial",
   "theorems": [
    "Verif.GCode.Carry.C155_partial",
    "Verif.GCode.Carry.C155_violated"
   ],
   "note": "while the window keeps its size or is down to one block; fails when it shrinks but keeps two or more blocks"
  },
  {
   "property": "C156",
   "status": "partial",
   "theorems": [
    "Verif.GCode.RingGuess.C156_turns",
    "Verif.GCode.RingGuess.C156_partial",
    "Verif.GCode.RingGuess.C156_circle_violated",
    "Verif.GCode.RingGuess.C156_height_violated"
   ],
   "note": "limits at the hundred tested instants, with limits along y at least those along x and at most 98 knot intervals; fails for full circles and for the height. The solver is assumed to answer with a feasible point. Real numbers instead of floats"
  },
  {
   "property": "C157",
   "status": "proved",
   "theorems": [
    "Verif.Spline.C157_intervals",
    "Verif.Spline.C157_vehicles"
   ],
   "note": "exact arithmetic, without the dropping of entries below 1e-10 (see C09 for its effect)"
  },
  {
   "property": "C158",
   "status": "proved",
   "theorems": [
    "Verif.Problems.C158_drive"
   ],
   "note": "for Holonomic with syslimit norm_inf, one upright rectangular room, update time a whole number of samples, ideal prediction; the constraints are assumed to be met exactly by what the solver returns. Real numbers instead of floats"
  },
  {
   "property": "C159",
   "status": "proved",
   "theorems": [
    "Verif.OptiLayer.Store.C159_once",
    "Verif.OptiLayer.Store.C159_read",
    "Verif.OptiLayer.Store.C159_write",
    "Verif.OptiLayer.Store.C159_write_ok",
    "Verif.OptiLayer.Store.C159_determined",
    "Verif.OptiLayer.Store.C159_init",
    "Verif.OptiLayer.Store.C159_splines"
   ],
   "note": "for names that are no substitutes, numeric values; CasADi accepts a scalar for a matrix entry as well, which is left out; CasADi's layout of structures (entries in order, column by column) is taken as documented"
  },
  {
   "property": "C160",
   "status": "partial",
   "theorems": [
    "Verif.Problems.Predict.C160_each",
    "Verif.Problems.Predict.C160_imposed",
    "Verif.Problems.Predict.C160_inputs_partial",
    "Verif.Problems.Predict.C160_ideal",
    "Verif.Problems.Predict.C160_simulated",
    "Verif.Problems.Predict.C160_distributed_partial",
    "Verif.Problems.Predict.C160_integers_violated",
    "Verif.Problems.Predict.C160_state_only_violated",
    "Verif.Problems.Predict.C160_derivative_violated",
    "Verif.Problems.Predict.C160_distributed_violated"
   ],
   "note": "violated for a single vehicle whose state is a list beginning with an integer, for imposed inputs without inputs or with derivatives, and by distributed problems, which lose delay, inputs and the requests; proved otherwise"
  },
  {
   "property": "C161",
   "status": "proved",
   "theorems": [
    "Verif.OptiLayer.Store.C161_shared"
   ],
   "note": "one variable; the concatenation over variables is the order of the lists on both sides"
  },
  {
   "property": "C162",
   "status": "proved",
   "theorems": [
    "Verif.Problems.C162_drive"
   ],
   "note": "for Holonomic, one upright rectangular room, update time a whole number of samples, knot interval plus update time within the horizon, ideal prediction, init_time not set; the constraints are assumed to be met exactly by what the solver returns. Real numbers instead of floats"
  },
  {
   "property": "C163",
   "status": "proved",
   "theorems": [
    "Verif.Problems.C163_fleet"
   ],
   "note": "assumptions as in C162 for every vehicle; the knot interval is that of the first vehicle, whatever the others have. Real numbers instead of floats"
  },
  {
   "property": "C164",
   "status": "partial",
   "theorems": [
    "Verif.Vehicles.C164_partial",
    "Verif.Vehicles.C164_several_shapes_violated"
   ],
   "note": "proved for one shape; with two or more shapes building the problem fails (every vehicle class passes one position, the loop takes one per shape). Room constraints, objective and the option substitution left out; AGV and Bicycle have the same function with their own names"
  },
  {
   "property": "C165",
   "status": "partial",
   "theorems": [
    "Verif.Vehicles.C165_trailer_partial",
    "Verif.Vehicles.C165_shared_partial",
    "Verif.Vehicles.C165_nothing_imposed_violated",
    "Verif.Vehicles.C165_lead_vehicle_violated"
   ],
   "note": "the trailer is kept clear; the pulling vehicle only if both are given the same shape object, because the lines are looked up by shape and only made for the trailer's shapes. The counterexample also contains the constraints the vehicle gets when it is passed to the problem itself, with its own splines. Room constraints left out"
  },
  {
   "property": "C166",
   "status": "proved",
   "theorems": [
    "Verif.Problems.C166_drive"
   ],
   "note": "free end time, hard terminal constraints, ideal prediction; one shape (with more the problem cannot be built, C164); that a plan was solved enters as satisfied constraints"
  },
  {
   "property": "C167",
   "status": "partial",
   "theorems": [
    "Verif.Fleet.C167_placed_partial",
    "Verif.Fleet.C167_logged_violated"
   ],
   "note": "the vehicles keep the formation (option substitution off, distributed problem); the centre that is logged is turned by a right angle and so always sqrt(2) times the configuration's length away from the centre"
  },
  {
   "property": "C168",
   "status": "partial",
   "theorems": [
    "Verif.Fleet.C168_zero_partial",
    "Verif.Fleet.C168_bound_partial",
    "Verif.Fleet.C168_unbalanced_violated",
    "Verif.Fleet.C168_at_centre_violated",
    "Verif.Fleet.C168_wheels_violated",
    "Verif.Fleet.C168_percent_violated"
   ],
   "note": "right for vehicles without heading if the configuration is balanced and nobody is at the centre; otherwise wrong or no number; printed percentage of dual decomposition lacks the factor 100. Signals are functions of the sample number"
  },
  {
   "property": "C169",
   "status": "partial",
   "theorems": [
    "Verif.Problems.Overrule.C169_reset_partial",
    "Verif.Problems.Overrule.C169_hard_stop",
    "Verif.Problems.Overrule.C169_second_plan_partial",
    "Verif.Problems.Overrule.C169_first_plan_violated",
    "Verif.Problems.Overrule.C169_ideal_violated",
    "Verif.Problems.Overrule.C169_input_violated",
    "Verif.Problems.Overrule.C169_before_violated"
   ],
   "note": "holds for states after a reset, and for the second plan in the middle of a drive with simulated prediction; first plan and ideal prediction ignore the overruled state, inputs are never used. Poses and disturbances not modelled"
  },
  {
   "property": "C170",
   "status": "partial",
   "theorems": [
    "Verif.Problems.Simulated.C170_simulated",
    "Verif.Problems.Simulated.C170_along",
    "Verif.Problems.Simulated.C170_ideal_prediction_partial",
    "Verif.Problems.Simulated.C170_holonomic",
    "Verif.Problems.Simulated.C170_drift_violated"
   ],
   "note": "odeint is taken as exact; vehicles whose state derivative is the input. With ideal prediction the deviations add up"
  },
  {
   "property": "C171",
   "status": "proved",
   "theorems": [
    "Verif.Problems.Default.C171_drive"
   ],
   "note": "holonomic vehicle with limits per axis, free end time, rectangular room; odeint is taken as exact; solver assumed to solve"
  },
  {
   "property": "C172",
   "status": "partial",
   "theorems": [
    "Verif.Spline.C172_quotient_partial",
    "Verif.Spline.C172_quotient_exact_partial",
    "Verif.Spline.C172_product_partial",
    "Verif.Spline.C172_insert_knots_partial",
    "Verif.Spline.C172_derivative_partial",
    "Verif.Spline.C172_python3_violated",
    "Verif.Spline.C172_derivative_violated",
    "Verif.Spline.C172_insert_knots_violated",
    "Verif.Spline.C172_zero_weight_violated"
   ],
   "note": "holds with Python 2 and no zero among the transformed weights; knot insertion only for constant weights, derivative only without interior knots. Sums and products of two rational splines not modelled"
  },
  {
   "property": "C173",
   "status": "partial",
   "theorems": [
    "Verif.Spline.Tensor.C173_eval",
    "Verif.Spline.Tensor.C173_number_partial",
    "Verif.Spline.Tensor.C173_rsub_violated",
    "Verif.Spline.Tensor.C173_integral_one_partial",
    "Verif.Spline.Tensor.C173_integral_two_violated",
    "Verif.Spline.Tensor.C173_integral_three_violated",
    "Verif.Spline.Tensor.C173_integral_order_violated"
   ],
   "note": "evaluation holds in full; `a - s` has the wrong sign, integrals work for one variable only. Sums and products of two splines of several variables not modelled"
  },
  {
   "property": "C174",
   "status": "partial",
   "theorems": [
    "Verif.Spline.Cache.C174_history_partial",
    "Verif.Spline.Cache.C174_basis_partial",
    "Verif.Spline.Cache.C174_slice_violated",
    "Verif.Spline.Cache.C174_shape_violated",
    "Verif.Spline.Cache.C174_integer_violated",
    "Verif.Spline.Cache.C174_integers_violated"
   ],
   "note": "holds for floats and contiguous one-dimensional float arrays; md5 is assumed to have no collisions; the returned matrices are assumed not to be modified by the caller"
  },
  {
   "property": "C175",
   "status": "partial",
   "theorems": [
    "Verif.ADMM.LinEq.C175_exact",
    "Verif.ADMM.LinEq.C175_update",
    "Verif.ADMM.LinEq.C175_refused",
    "Verif.ADMM.LinEq.C175_accepted_partial",
    "Verif.ADMM.LinEq.C175_parameter_violated"
   ],
   "note": "linear equations whose coefficients are parameters are refused; expressions are trees of +, -, *, and differentiable functions, CasADi's simplifications are modelled for products and sums with zero and one"
  },
  {
   "property": "C176",
   "status": "partial",
   "theorems": [
    "Verif.OptiLayer.Substitute.C176_value_partial",
    "Verif.OptiLayer.Substitute.C176_names",
    "Verif.OptiLayer.Substitute.C176_list",
    "Verif.OptiLayer.Substitute.C176_symbol_violated",
    "Verif.OptiLayer.Substitute.C176_taken_violated"
   ],
   "note": "formulas with symbols of other formulas can not be evaluated; labels with an underscore as in C146; a formula may take the name of a variable"
  },
  {
   "property": "C177",
   "status": "partial",
   "theorems": [
    "Verif.Problems.Options.C177_in_force",
    "Verif.Problems.Options.C177_fleet",
    "Verif.Problems.Options.C177_horizon_partial",
    "Verif.Problems.Options.C177_horizon_violated",
    "Verif.Problems.Options.C177_guess_violated"
   ],
   "note": "merging holds in full; a horizon that is set after construction leaves the length of the knot intervals as it was. Options copied elsewhere (e.g. by multiframe problems to their local problems) are not covered"
  },
  {
   "property": "C178",
   "status": "partial",
   "theorems": [
    "Verif.Problems.C178_frames_partial",
    "Verif.Problems.C178_stop_violated"
   ],
   "note": "for a holonomic vehicle with norm_inf limits in upright rectangular rooms; motion times must not be zero (the code imposes T >= 0 only, and a segment that takes no time loosens the joints); obstacles must do in later segments what is predicted for these (accelerating ones do not, C28); how the plan is stored is C121"
  },
  {
   "property": "C179",
   "status": "partial",
   "theorems": [
    "Verif.Problems.C179_machining_partial",
    "Verif.Problems.C179_stop_violated"
   ],
   "note": "motion times must not be zero (the code imposes T >= 0 only: C179_stop_violated); the start must be within the limits; during machining the velocity limit is on the plane and the height is constrained only on blocks that change it (C134, C135); the tolerance of straight blocks under the hypotheses of C135_line_partial"
  },
  {
   "property": "C180",
   "status": "partial",
   "theorems": [
    "Verif.Problems.C180_flight_partial",
    "Verif.Problems.C180_turned_violated"
   ],
   "note": "for rooms that are not turned (C180_turned_violated); the room holds the hulls of the checkpoints, not the points within the radius of them (C11_3d_violated); obstacles as predicted until the next update"
  },
  {
   "property": "C181",
   "status": "partial",
   "theorems": [
    "Verif.Problems.C181_quadrotor",
    "Verif.Problems.C181_simple",
    "Verif.Problems.C181_longer",
    "Verif.Problems.C181_turn_violated"
   ],
   "note": "quadrotors with at most 50 knot intervals (the grid of the spline products, C157); not for vehicles with a heading (C181_turn_violated)"
  },
  {
   "property": "C182",
   "status": "partial",
   "theorems": [
    "Verif.Problems.C182_flight_partial"
   ],
   "note": "for a lower limit of the thrust that is positive (the default is 2): without thrust the tilt is undefined; updates start from the predicted position, dspl and ddspl"
  },
  {
   "property": "C183",
   "status": "partial",
   "theorems": [
    "Verif.Frames.C183_handover",
    "Verif.Frames.C183_failure",
    "Verif.Frames.C183_progress_partial",
    "Verif.Frames.C183_stuck_violated",
    "Verif.Frames.C183_wall_violated",
    "Verif.Frames.C183_shift_violated",
    "Verif.Frames.C183_lshape_violated"
   ],
   "note": "corridor frames without L-shapes after the start; the change at the end of a frame needs a path that does not turn back and an endpoint away from the walls; a goal closer to a wall than the size of the vehicle stops the progress; shifted frames and L-shapes raise exceptions at the start"
  },
  {
   "property": "C184",
   "status": "partial",
   "theorems": [
    "Verif.Problems.InitGuess.C184_partial",
    "Verif.Problems.InitGuess.C184_failed_violated",
    "Verif.Problems.InitGuess.C184_time_violated"
   ],
   "note": "as long as every problem is solved; otherwise what the solver returned is followed, or the run ends with an error if the time limit was exceeded after the first update"
  },
  {
   "property": "C185",
   "status": "partial",
   "theorems": [
    "Verif.Spline.C185_partial",
    "Verif.Spline.C185_joint_violated",
    "Verif.Spline.C185_start_violated"
   ],
   "note": "values at the evaluation points (all strictly inside), and at all times for polynomial plans; the start is not exact in general, and continuous plans that stop at the joint are doubled there"
  },
  {
   "property": "C186",
   "status": "partial",
   "theorems": [
    "Verif.Frames.C186_partial",
    "Verif.Frames.C186_violated"
   ],
   "note": "if the first call gives as many frames as are asked for, or one less; otherwise an exception is raised at the start"
  },
  {
   "property": "C187",
   "status": "partial",
   "theorems": [
    "Verif.Timing.Once.C187_partial",
    "Verif.Timing.Once.C187_end",
    "Verif.Timing.Once.C187_short_violated"
   ],
   "note": "free-time problems and runs of a sample at least; a shorter one raises an exception if it is the first, and otherwise advances the clock alone"
  },
  {
   "property": "C188",
   "status": "partial",
   "theorems": [
    "Verif.Problems.C188_flight_partial"
   ],
   "note": "free end time, one room that is not turned (`C180_turned_violated`), the centre stays in the room (`C11_3d_violated`), roll rate only for one symmetric interval (`C57_violated`)"
  },
  {
   "property": "C189",
   "status": "partial",
   "theorems": [
    "Verif.Problems.TurnGuess.C189_turns",
    "Verif.Problems.TurnGuess.C189_leans",
    "Verif.Problems.TurnGuess.C189_trailer_partial",
    "Verif.Problems.TurnGuess.C189_longer_violated",
    "Verif.Problems.TurnGuess.C189_trailer_violated"
   ],
   "note": "the signals are those of the differential drive and the quadrotor; a trailer only behind a vehicle with splines of degree 3; the shorter of the two turns is not always taken"
  },
  {
   "property": "C190",
   "status": "partial",
   "theorems": [
    "Verif.ADMM.C190_progress",
    "Verif.ADMM.C190_converges",
    "Verif.ADMM.C190_prices"
   ],
   "note": "local problems convex and solved exactly; without acceleration and AMA; at the start of a knot interval, where splines are not shifted; there are prices for the coupling constraints (implied by a single fixed point, C190_prices)"
  },
  {
   "property": "C191",
   "status": "partial",
   "theorems": [
    "Verif.DualDec.C191_progress",
    "Verif.DualDec.C191_converges",
    "Verif.DualDec.C191_prices"
   ],
   "note": "strongly convex local problems solved exactly, at the start of a knot interval; the default step can be too large (C137_step_violated); there are prices for the coupling (implied by one fixed point, C191_prices)"
  },
  {
   "property": "C192",
   "status": "partial",
   "theorems": [
    "Verif.ADMM.C192_progress",
    "Verif.ADMM.C192_converges"
   ],
   "note": "strongly convex local problems solved exactly, at the start of a knot interval, without acceleration; there are prices for the coupling (implied by one fixed point, C190_prices)"
  },
  {
   "property": "C193",
   "status": "partial",
   "theorems": [
    "Verif.Seen.C193_seen",
    "Verif.Seen.C193_same",
    "Verif.Seen.C193_added_violated",
    "Verif.Seen.C193_measured_violated",
    "Verif.Seen.C193_used_violated",
    "Verif.Seen.C193_long_violated"
   ],
   "note": "environment simulation as any function of time, sample time and obstacles; refuted for obstacles that are added or measured later, environments simulated before, and long update times"
  },
  {
   "property": "C194",
   "status": "proved",
   "theorems": [
    "Verif.ADMM.C194_plain",
    "Verif.ADMM.C194_monotone",
    "Verif.ADMM.C194_bound",
    "Verif.ADMM.C194_converges"
   ],
   "note": "exact vehicle updates; at the start of a knot interval; AMA off; exact arithmetic"
  },
  {
   "property": "C195",
   "status": "partial",
   "theorems": [
    "Verif.ADMM.C195_agree",
    "Verif.ADMM.C195_refines",
    "Verif.ADMM.C195_plain",
    "Verif.ADMM.C195_accelerated_partial",
    "Verif.ADMM.C195_stuck_violated",
    "Verif.ADMM.C195_delay_violated",
    "Verif.ADMM.C195_restart_violated"
   ],
   "note": "exact vehicle updates; at the start of a knot interval; AMA off; with acceleration and restarts refuted for eta = 1, for the number of rejected iterations, and after a reinitialisation"
  },
  {
   "property": "C196",
   "status": "partial",
   "theorems": [
    "Verif.SvgPath.C196_partial",
    "Verif.SvgPath.C196_sign_violated",
    "Verif.SvgPath.C196_integers_violated",
    "Verif.SvgPath.C196_several_violated",
    "Verif.SvgPath.C196_lines_violated"
   ],
   "note": "proved for a start point and curves with one letter and six numbers each, without separators before signs, relative ones not all in whole numbers; floats as exact fractions; refuted for signs after separators, whole numbers, several curves after one letter, and straight lines"
  },
  {
   "property": "C197",
   "status": "partial",
   "theorems": [
    "Verif.ADMM.SharedDict.C197_partial",
    "Verif.ADMM.SharedDict.C197_lonely_violated"
   ],
   "note": "for vehicles with neighbours; what happens to one variable is a parameter (see the model of ADMM/Shifted.lean); refuted for vehicles without neighbours"
  },
  {
   "property": "C198",
   "status": "partial",
   "theorems": [
    "Verif.Export.Template.C198_partial",
    "Verif.Export.Template.C198_line_violated",
    "Verif.Export.Template.C198_value_violated"
   ],
   "note": "for places and @ signs on different lines and values without @; refuted otherwise"
  },
  {
   "property": "C199",
   "status": "partial",
   "theorems": [
    "Verif.Export.Includes.C199_partial",
    "Verif.Export.Includes.C199_ending_violated",
    "Verif.Export.Includes.C199_underscore_violated"
   ],
   "note": "for namespaces without underscore that do not end with the name of a file, also for file names that end with one another; refuted otherwise"
  },
  {
   "property": "C200",
   "status": "partial",
   "theorems": [
    "Verif.Export.Guards.C200_partial",
    "Verif.Export.Guards.C200_word_violated",
    "Verif.Export.Guards.C200_none_violated",
    "Verif.Export.Guards.C200_case_violated"
   ],
   "note": "for headers with a guard that does not occur elsewhere; refuted for guards that are part of other words, for headers without guard, and for namespaces that differ in upper and lower case only"
  },
  {
   "property": "C201",
   "status": "partial",
   "theorems": [
    "Verif.Export.Obstacles.C201_partial",
    "Verif.Export.Obstacles.C201_space_violated"
   ],
   "note": "for obstacles in the plane; refuted in space"
  },
  {
   "property": "C202",
   "status": "partial",
   "theorems": [
    "Verif.Export.Places.C202_partial",
    "Verif.Export.Places.C202_slash_violated",
    "Verif.Export.Places.C202_dot_violated"
   ],
   "note": "for directories whose name ends with a slash and has no dot; refuted for all other names"
  },
  {
   "property": "C203",
   "status": "partial",
   "theorems": [
    "Verif.Export.FleetBuild.C203_partial",
    "Verif.Export.FleetBuild.C203_mixed_violated"
   ],
   "note": "for separate builds, and for fleets of one kind; refuted for all mixed fleets without separate builds. That vehicles of one kind share the program of the first one although their limits differ is C139"
  },
  {
   "property": "C204",
   "status": "partial",
   "theorems": [
    "Verif.KnotShift.C204_partial",
    "Verif.KnotShift.C204_iterations_violated",
    "Verif.KnotShift.C204_jump_violated"
   ],
   "note": "for one iteration per update and an update at every knot; refuted for all larger numbers of iterations per update, and for all update times that jump over the knots; exact arithmetic"
  },
  {
   "property": "C205",
   "status": "partial",
   "theorems": [
    "Verif.ResidualPlot.C205_current",
    "Verif.ResidualPlot.C205_partial",
    "Verif.ResidualPlot.C205_samples_violated",
    "Verif.ResidualPlot.C205_iterations_violated",
    "Verif.ResidualPlot.C205_dd_violated"
   ],
   "note": "with the alternating direction method: for the current instant, and for logged instants with one sample and one iteration per update; refuted for all other numbers of samples or iterations, and for dual decomposition always"
  },
  {
   "property": "C206",
   "status": "partial",
   "theorems": [
    "Verif.SvgSize.C206_partial",
    "Verif.SvgSize.C206_offset_violated",
    "Verif.SvgSize.C206_mm_violated",
    "Verif.SvgSize.C206_unit_violated"
   ],
   "note": "for drawings that begin at the origin, with whole numbers of pixels as size; refuted for regions that begin elsewhere, sizes in millimeters, and sizes without unit that differ from the region"
  },
  {
   "property": "C207",
   "status": "partial",
   "theorems": [
    "Verif.Given.C207_partial",
    "Verif.Given.C207_fleets_violated",
    "Verif.Given.C207_mixed_violated",
    "Verif.Given.C207_empty_violated"
   ],
   "note": "for vehicles, fleets, lists of vehicles, and lists with one fleet; refuted for all lists of fleets with vehicles behind the first, all lists of vehicles with something else in it, and the empty list"
  },
  {
   "property": "C208",
   "status": "partial",
   "theorems": [
    "Verif.Export.Substitutes.C208_partial",
    "Verif.Export.Substitutes.C208_names_violated"
   ],
   "note": "if no two objects use a name for different functions; refuted for all others"
  }
 ]
}