{"id": "C01", "title": "Basis functions are non-negative and sum to one on the whole horizon", "statement": "Evaluating a clamped B-spline basis at any time inside its domain returns non-negative numbers that add up to exactly one, and evaluating it outside the domain returns only zeros.", "quantifier": "every degree, every non-decreasing clamped knot vector (any interior multiplicities), every evaluation time", "why_tests_cant": "the evaluation times and knot vectors form a continuum; the boundary cases (first knot, repeated knots) are exactly where sampling misses", "anchors": ["omgtools/basics/spline.py:Basis._ind", "omgtools/basics/spline.py:BSplineBasis.eval_basis", "omgtools/basics/spline_extra.py:evalspline"]}
{"id": "C02", "title": "A basis function only acts on its support", "statement": "The i-th basis function evaluates to zero outside the interval reported for it by support(), so changing one coefficient of a spline never changes the trajectory outside that interval.", "quantifier": "every knot vector, degree, coefficient index and evaluation time", "why_tests_cant": "locality is a statement about all times outside an interval", "anchors": ["omgtools/basics/spline.py:BSplineBasis.eval_basis", "omgtools/basics/spline.py:BSplineBasis.support", "omgtools/basics/spline.py:Spline.__call__"]}
{"id": "C03", "title": "Bounds imposed on coefficients hold at every time", "statement": "If every coefficient of a constraint spline lies between a lower and an upper bound, then the constraint expression lies between these bounds at every time of the horizon (not only on a grid).", "quantifier": "every spline, every pair of bounds, every time in the domain", "why_tests_cant": "this is the guarantee that replaces time gridding; a test can only check a grid", "anchors": ["omgtools/basics/spline.py:Spline.__call__", "omgtools/basics/optilayer.py:OptiChild.define_constraint"]}
{"id": "C04", "title": "derivative() is the time derivative", "statement": "The spline returned by derivative() evaluates at every time between knots to the derivative of the original spline's evaluation; derivative(o) equals applying derivative() o times.", "quantifier": "every spline without interior knots of multiplicity above the degree, every order up to the degree, every non-knot time", "why_tests_cant": "derivatives are limits; finite differences on samples only approximate them", "anchors": ["omgtools/basics/spline.py:BSplineBasis.derivative", "omgtools/basics/spline.py:BSpline.derivative"]}
{"id": "C05", "title": "Knot insertion and cropping do not change the trajectory", "statement": "Inserting knots with the insertion transformation gives a spline that evaluates to the same value at every time, and crop_spline evaluates to the original on the requested interval.", "quantifier": "every spline, every list of inserted knots in the domain after its first knot, every time", "why_tests_cant": "function equality over a continuum", "anchors": ["omgtools/basics/spline_extra.py:knot_insertion_T", "omgtools/basics/spline_extra.py:get_interval_T", "omgtools/basics/spline_extra.py:crop_spline"]}
{"id": "C06", "title": "Integrals of splines are integrals", "statement": "running_integral() returns a spline that is zero at the start of the horizon and whose derivative() is the original spline; definite integrals are additive over adjacent intervals and integral() equals the definite integral over the full domain.", "quantifier": "every spline with clamped knots, every pair/triple of times", "why_tests_cant": "additivity and the fundamental theorem quantify over all intervals", "anchors": ["omgtools/basics/spline_extra.py:running_integral", "omgtools/basics/spline_extra.py:definite_integral", "omgtools/basics/spline.py:BSpline.integral"]}
{"id": "C07", "title": "Rescaling time rescales only time", "statement": "scale(factor, shift) returns a spline whose value at factor*x+shift equals the original value at x, for any positive factor.", "quantifier": "every spline, every positive factor, every shift, every x", "why_tests_cant": "function equality over a continuum", "anchors": ["omgtools/basics/spline.py:Basis.scale", "omgtools/basics/spline.py:BSpline.scale"]}
{"id": "C08", "title": "Union bases keep all break points and enough continuity freedom", "statement": "The basis of a sum (product) of two splines does not depend on the operand order, contains exactly the break points of both operands, and keeps at each break point a multiplicity large enough to represent the lower continuity of either operand; bases that compare equal have equal hashes.", "quantifier": "every pair of bases", "why_tests_cant": "quantifies over all knot multisets", "anchors": ["omgtools/basics/spline.py:Basis._combine", "omgtools/basics/spline.py:Basis.__add__", "omgtools/basics/spline.py:Basis.__mul__", "omgtools/basics/spline.py:Basis.__eq__", "omgtools/basics/spline.py:Basis.__hash__"]}
{"id": "C09", "title": "Spline arithmetic is pointwise arithmetic", "statement": "Negation, adding a number, multiplying by a number, adding, subtracting and multiplying splines, and inserting knots evaluate at every time to the corresponding operation on the evaluations (up to the documented tolerance of the basis transformation); the n-th power (n at least 1) is the n-fold product.", "quantifier": "every pair of splines on the same horizon (any degrees and knots), every scalar, every time", "why_tests_cant": "function equality over a continuum", "anchors": ["omgtools/basics/spline.py:BSpline.__add__", "omgtools/basics/spline.py:BSpline.__neg__", "omgtools/basics/spline.py:BSpline.__sub__", "omgtools/basics/spline.py:BSpline.__mul__", "omgtools/basics/spline.py:BSpline.__pow__", "omgtools/basics/spline.py:BSplineBasis.transform"]}
{"id": "C10", "title": "2-D vehicle/obstacle constraints imply no collision at any time", "statement": "If the separating-hyperplane constraints created for a vehicle shape and an obstacle shape hold at a time (with non-positive slack), then every point of the vehicle shape is at least the safety distance away from every point of the obstacle shape at that time.", "quantifier": "every hyperplane, every position, every set of checkpoints and radii, every time, every point of both bodies", "why_tests_cant": "quantifies over all points of two continua and all solver outputs", "anchors": ["omgtools/vehicles/vehicle.py:Vehicle.define_collision_constraints_2d", "omgtools/environment/obstacle.py:Obstacle2D.define_collision_constraints", "omgtools/environment/environment.py:Environment.define_collision_constraints"]}
{"id": "C11", "title": "Room constraints keep the whole vehicle inside the room", "statement": "If the room constraints hold at a time, every point of the vehicle shape lies inside the room at that time.", "quantifier": "every room, vehicle shape, position, orientation and time", "why_tests_cant": "quantifies over all points of the body", "anchors": ["omgtools/vehicles/vehicle.py:Vehicle.define_collision_constraints_2d", "omgtools/vehicles/vehicle.py:Vehicle.define_collision_constraints_3d"]}
{"id": "C12", "title": "Inter-vehicle constraints imply vehicles never touch", "statement": "If the inter-vehicle constraints of a fleet hold at a time, the shapes of any two vehicles are disjoint at that time, with a gap of at least the sum of both safety distances.", "quantifier": "every pair of vehicles, shapes and times", "why_tests_cant": "quantifies over all pairs of points and all hyperplanes", "anchors": ["omgtools/environment/environment.py:Environment.define_intervehicle_collision_constraints"]}
{"id": "C13", "title": "Velocity and acceleration limits of holonomic vehicles hold in physical time", "statement": "A trajectory satisfying the trajectory constraints has, after rescaling by the motion time, velocity and acceleration within the bounds given by the user in every direction at every time.", "quantifier": "every positive motion time, every bound, every time", "why_tests_cant": "quantifies over all times and motion times", "anchors": ["omgtools/vehicles/holonomic.py:Holonomic.define_trajectory_constraints", "omgtools/vehicles/holonomic3d.py:Holonomic3D.define_trajectory_constraints", "omgtools/vehicles/holonomic1d.py:Holonomic1D.define_trajectory_constraints"]}
{"id": "C14", "title": "Tangent-half-angle vehicles respect speed, turn-rate and steering limits", "statement": "For differential-drive, bicycle and AGV vehicles, if the trajectory constraints hold then the forward speed, the turn rate and the steering angle sent to the vehicle are within the user bounds, and the velocity vector points along the heading.", "quantifier": "every value of the spline variables, every motion time, every time", "why_tests_cant": "nonlinear inequality over a continuum", "anchors": ["omgtools/vehicles/dubins.py:Dubins.define_trajectory_constraints", "omgtools/vehicles/dubins.py:Dubins.splines2signals", "omgtools/vehicles/bicycle.py:Bicycle.define_trajectory_constraints", "omgtools/vehicles/agv.py:AGV.define_trajectory_constraints"]}
{"id": "C15", "title": "Quadrotor inputs respect thrust and rate limits and reproduce the trajectory", "statement": "If the quadrotor trajectory constraints hold then the thrust and angular rate computed from the splines are within bounds, and feeding them to the vehicle model reproduces the accelerations of the splines.", "quantifier": "every acceleration/jerk value with non-zero thrust, every motion time", "why_tests_cant": "nonlinear identity/inequality over a continuum", "anchors": ["omgtools/vehicles/quadrotor.py:Quadrotor.define_trajectory_constraints", "omgtools/vehicles/quadrotor.py:Quadrotor.splines2signals", "omgtools/vehicles/quadrotor.py:Quadrotor.ode"]}
{"id": "C16", "title": "Arrival is declared only at the goal and at standstill", "statement": "check_terminal_conditions() returns True only if the position error and the input are both within the stop tolerance.", "quantifier": "every state, input, target and tolerance", "why_tests_cant": "depends on the tolerance value; the default hides the fault", "anchors": ["omgtools/vehicles/holonomic.py:Holonomic.check_terminal_conditions", "omgtools/vehicles/dubins.py:Dubins.check_terminal_conditions", "omgtools/vehicles/quadrotor3d.py:Quadrotor3D.check_terminal_conditions"]}
{"id": "C17", "title": "Integrated positions start at the measured position", "statement": "For vehicles whose position is the integral of a velocity spline, the position spline equals the current position at the current time and its time derivative is the velocity spline.", "quantifier": "every velocity spline, current time and motion time", "why_tests_cant": "function equality over a continuum", "anchors": ["omgtools/vehicles/dubins.py:Dubins.integrate_once", "omgtools/vehicles/quadrotor3d.py:Quadrotor3D.integrate_twice"]}
{"id": "C18", "title": "A trailer stays hitched", "statement": "Along the vehicle model of a trailer, the trailer stays at hitch distance behind the leading vehicle in the direction of the trailer heading.", "quantifier": "every state satisfying the hitch relation and every input", "why_tests_cant": "an invariant of a differential equation over all states and inputs", "anchors": ["omgtools/vehicles/trailer.py:Trailer.ode", "omgtools/vehicles/trailer.py:Trailer.splines2signals"]}
{"id": "C19", "title": "The global planner returns a connected collision-free grid path", "statement": "Whenever the grid planner returns a path, it starts in the start cell, ends in the goal cell, consecutive cells are neighbours and every step passes the accessibility test (no occupied cell, no corner cutting).", "quantifier": "every grid, obstacle set, start and goal", "why_tests_cant": "all grids and all search histories", "anchors": ["omgtools/problems/globalplanner.py:AStarPlanner.get_path", "omgtools/problems/globalplanner.py:AStarPlanner.closed_list_to_path", "omgtools/problems/globalplanner.py:Grid.is_accessible"]}
{"id": "C20", "title": "The global planner finds a path whenever one exists", "statement": "If the goal cell can be reached from the start cell by accessible steps then the planner returns a path instead of raising 'no path'.", "quantifier": "every grid, obstacle set, start and goal", "why_tests_cant": "completeness quantifies over all grids and all paths", "anchors": ["omgtools/problems/globalplanner.py:AStarPlanner.get_path"]}
{"id": "C21", "title": "Fleet neighbourhood is symmetric", "statement": "For the supported interconnections, vehicle j is a neighbour of vehicle i exactly when i is a neighbour of j, nobody is its own neighbour, and no neighbour is listed twice.", "quantifier": "every fleet size and interconnection", "why_tests_cant": "all fleet sizes; small sizes are where modular indexing collapses", "anchors": ["omgtools/vehicles/fleet.py:Fleet.set_neighbors"]}
{"id": "C22", "title": "Relative configurations are antisymmetric and consistent", "statement": "The relative configuration of j with respect to i is the negative of that of i with respect to j, and follows from the configuration given by the user.", "quantifier": "every configuration dictionary and every pair of neighbours", "why_tests_cant": "all fleets and configurations", "anchors": ["omgtools/vehicles/fleet.py:Fleet.set_configuration", "omgtools/vehicles/fleet.py:Fleet.get_rel_config"]}
{"id": "C23", "title": "Centralised formation couples all vehicles", "statement": "In a centralised formation problem, the coupling constraints force all vehicles of the fleet to share one formation centre.", "quantifier": "every fleet size and interconnection", "why_tests_cant": "graph connectivity for all fleet sizes", "anchors": ["omgtools/problems/formation_central.py:FormationPoint2pointCentral.construct"]}
{"id": "C24", "title": "ADMM z-update solves its subproblem", "statement": "The z-update of the distributed solver returns a point that satisfies the consensus/coupling equations exactly and minimises the augmented Lagrangian over all points that satisfy them.", "quantifier": "every coupling matrix for which the update is defined, every multiplier, every primal iterate, every positive penalty", "why_tests_cant": "optimality over a continuum of competitors", "anchors": ["omgtools/problems/admm.py:ADMM.construct_upd_z", "omgtools/problems/admm.py:ADMM._construct_upd_z_nlp"]}
{"id": "C25", "title": "Nesterov acceleration stays a valid extrapolation", "statement": "In accelerated ADMM the momentum parameter never drops below one, the extrapolation weight stays in [0,1), and a rejected iteration restores the previous iterate.", "quantifier": "every history of residuals", "why_tests_cant": "invariant over unbounded iteration histories", "anchors": ["omgtools/problems/admm.py:ADMM.accelerate"]}
{"id": "C26", "title": "Neighbours exchange consistent copies", "statement": "After the communication step every updater holds exactly the values its neighbours computed for it, whatever values were held before.", "quantifier": "every neighbour graph and every variable content", "why_tests_cant": "all graphs and message contents", "anchors": ["omgtools/problems/admm.py:ADMM.communicate", "omgtools/problems/dualmethod.py:DualUpdater", "omgtools/problems/distributedproblem.py:DistributedProblem.interprete_constraints"]}
{"id": "C27", "title": "Distributed solve performs the requested number of iterations", "statement": "One solve of a distributed problem performs exactly the configured number of dual iterations and then stores one result per vehicle; the initialisation performs exactly the configured number of initial iterations.", "quantifier": "every option value and every solver outcome", "why_tests_cant": "unbounded option values", "anchors": ["omgtools/problems/dualmethod.py:DualProblem.solve", "omgtools/problems/dualmethod.py:DualProblem.initialize"]}
{"id": "C28", "title": "Predicted obstacle trajectory starts at the measured state", "statement": "The obstacle trajectory used in the optimisation equals the measured position, velocity and acceleration at the current time and follows constant acceleration over the horizon.", "quantifier": "every measured state, current time and horizon", "why_tests_cant": "function equality over a continuum", "anchors": ["omgtools/environment/obstacle.py:ObstaclexD.init"]}
{"id": "C29", "title": "Bouncing keeps speed and position", "statement": "When a bouncing obstacle hits something, its position is unchanged and each velocity component keeps its absolute value; it never keeps flying in the same direction.", "quantifier": "every velocity, position and arrangement of other obstacles", "why_tests_cant": "all geometric arrangements", "anchors": ["omgtools/environment/environment.py:Environment.simulate"]}
{"id": "C30", "title": "Simulated signals stay aligned", "statement": "After any sequence of simulation steps all logged signals of an obstacle/vehicle have the same number of samples and the time signal increases by exactly the sample time.", "quantifier": "every sequence of update calls", "why_tests_cant": "unbounded histories", "anchors": ["omgtools/environment/obstacle.py:ObstaclexD.simulate", "omgtools/vehicles/vehicle.py:Vehicle.simulate"]}
{"id": "C31", "title": "The obstacle count matches the obstacles", "statement": "The number of obstacles reported by the environment equals the number of obstacles in its list after any sequence of add and fill operations.", "quantifier": "every sequence of operations", "why_tests_cant": "invariant over histories", "anchors": ["omgtools/environment/environment.py:Environment.add_obstacle", "omgtools/environment/environment.py:Environment.fill_room"]}
{"id": "C32", "title": "Simulation time advances by exactly the requested steps", "statement": "The simulator advances the current time by the update time at every step and stops as soon as the stop criterion holds; no step is executed after arrival.", "quantifier": "every sequence of problem answers", "why_tests_cant": "unbounded histories", "anchors": ["omgtools/execution/simulator.py:Simulator.run", "omgtools/execution/simulator.py:Simulator.update_timing"]}
{"id": "C33", "title": "The knot clock of fixed-time problems never drifts", "statement": "In a fixed-time problem the time within the current knot interval is always in [0, knot time) and the spline is shifted exactly once per crossed knot interval.", "quantifier": "every sequence of update times", "why_tests_cant": "unbounded histories", "anchors": ["omgtools/problems/point2point.py:FixedTPoint2point.init_step", "omgtools/problems/point2point.py:FixedTPoint2point.set_parameters"]}
{"id": "C34", "title": "Consecutive segments join smoothly in physical time", "statement": "In multi-frame and GCode problems, the connection constraints between segments hold exactly when position and the constrained derivatives in physical time are equal at the joint.", "quantifier": "all positive segment times and all derivatives", "why_tests_cant": "equivalence over a continuum", "anchors": ["omgtools/problems/multiframeproblem.py:MultiFrameProblem.construct", "omgtools/problems/gcodeproblem.py:GCodeProblem.construct"]}
{"id": "C35", "title": "Every optimisation object gets its own label", "statement": "After adding any children to the optimisation problem, all labels are distinct, so variables of different objects are never confused.", "quantifier": "every sequence of requested labels", "why_tests_cant": "all label histories", "anchors": ["omgtools/basics/optilayer.py:OptiChild._make_label"]}
{"id": "C36", "title": "Constraints are imposed on every coefficient that was not skipped", "statement": "define_constraint imposes the bounds on all coefficients of the constraint spline except exactly the skipped number at the start and at the end.", "quantifier": "every coefficient vector and every skip pair", "why_tests_cant": "slicing boundary for all lengths", "anchors": ["omgtools/basics/optilayer.py:OptiChild.define_constraint"]}
{"id": "C37", "title": "Line-segment and line intersection tests are correct", "statement": "intersect_line_segments returns True exactly when the segments share a point (no three end points collinear); intersect_lines returns the unique common point, or None exactly for parallel lines.", "quantifier": "every four points of the plane in general position", "why_tests_cant": "all configurations of four points", "anchors": ["omgtools/basics/geometry.py:intersect_line_segments", "omgtools/basics/geometry.py:intersect_lines", "omgtools/basics/geometry.py:order_is_ccw"]}
{"id": "C38", "title": "Rectangle overlap tests are exact", "statement": "rectangles_overlap returns True exactly when two axis-aligned rectangles share a point; the overlap centre lies in both rectangles and is computed exactly when they overlap.", "quantifier": "every pair of rectangles and positions", "why_tests_cant": "quantifies over all points", "anchors": ["omgtools/basics/geometry.py:rectangles_overlap", "omgtools/basics/geometry.py:compute_rectangle_overlap_center", "omgtools/basics/geometry.py:point_in_rectangle"]}
{"id": "C39", "title": "Point-in-polygon test is exact for convex shapes", "statement": "point_in_polyhedron with zero margin returns True for every point of the polygon and False for every point strictly outside.", "quantifier": "every convex polygon, position and point", "why_tests_cant": "all points of the plane", "anchors": ["omgtools/basics/geometry.py:point_in_polyhedron", "omgtools/basics/shape.py:Polyhedron.get_hyperplanes"]}
{"id": "C40", "title": "Circle/polygon intersection detects every contact", "statement": "circle_polyhedron_intersection returns True whenever a vertex of the polygon lies inside the circle or the circle reaches an edge.", "quantifier": "every polygon and circle", "why_tests_cant": "all vertices; the fault shows only for the unchecked ones", "anchors": ["omgtools/basics/geometry.py:circle_polyhedron_intersection"]}
{"id": "C41", "title": "Every obstacle is considered in the frame it is in", "statement": "An obstacle that overlaps a frame is either reported as stationary or as moving for this frame.", "quantifier": "every obstacle history and frame", "why_tests_cant": "all motion histories", "anchors": ["omgtools/environment/frame.py:Frame.get_stationary_obstacles", "omgtools/environment/frame.py:Frame.get_moving_obstacles"]}
{"id": "C42", "title": "A change of obstacles always triggers a new local problem", "statement": "If the set of moving obstacles of any considered frame changes, the scheduler builds a new local problem.", "quantifier": "every number of frames and every change", "why_tests_cant": "all update histories", "anchors": ["omgtools/problems/schedulerproblem.py:SchedulerProblem.solve"]}
{"id": "C43", "title": "GCode blocks form a continuous tool path", "statement": "The blocks created from a program chain: every block starts where the previous one ended, and the last block ends at the last programmed position.", "quantifier": "every program", "why_tests_cant": "all programs", "anchors": ["omgtools/gui/gcode_reader.py:GCodeReader.create_blocks", "omgtools/gui/gcode_block.py:GCodeBlock"]}
{"id": "C44", "title": "Splitting a program loses nothing", "statement": "The division of a program in parts concatenates back to the program in order; every vertical move forms its own part.", "quantifier": "every list of blocks", "why_tests_cant": "all programs", "anchors": ["omgtools/gui/gcode_reader.py:GCodeReader.get_block_division"]}
{"id": "C45", "title": "Arcs stay on their circle and turn the programmed way", "statement": "Every sampled coordinate of an arc block has the arc radius as distance to the centre, the first and last coordinates are the programmed start and end, and the swept angle is in [0, 2*pi) in the programmed direction.", "quantifier": "every consistent arc block and number of samples", "why_tests_cant": "all arcs", "anchors": ["omgtools/gui/gcode_block.py:G02", "omgtools/gui/gcode_block.py:G03"]}
{"id": "C46", "title": "Rooms built from GCode contain the programmed segment and chain", "statement": "The rooms created for a straight block contain the whole segment with the tolerance as margin, and with variable tolerance the three parts chain from the programmed start to the programmed end.", "quantifier": "every block, tolerance and split fraction", "why_tests_cant": "all points of the segment", "anchors": ["omgtools/problems/gcodeschedulerproblem.py:GCodeSchedulerProblem.get_environment"]}
{"id": "C47", "title": "The GCode scheduler processes every segment in order", "statement": "Through any sequence of segment updates, the considered window is exactly the next segments of the program in order, and it shrinks only when the end of the program is reached.", "quantifier": "every program length, window size and update history", "why_tests_cant": "unbounded histories", "anchors": ["omgtools/problems/gcodeschedulerproblem.py:GCodeSchedulerProblem.update_segments"]}
{"id": "C48", "title": "Screen and world coordinates are inverse", "statement": "Converting a pixel to world coordinates and back returns the same pixel, and vice versa, and moving an obstacle by an arrow moves it by exactly one cell.", "quantifier": "every canvas, scale and point", "why_tests_cant": "all points", "anchors": ["omgtools/gui/gui.py:EnvironmentGUI.pixel_to_world", "omgtools/gui/gui.py:EnvironmentGUI.world_to_pixel"]}
{"id": "C49", "title": "Exported code addresses every variable at its own offset", "statement": "In the exported C++ code each variable/parameter is read and written at the offset where it is stored, the ranges are disjoint and cover the whole vector, in every generated function.", "quantifier": "every list of variables and shapes", "why_tests_cant": "all problem layouts", "anchors": ["omgtools/export/export.py:Export._create_getVariableVector", "omgtools/export/export.py:Export._create_getVariableDict", "omgtools/export/export.py:Export._create_transformSplines"]}
{"id": "C50", "title": "Exported bounds follow the constraint layout", "statement": "The lower/upper bound vectors in the exported code list, in order, one entry per constraint row.", "quantifier": "every list of constraints", "why_tests_cant": "all problem layouts", "anchors": ["omgtools/export/export.py:Export._create_lb_ub", "omgtools/export/export.py:Export._create_updateBounds"]}
{"id": "C51", "title": "Trajectories are as smooth as their knots allow", "statement": "The evaluation of a spline is continuous on the whole horizon, and n times continuously differentiable between any two knots of sufficiently low multiplicity: crossing an interior knot of multiplicity m, the first degree-m derivatives do not jump.", "quantifier": "every spline, every time, including the knots themselves", "why_tests_cant": "continuity is a statement about limits, not about sampled values", "anchors": ["omgtools/basics/spline.py:BSplineBasis.eval_basis", "omgtools/basics/spline.py:Basis._ind", "omgtools/basics/spline.py:BSpline.derivative"]}
{"id": "C52", "title": "Distance helpers return Euclidean distances", "statement": "distance_to_line returns the smallest distance from the point to any point of the infinite line through two distinct points; distance_between_points rejects points of different dimension and otherwise returns the Euclidean distance (symmetric, zero only for equal points).", "quantifier": "every point, every pair of distinct line points, every dimension", "why_tests_cant": "minimality over a continuum of points", "anchors": ["omgtools/basics/geometry.py:distance_to_line", "omgtools/basics/geometry.py:distance_between_points"]}
{"id": "C53", "title": "A constraint on coefficients is enforced at every time instant", "statement": "define_constraint hands the solver only the B-spline coefficients of an expression. If those coefficients respect the bound then the expression, built from splines and numbers with +, - and *, respects the bound at every time of the horizon. An expression that is a plain Python number is not a spline and never reaches the solver.", "quantifier": "every expression tree over +, -, * of splines with a common domain and numbers, every bound, every time in the horizon", "why_tests_cant": "a continuum of times and an infinite family of expressions", "anchors": ["omgtools/basics/optilayer.py:OptiChild.define_constraint", "omgtools/basics/spline.py:BSpline.__add__", "omgtools/basics/spline.py:BSpline.__mul__"]}
{"id": "C54", "title": "The trailer angle stays within its limits", "statement": "For a trailer pulled by a vehicle, if the constraints on the trailer angle hold then the angle between trailer and leading vehicle stays between tmin and tmax at every time of the motion.", "quantifier": "every pair of orientation splines, every horizon time, every instant, every tmin < tmax", "why_tests_cant": "the constraint is stated on tangents of half angles; the angle itself follows only by a real-analysis argument for all values", "anchors": ["omgtools/vehicles/trailer.py:Trailer.define_trajectory_constraints", "omgtools/vehicles/trailer.py:Trailer.splines2signals"]}
{"id": "C55", "title": "Quadrotor in space respects its limits and its model", "statement": "If the trajectory constraints of Quadrotor3D hold, then thrust, roll rate, pitch rate, roll angle and pitch angle are within the user's limits at every instant; and the inputs read from the plan, fed to the vehicle model, reproduce the positions, velocities and angles of the plan. The substitute splines of the optimisation stay within the stated tolerance of the expressions they replace.", "quantifier": "every thrust and half-angle spline, every horizon time, every instant, every user limit", "why_tests_cant": "continuum of instants, differential equation", "anchors": ["omgtools/vehicles/quadrotor3d.py:Quadrotor3D.define_trajectory_constraints", "omgtools/vehicles/quadrotor3d.py:Quadrotor3D.splines2signals", "omgtools/vehicles/quadrotor3d.py:Quadrotor3D.ode"]}
{"id": "C56", "title": "Holonomic vehicle with orientation respects its limits", "statement": "If the trajectory constraints of HolonomicOrient hold, then velocity and acceleration (per axis for norm_inf, in magnitude for norm_2) and the turning rate are within the user's limits at every instant.", "quantifier": "every position and half-angle spline, every horizon time, every instant, every user limit", "why_tests_cant": "continuum of instants, derivative of an arctangent", "anchors": ["omgtools/vehicles/holonomicorient.py:HolonomicOrient.define_trajectory_constraints", "omgtools/vehicles/holonomicorient.py:HolonomicOrient.splines2signals"]}
{"id": "C57", "title": "Simplified quadrotor in space respects its limits and its model", "statement": "If the trajectory constraints of SimpleQuadrotor3D hold, then thrust, roll rate, pitch rate, roll angle and pitch angle, as reported to the user, are within the user's limits at every instant; and the reported inputs, fed to the vehicle model, reproduce the accelerations and angles of the plan.", "quantifier": "every position spline, every horizon time, every instant, every user limit", "why_tests_cant": "continuum of instants; the constraints are sufficient conditions on numerators only", "anchors": ["omgtools/vehicles/quadrotor3d_simple.py:SimpleQuadrotor3D.define_trajectory_constraints", "omgtools/vehicles/quadrotor3d_simple.py:SimpleQuadrotor3D.splines2signals", "omgtools/vehicles/quadrotor3d_simple.py:SimpleQuadrotor3D.ode"]}
{"id": "C58", "title": "Snapping to the planning grid", "statement": "A point of the room is snapped to the cell whose centre is nearest to it (at most half a cell away in each direction) when that cell is free; when it is occupied and a cell around it is free, to a free cell around it, the closest one. Waypoints are cell centres inside the room, and the waypoint of a free cell snaps back to that cell.", "quantifier": "every room, grid size, set of occupied cells and point of the room, every rounding to nearest", "why_tests_cant": "continuum of points; boundary points round either way", "anchors": ["omgtools/problems/globalplanner.py:Grid.move_to_gridpoint", "omgtools/problems/globalplanner.py:Grid.distance_between_cells", "omgtools/problems/globalplanner.py:AStarPlanner.convert_node_to_waypoint"]}
{"id": "C59", "title": "Cells covered by obstacles are blocked", "statement": "The planner's grid marks exactly the cells that overlap a stationary obstacle enlarged by the offset (its bounding box); no cell twice, and moving obstacles block nothing.", "quantifier": "every room, grid size, offset, list of obstacles of any shape", "why_tests_cant": "all relative positions and sizes of cell and obstacle", "anchors": ["omgtools/problems/globalplanner.py:Grid.get_occupied_cells"]}
{"id": "C60", "title": "Distributed formation links all vehicles and the rendez-vous stops where asked", "statement": "In the distributed formation and rendez-vous problems the coupling constraints join only neighbours and link the whole fleet, so that trajectories that satisfy them are in the configuration the user gave at every instant; when a rendez-vous reports that it is finished, neighbours are within 5 cm of that configuration in every coordinate, and it does finish once they are exactly there.", "quantifier": "every fleet size, interconnection, configuration and set of trajectories", "why_tests_cant": "graph connectivity for all fleet sizes, all trajectories and instants", "anchors": ["omgtools/problems/formation.py:FormationPoint2point.construct", "omgtools/problems/rendezvous.py:RendezVous.construct", "omgtools/problems/rendezvous.py:RendezVous.stop_criterium"]}
{"id": "C61", "title": "A fixed point of the distributed iteration solves the central problem", "statement": "When the distributed (ADMM) iteration no longer changes anything - every vehicle's plan minimises its own augmented objective, the copies and multipliers stay the same - the plans together satisfy all coupling constraints and minimise the sum of the objectives of all vehicles over their joint feasible set.", "quantifier": "every number of vehicles, neighbour graph, convex objectives and feasible sets, linear couplings, penalty parameter", "why_tests_cant": "ranges over all convex problems and graphs", "anchors": ["omgtools/problems/admm.py:ADMM.construct_upd_x", "omgtools/problems/admm.py:ADMM.construct_upd_z", "omgtools/problems/admm.py:ADMM.update_l", "omgtools/problems/admm.py:ADMM.communicate"]}
{"id": "C62", "title": "Reported residuals measure the disagreement in the fleet", "statement": "The primal residual that a distributed problem reports is the Euclidean distance, over the whole fleet, between the variables and the copies that others keep of them; the dual residual is proportional to the change of the copies; they vanish exactly when there is agreement and nothing changes.", "quantifier": "every number of vehicles, every value of the variables and of the penalty", "why_tests_cant": "unbounded real data and fleet size", "anchors": ["omgtools/problems/admm.py:ADMMProblem.dual_update", "omgtools/problems/admm.py:ADMM.construct_upd_res", "omgtools/problems/dualdecomposition.py:DDProblem.dual_update", "omgtools/problems/dualdecomposition.py:DDUpdater.get_residuals"]}
{"id": "C63", "title": "A distributed simulation with an iteration limit ends", "statement": "When the user limits the number of dual iterations, the simulation stops at the first update after which the limit is exceeded, whatever the solvers return, and overshoots by less than one update; arrival of all vehicles also ends the simulation.", "quantifier": "every limit, number of iterations per update, solver behaviour", "why_tests_cant": "termination for every option value and solver outcome", "anchors": ["omgtools/problems/dualmethod.py:DualProblem.stop_criterium", "omgtools/problems/dualmethod.py:DualProblem.solve", "omgtools/execution/simulator.py:Simulator.run"]}
{"id": "C64", "title": "A time in the simulation log is looked up as the closest sample", "statement": "Asking a plot layer for the picture at any simulated time gives the picture of the closest logged sample.", "quantifier": "every sample time, every log, every time between its first and last sample", "why_tests_cant": "continuum of times", "anchors": ["omgtools/execution/simulator.py:Simulator.time2index", "omgtools/execution/plotlayer.py:PlotLayer.plot"]}
{"id": "C65", "title": "A symbol always stands for the variable or parameter it was defined for", "statement": "In a composed problem every variable and parameter of an object stands for itself, and every symbol for the variable or parameter of that name of the one object that defines it; the problem is refused exactly when no object or several objects define it.", "quantifier": "all collections of objects and definitions", "why_tests_cant": "all combinations of labels and names", "anchors": ["omgtools/basics/optilayer.py:OptiFather.translate_symbols", "omgtools/basics/optilayer.py:OptiFather.compose_dictionary", "omgtools/basics/optilayer.py:OptiChild._add_label"]}
{"id": "C66", "title": "Every hyperplane, slack and terminal condition has its own decision variables", "statement": "Two decision variables defined for different segments, shapes, obstacles or vehicles are different variables of the problem.", "quantifier": "all numbers of vehicles, segments, shapes and obstacles", "why_tests_cant": "collisions of generated names appear only in large scenes", "anchors": ["omgtools/environment/environment.py:Environment.define_collision_constraints", "omgtools/environment/environment.py:Environment.define_intervehicle_collision_constraints", "omgtools/vehicles/vehicle.py:Vehicle.define_collision_constraints_2d", "omgtools/problems/point2point.py:FixedTPoint2point.define_terminal_constraints"]}
{"id": "C67", "title": "No constraint is lost", "statement": "After any sequence of definitions an object has one constraint for each definition, in order, with its rows and bounds, and the names of all constraints in the problem differ.", "quantifier": "all sequences of definitions, names and objects", "why_tests_cant": "all histories of definitions", "anchors": ["omgtools/basics/optilayer.py:OptiChild.define_constraint", "omgtools/basics/optilayer.py:OptiFather.construct_constraints"]}
{"id": "C68", "title": "Parameters reach the solver", "statement": "Every parameter gets the value that some object sets for it, or its default value; the update fails exactly when two objects set the same parameter.", "quantifier": "all objects and all sets of values", "why_tests_cant": "all combinations of objects", "anchors": ["omgtools/basics/optilayer.py:OptiFather.set_parameters"]}
{"id": "C69", "title": "Exactly the splines of the chosen segments are shifted", "statement": "Shifting the splines of given segments over an update transforms the variables of these segments and of no other.", "quantifier": "all numbers of segments and all selections", "why_tests_cant": "name parsing differs for large numbers of segments", "anchors": ["omgtools/basics/optilayer.py:OptiFather.transform_primal_splines"]}
{"id": "C70", "title": "The scheduler considers as many frames as it says", "statement": "At every update the number of frames kept by the scheduler equals the number it announces, each frame starts where the one before ends, and with several frames there are always at least two of them or the goal is reached.", "quantifier": "every number of frames and every history of updates", "why_tests_cant": "histories of any length", "anchors": ["omgtools/problems/schedulerproblem.py:SchedulerProblem.create_frames", "omgtools/problems/schedulerproblem.py:SchedulerProblem.update_frames"]}
{"id": "C71", "title": "Corridor frames are free and in the room", "statement": "A corridor frame contains no stationary obstacle, stays in the room, contains the frame it was scaled up from, and its construction ends.", "quantifier": "every room, path, set of obstacles and step size", "why_tests_cant": "any geometry", "anchors": ["omgtools/environment/frame.py:CorridorFrame.create_corridor_base_frame", "omgtools/environment/frame.py:CorridorFrame.scale_up_frame"]}
{"id": "C72", "title": "A frame contains its waypoints", "statement": "The waypoints of a corridor frame are consecutive points of the global path and all lie in the frame.", "quantifier": "every path and set of obstacles", "why_tests_cant": "paths of any length and shape", "anchors": ["omgtools/environment/frame.py:CorridorFrame.create_corridor_base_frame", "omgtools/environment/frame.py:CorridorFrame.update_frame_with_waypoint"]}
{"id": "C73", "title": "A shifted frame ends at its endpoint", "statement": "The endpoint of a frame is its last waypoint, a point the vehicle can be sent to.", "quantifier": "every path, room and option", "why_tests_cant": "any path", "anchors": ["omgtools/environment/frame.py:ShiftFrame.__init__"]}
{"id": "C74", "title": "Reshaping frames into an L loses nothing needed", "statement": "After reshaping, the start position is in the current frame, the last waypoint in the next one, both are free of stationary obstacles, and every point in both frames is still in both.", "quantifier": "every pair of frames, waypoints and obstacles", "why_tests_cant": "any geometry", "anchors": ["omgtools/environment/frame.py:CorridorFrame.create_l_shape"]}
{"id": "C75", "title": "The last waypoint of a frame is reachable", "statement": "After a frame has been made, its last waypoint is in it at a distance of at least the size of the vehicle from every side, and has only been moved back towards the waypoints before it.", "quantifier": "every frame, list of waypoints, size and margin", "why_tests_cant": "any geometry", "anchors": ["omgtools/environment/frame.py:Frame.make_last_waypoint_reachable", "omgtools/environment/frame.py:Frame.distance_to_border"]}
{"id": "C76", "title": "The path is followed from the closest waypoint on", "statement": "The waypoint at which a new frame starts is the one closest to the vehicle, and the first one of several.", "quantifier": "every path and position", "why_tests_cant": "any path", "anchors": ["omgtools/environment/frame.py:Frame.find_closest_waypoint"]}
{"id": "C77", "title": "A shifted frame stays in the room and around the vehicle", "statement": "Shifting a frame towards a waypoint keeps it in the room and keeps the vehicle in it; the waypoint is in the frame, far enough from the sides, whenever the limit on the shift allows it.", "quantifier": "every room, position, waypoint and option", "why_tests_cant": "any geometry", "anchors": ["omgtools/environment/frame.py:ShiftFrame.move_frame"]}
{"id": "C78", "title": "Comments in a GCode line do not change its meaning", "statement": "A line of a GCode program with a comment in parentheses gives the same block as the line without the comment.", "quantifier": "every line, every comment and every place of it", "why_tests_cant": "comments are free text; the words that are read as coordinates are not in the sample programs", "anchors": ["omgtools/gui/gcode_block.py:generate_gcodeblock"]}
{"id": "C79", "title": "Every part of a divided program has blocks", "statement": "No part of the division of a non-empty GCode program is empty, so that every part can be given to a scheduler.", "quantifier": "every list of blocks", "why_tests_cant": "depends on where the vertical movements are in the program", "anchors": ["omgtools/gui/gcode_reader.py:GCodeReader.get_block_division"]}
{"id": "C80", "title": "A reader can read several programs one after the other", "statement": "Running a reader on a program gives the blocks of that program, whatever it read before.", "quantifier": "every history of programs", "why_tests_cant": "ranges over histories of calls", "anchors": ["omgtools/gui/gcode_reader.py:GCodeReader.run", "omgtools/gui/gcode_reader.py:GCodeReader.create_blocks"]}
{"id": "C81", "title": "Subfiles are carried out where they are called", "statement": "The commands read from a file that calls subfiles are those of the file with every call replaced by the subfile, in this order.", "quantifier": "every file and all subfiles", "why_tests_cant": "the order only matters for files with commands behind a call", "anchors": ["omgtools/gui/gcode_reader.py:GCodeReader.read"]}
{"id": "C82", "title": "Shifting and scaling a program moves the whole tool path", "statement": "The blocks of a program that was shifted and scaled are the shifted and scaled blocks of the program, with scaled centre offsets.", "quantifier": "every program, shift and nonzero scaling", "why_tests_cant": "positions that are not given in the program are where the conversion fails", "anchors": ["omgtools/gui/gcode_reader.py:GCodeReader.convert"]}
{"id": "C83", "title": "The connection points of a program are the ends of its blocks", "statement": "The list of connection points has the start and the end of every block.", "quantifier": "every program", "why_tests_cant": "for closed contours the missing point is hidden", "anchors": ["omgtools/gui/gcode_reader.py:GCodeReader.get_connections"]}
{"id": "C84", "title": "A full circle is traced", "statement": "An arc block turns over a positive angle; if its end is its start, over the full circle.", "quantifier": "every arc block", "why_tests_cant": "full circles are a single boundary value of the angle", "anchors": ["omgtools/gui/gcode_block.py:G02.get_coordinates", "omgtools/gui/gcode_block.py:G03.get_coordinates"]}
{"id": "C85", "title": "Arcs end in the programmed point", "statement": "The last coordinate of an arc block is its programmed end, also if the height changes.", "quantifier": "every consistent arc block", "why_tests_cant": "ranges over all arcs in space", "anchors": ["omgtools/gui/gcode_block.py:G03.get_coordinates"]}
{"id": "C86", "title": "A program can be scheduled more than once", "statement": "Creating a scheduler for a program does not change the program, so another scheduler can be created for it.", "quantifier": "every program and option for splitting circles", "why_tests_cant": "the fault depends on the history of uses of the same objects", "anchors": ["omgtools/problems/gcodeschedulerproblem.py:GCodeSchedulerProblem.split_ring_segment", "omgtools/problems/gcodeschedulerproblem.py:GCodeSchedulerProblem.get_environment"]}
{"id": "C87", "title": "The room of a straight block lies within the tolerance", "statement": "Every point of the room of a straight block is at most the tolerance away from the line of the segment and at most the tolerance before its start or behind its end.", "quantifier": "every straight block, tolerance and point", "why_tests_cant": "points and blocks form a continuum; vertical movements are the exception", "anchors": ["omgtools/problems/gcodeschedulerproblem.py:GCodeSchedulerProblem.get_environment"]}
{"id": "C88", "title": "Rooms are numbered in the order of the program", "statement": "The number of every room of a program is its place in the list of rooms.", "quantifier": "every program and every combination of the options for splitting", "why_tests_cant": "only combinations of options with certain arcs break the numbers", "anchors": ["omgtools/problems/gcodeschedulerproblem.py:GCodeSchedulerProblem.get_environment", "omgtools/problems/gcodeschedulerproblem.py:GCodeSchedulerProblem.split_ring_segment"]}
{"id": "C89", "title": "The room of an arc holds the arc with its tolerance", "statement": "Every point that is at most the tolerance away from an arc is in the room of the arc.", "quantifier": "every arc, tolerance and point", "why_tests_cant": "points form a continuum; arcs that nearly close a circle are the exception", "anchors": ["omgtools/problems/gcodeschedulerproblem.py:GCodeSchedulerProblem.get_environment", "omgtools/basics/shape.py:Ring.get_surfaces"]}
{"id": "C90", "title": "The GCode scheduler stops only at the end of the program", "statement": "The scheduler only reports that the goal is reached while the tool is on the last segment of the program.", "quantifier": "every program, window size and history of updates", "why_tests_cant": "ranges over programs that pass the goal before their end", "anchors": ["omgtools/problems/gcodeschedulerproblem.py:GCodeSchedulerProblem.stop_criterium"]}
{"id": "C91", "title": "Obstacles placed in the window lie in the room", "statement": "An obstacle placed by clicking inside the frame of the environment window has its centre inside the room of the environment that is built.", "quantifier": "every window size, position, number of cells, click and shape", "why_tests_cant": "all sizes and clicks", "anchors": ["omgtools/gui/gui.py:EnvironmentGUI.make_obstacle", "omgtools/gui/gui.py:EnvironmentGUI.snap_to_grid", "omgtools/gui/gui.py:EnvironmentGUI.build_environment"]}
{"id": "C92", "title": "Start and goal use the same coordinates as obstacles", "statement": "A right click and a left click on the same grid point of the window give the same position in the world, and a start or goal clicked in the frame lies in the room.", "quantifier": "every window size and position, every click", "why_tests_cant": "all window positions", "anchors": ["omgtools/gui/gui.py:EnvironmentGUI.get_position", "omgtools/gui/gui.py:EnvironmentGUI.make_obstacle"]}
{"id": "C93", "title": "The window shows the obstacles of the environment", "statement": "After every sequence of actions (placing, selecting, removing, moving, saving, loading) the window shows exactly the obstacles of the environment that will be built, each at its place.", "quantifier": "every sequence of user actions", "why_tests_cant": "all histories", "anchors": ["omgtools/gui/gui.py:EnvironmentGUI.remove_obstacle", "omgtools/gui/gui.py:EnvironmentGUI.move_obstacle", "omgtools/gui/gui.py:EnvironmentGUI.load_environment"]}
{"id": "C94", "title": "Clicking selects the obstacle under the mouse", "statement": "With 'Select shape' a click selects an obstacle exactly if the (snapped) point lies in an obstacle, and the selected one contains the point.", "quantifier": "every list of obstacles and click", "why_tests_cant": "all configurations", "anchors": ["omgtools/gui/gui.py:EnvironmentGUI.make_obstacle"]}
{"id": "C95", "title": "Start and goal are the last two right clicks", "statement": "Whatever else is done in between, the two stored positions are those of the last two right clicks, in order.", "quantifier": "every sequence of actions", "why_tests_cant": "all histories", "anchors": ["omgtools/gui/gui.py:EnvironmentGUI.get_position"]}
{"id": "C96", "title": "Clicks snap to the nearest grid point", "statement": "The snapped position is a grid point and no grid point is nearer in either direction.", "quantifier": "every cell size and click", "why_tests_cant": "all clicks", "anchors": ["omgtools/gui/gui.py:EnvironmentGUI.snap_to_grid"]}
{"id": "C97", "title": "The grid covers the frame", "statement": "Every point of the frame lies in a cell of the drawn grid, for every number of cells in the two directions.", "quantifier": "every frame size and number of cells", "why_tests_cant": "all sizes", "anchors": ["omgtools/gui/gui.py:EnvironmentGUI.__init__", "omgtools/gui/gui.py:EnvironmentGUI.reinitialize", "omgtools/gui/gui.py:EnvironmentGUI.draw_grid"]}
{"id": "C98", "title": "Obstacles larger than the frame are refused", "statement": "A shape is accepted only if its extent is positive and smaller than the frame in both directions.", "quantifier": "every shape and frame", "why_tests_cant": "all sizes", "anchors": ["omgtools/gui/gui.py:EnvironmentGUI.make_obstacle"]}
{"id": "C99", "title": "Start and goal keep the margin to the border", "statement": "Positions returned with a margin are at least that margin away from the border of the frame; positions that were already are unchanged.", "quantifier": "every click, frame and margin", "why_tests_cant": "all positions", "anchors": ["omgtools/gui/gui.py:EnvironmentGUI.get_clicked_positions"]}
{"id": "C100", "title": "Shapes of a drawing become the same obstacles", "statement": "A rectangle or circle in an SVG file becomes an obstacle that covers exactly the points of the drawn shape.", "quantifier": "every shape, transform, scale and point", "why_tests_cant": "all drawings", "anchors": ["omgtools/gui/svg_reader.py:SVGReader.convert_basic_shapes", "omgtools/gui/gui.py:EnvironmentGUI.add_obstacle"]}
{"id": "C101", "title": "Lines of a drawing become their strokes", "statement": "A horizontal or vertical line in an SVG file becomes a rectangle that covers the stroke of the line, whichever way it is drawn.", "quantifier": "every line and stroke width", "why_tests_cant": "all drawings", "anchors": ["omgtools/gui/svg_reader.py:SVGReader.convert_lines"]}
{"id": "C102", "title": "Arcs of a drawing get the centre of their circle", "statement": "The centre of an arc computed from three of its points has the same distance to the three.", "quantifier": "every three points not on a line", "why_tests_cant": "all arcs", "anchors": ["omgtools/gui/svg_reader.py:SVGReader.get_gcode_description"]}
{"id": "C103", "title": "The lines of a drawing are cut", "statement": "The GCode program made of a drawing cuts each line of the drawing, in order, and nothing else.", "quantifier": "every list of lines", "why_tests_cant": "all drawings", "anchors": ["omgtools/gui/svg_reader.py:SVGReader.get_gcode_description"]}
{"id": "C104", "title": "Exported bounds switch constraints off exactly when required", "statement": "After updateBounds of the exported code, whatever happened in earlier updates, a constraint row is unbounded exactly when its shutdown condition holds at the current time or it belongs to an obstacle that is not to be avoided; otherwise it has the bounds of the problem.", "quantifier": "every list of constraints and obstacles, every history of updates", "why_tests_cant": "histories of times and avoid flags are unbounded", "anchors": ["omgtools/export/export.py:Export._create_updateBounds"]}
{"id": "C105", "title": "Each spline of an exported problem is moved with its own matrix", "statement": "When the exported code moves the splines over a knot, it uses for each spline variable the transformation matrix of the basis of that variable.", "quantifier": "every set of spline variables, names and bases", "why_tests_cant": "names and bases are chosen by the objects of the problem", "anchors": ["omgtools/export/export.py:Export._create_spline_tf", "omgtools/export/export.py:Export._create_initSplines"]}
{"id": "C106", "title": "The exported vehicle evaluates splines and derivatives correctly", "statement": "The states and inputs sampled by the exported vehicle are the values and the time derivatives of the splines with the given coefficients over the horizon.", "quantifier": "every degree, number of knot intervals, horizon, coefficients and sample time", "why_tests_cant": "all coefficients and times", "anchors": ["omgtools/export/vehicles/Vehicle.cpp:Vehicle::sampleSplines", "omgtools/export/vehicles/Vehicle.cpp:Vehicle::createDerivativeMatrices", "omgtools/export/vehicles/Vehicle.cpp:Vehicle::evalSpline"]}
{"id": "C107", "title": "The exported vehicle gets the coefficients of its splines", "statement": "After a solve, the coefficients of each spline of the exported vehicle are those of the same spline in the solution.", "quantifier": "every solution and number of knot intervals", "why_tests_cant": "all solutions and settings", "anchors": ["omgtools/export/point2point/Point2Point.cpp:Point2Point::extractData", "omgtools/export/vehicles/Holonomic.cpp:Holonomic::Holonomic"]}
{"id": "C108", "title": "The exported vehicle predicts the state it reaches", "statement": "The state the exported vehicle predicts for the next update is the state reached by following the inputs of the last trajectory.", "quantifier": "every input trajectory, shift, number of steps and sample time", "why_tests_cant": "all input trajectories", "anchors": ["omgtools/export/vehicles/Vehicle.cpp:Vehicle::integrate", "omgtools/export/vehicles/Vehicle.cpp:Vehicle::predict"]}
{"id": "C109", "title": "Exported updates start from coefficients of the current knot interval", "statement": "In every sequence of updates, failed or successful, recoveries and resets of the time, the coefficients the solver starts from describe the motion over the horizon that starts in the knot interval of the current time.", "quantifier": "every sequence of calls, solver answers and shifts", "why_tests_cant": "histories are unbounded", "anchors": ["omgtools/export/point2point/Point2Point.cpp:Point2Point::update", "omgtools/export/point2point/Point2Point.cpp:Point2Point::solve", "omgtools/export/export.py:Export._create_transformSplines"]}
{"id": "C110", "title": "A failed exported update can be retried", "statement": "After an update that failed, the same call solves the problem for the same time; time advances with successful updates only.", "quantifier": "every sequence of calls and solver answers", "why_tests_cant": "histories are unbounded", "anchors": ["omgtools/export/point2point/Point2Point.cpp:Point2Point::update"]}
{"id": "C111", "title": "The exported time parameter agrees with the knot interval", "statement": "At every solve the time in the knot interval that is given to the exported problem, counted from the knot the coefficients refer to, is the current time.", "quantifier": "every sequence of updates, update time, sample time and knot interval", "why_tests_cant": "all times", "anchors": ["omgtools/export/point2point/Point2Point.cpp:Point2Point::fillParameterDict", "omgtools/export/point2point/Point2Point.cpp:Point2Point::retrieveTrajectories"]}
{"id": "C112", "title": "The steps of an exported distributed iteration refer to one time", "statement": "The z-update and the residuals of an iteration of an exported distributed problem are computed for the time of its x-update.", "quantifier": "every iteration and shift", "why_tests_cant": "all iterations", "anchors": ["omgtools/export/point2point/admm/ADMMPoint2Point.cpp:ADMMPoint2Point::update1", "omgtools/export/point2point/admm/ADMMPoint2Point.cpp:ADMMPoint2Point::solveUpdz"]}
{"id": "C113", "title": "The exported initial guess goes straight from the state to the target", "statement": "The initial guess of the exported holonomic vehicle starts at the state, ends at the target and stays on the segment between them over the whole horizon.", "quantifier": "every state, target, degree, number of knot intervals and time", "why_tests_cant": "all times of the horizon", "anchors": ["omgtools/export/vehicles/Holonomic.cpp:Holonomic::getInitSplineValue"]}
{"id": "C114", "title": "Shared splines are moved over knots", "statement": "When an exported distributed problem moves over a knot, every shared spline is multiplied by its matrix in the shared vectors and the other shared variables keep their values; the shared vector lists the shared entries in order.", "quantifier": "every list of shared variables and values", "why_tests_cant": "all layouts of shared variables", "anchors": ["omgtools/export/export_admm.py:ExportADMM._create_transformSharedSplines", "omgtools/export/export_admm.py:ExportADMM._create_retrieveSharedVariables"]}
{"id": "C115", "title": "Exported files are named after their sources", "statement": "The exported file has the path and name of the target with the namespace in front of the extension, different files get different names, and the label can be taken off again.", "quantifier": "every directory, file name and namespace", "why_tests_cant": "all strings", "anchors": ["omgtools/export/export.py:Export.add_label", "omgtools/export/export.py:Export.rmv_label"]}
{"id": "C116", "title": "An iteration of an exported distributed problem can be taken back", "statement": "After stepBack the next iteration is the one taken back: same number, same time, no second move of the splines.", "quantifier": "every state and number of iterations taken back", "why_tests_cant": "all states", "anchors": ["omgtools/export/point2point/admm/ADMMPoint2Point.cpp:ADMMPoint2Point::stepBack"]}
{"id": "C117", "title": "Every word of a GCode line has its own meaning", "statement": "The type of a line is that of its command, each coordinate of the line has the value written behind its letter, and what is not written has no value.", "quantifier": "every line", "why_tests_cant": "all lines", "anchors": ["omgtools/gui/gcode_block.py:generate_gcodeblock"]}
{"id": "C118", "title": "Moving the start of the first interval keeps the trajectory", "statement": "shift_knot1_fwd returns coefficients that describe the same trajectory from the new start on the moved knots, and shift_knot1_bwd undoes it.", "quantifier": "every clamped basis, coefficients and start in the first knot interval", "why_tests_cant": "all degrees, knots, coefficients and shifts", "anchors": ["omgtools/basics/spline_extra.py:shiftfirstknot_T", "omgtools/basics/spline_extra.py:shift_knot1_fwd", "omgtools/basics/spline_extra.py:shift_knot1_bwd"]}
{"id": "C119", "title": "Extrapolating a trajectory continues its last piece", "statement": "extrapolate returns a trajectory that agrees with the given one on its interval and continues the polynomial of the last piece over the added time.", "quantifier": "every clamped basis, coefficients and added time", "why_tests_cant": "all degrees, knots, coefficients and times", "anchors": ["omgtools/basics/spline_extra.py:extrapolate_T", "omgtools/basics/spline_extra.py:extrapolate"]}
{"id": "C120", "title": "Shifting over a knot keeps the rest of the trajectory", "statement": "shift_over_knot returns coefficients that describe, one knot interval later, the rest of the trajectory, with the last polynomial continued in the new interval.", "quantifier": "every clamped basis and coefficients", "why_tests_cant": "all degrees, knots and coefficients", "anchors": ["omgtools/basics/spline_extra.py:shiftoverknot_T", "omgtools/basics/spline_extra.py:shift_over_knot"]}
{"id": "C121", "title": "Concatenated trajectories are the segments one after the other", "statement": "concat_splines returns trajectories that at each time have the value of the segment of that time, whatever the number of segments and components, their durations and their continuity at the joints.", "quantifier": "every list of segments, durations, components, degree and knots", "why_tests_cant": "all segments, values and continuities", "anchors": ["omgtools/basics/spline_extra.py:concat_splines", "omgtools/vehicles/vehicle.py:Vehicle.store"]}
{"id": "C122", "title": "A planned motion starts in the predicted state", "statement": "The first sample of the signals computed from a solution that meets the initial constraints is the predicted state of the vehicle, with the predicted inputs.", "quantifier": "every vehicle type, solution, prediction, horizon time and time of update", "why_tests_cant": "all real states, splines and histories of updates", "anchors": ["omgtools/problems/point2point.py:Point2pointProblem.define_init_constraints", "omgtools/vehicles/holonomic.py:Holonomic.get_initial_constraints", "omgtools/vehicles/tool.py:Tool.get_initial_constraints", "omgtools/vehicles/holonomicorient.py:HolonomicOrient.get_initial_constraints", "omgtools/vehicles/dubins.py:Dubins.splines2signals", "omgtools/vehicles/bicycle.py:Bicycle.get_initial_constraints", "omgtools/vehicles/agv.py:AGV.get_initial_constraints", "omgtools/vehicles/quadrotor.py:Quadrotor.set_parameters", "omgtools/vehicles/quadrotor3d.py:Quadrotor3D.get_initial_constraints", "omgtools/vehicles/quadrotor3d_simple.py:SimpleQuadrotor3D.set_parameters", "omgtools/vehicles/trailer.py:Trailer.set_initial_conditions"]}
{"id": "C123", "title": "A planned motion ends at the goal, at standstill", "statement": "The last sample of the signals computed from a solution that meets the terminal constraints is the requested terminal state, with all velocities and rates zero and the thrust of hovering.", "quantifier": "every vehicle type, solution, goal, horizon time, time of update and choice of the terminal options", "why_tests_cant": "all real goals and splines; unit tests run a handful of goals", "anchors": ["omgtools/problems/point2point.py:FixedTPoint2point.define_terminal_constraints", "omgtools/problems/point2point.py:FreeTPoint2point.define_terminal_constraints", "omgtools/vehicles/holonomic.py:Holonomic.get_terminal_constraints", "omgtools/vehicles/holonomicorient.py:HolonomicOrient.get_terminal_constraints", "omgtools/vehicles/dubins.py:Dubins.get_terminal_constraints", "omgtools/vehicles/bicycle.py:Bicycle.get_terminal_constraints", "omgtools/vehicles/agv.py:AGV.get_terminal_constraints", "omgtools/vehicles/quadrotor.py:Quadrotor.get_terminal_constraints", "omgtools/vehicles/quadrotor3d.py:Quadrotor3D.get_terminal_constraints", "omgtools/vehicles/quadrotor3d_simple.py:SimpleQuadrotor3D.get_terminal_constraints", "omgtools/vehicles/trailer.py:Trailer.get_terminal_constraints", "omgtools/vehicles/tool.py:Tool.get_terminal_constraints"]}
{"id": "C124", "title": "With soft terminal constraints the minimised slack bounds the distance to the goal", "statement": "If the terminal constraints are soft, the distance of each coordinate to the goal is at every time of the motion at most the slack whose integral is minimised, and the planned motion still ends at standstill.", "quantifier": "every holonomic vehicle, solution, slack, goal and horizon time", "why_tests_cant": "a statement about every time of the horizon and every slack spline", "anchors": ["omgtools/problems/point2point.py:FixedTPoint2point.define_terminal_constraints"]}
{"id": "C125", "title": "Vehicles of a rendez-vous stop at the meeting point", "statement": "In a problem with free end point every vehicle ends at the meeting point, at standstill.", "quantifier": "every vehicle, solution and choice of free coordinates", "why_tests_cant": "quantifies over all solutions that meet the constraints, a test sees the one a solver returns", "anchors": ["omgtools/problems/point2point.py:FreeEndPoint2point.define_terminal_constraints", "omgtools/problems/rendezvous.py:RendezVous"]}
{"id": "C126", "title": "An update plans from where the vehicle will be at that instant", "statement": "The state from which an update plans is the one the previous plan has at the time of the update: the planned sample of that time with ideal prediction, or the result of integrating the planned inputs from the time of the measured state on.", "quantifier": "every update time that is a number of samples, every time of update, every plan and every signal history", "why_tests_cant": "the time between two updates is arbitrary in a real deployment, tests update at multiples of the update time", "anchors": ["omgtools/execution/deployer.py:Deployer.update", "omgtools/vehicles/vehicle.py:Vehicle.predict"]}
{"id": "C127", "title": "The simulated motion follows the plans without jumps", "statement": "In a simulation the signals between two updates are the samples of the plan made by the first of them, at consecutive sample times; each update plans from the last logged state, so if plans start where they are predicted the motion has no jumps; a bound that holds along all plans holds for everything that is logged.", "quantifier": "every sequence of plans of any length, every sample time and number of samples per update", "why_tests_cant": "an induction over all updates of a simulation", "anchors": ["omgtools/execution/simulator.py:Simulator.run", "omgtools/execution/simulator.py:Simulator.update_timing", "omgtools/execution/deployer.py:Deployer.update", "omgtools/vehicles/vehicle.py:Vehicle.predict", "omgtools/vehicles/vehicle.py:Vehicle.simulate"]}
{"id": "C128", "title": "A vehicle that is told to wait stays where it is", "statement": "During a sleep of the simulator the vehicle stands still in the position and with zero velocity it has when the sleep begins.", "quantifier": "every plan, every sleep time, every instant of the sleep", "why_tests_cant": "all instants of all plans of any degree", "anchors": ["omgtools/problems/problem.py:Problem.sleep", "omgtools/execution/simulator.py:Simulator.sleep"]}
{"id": "C129", "title": "The reported objective measures the executed motion", "statement": "After a simulation of a fixed-time problem the reported objective is the slack on the distance to the goal along the executed motion, integrated over time, hence at least the integrated distance; after a simulation of a free-time problem it is the time the vehicle moved.", "quantifier": "every number of vehicles, every sequence of updates of any length, all plans that meet the constraints", "why_tests_cant": "an integral over all instants and an induction over all updates", "anchors": ["omgtools/problems/point2point.py:FixedTPoint2point.simulate", "omgtools/problems/point2point.py:FixedTPoint2point.compute_partial_objective", "omgtools/problems/point2point.py:FixedTPoint2point.compute_objective", "omgtools/problems/point2point.py:FreeTPoint2point.simulate", "omgtools/problems/point2point.py:FreeTPoint2point.stop_criterium"]}
{"id": "C130", "title": "The initial guess of a free-time update is the rest of the plan", "statement": "At an update of a free-time problem the optimiser starts from the part of the previous plan that is not executed yet: it starts where that plan is one update time after its beginning, ends where it ends, and its motion time is what is left.", "quantifier": "every plan of any degree, every motion time and update time", "why_tests_cant": "all plans and all ratios of update time and motion time", "anchors": ["omgtools/problems/point2point.py:FreeTPoint2point.init_step", "omgtools/basics/spline_extra.py:shift_spline"]}
{"id": "C131", "title": "The plan shown for an instant is the one being executed", "statement": "For every logged instant the plan remembered by the vehicle is the one made by the last update before it, and the signals at that instant are a sample of it.", "quantifier": "every sequence of plans, every number of samples per update, every logged instant", "why_tests_cant": "an induction over all updates", "anchors": ["omgtools/vehicles/vehicle.py:Vehicle.simulate", "omgtools/vehicles/vehicle.py:Vehicle._add_to_memory"]}
{"id": "C132", "title": "A movie shows the simulation in the requested number of frames", "statement": "A movie with a requested number of frames consists of that many equally spaced instants from the beginning to the end of the simulation.", "quantifier": "every number of logged instants and every requested number of frames", "why_tests_cant": "all pairs of numbers", "anchors": ["omgtools/execution/plotlayer.py:PlotLayer.plot_movie", "omgtools/execution/plotlayer.py:PlotLayer.save_movie"]}
{"id": "C133", "title": "Machining records the accepted segments and retries the rejected ones", "statement": "When GCode is machined segment by segment, the recorded positions and velocities are those of the plans the solver succeeded on, one after the other; a plan it did not succeed on is dropped and planned again from the same position and velocity; the time of a plan is the machining time before it; the machining is only given up if one segment fails more than twenty times.", "quantifier": "every sequence of solver answers of any length", "why_tests_cant": "all histories of accepted and rejected plans", "anchors": ["omgtools/execution/deployer.py:Deployer.update_segment", "omgtools/execution/deployer.py:Deployer.check_results", "omgtools/problems/gcodeschedulerproblem.py:GCodeSchedulerProblem.solve"]}
{"id": "C134", "title": "The machine tool respects its velocity, acceleration and jerk limits", "statement": "During a planned machining motion of any number of segments, the velocity (of the process, or of each axis), the accelerations and the jerks of the axes are within the limits the user gave, at every instant.", "quantifier": "all limits, all plans the solver can return and all instants of them", "why_tests_cant": "a plan is only checked at coefficients; limits must hold at all instants of all feasible plans", "anchors": ["omgtools/vehicles/tool.py:Tool.__init__", "omgtools/vehicles/tool.py:Tool.define_trajectory_constraints", "omgtools/problems/gcodeproblem.py:GCodeProblem.construct"]}
{"id": "C135", "title": "The machine tool stays within the tolerance of its path", "statement": "At every instant of a planned machining motion the tool is within the tolerance of the programmed segment (straight or arc), at the height of the segment.", "quantifier": "all blocks, all tolerances, all plans that meet the constraints and all instants of them", "why_tests_cant": "all feasible plans and all instants", "anchors": ["omgtools/vehicles/tool.py:Tool.define_collision_constraints", "omgtools/problems/gcodeschedulerproblem.py:GCodeSchedulerProblem.get_environment", "omgtools/basics/shape.py:Rectangle.get_canvas_limits"]}
{"id": "C136", "title": "Sums and products of splines on the same horizon exist and are unique", "statement": "Adding or multiplying two splines on the same horizon always succeeds, and an expression of splines has one value.", "quantifier": "all pairs of splines on the same horizon, all expressions of splines", "why_tests_cant": "whether a linear system is regular for every choice of knots and degrees cannot be sampled", "anchors": ["omgtools/basics/spline.py:BSplineBasis.transform", "omgtools/basics/spline.py:BSpline.__add__", "omgtools/basics/spline.py:BSpline.__mul__"]}
{"id": "C137", "title": "Dual decomposition solves the fleet's problem when it settles", "statement": "When an iteration of dual decomposition leaves the prices unchanged, the trajectories satisfy all constraints and are optimal for the whole fleet; every iteration gives a lower bound of the optimum; with the default step the vehicles come to agree.", "quantifier": "all fleets, objectives, constraints, step sizes and runs, including moves over knots", "why_tests_cant": "statements about every run of an iterative method and about optimality among all trajectories", "anchors": ["omgtools/problems/dualdecomposition.py:DDUpdater.construct_upd_xz", "omgtools/problems/dualdecomposition.py:DDUpdater.construct_upd_l", "omgtools/problems/dualdecomposition.py:DDUpdater.communicate", "omgtools/problems/dualdecomposition.py:DDProblem.dual_update"]}
{"id": "C138", "title": "Between knots only the remaining part of the trajectories is compared", "statement": "Also between two knots a vehicle whose trajectory agrees with all copies is not charged for a difference, because all shared splines are moved to the current time.", "quantifier": "all bases, splines, numbers of neighbours and times in the first knot interval", "why_tests_cant": "ranges over all splines and times", "anchors": ["omgtools/problems/dualmethod.py:DualUpdater._transform_spline", "omgtools/problems/admm.py:ADMM.construct_upd_x", "omgtools/problems/dualdecomposition.py:DDUpdater.construct_upd_xz"]}
{"id": "C139", "title": "Every vehicle of a fleet solves its own problem", "statement": "In a distributed problem the trajectory of every vehicle is planned with the limits, shape and weights of that vehicle.", "quantifier": "all fleets", "why_tests_cant": "ranges over all compositions of a fleet", "anchors": ["omgtools/problems/distributedproblem.py:DistributedProblem.init", "omgtools/problems/distributedproblem.py:DistributedProblem.separate_per_build", "omgtools/vehicles/fleet.py:Fleet.sort_vehicles"]}
{"id": "C140", "title": "The global path is a shortest path", "statement": "The path that the global planner returns is no longer than any other path over free cells from start to goal.", "quantifier": "all grids, cell sizes, obstacles, starts and goals, and all other paths", "why_tests_cant": "compares the returned path with every path on every grid", "anchors": ["omgtools/problems/globalplanner.py:AStarPlanner.get_path", "omgtools/problems/globalplanner.py:AStarPlanner.calculate_g_cost", "omgtools/problems/globalplanner.py:AStarPlanner.calculate_h_cost", "omgtools/problems/globalplanner.py:AStarPlanner.get_lowest_f_cost_node"]}
{"id": "C141", "title": "A rotating obstacle is predicted in its true orientation", "statement": "At every time of the horizon, in every segment, the constraints place an obstacle in the orientation that it has at that time when it keeps turning at its measured rate from its measured orientation.", "quantifier": "all orientations, angular velocities, horizons, segments, measurement times and times of the horizon", "why_tests_cant": "the rational spline must agree with sine and cosine at every time and for every number of turns in the horizon", "anchors": ["omgtools/environment/obstacle.py:Obstacle2D.init", "omgtools/environment/obstacle.py:Obstacle2D.set_parameters", "omgtools/environment/obstacle.py:Obstacle2D.set_state", "omgtools/basics/spline_extra.py:get_interval_T"]}
{"id": "C142", "title": "A simulated obstacle moves as described", "statement": "At every sample of a simulation, divided in steps in any way, position, velocity and acceleration of an obstacle are those of the motion with its initial state and its model, with every listed change added from its time on.", "quantifier": "all initial states, lists of changes, models, and sequences of simulation steps", "why_tests_cant": "the motion depends on all changes and on every division of the simulation in steps", "anchors": ["omgtools/environment/obstacle.py:ObstaclexD.__init__", "omgtools/environment/obstacle.py:ObstaclexD.prepare_simulation", "omgtools/environment/obstacle.py:ObstaclexD._ode", "omgtools/environment/obstacle.py:ObstaclexD.simulate"]}
{"id": "C143", "title": "The predicted machining time is the least time", "statement": "The time predicted for a segment, when the tool starts and ends at standstill, is the least time in which a path of its length can be covered with limited velocity, acceleration and jerk; the prediction for a program is the sum over its segments.", "quantifier": "all segments, programs and positive limits, against every motion that respects the limits", "why_tests_cant": "the claim compares with all motions, of any duration", "anchors": ["omgtools/problems/gcodeschedulerproblem.py:GCodeSchedulerProblem.get_init_guess_motion_time", "omgtools/problems/gcodeschedulerproblem.py:GCodeSchedulerProblem.get_init_guess_total_motion_time"]}
{"id": "C144", "title": "The initial guess for a frame follows the waypoints", "statement": "The guessed trajectory for a new frame starts in the first waypoint, follows the waypoints in the frame and comes to rest in the last one, and the guessed motion time is the time to travel along them with half of the highest velocity.", "quantifier": "all lists of waypoints and all spline bases", "why_tests_cant": "all paths through a frame", "anchors": ["omgtools/problems/schedulerproblem.py:SchedulerProblem.get_init_guess_new_frame"]}
{"id": "C145", "title": "Contact between simulated obstacles is detected exactly", "statement": "While an environment is simulated, an obstacle is found to overlap with another one exactly when they have a point in common, and found to be outside of its room exactly when some part of it is; the answer does not depend on which obstacle is asked.", "quantifier": "all pairs of obstacles with all shapes, positions and orientations, and all rooms", "why_tests_cant": "all shapes and placements, a continuum", "anchors": ["omgtools/environment/obstacle.py:Obstacle2D.overlaps_with", "omgtools/environment/obstacle.py:Obstacle2D.is_outside_of", "omgtools/basics/geometry.py:circle_polyhedron_intersection", "omgtools/basics/geometry.py:rectangles_overlap"]}
{"id": "C146", "title": "The solver gets the problem as it was written", "statement": "For all values of variables and parameters, the objective that the solver computes is the sum of the objectives defined by all objects, and its constraints are the defined ones, every symbol having the value of the variable or parameter that it stands for; with free motion time, everything written with the motion time depends on the variable.", "quantifier": "all sets of objects, expressions, and values of variables and parameters", "why_tests_cant": "all expressions and all values", "anchors": ["omgtools/basics/optilayer.py:OptiFather._substitute_symbols", "omgtools/basics/optilayer.py:OptiFather.construct_objective", "omgtools/basics/optilayer.py:OptiFather.construct_constraints", "omgtools/problems/point2point.py:FreeTPoint2point.construct"]}
{"id": "C147", "title": "Constraints are switched off exactly while asked for", "statement": "At every update a constraint has the bounds it was defined with, except while the condition given for switching it off holds, whatever updates came before.", "quantifier": "all constraints, conditions and sequences of update times", "why_tests_cant": "all histories of updates", "anchors": ["omgtools/basics/optilayer.py:OptiFather.update_bounds"]}
{"id": "C148", "title": "The initial guess goes straight to the goal and through the rooms", "statement": "For every predicted position and goal, the initial guess of a vehicle whose splines are its coordinates starts at the position, ends at the goal and stays on the straight segment in between. With several rooms, a guess is found exactly when consecutive rooms overlap, every piece of it stays in its room and ends where the next starts.", "quantifier": "all positions, goals, numbers of knot intervals, degrees and sequences of rooms", "why_tests_cant": "all positions and rooms, and all times of the horizon", "anchors": ["omgtools/vehicles/holonomic.py:Holonomic.get_init_spline_value", "omgtools/vehicles/holonomic1d.py:Holonomic1D.get_init_spline_value", "omgtools/vehicles/holonomic3d.py:Holonomic3D.get_init_spline_value", "omgtools/vehicles/holonomicorient.py:HolonomicOrient.get_init_spline_value", "omgtools/vehicles/quadrotor.py:Quadrotor.get_init_spline_value", "omgtools/vehicles/quadrotor3d_simple.py:SimpleQuadrotor3D.get_init_spline_value", "omgtools/problems/multiframeproblem.py:MultiFrameProblem.reinitialize"]}
{"id": "C149", "title": "The initial guess can be reset", "statement": "Resetting the initial guess without giving one, as is done after the solver ran out of time, stores the guesses of all vehicles; a given guess is accepted exactly when it has one array per segment with one column per spline, and is then stored for each segment of every vehicle.", "quantifier": "all lists of vehicles and all given guesses", "why_tests_cant": "all fleets and all shapes of guesses", "anchors": ["omgtools/problems/problem.py:Problem.reset_init_guess"]}
{"id": "C150", "title": "The initial guess of an update over several frames is the rest of the plan", "statement": "At every update after the first, the initial guess starts where the plan is at that instant, ends where the plan ends, its segments connect, and the guessed motion times are those that are left.", "quantifier": "all plans, motion times of the frames and update times", "why_tests_cant": "all trajectories and all motion times", "anchors": ["omgtools/problems/multiframeproblem.py:MultiFrameProblem.init_step", "omgtools/basics/spline_extra.py:shift_spline"]}
{"id": "C151", "title": "A shape has the dimensions it was given", "statement": "The area of a rectangle, regular polygon, prism or cuboid is exactly the one described by its arguments, orientations in space turn it without deforming it, and the canvas limits of a planar shape are the exact limits of what it covers.", "quantifier": "all dimensions, numbers of sides, orientations and polygons", "why_tests_cant": "all real dimensions, all numbers of sides and all orientations", "anchors": ["omgtools/basics/shape.py:RegularPolyhedron.get_vertices", "omgtools/basics/shape.py:Rectangle.get_vertices", "omgtools/basics/shape.py:Polyhedron.get_canvas_limits", "omgtools/basics/shape.py:Shape3D.rotate", "omgtools/basics/shape.py:RegularPrisma.get_vertices", "omgtools/basics/shape.py:Cuboid.get_vertices", "omgtools/basics/shape.py:Plate", "omgtools/basics/shape.py:Beam"]}
{"id": "C152", "title": "When a run with free motion time ends, the vehicle is at the goal", "statement": "A simulation with free motion time (also over several frames) ends only when the vehicle meets the terminal conditions, or has carried out its plan to the goal.", "quantifier": "all sequences of plans, motion times, sample and update times", "why_tests_cant": "all sequences of plans and all motion times relative to the sample time", "anchors": ["omgtools/problems/multiframeproblem.py:MultiFrameProblem.store", "omgtools/problems/multiframeproblem.py:MultiFrameProblem.simulate", "omgtools/problems/multiframeproblem.py:MultiFrameProblem.stop_criterium", "omgtools/problems/point2point.py:FreeTPoint2point.stop_criterium", "omgtools/problems/point2point.py:FreeTPoint2point.simulate", "omgtools/vehicles/vehicle.py:Vehicle.simulate", "omgtools/execution/simulator.py:Simulator.run"]}
{"id": "C153", "title": "The tool moves on to the next segment exactly when it is in it", "statement": "The scheduler of a machining program leaves a segment that is not the last one exactly when the tool, with its radius as margin, is inside the next segment taken as endless; the current segment has then been passed.", "quantifier": "all segments (rectangles of any size and direction, rings), positions of the tool and tool radii", "why_tests_cant": "all positions, directions and dimensions", "anchors": ["omgtools/problems/gcodeschedulerproblem.py:GCodeSchedulerProblem.point_in_extended_shape", "omgtools/problems/gcodeschedulerproblem.py:GCodeSchedulerProblem.check_segments"]}
{"id": "C154", "title": "The first guess for a straight machining segment is a feasible move", "statement": "For a straight segment the scheduler of a machining program first guesses a trajectory with jerk at its limits: it exists, follows the segment from standstill at its start to standstill at its end, and respects the limits of the tool on velocity, acceleration and jerk.", "quantifier": "all start and end points, all limits and all numbers of knot intervals", "why_tests_cant": "all numbers of intervals, points and limits, at all instants of the trajectory", "anchors": ["omgtools/problems/gcodeschedulerproblem.py:GCodeSchedulerProblem.get_init_guess_new_segment", "omgtools/problems/gcodeschedulerproblem.py:GCodeSchedulerProblem.get_init_guess_bangbang_jerk", "omgtools/problems/gcodeschedulerproblem.py:GCodeSchedulerProblem.get_init_guess_motion_time"]}
{"id": "C155", "title": "Machining plans are carried over from window to window", "statement": "When the scheduler of a machining program moves its window one block on, the plan already found for each block that stays in the window is the initial guess of that very block, and a guess based on the block itself is made for each new block; every block has exactly one guess.", "quantifier": "all programs, window lengths and plans", "why_tests_cant": "all lengths of programs and windows, and all histories of plans", "anchors": ["omgtools/problems/gcodeschedulerproblem.py:GCodeSchedulerProblem.get_init_guess", "omgtools/vehicles/vehicle.py:Vehicle.set_init_spline_values"]}
{"id": "C156", "title": "The initial guess for an arc turns in the programmed direction and stays in the ring", "statement": "For an arc segment the solver starts from points that turn around the centre in the programmed direction from the start to the end of the arc, and what it answers is used as a move that stays within the ring at all times, from standstill to standstill, within the limits of the tool.", "quantifier": "all centres, arcs, directions, tolerances, limits, numbers of knot intervals, and all answers of the solver that satisfy its constraints", "why_tests_cant": "all arcs and all instants of the trajectory", "anchors": ["omgtools/problems/gcodeschedulerproblem.py:GCodeSchedulerProblem.get_init_guess_ring"]}
{"id": "C157", "title": "Constraints of vehicles can always be computed", "statement": "For trajectories with the knots that vehicles define by default, the coefficients of every constraint built from sums and products of the trajectories and their derivatives can be computed, in exactly one way, and describe the constraint at all times, as long as the degree of the constraint is at most 8 and the degree times the number of knot intervals at most 200.", "quantifier": "all such expressions of any size, degrees and numbers of intervals up to those bounds, and all coefficients", "why_tests_cant": "the linear systems that are solved depend on degree and number of intervals, and expressions are unbounded", "anchors": ["omgtools/basics/spline.py:BSplineBasis.transform", "omgtools/basics/spline.py:BSpline.__add__", "omgtools/basics/spline.py:BSpline.__mul__", "omgtools/vehicles/vehicle.py:Vehicle.define_knots"]}
{"id": "C158", "title": "A simulated drive is safe from start to goal", "statement": "In a simulation of a holonomic vehicle with a point-to-point problem with free end time, in which every optimisation problem met its constraints, every plan lasts at least one update and the obstacles behave as predicted until the next update, there is one motion of which the log is the sequence of samples: it starts in the initial state, is continuous with continuous velocity also where plans are exchanged, respects the limits on velocity and acceleration, stays in the room and never overlaps an obstacle at any instant (also between samples), and ends in standstill in the goal when the last plan is followed to its end.", "quantifier": "all setups (shapes, limits, degree at least 3, knot intervals, room, goal), all numbers of updates, all plans that meet the constraints, all motions of the obstacles that were predicted, all update and sample times, all instants", "why_tests_cant": "infinitely many instants between the samples, unbounded numbers of updates and all plans the solver may return", "anchors": ["omgtools/problems/point2point.py:FreeTPoint2point.construct", "omgtools/problems/point2point.py:FreeTPoint2point.store", "omgtools/execution/simulator.py:Simulator.run", "omgtools/execution/deployer.py:Deployer.update", "omgtools/vehicles/holonomic.py:Holonomic.define_trajectory_constraints", "omgtools/environment/environment.py:Environment.define_collision_constraints"]}
{"id": "C159", "title": "Solver vector and named variables are one to one", "statement": "Every number the solver finds is exactly one entry of exactly one variable of exactly one object of the problem; reading a variable gives the numbers that belong to it in the shape in which it was defined (as splines over their basis if it was defined as splines), setting a variable changes that variable only and fails exactly for unknown variables or other shapes, and at the start every variable reads as its initial value.", "quantifier": "all problems with differing labels and names, all shapes, all vectors the solver may return, all values", "why_tests_cant": "all numbers of objects, variables, shapes and all vectors", "anchors": ["omgtools/basics/optilayer.py:OptiFather.construct_variables", "omgtools/basics/optilayer.py:OptiFather.init_variables", "omgtools/basics/optilayer.py:OptiFather.get_variables", "omgtools/basics/optilayer.py:OptiFather.set_variables"]}
{"id": "C160", "title": "What the next plan starts from", "statement": "At the first update, or on request, each vehicle of a fleet plans from the state (and input) that the user gives for it, or from its last logged one; later each plan starts from the sample of the previous plan that is an update plus the delay after its start, or from what the vehicle model reaches with the inputs of that plan from the given or logged state.", "quantifier": "all fleets, vehicles, plans, logs, delays, options and ways in which states and inputs may be passed", "why_tests_cant": "all combinations of options and arguments and all plans and logs", "anchors": ["omgtools/problems/problem.py:Problem.predict", "omgtools/problems/distributedproblem.py:DistributedProblem.predict", "omgtools/vehicles/vehicle.py:Vehicle.predict"]}
{"id": "C161", "title": "Shared numbers are the shared variables", "statement": "In distributed problems the numbers that a vehicle sends to its neighbours for the entries of its variables that couple them are the values of just those entries to which the symbolic coupling constraints refer.", "quantifier": "all shapes of variables, all lists of shared entries and all vectors the solver may return", "why_tests_cant": "all shapes and all sets of shared entries", "anchors": ["omgtools/problems/dualmethod.py:DualUpdater._get_x_variables", "omgtools/basics/optilayer.py:OptiFather.get_variables"]}
{"id": "C162", "title": "A simulated drive with a fixed horizon is safe", "statement": "In a simulation of a holonomic vehicle (limits per axis or on the norm) with a point-to-point problem with fixed horizon, in which every optimisation problem met its constraints and the obstacles behave as predicted until the next update, there is one motion of which the log is the sequence of samples: it starts in the initial state, is continuous with continuous velocity also where plans are exchanged, respects the limits on velocity and acceleration, stays in the room and never overlaps an obstacle at any instant. Followed to the end of the last plan it ends in standstill (unless the user gave up the conditions on derivatives), and with hard terminal conditions in the goal.", "quantifier": "all setups (shapes, limits, degree at least 3, knot intervals, horizon, room, goal, options), all numbers of updates at any phase of the knot clock, all plans that meet the constraints, all motions of the obstacles that were predicted, all update and sample times, all instants", "why_tests_cant": "infinitely many instants between the samples, unbounded numbers of updates and all plans the solver may return", "anchors": ["omgtools/problems/point2point.py:FixedTPoint2point.construct", "omgtools/problems/point2point.py:FixedTPoint2point.define_terminal_constraints", "omgtools/problems/point2point.py:FixedTPoint2point.set_parameters", "omgtools/problems/point2point.py:FixedTPoint2point.store", "omgtools/execution/simulator.py:Simulator.run", "omgtools/execution/deployer.py:Deployer.update", "omgtools/vehicles/holonomic.py:Holonomic.define_trajectory_constraints"]}
{"id": "C163", "title": "A simulated drive of a fleet is safe", "statement": "In a simulation of any number of holonomic vehicles in one point-to-point problem with fixed horizon and the option inter_vehicle_avoidance, in which every optimisation problem met its constraints and the obstacles behave as predicted until the next update, each vehicle has one motion of which its log is the sequence of samples and which is safe as in C162 (continuous with continuous velocity, within limits and room, never overlapping an obstacle, ending in standstill, with hard terminal conditions in the goal), and at no instant do two vehicles of the fleet overlap.", "quantifier": "all fleets (any number of vehicles with their own shapes, limits, degrees and knot intervals), all numbers of updates at any phase of the knot clock, all plans and separating lines that meet the constraints, all motions of the obstacles that were predicted, all instants", "why_tests_cant": "infinitely many instants between the samples, unbounded numbers of updates and vehicles, and all plans the solver may return", "anchors": ["omgtools/problems/point2point.py:Point2pointProblem.construct", "omgtools/problems/point2point.py:FixedTPoint2point.__init__", "omgtools/problems/point2point.py:FixedTPoint2point.construct", "omgtools/environment/environment.py:Environment.define_intervehicle_collision_constraints", "omgtools/execution/simulator.py:Simulator.run", "omgtools/vehicles/holonomic.py:Holonomic.define_collision_constraints"]}
{"id": "C164", "title": "A vehicle that turns is kept clear as it really stands", "statement": "A vehicle with a heading (differential drive) can be given any number of shapes. If its collision constraints hold, then at every time of the motion each of its shapes, at the place to which the vehicle really drives and turned into the direction in which it really drives, keeps the safety distance (up to the slack) from every obstacle that is to be avoided.", "quantifier": "all shapes, obstacles with any motion and rotation, separating lines, velocity and heading splines, start positions, current times, safety distances, all instants of the horizon", "why_tests_cant": "infinitely many instants; position comes from integrals of products of splines; whether the heading matters depends on the shape", "anchors": ["omgtools/vehicles/dubins.py:Dubins.define_collision_constraints", "omgtools/vehicles/dubins.py:Dubins.integrate_once", "omgtools/vehicles/vehicle.py:Vehicle.define_collision_constraints_2d", "omgtools/environment/environment.py:Environment.define_collision_constraints"]}
{"id": "C165", "title": "Vehicle and trailer are both kept clear of obstacles", "statement": "If all constraints of a problem with a trailer hold, then at every time of the motion both the trailer, at hitch distance behind the vehicle and in its own direction, and the vehicle that pulls it keep the safety distance (up to the slack) from every obstacle that is to be avoided.", "quantifier": "all shapes of trailer and vehicle, obstacles, separating lines, splines of trailer and vehicle, hitch lengths, safety distances, all instants of the horizon", "why_tests_cant": "infinitely many instants and all plans the solver may return; tests only see that one example drives around its obstacles", "anchors": ["omgtools/vehicles/trailer.py:Trailer.define_collision_constraints", "omgtools/vehicles/trailer.py:Trailer.define_trajectory_constraints", "omgtools/vehicles/dubins.py:Dubins.define_collision_constraints", "omgtools/vehicles/dubins.py:Dubins.get_pos_splines", "omgtools/environment/environment.py:Environment.define_collision_constraints"]}
{"id": "C166", "title": "A simulated drive of a vehicle with wheels is safe from start to goal", "statement": "A vehicle with a heading and one shape is driven by receding-horizon updates, every plan satisfying its constraints and starting from the state the simulation shows. Then what is logged are the samples of one motion that exists at all instants: the vehicle moves in the direction it points with the logged speed, turns with the logged rate, keeps to speed and turn limits, stays with its whole shape in the room, keeps clear of every obstacle that moves as predicted, starts where it was put and ends at rest at the goal in the wanted direction.", "quantifier": "all numbers of updates, splines, sample and update times, rooms, shapes, obstacles and their motions, start and goal headings strictly between -pi and pi, all instants from start to goal", "why_tests_cant": "an unbounded number of updates and all instants between the samples; position is an integral of products of splines; each plan may be any that the solver accepts", "anchors": ["omgtools/problems/point2point.py:FreeTPoint2point.construct", "omgtools/vehicles/dubins.py:Dubins.define_trajectory_constraints", "omgtools/vehicles/dubins.py:Dubins.splines2signals", "omgtools/vehicles/dubins.py:Dubins.set_parameters", "omgtools/vehicles/dubins.py:Dubins.get_initial_constraints", "omgtools/vehicles/dubins.py:Dubins.get_terminal_constraints", "omgtools/environment/environment.py:Environment.define_collision_constraints", "omgtools/execution/simulator.py:Simulator.run"]}
{"id": "C167", "title": "Vehicles with a heading keep the formation, and log where its centre is", "statement": "In a distributed formation of vehicles with a heading there is one centre for the whole fleet, so that at every instant every vehicle stands where its configuration puts it with respect to this centre, turned with its own direction, up to one centimetre; and the centre that a vehicle logs is this centre.", "quantifier": "all fleet sizes and interconnections, configurations, velocity and heading splines, start positions, horizon times, all instants", "why_tests_cant": "holds at infinitely many instants between samples, for every solution the solver may return; tests only run one example and look at plots", "anchors": ["omgtools/vehicles/dubins.py:Dubins.get_fleet_center", "omgtools/vehicles/dubins.py:Dubins.splines2signals", "omgtools/problems/formation.py:FormationPoint2point.construct", "omgtools/vehicles/fleet.py:Fleet.set_rel_pos_c"]}
{"id": "C168", "title": "The formation error that is reported is an error of the formation", "statement": "After a simulation of a formation a relative error is reported: it is zero exactly if the vehicles were in formation at all samples, it is at most d if no vehicle deviated by more than d times its distance from the centre, and it is the same number whatever method was used.", "quantifier": "all fleet sizes, dimensions, configurations, motions, numbers of samples, sample times, both kinds of vehicles", "why_tests_cant": "an average over arbitrarily many vehicles and samples; correct numbers for one balanced configuration do not show that the number is right for another", "anchors": ["omgtools/problems/formation.py:FormationPoint2point.get_interaction_error", "omgtools/problems/formation_dualdec.py:FormationPoint2pointDualDecomposition.final", "omgtools/vehicles/vehicle.py:Vehicle.store", "omgtools/vehicles/dubins.py:Dubins.splines2signals"]}
{"id": "C169", "title": "An overruled state is where the next plan starts from", "statement": "When the user overrules the state or the input of a vehicle (or stops it abruptly), the next plan starts from what was set, both after a reset and in the middle of a drive.", "quantifier": "all vehicles, histories, states and inputs that are set, solvers, numbers of samples per update, numbers of later updates, both prediction and update options", "why_tests_cant": "what is overruled passes through log, prediction and plan of earlier updates; only runs with every combination of options and histories would show that it is lost", "anchors": ["omgtools/vehicles/vehicle.py:Vehicle.overrule_state", "omgtools/vehicles/vehicle.py:Vehicle.overrule_input", "omgtools/vehicles/vehicle.py:Vehicle.predict", "omgtools/vehicles/vehicle.py:Vehicle.simulate", "omgtools/execution/simulator.py:Simulator.hard_stop", "omgtools/execution/simulator.py:Simulator.run_once"]}
{"id": "C170", "title": "A simulated vehicle stays near its plans", "statement": "Without ideal updates the vehicle is simulated with inputs interpolated between samples. However long the drive, it deviates from the plan by no more than a fixed fraction of acceleration limit times sample time times update time.", "quantifier": "all dimensions, plans, solvers, start states, sample times, numbers of samples per update, numbers of updates", "why_tests_cant": "errors of a simulation can add up over arbitrarily many updates; a bound for all plans needs an estimate of the integration, not a sample run", "anchors": ["omgtools/vehicles/vehicle.py:Vehicle.integrate_ode", "omgtools/vehicles/vehicle.py:Vehicle.simulate", "omgtools/vehicles/vehicle.py:Vehicle.predict", "omgtools/vehicles/holonomic.py:Holonomic.ode", "omgtools/vehicles/holonomic.py:Holonomic.splines2signals"]}
{"id": "C171", "title": "Drives with the default options are safe", "statement": "With the default options (simulated updates, simulated prediction) a drive in which every optimisation problem is solved and obstacles move as predicted is safe at every logged sample: the simulated vehicle is clear of all obstacles and in the room, up to a margin that is a quarter of acceleration limit times sample time times update time.", "quantifier": "all vehicle shapes, bounds, rooms, obstacles and their motions, start states, plans, sample times, numbers of updates", "why_tests_cant": "the vehicle does not follow its plans exactly; that the error never adds up and never exceeds the margin is about all plans and drives of every length", "anchors": ["omgtools/vehicles/vehicle.py:Vehicle.set_default_options", "omgtools/vehicles/vehicle.py:Vehicle.simulate", "omgtools/vehicles/vehicle.py:Vehicle.integrate_ode", "omgtools/vehicles/holonomic.py:Holonomic.define_trajectory_constraints", "omgtools/problems/point2point.py:FreeTPoint2point.store", "omgtools/execution/simulator.py:Simulator.run"]}
{"id": "C172", "title": "Quotients of splines are pointwise", "statement": "Dividing one spline by another gives a rational spline with the quotient of the values wherever the divisor is not zero; multiplying it by a spline, inserting knots and differentiating act on it as on the function.", "quantifier": "all pairs of splines on a common horizon, all rational splines, points, inserted knots, thresholds", "why_tests_cant": "weights and coefficients are transformed to a common basis; that the function is kept everywhere is about all bases, coefficients and points", "anchors": ["omgtools/basics/spline.py:BSpline.__div__", "omgtools/basics/spline.py:NurbsBasis.eval_basis", "omgtools/basics/spline.py:Nurbs.__mul__", "omgtools/basics/spline.py:Nurbs.insert_knots", "omgtools/basics/spline.py:Nurbs.derivative"]}
{"id": "C173", "title": "Splines of several variables are evaluated, combined with numbers and integrated right", "statement": "Evaluating a spline of several variables on a grid gives in every entry the value at that grid point; adding, subtracting and multiplying numbers acts on the values; the integral is that of the function.", "quantifier": "all numbers of variables, bases, coefficients, grids, numbers", "why_tests_cant": "the axes of the arrays are permuted by every contraction; that they end up in order for any number of variables is an induction, not a sample", "anchors": ["omgtools/basics/spline.py:TensorBSpline.__call__", "omgtools/basics/spline.py:TensorBSpline.__add__", "omgtools/basics/spline.py:TensorBSpline.__sub__", "omgtools/basics/spline.py:TensorBSpline.__rsub__", "omgtools/basics/spline.py:TensorBSpline.integral"]}
{"id": "C174", "title": "Values of basis functions do not depend on what was evaluated before", "statement": "Evaluating a basis gives the values of its functions in the given points, whatever was evaluated before on this or other bases; building a basis gives the knots and degree asked for, whatever was built before.", "quantifier": "all histories of evaluations and constructions, all bases, all arguments (numbers, arrays, element types, shapes)", "why_tests_cant": "the results are taken from tables that live as long as the program; a wrong hit shows only after a particular history", "anchors": ["omgtools/basics/spline.py:memoize", "omgtools/basics/spline.py:cached_class", "omgtools/basics/spline.py:BSplineBasis.eval_basis", "omgtools/basics/spline.py:Basis.__eq__"]}
{"id": "C175", "title": "The coupling constraints are enforced as they were written", "statement": "Between two iterations of ADMM the shared numbers are corrected such that they satisfy the constraints between the vehicles exactly as these were written; constraints that can not be treated (inequalities, nonlinear ones) are refused, linear equations are accepted.", "quantifier": "all lists of coupling constraints built from shared variables, parameters, numbers, sums, differences, products and elementary functions; all values", "why_tests_cant": "the matrices are derived symbolically from the constraints; that they say the same for all values of the variables is a statement about all expressions", "anchors": ["omgtools/problems/admm.py:_check_for_lineq", "omgtools/problems/admm.py:construct_upd_z"]}
{"id": "C176", "title": "A quantity defined by a formula has the value of the formula", "statement": "After solving, the value reported for a quantity that was defined by a formula of variables and parameters is the value of that formula; lists of formulas are reported item by item; names can not be used twice.", "quantifier": "all objects, formulas, symbols, values of variables and parameters", "why_tests_cant": "formulas are rewritten by substituting symbols by name; a wrong hit shows only for particular sets of names", "anchors": ["omgtools/basics/optilayer.py:define_substitute", "omgtools/basics/optilayer.py:construct_substitutes", "omgtools/basics/optilayer.py:get_variables"]}
{"id": "C177", "title": "Options that are set are in force", "statement": "After any sequence of calls of set_options every option has the value given last, or its default when it was not given, also in the problems of the vehicles of a fleet; the time grid of the planner follows the horizon that is in force.", "quantifier": "all sequences of calls, all options, defaults, horizons, numbers of knot intervals, plans", "why_tests_cant": "options are merged at two levels over any number of calls, and parts of the program use copies computed earlier; only a statement about all histories excludes stale values", "anchors": ["omgtools/problems/problem.py:set_options", "omgtools/problems/problem.py:set_default_options", "omgtools/problems/distributedproblem.py:set_options", "omgtools/problems/point2point.py:FixedTPoint2point"]}
{"id": "C178", "title": "A plan through several frames is safe", "statement": "When the constraints of a multi-frame problem are met, there is one motion that follows the segments one after the other, twice differentiable with continuous acceleration also where one room is left for the next; at every instant the vehicle is inside the room of its segment, within the limits on velocity and acceleration, and at the prescribed distance from the obstacles considered there; it starts in the given state and rests at the goal.", "quantifier": "all numbers of rooms, all room sizes and positions, shapes, obstacles, motion times, splines of degree three and up with any number of knot intervals, all instants", "why_tests_cant": "safety is meant for every instant of a motion glued from segments, whereas constraints are on finitely many coefficients and the joints; tests sample", "anchors": ["omgtools/problems/multiframeproblem.py:construct", "omgtools/problems/multiframeproblem.py:define_connection_constraints", "omgtools/problems/multiframeproblem.py:define_init_constraints", "omgtools/problems/multiframeproblem.py:define_terminal_constraints", "omgtools/environment/environment.py:define_collision_constraints"]}
{"id": "C179", "title": "A machining plan follows the program within tolerance and limits", "statement": "When the constraints of a G-code problem are met, there is one motion of the tool through all segments without jumps in position, velocity or acceleration; at every instant velocity and acceleration are within their limits, between any two instants the acceleration changes no faster than the jerk limits allow, also across joints; during every segment the tool is within tolerance of the line of the block or between the radii of the ring of the arc; it starts in the given state and stops at the goal.", "quantifier": "all numbers of segments, all blocks and rooms, tolerances, limits, motion times, splines of degree three with any knots, all instants and pairs of instants", "why_tests_cant": "limits and tolerances are meant for every instant of a motion glued from segments, whereas constraints are on finitely many coefficients and some of them are skipped at both ends; tests sample", "anchors": ["omgtools/problems/gcodeproblem.py:construct", "omgtools/problems/gcodeproblem.py:define_connection_constraints", "omgtools/problems/gcodeproblem.py:define_init_constraints", "omgtools/problems/gcodeproblem.py:define_terminal_constraints", "omgtools/vehicles/tool.py:define_trajectory_constraints", "omgtools/vehicles/tool.py:define_collision_constraints"]}
{"id": "C180", "title": "A simulated flight in space is safe from start to goal", "statement": "Simulating a vehicle in space that is planned anew every so many samples, with every plan solved and long enough and every update starting from the predicted state, gives one motion of which the log is the sequence of samples: it starts in the given state, never jumps in position or velocity, respects the limits on velocity and acceleration at every instant, keeps the checkpoints inside the room, never comes closer to a body in space or to an upright column than the sum of the radii, and stops in the goal.", "quantifier": "all numbers of updates, sample times, update periods, motion times, shapes of vehicle, room and obstacles, predicted motions of obstacles, splines that meet the constraints, all instants", "why_tests_cant": "the guarantee is about all instants of a flight glued from any number of plans, whereas the constraints are on coefficients of single plans; tests sample one scenario", "anchors": ["omgtools/vehicles/holonomic3d.py:Holonomic3D", "omgtools/environment/obstacle.py:define_collision_constraints", "omgtools/vehicles/vehicle.py:define_collision_constraints_3d", "omgtools/basics/shape.py:Cuboid", "omgtools/problems/point2point.py:FreeTPoint2point", "omgtools/execution/simulator.py:run", "omgtools/execution/deployer.py:update"]}
{"id": "C181", "title": "A path can be followed slowly", "statement": "If there is a path, there is a motion time: a quadrotor that can hover and may lean and turn both ways meets the constraints of its limits along any path with every motion time from some time on; a holonomic vehicle that starts from rest can take any longer time for a plan that meets all constraints.", "quantifier": "all splines on the basis of the vehicle, all limits that allow hovering or standing still, all longer motion times", "why_tests_cant": "existence of a motion time from which on everything is feasible is a statement about all paths and infinitely many times; and the constraints are on coefficients, which need not be near the values they stand for", "anchors": ["omgtools/vehicles/quadrotor.py:define_trajectory_constraints", "omgtools/vehicles/quadrotor3d_simple.py:define_trajectory_constraints", "omgtools/vehicles/holonomic.py:define_trajectory_constraints", "omgtools/vehicles/dubins.py:define_trajectory_constraints", "omgtools/problems/point2point.py:FreeTPoint2point"]}
{"id": "C182", "title": "A simulated flight of a quadrotor in the plane obeys the laws of motion and is safe from start to goal", "statement": "A quadrotor in a vertical plane that is steered to a position with updates of the plan, every problem being solved and the obstacles behaving as predicted until the next update, flies one motion whose samples are the log: the acceleration is the thrust in the direction of the tilt plus gravity, the direction of the thrust turns without jumps at the stored rate, thrust and rate are within their limits at every instant, the disc stays in the room and apart from the obstacles, and the flight ends hovering at the goal.", "quantifier": "all numbers of updates, all solutions, all instants, all obstacles", "why_tests_cant": "a statement about every instant of a motion glued from any number of plans, with the nonlinear map from splines to tilt, thrust and rate", "anchors": ["omgtools/vehicles/quadrotor.py:define_trajectory_constraints", "omgtools/vehicles/quadrotor.py:get_initial_constraints", "omgtools/vehicles/quadrotor.py:get_terminal_constraints", "omgtools/vehicles/quadrotor.py:splines2signals", "omgtools/vehicles/quadrotor.py:ode", "omgtools/problems/point2point.py:FreeTPoint2point", "omgtools/execution/simulator.py:Simulator"]}
{"id": "C183", "title": "Frames are changed one after the other until the goal", "statement": "A scheduler that looks one frame ahead gives up a frame only if the goal is not in it and the vehicle is, with its whole size, in the next frame, which starts where the old one ends; coming close enough to the end of a frame is enough for the change; nothing fails on the way, and the run stops only in a frame that ends at the goal.", "quantifier": "all histories of vehicle positions and of paths found by the global planner, all rooms and obstacles", "why_tests_cant": "a statement about every history of calls, with frames built from paths that change at every update", "anchors": ["omgtools/problems/schedulerproblem.py:SchedulerProblem.check_frames", "omgtools/problems/schedulerproblem.py:SchedulerProblem.create_next_frame", "omgtools/problems/schedulerproblem.py:SchedulerProblem.update_frames", "omgtools/problems/schedulerproblem.py:SchedulerProblem.stop_criterium", "omgtools/environment/frame.py:CorridorFrame.__init__"]}
{"id": "C184", "title": "Only plans that have been found are followed", "statement": "In every update the vehicles get a plan that the solver has reported as a solution, which meets all constraints; if no solution is found in an update, the vehicles do not follow what the solver returned.", "quantifier": "all histories of updates and all answers of the solver", "why_tests_cant": "the solver may stop for many reasons at any update; tests only see problems that are solved", "anchors": ["omgtools/problems/problem.py:Problem.solve", "omgtools/problems/problem.py:Problem.reset_init_guess", "omgtools/execution/deployer.py:Deployer.update"]}
{"id": "C185", "title": "The guess for the next frame continues the plan", "statement": "When a vehicle leaves a frame, the initial guess for the next one is the part of the plan that is left in the old frame and the plan for the next frame, one after the other in time: it exists, it starts where the vehicle is, takes the time of both, and passes the planned positions at the planned times.", "quantifier": "all plans for two frames, all motion times, bases and degrees", "why_tests_cant": "real-valued trajectories with any coefficients; the guess comes from two linear systems that have to be regular", "anchors": ["omgtools/problems/schedulerproblem.py:SchedulerProblem.get_init_guess_combined_frame", "omgtools/problems/gcodeschedulerproblem.py:GCodeSchedulerProblem.get_init_guess_combined_segment", "omgtools/basics/spline_extra.py:concat_splines"]}
{"id": "C186", "title": "Every frame gets the guess that belongs to it", "statement": "With several frames at a time, at the start and after every change of frames there is exactly one initial guess for every frame, and it was made for that frame: from the waypoints in it, or from the old solution in it.", "quantifier": "all histories of changes of frames, all numbers of frames, all paths", "why_tests_cant": "a statement about every history of frames, with numbers of frames that shrink near the goal", "anchors": ["omgtools/problems/schedulerproblem.py:SchedulerProblem.get_init_guess", "omgtools/problems/schedulerproblem.py:SchedulerProblem.create_frames"]}
{"id": "C187", "title": "Plans are carried out completely, one after the other", "statement": "Problems that are solved and carried out once each, one after the other, completely or until a hard stop with a perturbation: the log holds the start and the states of each plan sample by sample until its end or the stop, the perturbed state last; every plan starts from the last logged state, and times in the log, time axis and clock of the simulator agree.", "quantifier": "all sequences of runs, all plans, hard stops and perturbations, all sample times", "why_tests_cant": "any number of runs with real-valued motion times; rounding to samples happens in three places that have to agree", "anchors": ["omgtools/execution/simulator.py:Simulator.run_once", "omgtools/execution/simulator.py:Simulator.hard_stop", "omgtools/problems/point2point.py:FreeTPoint2point.simulate", "omgtools/vehicles/vehicle.py:Vehicle.simulate"]}
{"id": "C188", "title": "A simulated flight of a quadrotor in space is safe from start to goal", "statement": "Simulating a quadrotor without yaw with a plan updated every few samples, when every problem is solved and the obstacles behave as predicted until the next update, gives one flight from the start to hovering at the goal: position and velocity follow thrust, roll, pitch and gravity; roll and pitch change at the commanded rates without jumps, also where one plan follows another; thrust, angles and pitch rate stay within their limits at all times, not just at samples; the quadrotor stays in the room and apart from all obstacles; the log is the flight sampled.", "quantifier": "all rooms and obstacles, all sequences of solutions, all update and sample times, all times of the flight", "why_tests_cant": "a property of all real times of all runs; no number of samples or runs covers it", "anchors": ["omgtools/vehicles/quadrotor3d_simple.py:SimpleQuadrotor3D.define_trajectory_constraints", "omgtools/vehicles/quadrotor3d_simple.py:SimpleQuadrotor3D.splines2signals", "omgtools/problems/point2point.py:FreeTPoint2point.store", "omgtools/execution/simulator.py:Simulator.run"]}
{"id": "C189", "title": "The first guess of a vehicle with a heading turns it from its heading to that of the goal", "statement": "Before the first solution, the guess of a vehicle that is steered by its heading (differential drive, AGV, bicycle, quadrotor in space, trailer) is a motion in which the vehicle stays where it is and its heading goes from the current one to that of the goal without turning back; a trailer has a guess with every vehicle that can pull it.", "quantifier": "all headings within half a turn of zero, all degrees and numbers of knot intervals, all times", "why_tests_cant": "a property of all real times and headings", "anchors": ["omgtools/vehicles/dubins.py:Dubins.get_init_spline_value", "omgtools/vehicles/quadrotor3d.py:Quadrotor3D.get_init_spline_value", "omgtools/vehicles/trailer.py:Trailer.get_init_spline_value", "omgtools/vehicles/bicycle.py:Bicycle.get_init_spline_value", "omgtools/vehicles/agv.py:AGV.get_init_spline_value"]}
{"id": "C190", "title": "The distributed iteration converges", "statement": "For a problem that does not change between iterations, whatever the copies and multipliers begin with, the combined residual reported by the distributed (ADMM) problem tends to zero - the sum over all iterations is bounded, so that after N iterations it was once below a fixed number divided by N - the plans come to satisfy the coupling constraints of every vehicle, and the total cost of the plans tends to the optimal cost of the whole fleet.", "quantifier": "every number of vehicles, symmetric neighbour graph, convex objectives and feasible sets, linear couplings, positive penalty parameter, all starts, all numbers of iterations", "why_tests_cant": "a limit over infinitely many iterations, for all convex problems and all starts", "anchors": ["omgtools/problems/admm.py:ADMMProblem.dual_update", "omgtools/problems/admm.py:ADMM.construct_upd_x", "omgtools/problems/admm.py:ADMM.construct_upd_z", "omgtools/problems/admm.py:ADMM.update_l", "omgtools/problems/admm.py:ADMM.get_residuals"]}
{"id": "C191", "title": "Dual decomposition converges for small steps", "statement": "For a problem that does not change between iterations, with objectives of curvature at least sigma in the shared variables and coupling constraints that pin the copies, and a step (rho) below sigma divided by the number of neighbours plus the factor by which copies move with own variables: from every state of a run the shared variables of all plans tend to those of the solution of the whole fleet, the reported residual to zero and the total objective to the optimum.", "quantifier": "every number of vehicles, symmetric neighbour graph, convex constraints, strongly convex objectives, all starts, all numbers of iterations", "why_tests_cant": "a limit over infinitely many iterations, for all problems and all starts", "anchors": ["omgtools/problems/dualdecomposition.py:DDProblem.dual_update", "omgtools/problems/dualdecomposition.py:DDUpdater.construct_upd_xz", "omgtools/problems/dualdecomposition.py:DDUpdater.update_l", "omgtools/problems/dualdecomposition.py:DDUpdater.communicate", "omgtools/problems/dualdecomposition.py:DDUpdater.get_residuals"]}
{"id": "C192", "title": "The distributed iteration without penalty converges for small steps", "statement": "With the option AMA (own plans are computed without the quadratic penalty), for a problem that does not change between iterations, with objectives of curvature at least sigma in the shared variables and at most d neighbours per vehicle, and a penalty factor rho with rho*(1+d) < 2*sigma: from every start the shared variables of all plans tend to those of the solution of the whole fleet, the reported combined residual to zero and the total objective to the optimum; the squared distances from the solution sum to at most a fixed number.", "quantifier": "every number of vehicles, symmetric neighbour graph, convex constraints, strongly convex objectives, linear equality coupling, all starts, all numbers of iterations", "why_tests_cant": "a limit over infinitely many iterations, for all problems and all starts", "anchors": ["omgtools/problems/admm.py:ADMM.construct_upd_x", "omgtools/problems/admm.py:ADMM.construct_upd_z", "omgtools/problems/admm.py:ADMM.construct_upd_l", "omgtools/problems/admm.py:ADMM.construct_upd_res", "omgtools/problems/admm.py:ADMMProblem.dual_update"]}
{"id": "C193", "title": "The vehicles of a distributed problem see the obstacles where they are shown", "statement": "For an environment that has not been simulated before, and update times not longer than the horizon less a knot interval (or steps taken at a start, of any length): after any sequence of starts, updates and pauses every vehicle of the fleet plans with exactly the obstacles of the user's environment; measured obstacle states given to every one of the problems keep all vehicles planning with the same obstacles.", "quantifier": "all environments and simulations of them, numbers of vehicles, knot times, horizons, sequences of calls", "why_tests_cant": "all call sequences and all behaviours of the obstacles (the copies of the environment are advanced separately)", "anchors": ["omgtools/problems/formation.py:FormationPoint2point", "omgtools/environment/environment.py:Environment.copy", "omgtools/problems/distributedproblem.py:DistributedProblem.simulate", "omgtools/problems/distributedproblem.py:DistributedProblem.sleep", "omgtools/problems/point2point.py:FixedTPoint2point.simulate", "omgtools/environment/obstacle.py:ObstaclexD.set_state"]}
{"id": "C194", "title": "The accelerated distributed iteration converges, and no iteration makes the combined residual larger", "statement": "For convex vehicle problems with prices at which it does not pay to disagree, and 0 < eta <= 1: the distributed iteration with Nesterov acceleration, with or without restarts, converges from every start: the combined residual never increases from one iteration to the next and goes to 0, the vehicles' plans become coupled, and their total cost tends to the least. At least one of two iterations in a row is accepted. Without acceleration, the combined residual never increases either.", "quantifier": "all numbers of vehicles, neighbourhoods, convex plans and costs, couplings, penalties, starts, values of eta, and numbers of iterations", "why_tests_cant": "a limit of infinitely many iterations, with data-dependent restarts, over all problems", "anchors": ["omgtools/problems/admm.py:ADMM.accelerate", "omgtools/problems/admm.py:ADMMProblem.dual_update", "omgtools/problems/admm.py:ADMM.update_x", "omgtools/problems/admm.py:ADMM.update_z", "omgtools/problems/admm.py:ADMM.update_l", "omgtools/problems/admm.py:ADMM.get_residuals"]}
{"id": "C195", "title": "From the start of the code, and after a reinitialisation, the distributed iteration converges", "statement": "Whatever the vehicles held and had received before, after one iteration every vehicle has received what its neighbours hold, and every further iteration is one of the method. So without acceleration the iteration converges from the first guesses and after every reinitialisation. With acceleration it converges from the first guesses, without restarts, or with restarts for eta < 1 when the first iteration reports a positive residual.", "quantifier": "all numbers of vehicles, neighbourhoods, convex plans and costs, couplings, penalties, guesses, former contents of the updaters, and numbers of iterations", "why_tests_cant": "a limit of infinitely many iterations, over all problems and starts", "anchors": ["omgtools/problems/admm.py:ADMM.init_var_admm", "omgtools/problems/admm.py:ADMM.communicate", "omgtools/problems/admm.py:ADMM.set_parameters", "omgtools/problems/admm.py:ADMM.accelerate", "omgtools/problems/admm.py:ADMMProblem.reinitialize", "omgtools/problems/admm.py:ADMMProblem.dual_update"]}
{"id": "C196", "title": "The curves of a drawing are read as the points that they mean", "statement": "The list of points that is written for a path of a drawing consists of the absolute start, control and end points that the commands of the path mean, for absolute and relative curves.", "quantifier": "all paths: start points, numbers of curves, absolute or relative, number literals, and separators", "why_tests_cant": "there are unboundedly many paths and spellings of the same path", "anchors": ["omgtools/gui/svg_reader.py:SVGReader.convert_path_to_points"]}
{"id": "C197", "title": "What a vehicle holds of its neighbours is moved to the new knots without mixing anything up", "statement": "When the knots of the plans move on, everything that a vehicle of a distributed problem holds of its neighbours is moved variable by variable: for every neighbour, object and variable the new value is the old value of just that variable, moved, and there are no other values.", "quantifier": "all numbers of vehicles, neighbours, objects, shared variables, and values", "why_tests_cant": "the numbers of neighbours, objects and variables are unbounded, and values of different neighbours are kept in one long vector", "anchors": ["omgtools/problems/dualmethod.py:DualUpdater._struct2dict", "omgtools/problems/dualmethod.py:DualUpdater._dict2struct", "omgtools/problems/dualmethod.py:DualUpdater._transform_spline"]}
{"id": "C198", "title": "Every place of a template of the exported program is filled with its own value", "statement": "In the files that an export writes, every place @key@ of the template shows the value of that key, places without a value stay, and all other text is unchanged, in whatever order the values are given.", "quantifier": "all templates, keys, values, and orders of the values", "why_tests_cant": "values and templates are arbitrary texts, and one replacement works on the result of another", "anchors": ["omgtools/export/export.py:Export.fill_template"]}
{"id": "C199", "title": "The includes of the exported sources name the exported files", "statement": "In the exported sources every quoted name of an exported file is the name under which that file is exported, and the remaining text is unchanged, in whatever order the directory lists the files.", "quantifier": "all namespaces, sets of files, orders of the listing, and source texts", "why_tests_cant": "the names are replaced one after the other in the order of a directory listing, on arbitrary texts and namespaces", "anchors": ["omgtools/export/export.py:Export.change_includes", "omgtools/export/export.py:Export.rmv_label"]}
{"id": "C200", "title": "The include guards of the exported headers carry the namespace", "statement": "In an exported header both lines of the include guard carry the name of the namespace, so that the headers of two exports can be used together, and the rest of the header is unchanged.", "quantifier": "all headers, guards and namespaces", "why_tests_cant": "headers and namespaces are arbitrary texts, and the guard is replaced wherever it is found", "anchors": ["omgtools/export/export.py:Export.set_includeguards"]}
{"id": "C201", "title": "The exported program takes every obstacle into account with its own predicted state", "statement": "The exported program uses, for every obstacle of the problem, the data given for that obstacle: its shape, and its trajectory or its state after the update time for constant acceleration; the parameters of other objects are not touched.", "quantifier": "all problems, numbers, kinds and orders of obstacles, states and update times", "why_tests_cant": "the program is generated for each problem, and the states are real numbers", "anchors": ["omgtools/export/export.py:Export._create_fillParameterDict"]}
{"id": "C202", "title": "All sources of an export are put into its source directory", "statement": "After an export all source files, those of the templates and those with the optimization problem, are in the subdirectory src of the export directory that the user gave.", "quantifier": "all export directories, namespaces, templates and generated files", "why_tests_cant": "the directory is an arbitrary text, and two functions compose paths from it in different ways", "anchors": ["omgtools/export/export.py:Export.copy_files", "omgtools/export/export.py:Export.export_casadi_problems"]}
{"id": "C203", "title": "The export of a fleet gives a program for every vehicle", "statement": "Exporting a distributed problem gives a program for every vehicle of the fleet, or one for each kind of vehicles.", "quantifier": "all fleets and both kinds of builds", "why_tests_cant": "fleets may consist of any number and mixture of vehicles", "anchors": ["omgtools/export/export_admm.py:ExportADMM", "omgtools/problems/distributedproblem.py:DistributedProblem.separate_per_build"]}
{"id": "C204", "title": "Own and shared splines are moved over a knot together", "statement": "In a distributed problem, whenever the motion passes a knot, the splines of a vehicle and the copies and multipliers of the shared splines which it holds are moved over the same number of knots.", "quantifier": "all knot times, sequences of update times, and numbers of iterations per update", "why_tests_cant": "the two moves are decided by different conditions on the time, which agree for usual update times and not for others", "anchors": ["omgtools/problems/admm.py:ADMM.init_step", "omgtools/problems/dualdecomposition.py:DDUpdater.init_step", "omgtools/problems/point2point.py:FixedTPoint2point.init_step", "omgtools/problems/dualmethod.py:DualProblem.solve"]}
{"id": "C205", "title": "The residual plot shows the iterations performed so far", "statement": "The plot of the residuals of a distributed problem shows, for the current instant and for every logged instant of a movie, the residual of every iteration performed up to that instant.", "quantifier": "all numbers of initial iterations, iterations per update, samples per update, updates and instants", "why_tests_cant": "the shown range mixes up samples, updates and iterations, which agree only for special options", "anchors": ["omgtools/problems/admm.py:ADMMProblem.update_plot", "omgtools/problems/dualdecomposition.py:DDProblem.update_plot", "omgtools/execution/plotlayer.py:PlotLayer.plot_movie"]}
{"id": "C206", "title": "The room of a loaded drawing has the size of the drawing", "statement": "Loading an SVG drawing gives a room with the size of the region of the drawing; if the drawing has its size in millimeters, this size is taken.", "quantifier": "all drawings, with any region, size and unit, and all answers of the user", "why_tests_cant": "drawings come from any program, with any region and unit", "anchors": ["omgtools/gui/svg_reader.py:SVGReader.init", "omgtools/gui/gui.py:EnvironmentGUI.load_svg"]}
{"id": "C207", "title": "The vehicles of a problem are those given", "statement": "A problem made for a vehicle, a fleet or a list of these plans for all vehicles given, and for nothing else.", "quantifier": "all arguments: vehicles, fleets, and lists of any length and mixture", "why_tests_cant": "lists of any length and mixture can be given", "anchors": ["omgtools/vehicles/fleet.py:get_fleet_vehicles", "omgtools/problems/problem.py:Problem.__init__"]}
{"id": "C208", "title": "The exported program evaluates every substitute with its own function", "statement": "For every quantity that a vehicle, obstacle or problem defines by an expression (a substitute), the exported program computes it with the function of that expression.", "quantifier": "all problems, with any number of objects and substitutes", "why_tests_cant": "names of substitutes can be chosen freely in every object", "anchors": ["omgtools/export/export.py:Export.export_casadi_problems", "omgtools/export/export.py:Export._create_generateSubstituteFunctions"]}
