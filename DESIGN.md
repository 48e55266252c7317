# Formal model of omg-tools: design

## Trusted base

* Lean 4.33.0's kernel and the installed Mathlib. Theorems may depend only on the
  three standard axioms `propext`, `Classical.choice`, `Quot.sound`;
  `tools/check.py` prints and checks the axioms of every theorem named in
  `MANIFEST.json`.
* No `sorry`, no added axioms, no `native_decide`/`bv_decide`.
* The translation Python -> Lean is by hand. Each definition cites the file and
  lines it mirrors and names its simplifications. The code was never executed.
* Numbers: Python/numpy floats are modelled by an arbitrary ordered field (`K`),
  by `ℚ`, or by `ℝ` where derivatives, square roots or trigonometric functions
  occur. Floating point rounding is outside the model everywhere.
* The nonlinear solver (IPOPT through CasADi), matplotlib, Tk and file I/O are
  outside the model. A solver result is an arbitrary value; theorems say what
  follows *if* the constraints handed to the solver hold.
* Reading an entry of a CasADi structure gives a copy, writing an entry of a
  dictionary of matrices changes it in place (used in C138 only).
* `scipy.linalg.solve` is modelled as "some matrix that satisfies the equation".

## Conventions

* Python exceptions are values (`Option`/`Except`), never silently defaulted.
* Models live in `Verif/<Area>/Model.lean` or `Verif/<Area>.lean`, property
  theorems in `Verif/<Area>/Props.lean` (or a section headed *Properties*), each
  with an `example` that meets its hypotheses.
* When the code violates the property as stated, the model keeps the fault. The
  violation is proved on a concrete input (theorem name ends in `_violated`), and
  the guarded version that does hold is proved under a name ending in `_partial`.

## Per property

| id | modelled | proof |
|----|----------|-------|
| C01 | `Basis._ind`, `BSplineBasis.eval_basis` as recursion on degree over any ordered field | induction on degree; telescoping of the Cox-de Boor weights; separate treatment of the first knot |
| C02 | same, plus `support` | induction on degree |
| C03 | `Spline.__call__` | from C01: convex combination |
| C04 | `BSplineBasis.derivative`, `BSpline.derivative` over `ℝ` | induction on degree with `HasDerivAt`; summation by parts |
| C05 | `knot_insertion_T`, `get_interval_T`, `crop_spline` | Boehm's identity by induction on degree, then induction on the list of knots |
| C06 | `running_integral`, `definite_integral`, `integral` | from C04, telescoping |
| C07 | `Basis.scale`, `BSpline.scale` | induction on degree |
| C08 | `Basis._combine`, `__add__`, `__mul__`, `__eq__`, `__hash__` as operations on sorted lists | list counting |
| C09 | BSpline operators; `transform` as a solution of its linear system | from C01, linearity |
| C10 | `define_collision_constraints_2d/3d`, `_define_obstacle_2d/3d`, the loops of `define_collision_constraints` over segments, obstacles, shapes, checkpoints; the expressions are trees over `+ - *` whose coefficients are bounded (`Expr.Imposed`) | C53, then convexity, Cauchy-Schwarz and the tangent half angle identity |
| C11 | room constraints of `define_collision_constraints_2d/3d` for rectangles, other polyhedra, and 3D rooms | as C10; the 3D case only bounds the checkpoint, not the radius: violated for spheres |
| C12 | `define_intervehicle_collision_constraints` with its triangular loop over (vehicle, shape) pairs | as C10 |
| C52 | `distance_to_line`, `distance_between_points` | minimisation of a quadratic; norms |
| C53 | Python operator dispatch on splines and numbers, `define_constraint` | induction on the expression with C09 and C03 |
| C13-C15, C55-C57 | constraint expressions (`Expr`) and output formulas of every vehicle class | C53 for the constraints at each instant, then algebra and `HasDerivAt` over `ℝ`; C14 and C57 are violated in part |
| C16 | `check_terminal_conditions` with Python's truth/number comparison | case analysis; the code violates it for tolerance >= 1 |
| C17 | `integrate_once` | from C06 |
| C18, C54 | trailer `ode`, constraints, signals | derivative of the hitch relation; C54 is violated when the headings are on opposite sides of zero |
| C19-C20 | planner state machine, grid | invariant of the open/closed lists |
| C58 | `move_to_gridpoint`, `distance_between_cells`, waypoints | rounding estimates; the loop over the candidates keeps "free" but measures distances from the point chosen last |
| C59 | `get_occupied_cells` | interval overlap; violated for walls thinner than a cell, aligned edges and other shapes |
| C21-C23 | `set_neighbors`, relative configurations, coupling list | modular arithmetic, connectivity |
| C60 | couples of the distributed formation / rendez-vous problem, stop criterium | connectivity; sum of squares bounds each term |
| C24 | z-update for linear couplings (closed form), multiplier update | linear algebra over `Matrix`; minimality by the difference of the Lagrangians |
| C25 | `accelerate` as a state machine over any real vector space | invariants over any history of updates |
| C26 | `interprete_constraints` (index lists), `communicate` for all updaters in turn; casadi structs are vectors with a layout, an assignment needs equal sizes | folds over the constraint list; violated when a vehicle shares different entries with different neighbours |
| C27, C63 | `solve`, `initialize`, `store`, `stop_criterium`; `dual_update` is any function that adds one to the counter | loop invariant; initialisation violated for more than one iteration per update, arrival not tested with a limit |
| C61 | x-, z- and multiplier updates and exchange at a fixed point, as conditions on reals vectors | convexity: the optimality conditions of the parts add up to that of the whole |
| C62 | residual formulas of ADMM and dual decomposition | sums of squares; violated for dual decomposition |
| C28-C31 | obstacle prediction, bouncing, logging, counting | algebra; invariants |
| C32-C33 | simulator loop, knot clock | invariants by induction |
| C64 | time lookup in the simulation log (`time2index`) | arithmetic on the sample grid; witness for the gap |
| C34 | connection constraints | algebra |
| C35-C36 | labels (`_make_label` with a bounded number of nested calls, ASCII letters and digits), slicing | induction on label history; list slicing with Python semantics |
| C65-C66 | symbol dictionary (`add_to_dict`, `compose_dictionary`, `translate_symbols`), generated names | strings as lists of characters; last assignment wins; unique parsing of names |
| C67 | `define_constraint` as an ordered dictionary | invariant: every name ends with a number below the counter |
| C68 | `set_parameters` of the whole problem; values are opaque | induction over the objects |
| C69 | the name test in `transform_primal_splines` | string computation |
| C37-C40 | geometry predicates | algebra over ordered fields |
| C41-C42 | obstacle classification, scheduler flag | case analysis; violated in corner cases |
| C70 | the number of frames of the scheduler, `create_frames` | induction over histories; violated for three frames |
| C71-C72 | corridor frames: base frame, scaling up, waypoints | loop invariants; termination by the Archimedean property |
| C73, C75-C77 | shifted frames, reachable waypoints, closest waypoint | case analysis and algebra; violated in several cases |
| C74 | `create_l_shape` | case analysis |
| C43-C44, C78-C83 | words of a line, blocks, `create_blocks`, `get_block_division`, `get_connections`, conversion and reading of files on the level of commands; the text functions `float`, `split`, `strip` are not modelled | loop invariants; list induction |
| C45, C84-C85 | centre, radius and coordinates of `G02`/`G03` over the reals; `arctan2` is the argument of a complex number; only the plane XY (no other is ever set) | polar coordinates, full turns |
| C46, C87, C89 | rooms of straight blocks (all), ring angles of arcs without splitting and variable tolerance | rotation to the direction of the block; uniqueness of the angle |
| C47, C86, C88, C90 | room numbers, window of segments, local problem, stop criterium; the decision to move on is an input | invariant over the updates |
| C48, C91–C99 | the environment window as a state machine (`Gui/Model.lean`): sizes, grid, obstacle list, canvas items, selection, clicked positions; widgets and drawing are not modelled | algebra; invariant over all sequences of actions |
| C100–C103 | SVG shapes, lines, arcs (`Gui/Svg.lean`); XML and number parsing not modelled | algebra, induction over the lines |
| C51 | `BSpline.eval` over the reals | continuity from both sides at each knot, induction on the order |
| C49, C105 | generated C++ as statements (`Export/Layout.lean`, `Export/Shared.lean`): offsets and loops of `getParameterVector`, `getVariableVector`, `getVariableDict`, `transformSplines`, names of the matrices; reads beyond a vector are errors, the text of the code is not modelled | list induction over the symbols |
| C50, C104 | `_create_lb_ub`, `_create_updateBounds` (`Export/Bounds.lean`) | list induction; invariant over histories |
| C106-C108, C113 | `Vehicle.cpp`, `Holonomic.cpp` (`Export/Vehicle.lean`, `Export/VehicleKnots.lean`, `Export/Predict.lean`); other vehicles are not exported | refinement of the B-spline model (C01-C06); mean value theorem |
| C109-C112, C116 | `Point2Point::update`, `ADMMPoint2Point::update1/update2/stepBack` as state machines (`Export/Loop.lean`); solver answers are inputs. The overloads without `predict_shift` and several `bool` functions have no `return` statement, which is undefined in C++ and not modelled | invariant over all sequences of calls |
| C114 | `_create_transformSharedSplines`, `_create_retrieveSharedVariables` (`Export/Shared.lean`) | list induction |
| C115 | `add_label`, `rmv_label` on lists of characters (`Export/Files.lean`); the file system is not modelled | induction over strings |
| C117 | the words of a line (`GCode/Words.lean`) | induction over the line |
| C118 | `shiftfirstknot_T`, `shift_knot1_fwd`, `shift_knot1_bwd` with entry functions of the matrices (`Spline/Shift.lean`); index errors are `none` | knot insertion at the new start; product of the matrices and their inverses |
| C119 | `extrapolate_T` (`Spline/Extrapolate.lean`); `la.solve` is the exact solution, `none` for determinant 0; rounding below 1e-10 is modelled (`Spline/Solvable.lean` bounds its effect) | Curry-Schoenberg: the continued spline exists and solves the system; total positivity: the system is regular |
| C120 | `shiftoverknot_T` (`Spline/ShiftOver.lean`), vehicle knots (`Spline/ShiftVeh.lean`) | crop of the extrapolated spline (C05, C119) |
| C121 | `concat_splines` with the continuity test, knots, Greville points and linear system (`Spline/Concat.lean`); exact arithmetic, a singular system is `none`, `nan`/`inf` comparisons fail | stacked knots: direct; shared knots: Curry-Schoenberg and uniqueness of the solution; total positivity for its existence (`Spline/ConcatSolve.lean`); induction over the segments |
| C122 | `get_initial_constraints`, `set_parameters`, `splines2signals` at the first instant for all vehicles, positions remembered by dubins/bicycle/AGV (`Vehicles/Start.lean`); the solver is taken to meet the constraints exactly | scaling laws of derivatives and half-angle identities; induction over updates for the remembered position |
| C123 | `get_terminal_constraints` of all vehicles, the constraints imposed by the fixed-time and free-time problems for every value of the options, `splines2signals` at the last instant (`Vehicles/Goal.lean`) | scaling laws; for `C123_early` a polynomial with all derivatives zero at a point is constant |
| C124 | slack constraints of `FixedTPoint2point.define_terminal_constraints` (`Vehicles/Goal.lean`) | coefficient bounds (C53) |
| C125 | `FreeEndPoint2point.define_terminal_constraints` with the loop variables it reuses (`Vehicles/Goal.lean`) | unfolding of the loop; every solution of the remaining constraint is a witness |
| C126 | `Deployer.update` with its update time and delay, the index of `Vehicle.predict`, the inputs and state it integrates otherwise (`Timing/Deploy.lean`) | truncation bounds; the update time is a number of samples |
| C127 | `Simulator.run` as a state machine over deployer, clock and signals (`Timing/Deploy.lean`) | invariant by induction over the updates |
| C128 | `Problem.sleep` on the splines of the last plan, signals of holonomic vehicles (`Vehicles/Objective.lean`) | partition of unity; derivative coefficients |
| C129 | `simulate`, `compute_partial_objective`, `compute_objective` and `stop_criterium` of fixed-time and free-time problems (`Vehicles/Objective.lean`) | C06 and substitution, monotonicity of the integral; induction over the updates |
| C130 | `init_step` of free-time problems and `shift_spline` with its interpolation points (`Spline/Warm.lean`) | end points of the interpolation; negation for moving plans |
| C131 | `_add_to_memory` in `Vehicle.simulate`, on the simulation of C127 (`Timing/Movie.lean`) | index arithmetic on repeated lists |
| C132 | the frame indices of `plot_movie` and `save_movie` (`Timing/Movie.lean`) | division with remainder |
| C133 | `update_segment` and `check_results` as a state machine over the answers of the solver (`GCode/Machining.lean`) | invariant by induction over the attempts |
| C134 | the constraints of `Tool.define_trajectory_constraints` with the `skip` of `GCodeProblem.construct`, limits from the bounds (`Vehicles/Tool.lean`) | coefficient bounds plus the end values that replace the skipped coefficients; local support for the later part |
| C135 | the constraints of `Tool.define_collision_constraints` on the rooms of `GCode/Rooms.lean`, tool of radius zero (`Vehicles/ToolRoom.lean`) | coefficient bounds, then plane geometry |
| C136 | the interpolation points of `transform` (first maximum on 501 grid points) and the arithmetic of C09 (`Spline/Regular.lean`) | total positivity of B-splines (`Spline/Total.lean`): minors are non-negative by induction on the degree, positive when the diagonal is |
| C137 | `dual_update`, `update_xz`, `update_l`, `communicate`, `init_step` of dual decomposition as a state machine; the solver returns any minimiser (`ADMM/DualDec.lean`) | invariant: received prices are those held by the neighbours; summation of the local optimality conditions; telescoping of the distance to the best prices |
| C138 | `_transform_spline` with its loop and slices, in place for dictionaries and on a copy for structures, whose result the callers drop (`ADMM/Shifted.lean`) | induction over the loop; the first moved coefficient is the value at the current time (C118) |
| C139 | `sort_vehicles`, `separate_per_build` and the calls of `init` (`Problems/Builds.lean`) | invariant of the grouping loop |
| C140 | the search model of C19, with the costs stored in the nodes (`Planner/Shortest.lean`) | invariant: closed cells are reached within a factor `k` of every way to them, and their neighbours are closed or open with a cost no larger than by way of them; the heuristic divided by `k` is consistent |
| C141 | `Obstacle2D.init` with the rational splines of the circle, cropped to the horizon, `set_state`, `set_parameters` (`Environment/Rotating.lean`, over ℝ); spline arithmetic taken pointwise (C09) | number of coefficients of the cropped basis by counting knots; C05 for the cropping; each quarter in Bernstein form, rotated by induction; mean value theorem for the angle |
| C142 | constructor, `prepare_simulation`, `_ode`, `simulate` of obstacles, one coordinate, no input (`Environment/ObstacleSim.lean`, over ℝ); `odeint` is any solution of the integral equation, `interp1d` the step function it stands for | the table of increments by induction over the changes; integrals of step and ramp functions; invariant over the sequence of simulation steps |
| C143 | the eight phases of `get_init_guess_motion_time` without coefficients, and the sum over the rooms (`GCode/MotionTime.lean`, over ℝ); the variant with given spline coefficients is not modelled | explicit profile from powers of `max(t - c, 0)`; against all other motions: symmetrised half of the motion, comparison of rates, and for motions with a cruise phase a weighted comparison in the third phase |
| C144 | `get_init_guess_new_frame` for holonomic vehicles, with `interp1d` as sorting and `numpy.interp` (`Frames/Guess.lean`) | the points given to the interpolation are all on one line, by telescoping sums; induction over the sorted points; triangle inequality for the motion time |
| C145 | `Obstacle2D.overlaps_with` and `is_outside_of` over circles, rectangles, beams and polygons (`Environment/Overlap.lean`) | case analysis on the shapes; nearest point of a box; convex hulls under rotation; reuses C38-C40 |
| C146 | `_substitute_symbols`, `construct_objective`, `construct_constraints` over expression trees with symbols (`OptiLayer/Assemble.lean`) | induction over the symbols of the expression: substitution keeps the value; uses C65 for the dictionary |
| C147 | `update_bounds` with the scoping of `exec` in both generations of Python (`OptiLayer/Assemble.lean`) | induction over the calls before |
| C148 | `get_init_spline_value` of the vehicles with coordinates as splines and `reinitialize` of the multi-frame problem (`Problems/InitGuess.lean`) | partition of unity: fixed fractions as coefficients give a straight motion; C38 and convexity of rooms, induction over the rooms |
| C149 | `reset_init_guess` with lists and arrays as values (`Problems/InitGuess.lean`) | induction over vehicles and segments |
| C150 | `MultiFrameProblem.init_step` on one spline per segment and the motion times (`Problems/FramesStep.lean`) | end points of `shift_spline` from C130 |
| C151 | vertices as solutions of the 2x2 systems, limits, the matrix of `Shape3D.rotate`, two-face solids, plates (`Geometry/Shapes.lean`), over the reals | closed form of the vertices, strict clockwise convexity by products of sines, half-planes from C39, `convexHull_prod` |
| C152 | `store`, `simulate`, `stop_criterium` of free-time and multi-frame problems with the loop of `Simulator.run`, over arbitrary plans (`Timing/Arrival.lean`) | number of samples from `round6`, induction over the updates |
| C153 | `point_in_extended_shape`, `check_segments` (`GCode/Extended.lean`), over the reals | lengths and sides of a rotated rectangle, orientation tests as zeros of sine and cosine |
| C154 | `get_init_guess_bangbang_jerk`, `get_init_guess_motion_time`, tests of `get_init_guess_new_segment` (`GCode/BangBang.lean`), over the reals | closed form of the integrated jerk signs, antisymmetry, integral bounds, and grid points near the peaks covered by the 5 % margin |
| C155 | `get_init_guess`, `set_init_spline_values` over the window of C117 (`GCode/Carry.lean`) | induction over the windows with the invariant that the solution has one entry per block |
| C156 | `get_init_guess_ring` (`GCode/RingGuess.lean`), the solver being any feasible answer, over the reals | polar coordinates with `arctan2`; coefficients to values by C53; positive motion time as a zero jerk on the grid means standing still |
| C157 | `BSplineBasis.transform` and the operators (`Spline/Unimodal.lean`, `Spline/Windows.lean`, `Spline/Usable.lean`) | basis functions have one hill (total positivity), so the grid points of their maxima differ if two points separate the hills; windows of degree + 3 knots are finitely many up to scale, and induction over the expression keeps all knots on the intervals |
| C158 | The whole chain for a holonomic vehicle with free end time: constraints (C10, C11, C13, C122, C123), `FreeTPoint2point.store`, and the loop of deployer and simulator of C127 (`Problems/Mission.lean`) | each plan gives a piece of the motion by the theorems about its constraints; induction over the list of plans glues the pieces, one-sided derivatives at the joints by the initial constraints |
| C159 | `construct_variables`, `init_variables`, `get_variables`, `set_variables` with the vector of the solver as a list and the CasADi structure as consecutive column-major blocks (`OptiLayer/Store.lean`) | induction over the list of blocks: they are disjoint and cover the vector; reading and writing are slices |
| C160 | `Problem.predict`, `DistributedProblem.predict`, `Vehicle.predict`, `set_initial_conditions` with the values that Python passes (`Problems/Predict.lean`) | case analysis on options and kinds of values; the faults by witnesses over whole classes |
| C161 | `_get_x_variables` numeric (`var.T.ravel()[ind]`) and symbolic (`var[ind]`) (`OptiLayer/Store.lean`) | both count column by column; from `C159_read` |
| C162 | As C158 with `FixedTPoint2point`: the horizon begins at the last knot, the start condition and the stored samples at the time since that knot (`Problems/MissionFixed.lean`) | the part of each plan after the update is a piece of the motion; gluing as in C158, the log by `glue_log`, limits for both values of `syslimit` |
| C163 | As C162 for several vehicles, with the constraints between them (`interCons` of `Collision/Env.lean`) and the clock of the first vehicle (`Problems/MissionFleet.lean`) | `drive_core` for every vehicle; at each instant all follow the plans of the same update at the same time, where `C12_fleet` separates them |
| C164 | Loop over shapes with one position (`IndexError` as a value), dictionary of lines keyed by shape objects, choice whether the heading is passed on (`Vehicles/Bodies.lean`); position as the integral of speed times direction | one shape: constraints equal those of `C10_environment`; integrated splines equal the integrals (`C17`); a disc does not depend on the heading. Several shapes: always `IndexError` |
| C165 | `Trailer.define_collision_constraints` with the dictionary made for the trailer (`Vehicles/Bodies.lean`) | trailer as in C164 with the offset; shared shape object: both; otherwise the constraints equal those of the trailer alone, and an explicit plan runs the vehicle over an obstacle |
| C166 | Updates, stored columns and the loop of C158 with the differential drive (`Problems/MissionDubins.lean`), constraints as the list that is handed to the solver | every plan: limits by C33, place by C17 integrals, room and distance by C164; plans glued in time, each starting in the state seen, heading recovered by C122; derivative at every instant from both sides |
| C167 | Constraints of `Dubins.get_fleet_center` as expressions, two-sided bounds on coefficients, coupled centre splines (`Fleet/Centre.lean`) | coefficients bound values (C53); division by 1+tan² >= 1; centres equal along the connected couples (C60); place by C17. Logged centre: explicit distance for all inputs |
| C168 | `get_interaction_error`: mean position, relative deviation, trapezoidal sum (`Fleet/Centre.lean`); `None` for NaN | sums of nonnegative terms vanish termwise; mean of a balanced configuration is the centre; violations for all unbalanced configurations and for all vehicles with a heading |
| C169 | `overrule_state`, `overrule_input`, `simulate`, `hard_stop` and updates as functions on log, plan and prediction (`Problems/Overrule.lean`); solver arbitrary | case analysis of the prediction; bisimulation of the drives with and without overruling |
| C170 | `integrate_ode` with linear interpolation, exact integral (`Problems/Simulated.lean`) | trapezoidal rule for Lipschitz velocities, summed over samples; invariant over updates; drift by an explicit family of drives |
| C171 | Drive of `Mission.lean` with simulated vehicle (`Problems/Default.lean`) | C170 along the drive, constraints of the plan (C10, C11, C13) shifted by the deviation |
| C172 | `BSpline.__div__`, `NurbsBasis.eval_basis`, `Nurbs.__mul__/insert_knots/derivative` with division by zero as a missing value (`Spline/Nurbs.lean`) | exactness of the transformation (C09) for numerator and denominator; quotient rule; counterexamples for every matrix |
| C173 | numpy arrays as shape and entries, `np.inner`, `TensorBSpline.__call__/integral` and arithmetic with numbers (`Spline/Tensor.lean`) | induction over the variables: after each contraction the shape and entries are known |
| C174 | tables of `memoize` and `cached_class` keyed by bytes (`Spline/Cache.lean`) | invariant over histories: every entry of the table is right |
| C175 | `_check_for_lineq`, `construct_upd_z` over expression trees with symbolic derivative (`ADMM/LinEq.lean`) | induction over expressions: the derivative is right, an expression with a constant derivative is affine; uses C24 for the update |
| C176 | `define_substitute`, `construct_substitutes`, `get_variables` (`OptiLayer/Substitute.lean`) | uses the substitution of C146; uniqueness of names for the lookup |
| C177 | `set_options` with two levels of dictionaries, `knot_time` of fixed-horizon problems (`Problems/Options.lean`) | induction over the calls; C33 for the grid and C120 for the shifted guess |
| C178 | `MultiFrameProblem.construct`: the constraints of all segments, start, end and joints (`Problems/MissionFrames.lean`) | gluing segment after segment by induction; C10, C11, C13, C34, C122, C123 for the pieces |
| C179 | `GCodeProblem.construct`: all constraints of a machining plan (`Problems/MissionTool.lean`) | gluing by induction; derivative from the left bounded by the jerk limits, mean value inequality along the way; C34, C122, C123, C134, C135 for the pieces |
| C180 | `Holonomic3D` with free end time in a `Cuboid` room, obstacles in space and planar ones, replanning loop (`Problems/Drive.lean`, `Problems/MissionSpace.lean`) | the loop for any plan in any dimension (`drive`), C122, C127; C11 for planes in space and lines of columns, C151 for the vertices of the room |
| C181 | limits of `Quadrotor`, `SimpleQuadrotor3D` and the whole problem of `Holonomic` as functions of the motion time (`Problems/Slow.lean`) | coefficients are bounded by values (inverse of the collocation matrix, C136, C157); the highest power of the motion time prevails; monotonicity |
| C182 | planar `Quadrotor`: whole problem and loop of deployer and simulator (`Problems/MissionQuad.lean`) | plans are glued with C127; thrust and tilt are polar coordinates of the acceleration without gravity; limits by C15, start by the constraints, end by C123 |
| C183 | `check_frames`, `create_next_frame`, `update_frames`, `stop_criterium` for one frame, constructor of `CorridorFrame` (`Frames/Switch.lean`) | invariant over histories of calls; the next frame contains the surroundings of its start (induction over the base frame and the scaling) |
| C184 | `Problem.solve` with the statuses of the solver, `store` of the result, `reset_init_guess` of C149 (`Problems/Solved.lean`) | induction over histories |
| C185 | `get_init_guess_combined_frame` with the model of `concat_splines` of C121 and `la.solve` (`Spline/Combined.lean`) | regular systems by total positivity (C121); uniqueness and polynomials as splines for the exact part |
| C186 | `get_init_guess` without the values, over the windows of C70 (`Frames/GuessFrames.lean`) | invariant over histories of C70, case distinction on the number of frames |
| C187 | `run_once`, `hard_stop`, free-time `store` and `simulate`, `update_timing` of C22 (`Timing/Once.lean`) | induction over runs with clock, axis and log as invariant |
| C188 | `SimpleQuadrotor3D` in the free-time problem with obstacles in space, stored columns and the simulator loop (`Problems/MissionSimple.lean`) | constraints of each plan give its limits (C57), angles are arctangents as the lift is positive, plans are joined at updates as in C180 and C182 |
| C189 | `get_init_spline_value` of `Dubins`, `AGV`, `Bicycle`, `Quadrotor3D`, `Trailer` (`Problems/TurnGuess.lean`) | signs of the coefficients of the derivative give monotony; integral of zero for the position; intermediate value theorem for the long way round |
| C190 | the iteration of C61 repeated without end, with the residuals of C62 as reported by `dual_update` (`ADMM/Converge.lean`) | the distance of copies and multipliers from a solution decreases by the reported residual in every iteration: sums telescope, bounded sequences and Cauchy-Schwarz give the limits |
| C191 | the iteration of C137 repeated without end, and the residual `dual_update` reports (`ADMM/DualConverge.lean`) | strong convexity at both the current and the best prices; the distance to the best prices decreases by a multiple of the squared distance of the plans; Cauchy-Schwarz for the objective |
| C192 | the iteration of C190 with the x-update of the option `AMA` (`ADMM/Ama.lean`) | prices and multipliers are flat on coupled copies; strong convexity at the current and at the best prices; the distance to the best prices decreases by a multiple of the squared distances of plans and copies |
| C193 | the copies of the environment and the calls that advance them (`Problems/Seen.lean`) | invariant over all sequences of calls: all copies equal the one shown; the clipped times agree |
| C194 | the updates of C190 followed by `accelerate` of C25 (`ADMM/AccConverge.lean`) | the acceleration keeps the extrapolated values as previous ones, so it is over-relaxation of a firmly nonexpansive map: by at most a factor 1 + (k+1)/(k+2), or none when rejected; two rejections never follow each other as the residual decreases; the weights sum to infinity |
| C195 | what the updaters hold and have received, `init_var_admm`, `communicate`, `reinitialize`, one `dual_update` (`ADMM/AccStart.lean`) | after one iteration the received copies are those held: refinement of the iterations of C190 and C194; with restarts some iteration is accepted as the remembered residual grows geometrically; explicit runs of two vehicles for the failures |
| C196 | text of one path to points: pattern search, replacements, `strip`, `split`, `eval` of decimal literals, integer and float arrays (`Gui/SvgPath.lean`); not: the search in the XML tree, exponents, the output file | induction over the commands: the literals of a well separated text are found again, and the last two points are where the pen is; explicit forms of text for the failures |
| C197 | `_struct2dict`, `_dict2struct` and the recursion of `_transform_spline` over neighbours, numbers in structs (`ADMM/SharedDict.lean`); the move of one variable is a parameter, the symbolic structs are not modelled | inductions over dictionaries with distinct keys: every stage is the dictionary (struct) of one function of neighbour, object and name |
| C198 | `fill_template` for one file, with `str.replace` as leftmost replacement on lists of characters (`Export/Template.lean`); not: reading and writing of files | induction over the pieces of the template: one replacement fills in exactly the places of one key, and keeps the remaining places on different lines; explicit templates for the failures |
| C199 | `change_includes` for the text of one file, with the listing of the directory in any order (`Export/Includes.lean`, on `Export/Files.lean` and `Export/Template.lean`); not: reading and writing of files, subdirectories | a replacement works separately on both sides of a quote; a name occurs in another one only at its end; induction over the listing; explicit results for the failures |
| C200 | `set_includeguards` for the text of one header, with `find`, `split`, `replace` (also of the empty text) and `upper` of Python on lists of characters (`Export/Guards.lean`); upper case as for ASCII; not: reading and writing of files | the guard is found behind the first `#`; a replacement works separately on both sides of spaces, line breaks and `#`; explicit results for the failures |
| C201 | the generator `_create_fillParameterDict` and the C++ statements it generates, executed on the vector of obstacles, over the reals (`Export/Obstacles.lean`); reading behind the end of a vector is undefined; not: the fixed part of `fillParameterDict` | induction over the children with the counter of obstacles; the predicted state is compared with every motion of constant acceleration (uniqueness by the mean value theorem) |
| C202 | the paths composed by `copy_files` and `export_casadi_problems`, with `os.path.join` and `dirname`, the directories that are made, and the failure of a move into a directory that does not exist (`Export/Places.lean`); not: contents of the files | the two compositions agree exactly if the directory ends with a slash; otherwise lengths differ |
| C203 | the choice of the updaters in `ExportADMM.__init__`, on the grouping of `Problems/Builds.lean` (`Export/FleetBuild.lean`); the sum of a text and an integer is an exception | the invariant of the grouping loop: one group exactly if all keys agree |
| C204 | `init_step` of the updaters of both methods, on the knot clock of C33, inside the loop of `solve` (`ADMM/KnotShift.lean`); the effect of a move on the shared values is in C137 | induction over the updates: both counts are the number of knots passed |
| C205 | the residuals appended by `solve`, `update_plot` of both methods and the drawing of lines (`ADMM/ResidualPlot.lean`); not: logarithm, figures | closed form of the history of residuals; comparison of lengths |
| C206 | `SVGReader.init` on the attributes of the outer element, and the size of the frame in `load_svg` (`Gui/SvgSize.lean`); the comparison of a slice with `is` is false; not: the parser of numbers and texts | case distinction on units and regions |
| C207 | `get_fleet_vehicles` on any argument (`Problems/Given.lean`) | case distinction; lengths of lists |
| C208 | the files written by `export_casadi_problems` and the statements generated to load them (`Export/Substitutes.lean`); not: code generation by CasADi and the compiler | folds over the substitutes: the last one with a name is kept |

## Violations found

Each is a theorem on a concrete input of the model; the statement that does hold is proved beside it.

| property | theorem | fault |
|----------|---------|-------|
| C05 | `C05_insert_first_knot_violated` | inserting the first knot once more changes the value there |
| C09 | `C09_pow_zero_violated` | `s**0` is `s`, not 1 |
| C11 | `C11_3d_violated` | a 3D room constraint bounds the centre of a sphere, not its surface |
| C14 | `C14_steer_stored_violated` | at small speed the stored steering angle is `arctan2` of two signed derivatives and can exceed 90 degrees |
| C16 | `C16_violated` | misplaced parenthesis: `(a > tol or b) > tol` compares a truth value with the tolerance; for tolerance >= 1 a vehicle far from its target has arrived |
| C16 | `C16_quad3d_violated` | `Quadrotor3D` accepts any input below hovering, e.g. free fall |
| C38 | `C38_moving_violated` | the sampled motion test misses a crossing between two samples |
| C40 | `C40_violated` | the loop over the vertices stops after two of them |
| C40 | `C40_slope_violated` | sides of negative slope are never hit |
| C54 | `C54_violated` | the difference of half-angle tangents is not the tangent of the half difference |
| C57 | `C57_violated` | the roll rate constraint neglects the coupling with the pitch rate |
| C19 | `C19_violated` | the test for the lower left diagonal uses the cell height as an index: a path cuts the corner of an occupied cell |
| C20 | `C20_obstacle_violated` | "no path" although the goal is reachable: a 3 by 3 grid with the centre blocked |
| C20 | `C20_violated` | on a 2 by 1 grid the goal next to the start is not found: failure is reported when the open list runs empty in the iteration that reaches the goal |
| C58 | `C58_closest_violated` | not the closest free cell |
| C59 | `C59_wall_violated` | a wall across the room that misses the cell centres blocks nothing |
| C59 | `C59_aligned_violated` | a square of the size of a cell that half covers two cells blocks nothing |
| C59 | `C59_other_violated` | shapes other than rectangles and circles raise, or are taken to be the obstacle before |
| C21 | `C21_one_violated` | the only vehicle of a circular fleet is its own neighbour, twice |
| C21 | `C21_two_violated` | in a circular fleet of two each vehicle lists the other one twice |
| C22 | `C22_dict_violated` | a configuration dict with two entries under keys other than 0 and 1 raises |
| C23 | `C23_two_violated` | a circular fleet of two gets no coupling constraint at all |
| C23 | `C23_one_violated` | a circular fleet of one raises |
| C26 | `C26_sizes_violated` | a vehicle that shares different variables with different neighbours sends each of them all its shared variables: the vector has the wrong size |
| C27 | `C27_init_violated` | the initialisation calls `solve` `init_iter` times, each of `max_iter_per_update` iterations |
| C62 | `C62_dd_violated` | dual decomposition squares the squared norm: at distance 2 it reports 4 |
| C63 | `C63_arrival_violated` | with `max_iter` set, arrival does not end the simulation |
| C28 | `C28_segments_violated` | every further segment of a predicted obstacle trajectory starts with the initial velocity: an accelerating obstacle is mispredicted |
| C29 | `C29_twice_violated` | two simultaneous hits turn the velocity twice: the obstacle goes on into the wall |
| C30 | `C30_set_state_violated` | `set_state` of an obstacle forgets positions but keeps the times |
| C30 | `C30_vehicle_violated` | the non-ideal simulation truncates `T/Ts` without rounding: 0.3/0.1 gives two samples |
| C31 | `C31_fill_violated` | `fill_room` adds obstacles without counting them |
| C32 | `C32_zero_violated` | a step of zero advances the clock by the default update time |
| C32 | `C32_final_violated` | `(stop or x) > sample_time` compares a truth value; the last update of a run advances the clock by one sample less than simulated |
| C32 | `C32_step_violated` | `step(update_time)` simulates over the default update time but advances the clock by its argument |
| C33 | `C33_long_violated` | an update over several knot intervals shifts the splines once |
| C33 | `C33_rounding_violated` | the shift rounds the quotient, the time in the interval rounds the time: just before a knot they disagree |
| C33 | `C33_horizon_violated` | the knot time truncates the horizon to milliseconds |
| C64 | `C64_violated` | no sample is found for times in the second half of a sample interval |
| C35 | `C35_limit_violated` | the search for a free label recurses once per existing object: about the 1000th object of a kind cannot be created |
| C35 | `C35_underscore_violated` | a label like `a_1` recurses without end |
| C36 | `C36_zero_violated` | `skip=[0, 0]` slices with `[:-0]` and drops the whole constraint |
| C36 | `C36_constant_violated` | constraints between constants are dropped, also infeasible ones |
| C65 | `C65_violated` | variable `x_a` of object `b0` and variable `x` of object `a_b0` are taken for one |
| C66 | `C66_shapes_violated` | shape 1 with obstacle 10 and shape 11 with obstacle 0 share their hyperplane |
| C66 | `C66_eps_violated` | the slack variables of all segments (and of the avoidance of other vehicles) share their names |
| C66 | `C66_terminal_violated` | the terminal conditions of all vehicles of a fixed-time problem share their variables |
| C69 | `C69_violated` | segment 10 is taken for segment 1 |
| C41 | `C41_rest_violated` | an obstacle with a trajectory that rests at the moment is in neither list |
| C41 | `C41_large_violated` | a moving obstacle larger than the frame is not seen |
| C41 | `C41_turned_violated` | the vertices of a moving polyhedron are rotated twice |
| C42 | `C42_violated` | only a change in the last frame counts |
| C70 | `C70_violated` | the counter is reduced by one although two frames are missing; the next step then fails |
| C71 | `C71_violated` | in the last direction the frame is left one step outside the room, over an obstacle at the wall |
| C72 | `C72_violated` | a way that turns back makes the frame smaller: an earlier waypoint is lost |
| C73 | `C73_shift_violated` | no shifted frame has both an endpoint and a last waypoint |
| C73 | `C73_inside_violated` | the constructor of a shifted frame fails if the rest of the path is in it |
| C75 | `C75_outside_violated` | the last waypoint is moved out of the frame |
| C75 | `C75_border_violated` | a waypoint on the right side is moved to the left side; the frame is moved on the wrong side |
| C75 | `C75_none_violated` | exception if no waypoint is far enough from the border |
| C76 | `C76_violated` | the first waypoint is taken if all are farther than the side of the room |
| C45 | `C45_height_violated` | radius of `G02` is the distance in space to a centre at height 0 |
| C45 | `C45_letter_violated` | a missing `I` or `J` puts the centre at coordinate 0 instead of the start |
| C46 | `C46_split_violated` | the points that split a block with a change of height are not on the segment |
| C47 | `C47_short_violated` | a program with fewer rooms than the window cannot be solved |
| C47 | `C47_numbers_violated` | with repeated room numbers the update reads behind the last room |
| C78 | `C78_violated`, `C78_fails_violated` | words of a comment are read as coordinates or make `float` fail |
| C79 | `C79_violated` | an empty part follows a vertical movement at the end |
| C80 | `C80_violated` | `run` does not reset: the second program holds the first one twice |
| C81 | `C81_violated` | commands of subfiles come after all commands of the file |
| C82 | `C82_violated` | the start of a program that begins with `G01` is not shifted |
| C83 | `C83_violated` | the end of the program is missing (the start of the last block is there twice) |
| C84 | `C84_violated` | a full circle becomes a single point |
| C85 | `C85_violated` | helical arcs stay at the height of the start |
| C86 | `C86_violated` | `pose = block.center` and `extend` make the centre of the block longer |
| C87 | `C87_violated` | the length in space is used for the width of the room in the plane |
| C88 | `C88_violated` | numbers of the second half of a split circle repeat those of the first |
| C89 | `C89_full_violated`, `C89_margin_violated` | an arc that closes the circle with its margins gets a tiny room; the margin angle uses the tangent instead of the sine |
| C90 | `C90_violated` | a segment that ends in the goal before the end of the program stops it |
| C91 | `C91_violated` | cells are rounded up, so the last grid points lie outside the frame; a click near the border makes an obstacle outside the room |
| C92 | `C92_violated` | `get_position` does not add the position of the window, `make_obstacle` does |
| C93 | `C93_load_violated` | `load_environment` draws obstacles without taking the position of the window into account |
| C93 | `C93_closed_violated` | closing the load dialog erases obstacles from the screen but not from the list |
| C94 | `C94_violated` | rectangles are selected by clicks up to their full size away from the centre |
| C97 | `C97_violated` | a new window exchanges the numbers of rows and columns |
| C98 | `C98_violated` | the radius of a circle is compared with the width of the frame only (`width or height`) |
| C99 | `C99_violated` | only positions on or outside the border are moved |
| C100 | `C100_violated` | without a transform `[x, y] += [0, 0]` appends, and loading fails |
| C101 | `C101_violated` | the rectangle lies on one side of the line, depending on its direction |
| C102 | `C102_violated` | the bisectors of vertical and horizontal chords are exchanged |
| C102 | `C102_axis_violated` | one chord along an axis gives a wrong centre or an unbound name |
| C103 | `C103_violated` | the beginning of a line is ignored, so unconnected lines are joined |
| C49 | `C49_row_violated` | of a parameter with one row and several columns only the first element is copied |
| C49 | `C49_scalar_violated` | a variable with one row is assigned as a number to a vector: the code does not compile |
| C49 | `C49_transform_violated` | the counter grows by the rows only: behind a variable with several columns the wrong entries are moved |
| C50 | `C50_number_violated` | a vector constraint with a number as bound cannot be exported |
| C50 | `C50_array_violated` | a scalar constraint with an array as bound writes the array's text |
| C104 | `C104_violated` | the bounds of an avoided obstacle are restored after the shutdown of its rows |
| C105 | `C105_violated` | splines of the same name share the matrix of the last one |
| C105 | `C105_missing_violated` | a spline without matrix refers to a constant that is not written |
| C107 | `C107_violated` | the vehicle assumes ten knot intervals |
| C108 | `C108_violated` | the prediction is off by a third of a sample time times the change of the velocity |
| C108 | `C108_state_violated` | every step of the integration starts from the first state |
| C109 | `C109_long_violated` | an update over several knots moves the splines once |
| C109 | `C109_first_violated` | a first update with shift after a reset starts from old coefficients |
| C109 | `C109_freeEnd_violated` | problems with a free end are exported, but their splines are never moved |
| C110 | `C110_violated` | the shift is added to the time again when a failed update is retried |
| C111 | `C111_violated` | time is rounded to milliseconds in one place and to a millionth of a knot interval in the other |
| C112 | `C112_violated` | the clock is advanced between the x-update and the z-update |
| C112 | `C112_parameter_violated` | so the z-update gets another time in the knot interval |
| C114 | `C114_violated` | the offset does not grow with the column: only the first column of a shared spline is moved |
| C115 | `C115_path_violated` | a dot in the export directory cuts the path |
| C115 | `C115_namespace_violated` | a namespace with an underscore: the label cannot be taken off |
| C115 | `C115_stem_violated` | a file name with an underscore loses its first part |
| C116 | `C116_twice_violated` | the second stepBack does not change the time |
| C116 | `C116_shift_violated` | the shift is added again |
| C117 | `C117_digit_violated` | `G1` is ignored |
| C117 | `C117_joined_violated` | words without spaces make the reader fail |
| C118 | `C118_backward_single_interval_violated` | without interior knots the backward shift stops with an IndexError |
| C119 | `C119_single_interval_violated` | without interior knots the extrapolation stops with an IndexError |
| C120 | `C120_offset_violated` | knots that do not start in 0: wrong coefficients |
| C120 | `C120_repeated_knot_violated` | repeated interior knots: wrong coefficients |
| C120 | `C120_short_horizon_violated` | fewer intervals than the degree: wrong coefficients |
| C120 | `C120_single_interval_violated` | no interior knots: IndexError |
| C121 | `C121_joint_violated` | when the joint is an evaluation point the values of both trajectories are added there |
| C121 | `C121_continuous_violated` | trajectories that are only continuous always meet in twice their value |
| C121 | `C121_negative_violated` | any two values with a negative sum pass the continuity test |
| C121 | `C121_negative_values_violated` | so constants -1 and -5 are joined by a wrong continuous trajectory |
| C121 | `C121_components_violated` | the number of knots found for the first component is used for all |
| C121 | `C121_line_violated` | without a knot at the joint, coefficients and knots of the result do not belong together |
| C121 | `C121_kink_violated` | a kinked line passes the joint at twice its value |
| C121 | `C121_store_violated` | `Vehicle.store` inserts the wrong number of knots unless continuity = degree |
| C122 | `C122_turn_violated` | headings beyond half a turn are planned from one turn less |
| C122 | `C122_deployed_violated` | a deployed dubins, bicycle or AGV always plans from the position given at the very beginning |
| C122 | `C122_restart_violated` | after a simulation a new initial position is ignored by dubins, bicycle and AGV |
| C122 | `C122_delay_violated` | a late update starts `delay` samples before the predicted position |
| C122 | `C122_standstill_violated` | a bicycle or AGV that does not speed up at once loses its steering angle |
| C122 | `C122_backwards_violated` | a bicycle or AGV that moves backwards or slowly is planned to start with speed zero |
| C122 | `C122_quadrotor_violated` | `Quadrotor` ignores the predicted velocity and uses the planned one |
| C122 | `C122_quadrotor_initial_violated` | `Quadrotor.set_initial_conditions` drops the given velocity |
| C122 | `C122_rates_violated` | `Quadrotor3D` does not impose the predicted rates |
| C122 | `C122_trailer_violated` | `Trailer.set_initial_conditions` puts the trailer at the origin |
| C123 | `C123_turn_violated` | goal headings beyond half a turn are reached one turn earlier |
| C123 | `C123_dubins_violated` | a dubins vehicle that integrates from a stale position ends next to the goal by the same distance |
| C123 | `C123_rates_violated` | `Quadrotor3D` does not impose zero rates at the end |
| C125 | `C125_rendezvous_violated` | `FreeEndPoint2point` imposes the last position constraint once per derivative constraint, instead of the derivative constraints: vehicles may arrive moving and elsewhere in the other coordinates |
| C126 | `C126_late_violated` | an update after the end of the plan drops the delay and plans from one update time after the previous update |
| C126 | `C126_early_violated` | an update before its time has a negative delay, which slices the last inputs of the plan |
| C128 | `C128_jump_violated` | the coefficients of the waiting plan are the last ones of the plan, so a vehicle on its way is moved to the end of the plan |
| C129 | `C129_again_violated` | the objective is set to zero in the constructor only, so a second run adds to the first |
| C129 | `C129_init_violated` | the part of the objective ignores the initial time, which the executed motion starts from |
| C130 | `C130_start_violated` | the shift is the update time over the remaining instead of the whole motion time, so the guess starts too late, and too early close to the goal |
| C130 | `C130_double_violated` | a plan of exactly two update times is shifted by its whole length, which is a singular system |
| C131 | `C131_last_violated` | as many plans are remembered as samples are simulated, which is one less than there are logged instants |
| C132 | `C132_number_violated` | the spacing is rounded down, so a movie of more than half of the instants shows all of them |
| C132 | `C132_exact_violated` | a movie that fits shows the last instant, for which no plan is remembered |
| C132 | `C132_single_violated` | a movie of one frame divides by zero |
| C133 | `C133_velocity_violated` | the end velocity is not reset, so the next attempt starts with the velocity at the end of the rejected plan |
| C133 | `C133_clock_violated` | the time is put back in a local variable only, so rejected plans count |
| C133 | `C133_inputs_violated` | the last recorded velocity is overwritten by an extrapolated one with zero vertical component |
| C133 | `C133_patience_violated` | the counter is not reset by a plan that succeeds after a rejected one, so rejections of different segments add up |
| C133 | `C133_first_violated` | the rejection of the first plan reads the last but one of a single recorded velocity |
| C134 | `C134_z_violated` | with the machining limit and a nonzero limit in the plane, the velocity of the z-axis is not constrained at all |
| C134 | `C134_start_violated` | the first coefficient of the first segment is left out, so right after a start with a large acceleration the limits are exceeded |
| C135 | `C135_beyond_violated` | the room of a segment that is not parallel to an axis is an infinite strip, so the tool can run arbitrarily far beyond the end and come back |
| C135 | `C135_height_violated` | on a segment in the plane the z-axis is not constrained, although it starts and ends at the right height it can be anywhere in between |
| C135 | `C135_arc_violated` | the room of an arc is the full ring, so the tool can be on the opposite side |
| C136 | `C136_many_violated` | a sum or product whose basis has more than 501 functions stops with a singular matrix |
| C136 | `C136_fine_violated` | so does one with a function that vanishes on the 501 grid points |
| C121 | `C121_cubic_violated` | cubic trajectories joined by one knot pass the joint at twice the value when the intervals next to it are equally long |
| C137 | `C137_step_violated` | with the default step `rho = 2` two vehicles with objectives `(y - c)²/2` move apart by a factor of seven in every iteration |
| C138 | `C138_agree_violated` | between knots a vehicle in full agreement with all copies is charged as soon as it has moved since the last knot: only its own variables are moved, the results for copies and prices are dropped |
| C138 | `C138_pull_violated` | the x-update draws the vehicle at time t to the place where its plan was at the last knot |
| C138 | `C138_dd_violated` | the coupling constraints of dual decomposition relate the current time of the vehicle to the last knot of its neighbours |
| C138 | `C138_transform_violated` | splines numbered higher than the number of basis functions are never moved |
| C139 | `C139_own_violated` | a vehicle is planned with the limits of the first vehicle of its type and number of neighbours |
| C140 | `C140_violated` | with one occupied cell the planner returns a path of length 21/4 where 19/4 is possible: the Manhattan heuristic overestimates diagonal ways |
| C141 | `C141_violated` | the rational circle is not run through at constant speed: after a sixteenth of a turn no rotating obstacle is in its true orientation |
| C141 | `C141_segments_violated` | the durations of the segments are ignored: the rotation starts again in every segment, and takes the option `horizon_time` for the horizon |
| C141 | `C141_measurement_violated` | the orientation of an obstacle that does not turn is fixed when the problem is built; a measurement without orientation sets that of a turning obstacle to zero |
| C142 | `C142_violated` | a change at time zero replaces the initial value, though it is meant to be added |
| C142 | `C142_order_violated` | with a change at time zero that is not the first in its list, the obstacle starts with the first one and the change at time zero is lost |
| C142 | `C142_model_violated` | with another model than the default, changes of the velocity move the position whatever the model says |
| C142 | `C142_shared_violated` | the dictionary of initial values is changed in place: another obstacle built from it starts differently |
| C143 | `C143_violated` | the distance of a line is not rooted: lines longer than one get a time that is too long, shorter ones a time in which they cannot be covered |
| C144 | `C144_violated` | the times of the waypoints are their own coordinates, so the guess is the straight line from the first to the last waypoint, through whatever the path goes around |
| C144 | `C144_corner_violated` | around a corner the guess leaves the path |
| C144 | `C144_start_violated` | when a coordinate returns to its first value, the guess starts somewhere else than the vehicle is |
| C144 | `C144_closed_violated` | a path that ends where it starts is refused, though the waypoints in between are far away |
| C144 | `C144_time_violated` | displacements are added with their sign before the length is computed: paths that go out and back get a time in which they cannot be covered |
| C145 | `C145_corner_violated` | a circle that covers a left corner of a rectangle is not reported when its centre is diagonally off that corner |
| C145 | `C145_beam_violated` | a circle anywhere on the line through the axis of a beam is reported, and one that enters the beam from the side is not |
| C145 | `C145_turned_violated` | the orientation signal of the obstacles is ignored |
| C145 | `C145_room_violated` | a turned room is replaced by its bounding box and a beam by its axis |
| C145 | `C145_round_room_violated` | in rooms that are not rectangles obstacles never count as outside |
| C147 | `C147_violated` | in Python 3 the function made by `exec` is not visible in `update_bounds`: any constraint with a switch-off condition stops the first update |
| C148 | `C148_orient_violated` | `HolonomicOrient.get_init_spline_value` computes `tan(theta/2)` of start and goal but the loop over `range(2)` leaves the third column zero |
| C149 | `C149_violated` | `reset_init_guess()` builds a list of the lists of all vehicles and then asks a list for its `shape`: after every time-out of the solver (except at time 0) the update raises |
| C150 | `C150_start_violated` | the first segment is shifted by `update_time/(T - update_time)` with the total time `T` of all segments, not by `update_time/T0` |
| C150 | `C150_negative_violated` | the motion time of the first segment becomes negative when it ends before the next update |
| C151 | `C151_beam_violated` | `get_canvas_limits` of a beam uses only the ends of its axis: no height and ends cut off |
| C151 | `C151_plate_violated` | `Plate` of a beam drops the radius of the beam and uses only half of its own height |
| C152 | `C152_unchecked_violated` | a run ends with the first motion shorter than an update, at its last whole sample, without checking the terminal conditions |
| C152 | `C152_start_violated` | if the first motion is shorter than a sample nothing is simulated and `run` raises on the missing signals |
| C153 | `C153_margin_violated` | the margin is not used for segments parallel to an axis |
| C153 | `C153_square_violated` | in a sloped segment about as long as wide the test uses all four sides, so the segment is not endless |
| C153 | `C153_skip_violated` | a segment in line with the next one is left at its start, without having been passed |
| C154 | `C154_few_violated` | with less than four knot intervals all jerks are zero and the guess is nan |
| C154 | `C154_vertical_violated` | with the limits of a move along z (zero in x and y) the guess is nan |
| C154 | `C154_instant_violated` | for a move along z with nonzero limits in x and y the guessed motion time is zero |
| C154 | `C154_height_violated` | the height is guessed linear, so the velocity along z jumps at the start |
| C154 | `C154_axes_violated` | the motion time uses the limits along x only and the tests only the positive direction: a slower y axis is driven too fast |
| C154 | `C154_machining_violated` | the limit on the velocity along the path (default) is ignored: diagonals are guessed about a third too fast |
| C155 | `C155_violated` | each time the window of a machining program gets smaller but keeps two blocks, the plan of the last block is replaced by a fresh guess |
| C156 | `C156_circle_violated` | for a full circle the solver starts with standing still at the start |
| C156 | `C156_height_violated` | the guessed height is zero whatever the height of the arc |
| C160 | `C160_integers_violated` | `Problem.predict` wraps the state of a single vehicle only if its first element is a float: for `states=[0, 1.5]` the vehicle gets the number 0 as its state |
| C160 | `C160_state_only_violated` | `Vehicle.predict` with `enforce_states` and `enforce_inputs` ignores a given state when no input is given |
| C160 | `C160_derivative_violated` | `Vehicle.predict` passes `dinput` to `set_initial_conditions`, which only `Tool` accepts: imposing states and inputs from the log raises `TypeError` for all other vehicles |
| C160 | `C160_distributed_violated` | `DistributedProblem.predict` passes `delay` in the place of `inputs` and drops `enforce_states` and `enforce_inputs`: the delay is not taken into account and imposed states are ignored |
| C164 | `C164_several_shapes_violated` | `Vehicle.define_collision_constraints_2d` takes `positions[s]` for every shape although all vehicles pass one position: vehicles with two or more shapes raise `IndexError` |
| C165 | `C165_lead_vehicle_violated` | `Trailer.define_collision_constraints` passes on the lines of the trailer's shapes; the pulling vehicle's shape is not among them, so that it is not kept away from obstacles (`C165_nothing_imposed_violated`: for all such trailers) |
| C167 | `C167_logged_violated` | `Dubins.splines2signals` logs a `fleet_center` with another rotation than the constraint in `get_fleet_center`: always sqrt(2) times the configuration away |
| C168 | `C168_unbalanced_violated` | `get_interaction_error` takes the mean of the positions for the centre: configurations not balanced about their centre are reported in error although the formation is exact |
| C168 | `C168_at_centre_violated` | a vehicle at the centre of the formation: division by the norm of its configuration, no number is reported |
| C168 | `C168_wheels_violated` | exact formations of vehicles with a heading are always reported 141 per cent in error |
| C168 | `C168_percent_violated` | with dual decomposition the error is printed with a per cent sign but without the factor 100 |
| C169 | `C169_first_plan_violated` | simulated prediction integrates from the sample before the last update: the first plan after `overrule_state` starts from where the vehicle would have been |
| C169 | `C169_ideal_violated` | ideal prediction: `overrule_state` has no effect on any later plan |
| C169 | `C169_input_violated` | `overrule_input` has no effect on any plan: zero after a reset, planned input otherwise |
| C169 | `C169_before_violated` | overruling before the first simulation raises (`signals` does not exist) |
| C170 | `C170_drift_violated` | `ideal_prediction` on with `ideal_update` off: deviations from the plans add up without bound |
| C172 | `C172_python3_violated` | only `__div__` is defined: dividing splines raises under Python 3 |
| C172 | `C172_derivative_violated` | `Nurbs.derivative` works in the basis of the squared denominator, which is too smooth when there are interior knots: wrong derivative |
| C172 | `C172_insert_knots_violated` | `Nurbs.insert_knots` transforms coefficients instead of coefficients times weights: the function changes unless all weights are equal |
| C172 | `C172_zero_weight_violated` | a divisor without zeros can have a zero coefficient: the quotient is `nan` everywhere |
| C173 | `C173_rsub_violated` | `__rsub__ = __sub__`: `a - s` gives `s - a` |
| C173 | `C173_integral_two_violated` | integral for two variables uses `cvxopt`, which is not imported |
| C173 | `C173_integral_three_violated` | integral for three variables raises when the first two bases differ in length |
| C173 | `C173_integral_order_violated` | integral for three variables swaps the weights of the first two variables |
| C174 | `C174_slice_violated` | evaluating at a slice like `t[::2]` raises (md5 of a non-contiguous array) |
| C174 | `C174_shape_violated` | a two-dimensional argument raises or not, depending on what was evaluated before |
| C174 | `C174_integer_violated` | the bytes of an integer are those of a tiny float: the one gets the values of the other |
| C174 | `C174_integers_violated` | integer arrays raise (`b += …` on an integer array), unless floats with the same bytes were evaluated before |
| C175 | `C175_parameter_violated` | in `_check_for_lineq` the loop variable `sym` shadows the list of symbols and CasADi matrices are not iterable: linear equations with a parameter as coefficient are refused |
| C176 | `C176_symbol_violated` | the symbol returned by `define_substitute` is never replaced: constraints, objectives and formulas that use it can not be evaluated |
| C176 | `C176_taken_violated` | a formula may have the name of a variable: its value is reported under that name, while its symbol means the variable |
| C177 | `C177_horizon_violated` | `knot_time` is computed in the constructor only: after `set_options({'horizon_time': ...})` (as in examples/p2p_holonomic_3d.py) the knot intervals do not make up the horizon |
| C177 | `C177_guess_violated` | then the initial guess after the first knot starts where the plan is at another instant |
| C178 | `C178_stop_violated` | motion times may be zero (`-T <= 0`): with a last segment that takes no time all constraints are met by a plan that arrives at the goal at full speed |
| C179 | `C179_stop_violated` | motion times may be zero (`-T <= 0`): with a last segment that takes no time a plan meets all constraints and the tool arrives at the goal with a velocity of 0.3 |
| C180 | `C180_turned_violated` | a room with an orientation bounds the vehicle only by the axis-aligned box around it: a room of side 2 turned by 45 degrees, all constraints are met by a plan that ends outside |
| C181 | `C181_turn_violated` | the turn rate of `Dubins` and `HolonomicOrient` is bounded with the coefficients of `1 + tg_ha**2`, which may be negative: a turn that is slow enough at every instant is infeasible with every motion time |
| C183 | `C183_stuck_violated` | a goal in the frame closer to a wall than the size of the vehicle is not the endpoint of the frame: the frame is kept for ever and the run never stops |
| C183 | `C183_wall_violated` | or making the next frame raises an `IndexError` at the start |
| C183 | `C183_shift_violated` | `ShiftFrame` is called without `veh_size` and `margin` in `create_next_frame`: a run with shifted frames (the default) only starts if the first frame ends at the goal |
| C183 | `C183_lshape_violated` | `create_l_shape` is called with `None` if the first frame ends at the goal |
| C184 | `C184_failed_violated` | `solve` stores the result of the solver before it looks at the status, and only prints the status: plans from unsolved problems (infeasible, too many iterations) are followed |
| C184 | `C184_time_violated` | a time limit that is exceeded after the first update ends the run with an exception in `reset_init_guess()` |
| C185 | `C185_joint_violated` | `concat_splines` doubles the value at the joint, so that the guess is at twice the position there if the plan stops between the frames |
| C185 | `C185_start_violated` | the guess has the right value next to the start only, so it does not start where the vehicle is |
| C186 | `C186_violated` | `create_frames` reduces `n_frames` only by one: asking for three frames or more when the first one reaches the goal raises an `IndexError` |
| C187 | `C187_short_violated` | a run that takes less than a sample is neither stored nor simulated: the first one raises an `AttributeError` for `signals`, a later one advances the clock by the update time without a log, as `not update_time` holds for zero |
| C189 | `C189_longer_violated` | the guess interpolates the tangent of half the heading, so a turn across half a turn goes the long way round through heading zero |
| C189 | `C189_trailer_violated` | the trailer has splines of degree 3; behind an AGV or bicycle (degree 2) with the same knot intervals `np.c_` raises a `ValueError` for the guess |
| C193 | `C193_added_violated` | every vehicle has its own copy of the environment, made in the constructor: an obstacle added later is shown but avoided by no vehicle |
| C193 | `C193_measured_violated` | `obstacle.set_state` on the obstacle of the user has no effect on any vehicle of a distributed problem |
| C193 | `C193_used_violated` | `Environment.copy` makes the obstacles anew from their initial values: in a second problem after a simulation the vehicles avoid them where they once began |
| C193 | `C193_long_violated` | the copies are advanced by at most the horizon less the time in the knot interval, the one shown by at most the horizon |
| C195 | `C195_stuck_violated` | `init_var_admm` sets `z_ji` but not `z_ij`: the first plans are made with copies that no neighbour holds; the first residual can be smaller than the second, and with restarts and eta = 1 every further iteration is rejected for ever |
| C195 | `C195_delay_violated` | for the same reason the 400 iterations after the first can all be rejected with the default eta of 0.999 |
| C195 | `C195_restart_violated` | `reinitialize` keeps `c_res_p` (and `alpha`, multipliers and `z_ij`): after a solved problem every iteration of the next one is rejected, for ever |
| C196 | `C196_sign_violated` | a minus sign after a comma or space leaves an empty token, and `eval` of it raises a SyntaxError |
| C196 | `C196_integers_violated` | a relative curve in whole numbers gives an integer array: adding a fractional start point cuts off the fractions |
| C196 | `C196_several_violated` | only the first six numbers after a `c` are made absolute |
| C196 | `C196_lines_violated` | straight lines (`L`, `l`, `H`, `h`, `V`, `v`, `Z`, `z`) do not match the pattern and are left out silently |
| C197 | `C197_lonely_violated` | `list(dic.keys())[0]` raises an IndexError for a vehicle without neighbours, so a distributed problem with such a vehicle cannot be built |
| C198 | `C198_line_violated` | the text between two places on one line is taken for a place, if it is a key: it is replaced, and the two places are not filled |
| C198 | `C198_value_violated` | values are searched for places again: a value that contains @key@ shows the value of that key or not, depending on the order of the dictionary |
| C199 | `C199_ending_violated` | a namespace that is the name of a file: includes of other files get the label twice and name a file that does not exist, depending on the order of the listing |
| C199 | `C199_underscore_violated` | a namespace with an underscore: the includes keep the old names, the exported program does not compile |
| C200 | `C200_word_violated` | words that begin with the guard are changed too, in the middle |
| C200 | `C200_none_violated` | a header without #ifndef that ends with a line break gets the namespace in front of every single character |
| C200 | `C200_case_violated` | namespaces that differ in upper and lower case only get the same guards: of two exports used together one is left out |
| C201 | `C201_space_violated` | the generated code predicts two coordinates: of obstacles in space the third one is not passed on, and is read behind the end of the vector afterwards |
| C202 | `C202_slash_violated` | an export directory without slash at the end: the files with the optimization problem should go to another directory, whose name ends with src; the export stops with an exception |
| C203 | `C203_mixed_violated` | a fleet with different types of vehicles or numbers of neighbours cannot be exported without separate builds: an integer is added to a text |
| C202 | `C202_dot_violated` | an export directory with a dot in its name (./export/): the sources of the templates are put elsewhere, and the export stops with an exception |
| C204 | `C204_iterations_violated` | with `max_iter_per_update` of two or more, the shared splines are moved over every knot once per iteration, the own splines once |
| C204 | `C204_jump_violated` | update times that do not fall on the knots: own splines are moved over the knots, shared splines never |
| C205 | `C205_samples_violated` | with two or more samples per update, a movie of the residuals shows more iterations than were performed, and stops with an exception as soon as there are not enough |
| C205 | `C205_iterations_violated` | with `max_iter_per_update` of two or more, fewer iterations are shown than were performed |
| C205 | `C205_dd_violated` | for dual decomposition the data are lists instead of dictionaries: the plot of the residuals is always empty |
| C206 | `C206_offset_violated` | the last two numbers of `viewBox` are taken for the largest coordinates instead of width and height: the room has another size than the drawing |
| C206 | `C206_mm_violated` | the scale of a drawing with its size in millimeters is never taken (comparison with `is`); the user is asked |
| C206 | `C206_unit_violated` | a drawing that is shown scaled, with its size without unit: the room has the size on the screen, the obstacles have the units of the drawing |
| C207 | `C207_fleets_violated` | a list of fleets: the vehicles of all but the first are lost without notice |
| C207 | `C207_mixed_violated` | a list that begins with a vehicle: other objects in it are taken for vehicles |
| C207 | `C207_empty_violated` | an empty list raises an IndexError, although an empty fleet is accepted |
| C208 | `C208_names_violated` | substitutes are exported by their name without the object: of two objects with the same name only the last is exported, and used for both |
