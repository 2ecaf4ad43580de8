{
 "C01": {
  "note": "Exact integer Sauer-Shelah sum, real-valued log bound."
 },
 "C02": {
  "note": "C02_exact names the returned count as the least of a set described by the bound alone."
 },
 "C03": {
  "note": "False as stated: the binary64 midpoint makes the bisection loop forever for some inputs whose answer lies above 2^53 (C03_always_answers_false). Proved: which of the three outcomes happens is decided exactly (C03_exact): a count is returned iff the bound at 2^53 already meets the target, OverflowError is raised iff the bound at 2^996 does not, and between the two the search never answers; no other exception is ever raised."
 },
 "C07": {
  "note": "False as stated: the returned radius gives failure bound exactly 2*gamma (C07_net_radius_false); the proved part is the bound 2*gamma."
 },
 "C08": {
  "note": "The generic Chernoff bound really is non-monotone past mu = k (C08_chernoff_generic_false)."
 },
 "C10": {
  "note": "False as stated: the loop never advances the radius, so it runs forever unless the first test decides (C10_linear_search_false). All outcomes are characterised."
 },
 "C11": {
  "note": "False when the unit ball is larger than the environment (C11_eff_radius_certified_false); proved otherwise."
 },
 "C13": {
  "note": "Parallel or degenerate segments can be reported as intersecting although they do not (C13_collinear_false_positive); exactness is for non-parallel directions, as stated."
 },
 "C16": {
  "note": "Free endpoints are a hypothesis of the property; C16_endpoints_not_checked shows that the checker does not test them itself."
 },
 "C17": {
  "note": "False as stated: a clear motion collinear with or parallel to a wall is rejected (C17_clear_accepted_false, C17_sideways_rejected, C17_collinear_rejected). Proved for motions not parallel to a wall in any tested plane. Exactly those are accepted: C17_exact (passage narrower than the box)."
 },
 "C19": {
  "note": "False as stated in dimension above two (C19_dimension_false, C19_distance_raises_false). Where distance_to_path does not raise, it is not the distance to the path either (C19_distance_offset_false). Proved: the curve in the plane."
 },
 "C22": {
  "note": "False in dimension two with odd length, where the last half leg comes from the wrong side (C22_curve_false, C22_continuous_false). C22_exact says for every dimension, length and parameter when the point is the right one: except there, everywhere; the end points are right in all cases (C22_ends)."
 },
 "C23": {
  "note": "False as stated (C23_crosses_wall_false, C23_cuts_corner_false). Proved: sound for routes on which no coordinate changes twice and whose last step goes up (or thickness zero), in particular within one cube; the check always stops."
 },
 "C27": {
  "note": "Proved under the assumption that networkit's edge generator does not skip edges while edges are removed. With swap-with-last removal, as we read networkit's source, it does skip and the property fails (C27_swap_removal_false)."
 },
 "C33": {
  "note": "Proved for the full radius PRM (C33_full). False for the k-NN PRM: a refused growth clears the current radius (C33_knn_false); everything else is unchanged (C33_knn_partial)."
 },
 "C34": {
  "note": "False as stated: an edge is dropped when it is behind place k for one end although it is within the first k of the other (C34_neighbors_false). Proved: the exact edge set, and inclusion in the k-neighbour roadmap."
 },
 "C35": {
  "note": "Proved under the same assumption on networkit's edge generator as C27; fails for swap-with-last removal (C35_swap_removal_false)."
 },
 "C40": {
  "note": "Full radius PRM: proved. k-NN PRM: the neighbour count set by set_nearest_neighbors survives reset (C40_knn_false); radius PRM: the doubled count survives (C40_rad_false); proved when the count is the original one. For every history before and after the reset: the count is all that survives (C40_knn_histories, C40_rad_exact)."
 },
 "C36": {
  "note": "False as stated: the first growth applies no threshold (C36_radius_false), and later growths double the neighbour count only once (C36_growth_false). Proved: the doubling of the first growth stops at the first sufficient count; containment of the radius graph for direction-independent checkers as long as the distances reach the radius; new edges of later growths respect the radius. In general: the first growth to at most 16 samples ignores the radius (C36_first_growth), later ones double at most once (C36_doubles_once)."
 },
 "C37": {
  "note": "Proved for the full radius and k-NN PRMs. False for the radius PRM after query and growth (C37_rad_false); proved there for histories without a query before a growth. In general: C37_rad_stale counts the vertices after growth, queries and growth."
 },
 "C38": {
  "note": "Proved. A full radius PRM returns an exception object in place of the distances instead of raising (C38_full_returns_exception)."
 },
 "C39": {
  "note": "Proved for every duplicate-free selection; with start and goal on the path and one radius for selection and query, all lookups succeed."
 },
 "C41": {
  "note": "Proved over real numbers; C140 has the rounding to float32. The library's file is a parameter, C41_true_distances assumes that it writes half squares of the padded rows."
 },
 "C46": {
  "note": "False as stated: counting rows skips trials as soon as a trial has several rows (C46_rows_false); counting seeds repeats trials after a second interruption (C46_seeds_false). Proved: one row per trial, any crash history; seed counting, one interruption. Counting seeds never loses a trial, whatever the interruptions (C46_seeds_no_loss). Counting rows: exactly which trials a resumed session leaves out (C46_rows_lost)."
 },
 "C47": {
  "note": "False as stated: the smallest setting is never tested (C47_smallest_false) and a single neighbour count is recorded untested (C47_one_neighbor_count_false). Proved: for any oracle with at least two settings, adjacency and the tested outcomes; the exact threshold for a monotone oracle whose first setting fails. C47_all_but_first: for every monotone oracle the pair is the threshold among all settings but the first."
 },
 "C48": {
  "note": "False as stated: the last radius is never tested (C48_last_false). Proved: the loop stops; adjacent radii; the exact threshold for a monotone oracle that fails at the second and passes at the last radius. C48_all_but_ends: for every monotone oracle it is the threshold among the radii that are tested."
 },
 "C49": {
  "note": "False as stated: the row for no connections has ten values for twelve columns, which raises or shifts columns (C49_short_row_false, C49_misplaced_false). Proved for all other rows, including that every column holds what its name says."
 },
 "C61": {
  "note": "False after a resume (C61_resumed_false). Proved for one session. In general: C61_resumed_repeats."
 },
 "C63": {
  "note": "False if a neighbour count equals the sample size (C63_equal_count_false). Proved otherwise for ascending schedules. Exactly when the rows are recorded: C63_exact."
 },
 "C51": {
  "note": "Proved for equal vertex counts without zero edges. With a zero edge the scalar test raises ZeroDivisionError and the batched one answers 'no collision' (C51_repeated_vertex)."
 },
 "C52": {
  "note": "Proved (both directions) for all convex polygons that are not flat; for polygons whose vertices lie on one line it is false (C52_flat_polygons_false)."
 },
 "C53": {
  "note": "Pose spacing, endpoints and exactness of the answer relative to the checked poses are proved. The claim that the answer does not depend on the other motions is false (C53_batch_dependent_false), and an empty batch raises (C53_empty_batch_raises). What holds in every batch: C53_any_batch."
 },
 "C55": {
  "note": "The loop stops, counts stay within the budget and the answer is a roadmap answer. False: strictly growing counts (a factor that does not raise the integer count repeats it, and growing a roadmap to its own size raises); adaptive mode tries no count as large as the bound (one sample short). The counts with rounded products: C130. The motion check is one of single motions that does not raise; for the checkers that judge whole batches and raise ValueError for the empty one see C131."
 },
 "C65": {
  "note": "Monotone in the clearance while the robot fits. False when the robot is wider than the passage: the bound depends on the square of the clearance, so a finite budget results."
 },
 "C56": {
  "note": "Proved for orientations that mix only axes of equal half width (cubes in any orientation, boxes along the coordinate axes). False otherwise: half extents are applied along world axes after rotation, so a rotated long box is missed. In every orientation ellipsoids with half axes along the axes of space are never missed (C56_ellipsoids)."
 },
 "C66": {
  "note": "Full separating axis theorem (15 axes) for orthonormal orientations that mix only axes of equal half width. False otherwise, with a witness. In every orientation boxes far apart are not reported (C66_far)."
 },
 "C67": {
  "note": "Proved for bounding boxes symmetric about the body origin. False otherwise: the centre of the bounding box is ignored."
 },
 "C68": {
  "note": "Proved for shapes of C66/C67; pose interpolation is a parameter that gives equally many poses for every motion. False: independence of the other motions in the batch. For every orientation and every shape: C68_any_orientation."
 },
 "C69": {
  "note": "Obstacle corners and start are inside, samples stay inside; the goal is not part of the computation, so nothing holds for it."
 },
 "C57": {
  "note": "For every executable plan from the initial facts plus any set of facts the streams may certify. PDDL semantics (delete, then add) and stream certification are the trusted reading of domain.pddl and stream.pddl."
 },
 "C58": {
  "note": "As C57, for the kuka domain. Configurations and poses of different bodies are different objects (fresh wrapper objects), stated as KukaDistinct."
 },
 "C70": {
  "note": "Proved: an object is put down only at its start pose, its pose in its sink or its pre-insertion pose. False as stated: before every insertion the object is put down at its pre-insertion pose, which nothing supports."
 },
 "C71": {
  "note": "Assumes no object starts on a sink (surfaces computed at start do not include sinks) and fresh pose and configuration objects."
 },
 "C59": {
  "note": "Also: each trajectory starts where the one before it ended, for trajectories that run between the configurations they were certified for."
 },
 "C60": {
  "note": "Commands are their lists of entries; the running index is left out. Also: running a command and then its reverse restores the attachments, for commands that attach only loose and detach only attached bodies."
 },
 "C72": {
  "note": "The paths of insertions do not begin and end at the configurations of the action (C107_jump_false), so the trajectory is connected in the plan but not in the joints. All other paths lead from the first to the second configuration."
 },
 "C73": {
  "note": "Proved: the poses passed are a subsequence of the planned ones, shifted by the approach offset, and all of them if inverse kinematics always succeeds. False: the offset is never the identity, failed poses are dropped; if all fail an UnboundLocalError ends planning. A pose is left out only after ten failed attempts (C73_left_out)."
 },
 "C74": {
  "note": "Proved: exact condition for the computed value to be a clearance. False for the sizes used in the experiment: it exceeds the true clearance by half of (container width - buffer), up to the bounding box. The option --delta is off by two wall thicknesses."
 },
 "C75": {
  "note": "Lengths in an ordered field; boxes unrotated."
 },
 "C76": {
  "note": "Any grid, container size and number of bodies; object names as in load_world."
 },
 "C77": {
  "note": "Full epsilon-net theorem proved from scratch (Radon, Sauer-Shelah, symmetrisation with exchanges, Chebyshev): Verif.Lemmas.Traces, Swaps, Counts, NetTheorem. The failure event is measured by the outer measure."
 },
 "C78": {
  "note": "C77 composed with the PRM state machine (C26, C28, C29) and a connectedness argument along the path. Assumes independent uniform samples, a checker that accepts every straight motion in the free space, and a correct Dijkstra."
 },
 "C79": {
  "note": "Proved in the form L + tol*max(L, 2*clearance/sqrt(1+tol^2)), hence (1+tol)L for all L of at least 2*clearance/sqrt(1+tol^2). Missing: shorter paths; there the claim is false because start and goal are linked through samples only (C79_short_false)."
 },
 "C80": {
  "note": "Hoeffding and Chernoff-KL: proved (C80_hoeffding, C80_chernoff_kl, C80_chernoff_kl_one). Generic Chernoff: proved for k at least the expected number of neighbours, false below (C80_chernoff_generic_false). The 'mean variant' of Hoeffding is not a bound (C80_hoeffding_mean_false): it divides by p^2 where it should multiply."
 },
 "C81": {
  "note": "Search: proved. Closed formula: proved for environments no smaller than the unit ball; false otherwise, because the code clamps the measure of the unit ball to 1 (C81_formula_false)."
 },
 "C82": {
  "note": "Exact sorted neighbour tables are assumed (pynndescent and kgraph are approximate)."
 },
 "C83": {
  "note": "Exact sorted neighbour tables, iid uniform sampler, and a checker that accepts all straight motions in the free space are assumed; of the edge generator only that it yields existing edges (C145)."
 },
 "C84": {
  "note": "rng.uniform and rng.choice are modelled as independent draws with the documented laws (Spec/Draws.lean). Gray-code walls: C84_gray_false shows the sampler misses a set of positive measure of the free space; C84_gray_partial proves uniformity on the covered part."
 },
 "C85": {
  "note": "The triangulation (library `triangle`) is a parameter with the stated hypotheses."
 },
 "C86": {
  "note": "Composition of C14, C15, C78, C79 and C84. Correct shortest-path search and Euclidean distance are assumed (EnvWorld)."
 },
 "C87": {
  "note": "The checker rejects clear motions that run parallel to a wall line (C17); almost surely no two samples, nor a sample and a query point, share a coordinate, so these do not matter. Correct shortest-path search and Euclidean distance are assumed (EnvWorld)."
 },
 "C88": {
  "note": "Where the targets are put is not part of this property."
 },
 "C89": {
  "note": "The rooms of hallway_manip have side 1.5, so a gap of at most 1.4 leaves the doorway walls a positive length."
 },
 "C90": {
  "note": "Uses C52/C53 (exactness of the separating-axis test at the checked poses)."
 },
 "C91": {
  "note": "False: it is more than twice the clearance (the gap is not halved and 0.05 is added). Proved: halved and without the buffer it is the clearance, the best there is."
 },
 "C92": {
  "note": "random.uniform is taken to be independent uniform draws."
 },
 "C93": {
  "note": "Exact nearest neighbours, correct shortest-path search and Euclidean distance are assumed (KnnWorld, EuclideanWorld, TurtleWorld). The code's own adaptive mode does not meet the hypotheses: C55 (one sample short) and C91 (clearance). With the 32 neighbours of the code the two bounds together exceed one (C124). Rounded counts: C130. The motion check is one of single motions that does not raise; for the checkers that judge whole batches and raise ValueError for the empty one see C131."
 },
 "C94": {
  "note": "True and False answers are characterised completely. It answers with probability one if there is always room (C94_ends, C94_almost_surely). In general it need not answer: if a body fits but is too near to an obstacle everywhere, the loop never ends (C94_loops_false); without assumptions: it takes the first acceptable draw (C94_first_partial)."
 },
 "C95": {
  "note": "Proved for targets that fit into a room. False for larger ones (both poses are the origin, the answer False is ignored), false for the planner's checks at the mouth of the hallway (AssertionError), and false for motions over other targets. The placement ends with probability one if the rooms are large enough for the targets (C95_returns)."
 },
 "C96": {
  "note": "Exact value of the best clearance, attained by an explicit path; the upper bound uses the intermediate value theorem."
 },
 "C97": {
  "note": "Rings and points proved in full (the far point (-100,-100) must be outside, C97_far_false). Removal is proved for holes of which one connected piece is left; if another polygon cuts the hole into pieces only one of them is removed (C97_pieces_false)."
 },
 "C98": {
  "note": "Assumes the library contract SimOk. Other objects are not considered when the approach configuration is checked (C98_objects_false)."
 },
 "C99": {
  "note": "Assumes SimOk. No problem is made, although an insertion is possible, if the first collision-free rotation cannot be reached (C99_rotation_false). When the problem is refused: C99_start_refused, C99_insert_refused."
 },
 "C100": {
  "note": "Assumes SimOk for plan_joint_motion. Teleported motions are not checked at all (C100_teleport, C100_teleport_false)."
 },
 "C101": {
  "note": "Over the reals, with the tool pose and body pose that the program uses; C101_count for all."
 },
 "C102": {
  "note": "Another experiment whose name continues the given one is resumed instead (C102_other_false); without the configuration file the job is submitted all the same (C102_config_false). In general: C102_other."
 },
 "C103": {
  "note": "Repetition counts the rows twice if the output name begins with out (C103_again_false); the prefix 1-1-2 selects the experiment 1-1-24 (C103_prefix_false). For every output name that begins with out, n+1 aggregations hold every row n+1 times (C103_again_repeats)."
 },
 "C104": {
  "note": "Numbers below 1 are not rejected (C104_positive_false)."
 },
 "C105": {
  "note": "A failing squeue counts as an empty queue (C105_load_false); held jobs are cancelled and not submitted again (C105_cancelled_false). No other job is lost (C105_kept)."
 },
 "C106": {
  "note": "Assumes a sound world (exact neighbours, shortest paths) as C55 does, and exact arithmetic. Targets are not obstacles of each other (C106_targets_false). The motion check is one of single motions that does not raise; C141 has the check that judges whole batches."
 },
 "C107": {
  "note": "Proved with the offset that the code adds: the approach pose (1 cm above) is used for the configurations of the facts and again for the configurations of an insertion, so that objects put down before insertion are one offset and inserted objects two offsets away from the planned pose (C107_offset_false), and the arm jumps at the beginning of an insertion (C107_jump_false). Assumes that inverse kinematics succeeds at both ends of every insertion; if only the last pose is reachable nothing is executed (C107_single_false). The roadmap's checker is a function of the whole batch (C131); C107_insertion_partial says what an insertion passes."
 },
 "C108": {
  "note": "The bisection of C47 with the actual roadmaps as its oracle, keeping their state. Radius: rows proved except for the shortest connection (not tested), the longest one (max_connections is tested in its place, C108_last_false) and a single length (C108_single_false); more samples never destroy a solution (C108_more_samples). k-NN: rows proved under the conditions of C47 for strictly ascending schedules with full neighbour lists; more samples can destroy a solution (C108_knn_false). A schedule that is not ascending loses all rows (C108_schedule)."
 },
 "C109": {
  "note": "Proved for logs with different names in the format that the script expects, without the runs that ended with an exception. False: run.py prints the arguments as a dictionary, the plot looks for Namespace and raises KeyError (C109_current_false); bound_plot.py reads the wrong line and raises ValueError (C109_bound_false); crashed runs do not count as failures (C109_crashed_false); logs of the same name replace each other (C109_overwritten_false)."
 },
 "C110": {
  "note": "Proved for the turtlebot experiments and for single tasks. False for the kuka experiments: every job is an array of one task, so all repetitions have seed 1 (C110_kuka_false)."
 },
 "C111": {
  "note": "C111_rows_partial and C111_total hold for any check; missing: the second smallest and the largest radius are recorded without having been checked. With the check of the code, which raises NotImplementedError, there are rows only for sizes with two or three kept radii, and these were never checked (C111_outcome, C111_checked_false); with five samples or more in general position the trial always raises (C111_general_false). With the sampler of the environment this happens almost surely from five samples on (C111_sampler_false)."
 },
 "C112": {
  "note": "Holds. An empty list of shapes raises ValueError (C112_nonvacuous)."
 },
 "C113": {
  "note": "C113_final and C113_moments hold for every edge list within the samples; C113_roadmap for the k-NN roadmap after any history. A batch size of zero raises."
 },
 "C114": {
  "note": "Full-radius and k-NN planners: proved. Radius planner: C114_rad_partial; missing that there are no other nodes, which is false after a query between two growths (C114_rad_false)."
 },
 "C115": {
  "note": "C115_described. C115_moved_false: the facts are not true of the world in which making the problem ends, so the restored copy is needed. C115_assert_false: if a sink has no place for an object the assertion ends the program instead of a new world being loaded."
 },
 "C116": {
  "note": "C116_text, C116_lines, C116_exact, C116_print, C116_run. C116_arguments_false: a print with several arguments is spread over several lines. C116_blank_false: blank lines are lost."
 },
 "C62": {
  "note": "C62_radius: the tolerance of the radius that compute_connection_radius returns for x in (0, 1] is x. C62_tolerance_partial: the same from the radius, for radii between 2 and 2 sqrt 2 times the clearance; missing are the other radii, for which the claim is false: below, the tolerance is negative (C62_small_false), above, it is nan (C62_large_false)."
 },
 "C117": {
  "note": "C117_exact, C117_steps, C117_reverse. C117_moved_false: an object that the command moves is never reported, even if the robot drives into it before it is attached."
 },
 "C118": {
  "note": "C118_placed_partial, C118_returns. Missing and false: the planner gets no obstacles, and building its environment raises ValueError (C118_planner_false). The function is not called by run.py."
 },
 "C119": {
  "note": "C119_rows for the radius roadmap, for a returned radius below a third of the distance between start and goal (otherwise there may be one connection only, see C108_single_false); C119_knn for the k-NN roadmap, with exact neighbour search. The row places the threshold in an interval as in C108; its upper end is not claimed to be below the returned radius."
 },
 "C120": {
  "note": "C120_line, C120_line_length, C120_narrow. For the narrow passage per query, as in C87: motions in general position are accepted almost surely."
 },
 "C121": {
  "note": "Proved from dimension three on for ends without integer coordinates (C121_accepts_partial), in every dimension along routes on which no coordinate changes twice (C121_direct_partial); with C23 this gives exactly the free motions when the last step goes up (C121_exact_partial). False for starts on an opening (C121_face_false) and in the plane for motions through four cubes (C121_plane_false)."
 },
 "C122": {
  "note": "Walls are thicker than the pose spacing, so that the sampled poses decide (C122_stays, from C53, C90 and C106). Targets may pass through each other (C106_targets_false). C122_unsolvable and C122_delta: box-shaped bodies at least as high as the gap; the bounding box may be larger than the target. The motion check is one of single motions that does not raise; C141 has the check that judges whole batches."
 },
 "C123": {
  "note": "Each stream call begins at a place of the sequence of random numbers that may depend on the earlier draws (NoLookAhead); that the program's own places are measurable is not proved. The argument is for one fixed count of at most 33, where the k-NN roadmap is complete; for larger counts the package's bounds give nothing (C124). The search of pddlstream for the plan is not modelled: the theorem says that the plan exists, that it is executable and what its execution does. The motion check is one of single motions that does not raise; C141 has the check that judges whole batches."
 },
 "C124": {
  "note": "A negative finding about the bound, not about the planner: the roadmap may still contain the edges. C93 is thus informative for larger neighbour counts only (C124_nonvacuous: with all samples as neighbours the bound is below one)."
 },
 "C125": {
  "note": "Rounding of +, -, / as in IEEE 754 (nearest, ties to even, with subnormal numbers, without overflow). The bound function itself is any function of the tested float, so its own rounding is covered. C09 has the search in exact arithmetic."
 },
 "C126": {
  "note": "Every numpy operation rounds as in IEEE 754 (nearest, ties to even, subnormal numbers; no value here is near overflow). With exact arithmetic the same definition is the check of C16 (C126_exact). Missing: the full claim, without the distance to the border; it is false (C126_through_block_false). The three missed walls are each passed within one rounding of a wall end."
 },
 "C127": {
  "note": "Samples: proved in full (C127_sample_free), for clearances that are floats. Motions: C127_clear_accepted_partial, for clearances from 2^-100 to below 1/2; missing are the motions excluded by the side conditions, for some of which the claim is false (C127_still_false). C126 is the other direction."
 },
 "C128": {
  "note": "C128_complete, C128_experiment, C128_near_free. The clearance is a float from 2^-100 to below 1/2. The bound search itself is taken in exact arithmetic here (its rounding is C125), as are the region weights of the sampler and the shortest-path sums over the computed distances; see DESIGN.md."
 },
 "C129": {
  "note": "C129_accepted, C129_complete. The clearance given to the bound may be at most what the rounded box leaves around the line, and the volume must not be below the exact volume of the rounded box (the rounding of np.prod is not modelled). Numbers too large for binary64 are not considered."
 },
 "C130": {
  "note": "C130_counts, C130_answers, C130_three_halves, C130_guarantee. C130_rounded_false: the unrounded counts of C55 are not the ones of the program for every float factor (5 samples, factor 1.2). Budgets are below 2^53 (2^25 for the comparison with the unrounded counts, 2^17 for the exactness with 1.5). The motion check is one of single motions that does not raise; for the checkers that judge whole batches and raise ValueError for the empty one see C131."
 },
 "C131": {
  "note": "C131_rowwise, C131_between_partial, C131_call_partial, C131_turtlebot, C131_kuka, C131_anytime_partial, C131_hallway_partial, C131_refusing. The full claim, that the planning call finds a path whenever one of its counts suffices, is false for these checkers: C131_empty_batch_false (a call that raises ValueError at 2 samples although 4 samples, within the budget, suffice). Missing: changes of the radius between the growth and the query."
 },
 "C132": {
  "note": "C132_exact, C132_order, C132_bounds, C132_raises, C132_worlds. Real arithmetic; the obstacles' poses are a position and a yaw; scipy's ConvexHull is a parameter with the contract HullLibrary (it exists: hullLibrary_exists)."
 },
 "C133": {
  "note": "C133_exact, C133_sufficient, C133_least, C133_answers, C133_radius, C133_cancellation, C133_narrow, C133_straight, C133_existence. Libraries are parameters with relative error at most mu (Accurate); np.sqrt and the arithmetic operations are correctly rounded without overflow; intermediate results near underflow are excluded (NoUnderflow)."
 },
 "C134": {
  "note": "C134_narrow, C134_experiment, C134_straight for the exact count and radius; C134_narrow_float, C134_straight_float for those computed in floats (Accurate library, NoUnderflow as in C133). The planner's distances are a parameter with relative error kappa; the returned length is the sum of these distances in exact arithmetic."
 },
 "C135": {
  "note": "C135_measure_needed: if the ball is larger than the environment, the closed form can be too small for the failure bound (no ball fits then, so C135_net and C135_complete need no such condition). compute_blumer_bound has no caller in the repository. Real arithmetic."
 },
 "C136": {
  "note": "C136_touching_false: exact separation does not hold in floats; two triangles sharing (1, 3) are reported as disjoint. Assumed of einsum: a dot product of two terms is within 3 roundings of the exact one (C136_dots: true with and without fused multiply-add). Overflow is left out (coordinates at most R, R squared finite)."
 },
 "C137": {
  "note": "Same assumptions as C136. Robot edges at least 2^-40 R, R at least 1. C137_exact: without rounding the model is the one of C53."
 },
 "C138": {
  "note": "Same assumptions as C136. C138_stays and C138_blocked allow any polygons with corners near the true ones; C138_free needs axis-parallel rectangles."
 },
 "C139": {
  "note": "Partial for the reason of C131: when no sample is within the radius of the start or the goal at a count before the sufficient one, the checker gets an empty batch and the call raises ValueError; C139 says that this is the only other outcome. Samples and distances are exact; the check and the counts are rounded. Same assumptions on the dot products as C136."
 },
 "C140": {
  "note": "Rounding to binary32 is exact (ties to even, subnormal numbers); overflow is not modelled. What the library computes and prints is a parameter with relative error eta. C140_exact_false: no library makes the distances exact."
 },
 "C141": {
  "note": "Lifts C106, C122 and C123 to the checker as it is called. C141_solves is for the first count only: at an earlier count without a sample near the start or the goal the call would raise ValueError (C131_empty_batch_false)."
 },
 "C142": {
  "note": "Extends C25, C28 and C29, which take the tables' distances to be those of the planner."
 },
 "C143": {
  "note": "Extends C82 and C83. The neighbours are exact in the library's distances, the samples are real vectors."
 },
 "C144": {
  "note": "Combines C128, C129 and C143. The count and the radius are those of the exact search; the neighbours are exact in the library's distances."
 },
 "C145": {
  "note": "The probabilistic guarantees of the k-NN PRM (all theorems about a KnnWorld or a NearKnn) ask no more of the generator than this; only the exact edge sets of C27 and C35, and C131 and C139 with truncation, need that nothing is skipped. C145_same_answer_false: with removal by swapping in the last entry, a query finds a path over an edge longer than the radius where there is none without skipping."
 }
}