{"id": "C01", "title": "Returned sample count is sufficient, and so is every larger one", "statement": "If compute_numerical_bound(clearance, p, volume, dim, tol) returns (N, r), then with N samples the advertised failure bound 2*sum_{i<=dim+1} C(2N,i) * 2^(-rho*N/2) is at most 1-p, and the same holds for every sample count m >= N.", "quantifier": "all clearances, volumes, dimensions, stretch factors (or None), all success probabilities in (0,1), and all m >= N", "why_tests_cant": "The failure bound first rises and then falls in m; only a proof that it never rises again past N covers all larger sample counts.", "anchors": ["nonasymptotic/bound.py:compute_numerical_bound", "nonasymptotic/bound.py:doubling_sample_search_over_log2_prob_bound", "nonasymptotic/bound.py:compute_sauer_shelah_bound_log2", "nonasymptotic/bound.py:compute_ss_comb_sum"]}
{"id": "C02", "title": "Returned sample count is the least one", "statement": "The count N returned by compute_numerical_bound is the smallest integer m >= 2 at which the failure bound is at most 1-p and is not increasing from m to m+1.", "quantifier": "all inputs for which a count is returned", "why_tests_cant": "Minimality quantifies over every smaller m; binary search only samples a few of them.", "anchors": ["nonasymptotic/bound.py:doubling_sample_search_over_log2_prob_bound"]}
{"id": "C03", "title": "The sample search always answers", "statement": "For every positive rho and every success probability in (0,1) the doubling/bisection search stops: it returns a count or raises OverflowError once the count exceeds 1e300; it never loops forever and never reports 'Something wrong happened'.", "quantifier": "all bound functions and targets; all bisection states", "why_tests_cant": "Termination over all inputs; the failing states (counts above 2^53, where int((lb+ub)/2) rounds) need astronomically large inputs.", "anchors": ["nonasymptotic/bound.py:doubling_sample_search_over_log2_prob_bound"]}
{"id": "C04", "title": "Success probabilities outside (0,1) are rejected", "statement": "compute_numerical_bound raises ArithmeticError exactly when success_prob <= 0 or success_prob >= 1, whatever the other arguments; inside (0,1) that error is not raised by the check.", "quantifier": "all arguments", "why_tests_cant": "Quantifies over every real argument, including boundary values.", "anchors": ["nonasymptotic/bound.py:compute_numerical_bound"]}
{"id": "C05", "title": "Easier problems never need more samples", "statement": "The returned sample count never increases when clearance grows, volume shrinks, the success probability drops, or tol grows; asking only for existence (tol=None) never needs more samples than any tol > 0.", "quantifier": "all pairs of comparable inputs", "why_tests_cant": "A comparison between two unbounded searches over all pairs of inputs.", "anchors": ["nonasymptotic/bound.py:compute_numerical_bound", "nonasymptotic/bound.py:compute_rho", "nonasymptotic/bound.py:compute_epsilon_net_radius"]}
{"id": "C06", "title": "Connection radius and net radius are consistent", "statement": "The radius returned beside the count equals compute_connection_radius(clearance, tol) for every tol, equals 2*clearance for tol=None, is at least 2*clearance and at most 2*sqrt(2)*clearance for tol >= 0; the net radius is below the clearance for every tol and equals it for None.", "quantifier": "all clearances > 0 and all tol", "why_tests_cant": "Two different closed formulas must agree on all reals.", "anchors": ["nonasymptotic/bound.py:compute_numerical_bound", "nonasymptotic/bound.py:compute_connection_radius", "nonasymptotic/bound.py:compute_epsilon_net_radius"]}
{"id": "C07", "title": "Net radius obtained from a probability meets that probability", "statement": "The radius returned by compute_net_radius_from_prob(dim, n, gamma, volume), used as net radius with n samples, makes the failure bound of compute_sauer_shelah_bound_log2 at most gamma.", "quantifier": "all dims, sample counts, gammas, volumes", "why_tests_cant": "Inverse-function property over all inputs. (The code misses the factor 2: the bound is exactly 2*gamma.)", "anchors": ["nonasymptotic/bound.py:compute_net_radius_from_prob", "nonasymptotic/bound.py:compute_sauer_shelah_bound_log2"]}
{"id": "C08", "title": "Tail bounds are genuine and monotone", "statement": "The Hoeffding and Chernoff-KL log failure bounds never exceed log(m) and never decrease when the radius grows, so a larger radius is never reported as easier to certify; the generic Chernoff bound has the same monotonicity below mu = k.", "quantifier": "all sample counts m >= 2, all k, all pairs of radii", "why_tests_cant": "Inequalities between transcendental functions over all reals.", "anchors": ["nonasymptotic/bound.py:compute_tail_knn_radius_log_prob_hoeffding", "nonasymptotic/bound.py:compute_tail_knn_radius_log_prob_chernoff_kl", "nonasymptotic/bound.py:compute_tail_knn_radius_log_prob_chernoff_generic"]}
{"id": "C09", "title": "Radius halving search stops with a certified radius", "statement": "For tol > 0 and rad_lb < rad_ub the search stops, returns a radius in [rad_lb, rad_ub) which is either rad_lb itself or one whose bound was checked to be within the failure probability; a radius at most tol above the answer is rad_ub or was checked to fail. 'Something wrong happened' is never raised.", "quantifier": "all bound functions, all intervals, all tolerances > 0", "why_tests_cant": "Termination and invariants over all oracle functions.", "anchors": ["nonasymptotic/bound.py:halving_radius_search_over_log_prob_bound"]}
{"id": "C10", "title": "Linear radius search answers", "statement": "linear_radius_search_over_prob_bound returns the last grid radius whose next step exceeds the failure probability, or raises ArithmeticError when the upper end is passed.", "quantifier": "all oracle functions and intervals", "why_tests_cant": "Non-termination cannot be observed by a test. (The code never advances the radius.)", "anchors": ["nonasymptotic/bound.py:linear_radius_search_over_prob_bound"]}
{"id": "C11", "title": "Effective connection radius formula certifies the requested failure probability", "statement": "At the radius returned by compute_eff_conn_rad_bound(m, k, dim, vol, gamma) the Chernoff log failure bound for k neighbours among m samples is at most log(gamma), whenever the formula is defined.", "quantifier": "all m >= 2, k >= 1, dims, volumes and gammas", "why_tests_cant": "Analytic inequality relating two functions for all reals.", "anchors": ["nonasymptotic/bound.py:compute_eff_conn_rad_bound", "nonasymptotic/bound.py:compute_tail_knn_radius_log_prob_chernoff_generic"]}
{"id": "C12", "title": "No intersection is missed", "statement": "If the two closed segments passed to detect_intersect share a point, it returns True.", "quantifier": "all pairs of segments, including parallel, collinear and degenerate ones", "why_tests_cant": "Safety statement over all real segment pairs.", "anchors": ["nonasymptotic/util.py:detect_intersect"]}
{"id": "C13", "title": "Intersection test is exact for non-parallel segments and blind to endpoint order", "statement": "For segments with non-parallel directions detect_intersect is True exactly if they share a point; exchanging the two endpoints of either segment, or for non-degenerate input the two segments, does not change the answer.", "quantifier": "all segment pairs", "why_tests_cant": "An equivalence over all real inputs. (Collinear disjoint segments are reported as intersecting.)", "anchors": ["nonasymptotic/util.py:detect_intersect"]}
{"id": "C14", "title": "Straight corridor validity is exact", "statement": "StraightLine.is_motion_valid(a,b) is True exactly when every point of the straight motion from a to b lies in the corridor box.", "quantifier": "all dims, lengths, clearances, endpoints, and all points of the motion", "why_tests_cant": "Continuum of points on every motion.", "anchors": ["nonasymptotic/envs.py:StraightLine.is_motion_valid"]}
{"id": "C15", "title": "Straight corridor path queries are right", "statement": "distance_to_path gives the Euclidean distance to the optimal path; curve points for all parameters lie on the path and in the corridor; the reported volume is that of the box sampled from, and every sample is in the box.", "quantifier": "all points, parameters and random draws", "why_tests_cant": "Infimum over a continuum of path points; all draws.", "anchors": ["nonasymptotic/envs.py:StraightLine.distance_to_path", "nonasymptotic/envs.py:StraightLine.arclength_to_curve_point", "nonasymptotic/envs.py:StraightLine.sample_from_env", "nonasymptotic/envs.py:StraightLine.volume"]}
{"id": "C16", "title": "Accepted narrow-passage motions are collision free", "statement": "If both endpoints are in the free space and NarrowPassage.is_motion_valid accepts the motion, every point of the straight motion is in the free space.", "quantifier": "all dims, clearances in (0, 1/2), endpoints in free space, all points of the motion", "why_tests_cant": "Continuum of motions and points.", "anchors": ["nonasymptotic/envs.py:NarrowPassage.is_motion_valid", "nonasymptotic/util.py:detect_intersect"]}
{"id": "C17", "title": "Collision-free narrow-passage motions are accepted", "statement": "A motion that stays at positive distance from all obstacles is accepted.", "quantifier": "all dims, all free motions", "why_tests_cant": "Universally quantified; fails on a measure-zero set random tests never hit. (Zero-length motions and motions collinear with a passage wall are rejected.)", "anchors": ["nonasymptotic/envs.py:NarrowPassage.is_motion_valid"]}
{"id": "C18", "title": "Narrow-passage samples are free and region weights form a distribution", "statement": "Every sample drawn from NarrowPassage is in the free space whichever region is chosen; the three region probabilities are nonnegative and sum to one and are proportional to the region volumes.", "quantifier": "all clearances, dims, random draws", "why_tests_cant": "All draws of a continuous distribution.", "anchors": ["nonasymptotic/envs.py:NarrowPassage.sample_from_env", "nonasymptotic/envs.py:NarrowPassage.__init__"]}
{"id": "C19", "title": "Narrow-passage path geometry has the environment's dimension", "statement": "arclength_to_curve_point returns dim-dimensional points on the path and distance_to_path accepts dim-dimensional points.", "quantifier": "all dims >= 2 and parameters", "why_tests_cant": "All dims. (The code builds dim+1 vectors, so the distance query always raises.)", "anchors": ["nonasymptotic/envs.py:NarrowPassage.arclength_to_curve_point", "nonasymptotic/envs.py:NarrowPassage.distance_to_path"]}
{"id": "C20", "title": "Gray-code corridor visits every cube once through shared faces", "statement": "The cube order of GrayCodeWalls lists length*2^(dim-1) distinct cubes, all those with first coordinate < length and others in {0,1}, and consecutive cubes differ by exactly one in exactly one coordinate.", "quantifier": "all dims >= 2, all lengths >= 1", "why_tests_cant": "Induction over dimension and length.", "anchors": ["nonasymptotic/envs.py:GrayCodeWalls.__init__"]}
{"id": "C21", "title": "Gray-code samples are in free space", "statement": "Every sample returned by GrayCodeWalls.sample_from_env has distance_to_wall >= 0, for every region choice and every random draw; region weights are nonnegative and sum to one.", "quantifier": "all dims, lengths, thicknesses, cubes, draws", "why_tests_cant": "All draws and all cubes of an exponentially long corridor.", "anchors": ["nonasymptotic/envs.py:GrayCodeWalls._transform_sample_to_global_frame", "nonasymptotic/envs.py:GrayCodeWalls.sample_from_env", "nonasymptotic/envs.py:GrayCodeWalls.distance_to_wall"]}
{"id": "C22", "title": "Gray-code curve is a continuous unit-speed path through the corridor", "statement": "arclength_to_curve_point is continuous, moves at unit speed, starts at the start point and ends at the end point.", "quantifier": "all dims >= 2, lengths, arclengths", "why_tests_cant": "Continuum of parameters for all sizes. (False for dim=2 and odd length: the last leg is mirrored.)", "anchors": ["nonasymptotic/envs.py:GrayCodeWalls.arclength_to_curve_point"]}
{"id": "C23", "title": "Accepted gray-code motions are collision free", "statement": "If GrayCodeWalls.is_motion_valid accepts a motion between free endpoints, the straight motion stays in the free corridor.", "quantifier": "all dims, lengths, endpoints", "why_tests_cant": "Continuum of motions through exponentially many cubes.", "anchors": ["nonasymptotic/envs.py:GrayCodeWalls.is_motion_valid"]}
{"id": "C24", "title": "Environments never claim epsilon-delta completeness silently", "statement": "is_prm_epsilon_delta_complete on StraightLine raises NotImplementedError for every PRM and tolerance instead of returning an answer.", "quantifier": "all PRMs and tolerances", "why_tests_cant": "Quantifies over all histories of the PRM.", "anchors": ["nonasymptotic/envs.py:StraightLine.is_prm_epsilon_delta_complete"]}
{"id": "C25", "title": "Every roadmap edge was checked", "statement": "After any history of grow, set radius, set neighbours and queries, every roadmap edge of every PRM class joins two existing samples, carries their distance as weight, and the motion between them was accepted by the checker in at least one direction.", "quantifier": "all checkers, samplers, nearest-neighbour results and operation histories", "why_tests_cant": "Invariant over unbounded operation histories.", "anchors": ["nonasymptotic/prm.py:SimplePRM._nn_edge_list_and_dist_list_to_nk_prm_graph", "nonasymptotic/prm.py:SimpleFullConnRadiusPRM", "nonasymptotic/prm.py:SimpleNearestNeighborRadiusPRM", "nonasymptotic/prm.py:SimpleRadiusPRM"]}
{"id": "C26", "title": "Full radius PRM is exactly the radius graph at all times", "statement": "After any successful history ending in grow or set_connection_radius, SimpleFullConnRadiusPRM has an edge between two distinct samples exactly when their distance is at most the current radius and the motion is accepted in one of the directions.", "quantifier": "all histories, samples, radii, checkers", "why_tests_cant": "Invariant over histories; all sample sets.", "anchors": ["nonasymptotic/prm.py:SimpleFullConnRadiusPRM.grow_to_n_samples", "nonasymptotic/prm.py:SimpleFullConnRadiusPRM.set_connection_radius"]}
{"id": "C27", "title": "Truncated k-NN PRM is the exact radius graph", "statement": "With exact nearest neighbours, for every radius up to the certified one the k-NN PRM after set_connection_radius(r) has exactly the edges between samples at distance below r with an accepted motion.", "quantifier": "all sample sets, k, radii up to the certified radius, all sequences of radius changes", "why_tests_cant": "All sample configurations incl. ties.", "anchors": ["nonasymptotic/prm.py:SimpleNearestNeighborRadiusPRM.set_connection_radius", "nonasymptotic/prm.py:SimpleNearestNeighborRadiusPRM.grow_to_n_samples"]}
{"id": "C28", "title": "Returned solutions are executable", "statement": "Every solution returned by query_best_solution is a chain start, samples..., goal in which each hop was accepted by the checker in at least one direction and, for the full radius PRM, is no longer than the radius, and the returned distance is the length of that chain.", "quantifier": "all PRM classes, histories and queries", "why_tests_cant": "Must hold for every roadmap and query.", "anchors": ["nonasymptotic/prm.py:SimplePRM.query_best_solution"]}
{"id": "C29", "title": "Empty path means no solution; otherwise the path is optimal", "statement": "query_best_solution returns an empty path exactly when no chain through the roadmap connects start and goal (then the distance is infinite); otherwise no chain is shorter.", "quantifier": "all roadmaps and queries", "why_tests_cant": "Optimality quantifies over all chains.", "anchors": ["nonasymptotic/prm.py:SimplePRM.query_best_solution"]}
{"id": "C30", "title": "Queries leave the roadmap unchanged", "statement": "After query_best_solution the roadmap has the same vertices, edges, weights, counts and samples as before, so repeated queries give the same answer.", "quantifier": "all roadmaps, queries and numbers of repetitions", "why_tests_cant": "Unbounded repetition.", "anchors": ["nonasymptotic/prm.py:SimplePRM.query_best_solution", "nonasymptotic/prm.py:SimplePRM.num_vertices", "nonasymptotic/prm.py:SimplePRM.num_edges"]}
{"id": "C31", "title": "Growing keeps samples, edges and solutions (full radius PRM)", "statement": "Growing the full radius PRM keeps all earlier samples at their indices and all edges; a solvable query stays solvable and its distance never increases.", "quantifier": "all histories, growth steps and queries", "why_tests_cant": "Relates two roadmaps for all inputs.", "anchors": ["nonasymptotic/prm.py:SimpleFullConnRadiusPRM.grow_to_n_samples"]}
{"id": "C32", "title": "A larger radius never hurts (full radius PRM)", "statement": "Raising the radius keeps every edge; a solvable query stays solvable with no larger distance; lowering it removes exactly the longer edges.", "quantifier": "all radii and roadmaps", "why_tests_cant": "All pairs of radii.", "anchors": ["nonasymptotic/prm.py:SimpleFullConnRadiusPRM.set_connection_radius"]}
{"id": "C33", "title": "Rejected growth leaves the PRM usable and unchanged", "statement": "A grow request that is refused (shrinking; for the k-NN PRM also same size; ArithmeticError, for the radius PRM ValueError) leaves the PRM exactly as it was.", "quantifier": "all PRM states and requests", "why_tests_cant": "Exception safety over all states. (The k-NN PRM loses its radius before raising.)", "anchors": ["nonasymptotic/prm.py:SimpleNearestNeighborRadiusPRM.grow_to_n_samples", "nonasymptotic/prm.py:SimpleFullConnRadiusPRM.grow_to_n_samples"]}
{"id": "C34", "title": "set_nearest_neighbors(k) leaves the k-NN roadmap", "statement": "After set_nearest_neighbors(k) the roadmap is the one that building with k neighbours gives; asking for more than the construction maximum raises ArithmeticError.", "quantifier": "all neighbour tables, all k", "why_tests_cant": "All neighbour tables. (An edge is dropped if it is in the tail of either endpoint, so the result is a subgraph.)", "anchors": ["nonasymptotic/prm.py:SimpleNearestNeighborRadiusPRM.set_nearest_neighbors"]}
{"id": "C35", "title": "Radius changes are history independent (k-NN PRM)", "statement": "After any sequence of set_connection_radius calls on a freshly truncated k-NN PRM the roadmap depends only on the last radius.", "quantifier": "all sequences of radii", "why_tests_cant": "Unbounded histories. (Mixing with set_nearest_neighbors or a refused growth breaks it.)", "anchors": ["nonasymptotic/prm.py:SimpleNearestNeighborRadiusPRM.set_connection_radius"]}
{"id": "C36", "title": "Radius PRM respects its radius and contains the radius graph", "statement": "SimpleRadiusPRM has only edges of length at most the radius and, when neighbour doubling stopped because all k-th distances reach the radius, all accepted edges below the radius; the doubling always stops.", "quantifier": "all samples, radii, growth histories", "why_tests_cant": "All histories. (The first build applies no threshold.)", "anchors": ["nonasymptotic/prm.py:SimpleRadiusPRM.grow_to_n_samples"]}
{"id": "C37", "title": "Vertex count equals sample count", "statement": "num_vertices() equals the number of samples after any history of growth and queries.", "quantifier": "all histories, all PRM classes", "why_tests_cant": "Unbounded histories. (Fails for SimpleRadiusPRM grown after a query.)", "anchors": ["nonasymptotic/prm.py:SimplePRM.num_vertices", "nonasymptotic/prm.py:SimpleRadiusPRM.grow_to_n_samples"]}
{"id": "C38", "title": "All entry/exit pairs are reported exactly once", "statement": "query_all_graph_connections lists every (start neighbour, goal neighbour) pair exactly once, with the pair's sample coordinates in matching order.", "quantifier": "all neighbour lists", "why_tests_cant": "All list lengths.", "anchors": ["nonasymptotic/prm.py:SimplePRM.query_all_graph_connections"]}
{"id": "C39", "title": "Distances are only reported for covered vertices", "statement": "Looking up a graph distance for a vertex that was not selected for the shortest-path table raises instead of returning another vertex's distance; for selected ones the entry of that very pair is returned.", "quantifier": "all selections and lookups", "why_tests_cant": "All index tables.", "anchors": ["nonasymptotic/prm.py:SimplePRM._compute_spsp", "nonasymptotic/prm.py:SimpleNearestNeighborRadiusPRM._distance_in_graph"]}
{"id": "C40", "title": "reset() gives a fresh PRM", "statement": "After reset() and growth the PRM behaves as a newly constructed one.", "quantifier": "all histories before the reset", "why_tests_cant": "All histories. (k-NN neighbour counts survive the reset.)", "anchors": ["nonasymptotic/prm.py:SimpleFullConnRadiusPRM.reset", "nonasymptotic/prm.py:SimpleNearestNeighborRadiusPRM.reset", "nonasymptotic/prm.py:SimpleRadiusPRM.reset"]}
{"id": "C41", "title": "Nearest-neighbour back end sees the true geometry", "statement": "Padding to a multiple of four coordinates preserves all pairwise distances, updates keep old rows in place and append the new ones, and the parsed neighbour table is exactly the first k (id, distance) pairs written for each point.", "quantifier": "all data sets, dims, k and output files", "why_tests_cant": "All dimensions and contents.", "anchors": ["nonasymptotic/ann.py:KGraphANN", "nonasymptotic/ann.py:get_ann"]}
{"id": "C42", "title": "Back end selection", "statement": "get_ann returns the requested back end, falls back to pynndescent when kgraph is unavailable, and raises NotImplementedError for every other name; updating before building raises.", "quantifier": "all names, availabilities and call orders", "why_tests_cant": "All strings and call orders.", "anchors": ["nonasymptotic/ann.py:get_ann", "nonasymptotic/ann.py:KGraphANN.update_graph_with_data"]}
{"id": "C43", "title": "Polygon boundary segments close every ring", "statement": "For a multipolygon with holes, the segments passed to triangulation join every vertex with its cyclic predecessor in its own ring and nothing else, and exactly the duplicated closing vertices are dropped.", "quantifier": "all numbers and sizes of rings", "why_tests_cant": "Index arithmetic for all ring-size lists.", "anchors": ["nonasymptotic/sampler.py:random_point_in_mpolygon"]}
{"id": "C44", "title": "Sampled points lie in the chosen triangle", "statement": "For every uniform draw the returned point is in the chosen triangle, and triangle weights are nonnegative and sum to one.", "quantifier": "all triangles and draws", "why_tests_cant": "Continuum of draws.", "anchors": ["nonasymptotic/sampler.py:random_point_in_mpolygon"]}
{"id": "C45", "title": "Experiment work is split without loss or overlap", "statement": "Over task ids 0..T-1 every parameter combination is run by exactly one task.", "quantifier": "all combination lists and T >= 1", "why_tests_cant": "All lengths and task counts.", "anchors": ["exps/run_straight_line_optimality_trial.py", "exps/run_narrow_passage_clearance_trial.py", "exps/run_knn_radius_trial.py"]}
{"id": "C46", "title": "Crash and resume neither lose nor repeat trials", "statement": "If a task is interrupted at any point and restarted, after completion each of its trials has been recorded exactly once.", "quantifier": "all crash points and numbers of crashes", "why_tests_cant": "All crash histories. (False: row counting skips trials; seed counting breaks at the second crash.)", "anchors": ["exps/run_straight_line_optimality_trial.py", "exps/run_narrow_passage_clearance_trial.py", "exps/run_knn_radius_trial.py"]}
{"id": "C47", "title": "Connectivity bisection brackets the threshold", "statement": "In the narrow-passage trial, when solvability is monotone in the connectivity parameter, the recorded lower value fails, the upper one succeeds, and they are adjacent in the schedule.", "quantifier": "all monotone oracles and schedules", "why_tests_cant": "All oracles. (The smallest value is never tested.)", "anchors": ["exps/run_narrow_passage_clearance_trial.py"]}
{"id": "C48", "title": "Radius bisection of the optimality trial stops at the threshold", "statement": "The radius bisection of the straight-line trial stops and, for a monotone oracle, ends at adjacent radii of which the upper one passes.", "quantifier": "all oracles and radius lists", "why_tests_cant": "All oracles.", "anchors": ["exps/run_straight_line_optimality_trial.py"]}
{"id": "C49", "title": "Recorded rows have one value per column", "statement": "Every row written by a trial has exactly one value for each named column.", "quantifier": "all trial outcomes", "why_tests_cant": "All branches. (The 'no connections' row of the narrow-passage trial has 10 values for 12 columns.)", "anchors": ["exps/run_narrow_passage_clearance_trial.py"]}
{"id": "C50", "title": "Separating-axis test never misses an overlap (2D)", "statement": "If the convex hulls of the two vertex lists share a point, the 2D separating-axis test reports a collision.", "quantifier": "all polygons without repeated consecutive vertices", "why_tests_cant": "Safety over all polygons.", "anchors": ["exps/tamp_environment/turtlebot_move/separating_axis.py:separating_axis_theorem"]}
{"id": "C51", "title": "Vectorised separating-axis test agrees with the scalar one", "statement": "For batches of polygons with equally many vertices and no degenerate edge the batched test gives for every row the answer of the scalar test.", "quantifier": "all batch sizes and polygons", "why_tests_cant": "All batches. (For degenerate edges the scalar version raises and the batched one reports no collision.)", "anchors": ["exps/tamp_environment/turtlebot_move/separating_axis.py:vec_separating_axis_theorem"]}
{"id": "C52", "title": "Separating-axis test is exact for convex polygons (2D)", "statement": "For two convex polygons that are not flat, the 2D test reports a collision exactly when they share a point.", "quantifier": "all convex polygons with vertices that do not all lie on one line", "why_tests_cant": "The separating axis theorem itself.", "anchors": ["exps/tamp_environment/turtlebot_move/separating_axis.py:separating_axis_theorem"]}
{"id": "C53", "title": "Turtlebot motion check samples the motion finely and per motion", "statement": "Consecutive checked poses are less than 0.08 apart in each coordinate, both endpoints are checked, and the answer for a motion does not depend on the other motions in the batch.", "quantifier": "all batches", "why_tests_cant": "All batches. (The step count is shared, so the answer is batch dependent; empty batches raise.)", "anchors": ["exps/tamp_environment/turtlebot_move/streams.py:BagOfBoundingBoxes.is_motion_valid"]}
{"id": "C54", "title": "Trajectory interpolation is fine enough and keeps waypoints", "statement": "interpolate_vectors keeps first, last and all waypoints in order, all points lie on the polyline, and consecutive points are at most the threshold apart.", "quantifier": "all polylines, thresholds > 0", "why_tests_cant": "All real polylines.", "anchors": ["exps/tamp_environment/turtlebot_move/streams.py:interpolate_vectors"]}
{"id": "C55", "title": "Anytime planning uses strictly growing sample counts within the budget", "statement": "The anytime loop grows the roadmap to strictly increasing counts, starting at the minimum and not beyond the maximum, stops, and in adaptive mode reaches the count required by the bound.", "quantifier": "all budgets, factors and solver outcomes", "why_tests_cant": "All budgets. (Repeated counts raise; adaptive mode stops one sample short of the bound.)", "anchors": ["exps/tamp_environment/turtlebot_move/streams.py:get_anytime_motion_fn", "exps/tamp_environment/kuka_carry/run.py:get_insert_motion_gen"]}
{"id": "C56", "title": "Oriented-box test never misses an overlap (3D)", "statement": "If two oriented boxes share a point the 3D separating-axis test reports a collision.", "quantifier": "all boxes", "why_tests_cant": "Safety over all poses. (False for rotated non-cubic boxes: half extents are applied along the wrong axis.)", "anchors": ["exps/tamp_environment/kuka_carry/separating_axis.py:separating_axis_theorem", "exps/tamp_environment/kuka_carry/separating_axis.py:compute_vertices_vectorized"]}
{"id": "C57", "title": "Turtlebot plans keep the world consistent", "statement": "In every state reachable by the turtlebot planning domain the rover is at exactly one configuration, either its hand is free or it holds exactly one object, and each target is at exactly one pose or held.", "quantifier": "all plans of any length", "why_tests_cant": "Invariant over unbounded plans.", "anchors": ["exps/tamp_environment/turtlebot_move/domain.pddl"]}
{"id": "C58", "title": "Kuka plans keep the world consistent", "statement": "In every state reachable by the kuka planning domain the arm is at exactly one configuration, the hand is empty or holds exactly one object, each object is placed at exactly one pose or held, and two moves never occur without a pick or place between them.", "quantifier": "all plans of any length", "why_tests_cant": "Invariant over unbounded plans.", "anchors": ["exps/tamp_environment/kuka_carry/domain.pddl"]}
{"id": "C59", "title": "Executed command list matches the plan", "statement": "For every executable turtlebot plan the command list has an attach for every pick and a detach of the same body for the matching place, alternating; plans with other actions raise ValueError.", "quantifier": "all plans", "why_tests_cant": "All plan lengths.", "anchors": ["exps/tamp_environment/turtlebot_move/run.py:post_process"]}
{"id": "C60", "title": "Reversing a command undoes it", "statement": "Reversing a command list twice gives the original list, attaches and detaches are exchanged, and the reverse visits the same configurations backwards.", "quantifier": "all command lists", "why_tests_cant": "All lists.", "anchors": ["exps/tamp_environment/kuka_carry/kuka_primitives.py:Command", "exps/tamp_environment/kuka_carry/kuka_primitives.py:BodyPath"]}
{"id": "C61", "title": "Different trials use different seeds", "statement": "All trials recorded by one task have pairwise different random seeds, also when the task was interrupted and resumed.", "quantifier": "all crash histories and seed sequences without repetition", "why_tests_cant": "All crash histories. (False after a resume: the generator starts again with the same seed.)", "anchors": ["exps/run_straight_line_optimality_trial.py", "exps/run_narrow_passage_clearance_trial.py", "exps/run_knn_radius_trial.py"]}
{"id": "C62", "title": "The tolerance of the straight-line trial is the inverse of the radius formula", "statement": "The tolerance that the trial computes for a radius is the one in (0, 1] for which compute_connection_radius gives this radius; that is, with y = radius / (2 clearance), the solution x of y = (1 + x) / sqrt(1 + x^2).", "quantifier": "all clearances, radii and tolerances", "why_tests_cant": "Continuum of radii.", "anchors": ["exps/run_straight_line_optimality_trial.py:straight_line_trial"]}
{"id": "C63", "title": "The k-NN trial records the effective radius of every neighbour count", "statement": "For every sample size and every scheduled neighbour count that does not exceed it, one row is recorded whose effective radius is the smallest distance of a sample to its neighbour of that number.", "quantifier": "all schedules and distance tables", "why_tests_cant": "All schedules and tables. (False: a count equal to the sample size raises IndexError.)", "anchors": ["exps/run_knn_radius_trial.py:knn_radius_trial"]}
{"id": "C64", "title": "Flattening a box keeps exactly its four footprint corners", "statement": "When the corners of an oriented box are flattened to the ground plane the result is either an error or exactly four points, each the footprint of a corner, pairwise at least 0.001 apart, such that every corner's footprint is closer than 0.001 to one of them.", "quantifier": "all corner lists", "why_tests_cant": "Depends on the tolerance and the order of the corners for all boxes.", "anchors": ["exps/tamp_environment/turtlebot_move/streams.py:BagOfBoundingBoxes.oobb_flat_vertices"]}
{"id": "C65", "title": "The adaptive sample budget reflects passability", "statement": "The number of samples computed from the passage clearance never grows when the passage gets wider, and a passage narrower than the robot does not get a finite budget like a wide one.", "quantifier": "all passage and robot widths", "why_tests_cant": "All widths. (False: in the plane a clearance of -x gives the same count as x.)", "anchors": ["exps/tamp_environment/turtlebot_move/streams.py:get_anytime_motion_fn", "nonasymptotic/bound.py:compute_numerical_bound"]}
{"id": "C66", "title": "Oriented-box test is exact (3D)", "statement": "If the 3D separating-axis test reports a collision the two boxes share a point.", "quantifier": "all boxes", "why_tests_cant": "The separating axis theorem in space. (False for rotated non-cubic boxes.)", "anchors": ["exps/tamp_environment/kuka_carry/separating_axis.py:separating_axis_theorem"]}
{"id": "C67", "title": "The tested box is the simulator's box", "statement": "The box built from a simulator bounding box and pose covers exactly the points of that bounding box at that pose.", "quantifier": "all bounding boxes and poses", "why_tests_cant": "All shapes. (False when the bounding box is not centered on the body origin.)", "anchors": ["exps/tamp_environment/kuka_carry/separating_axis.py:OBB.from_oobb"]}
{"id": "C68", "title": "Held-object motion check", "statement": "A motion of the held object is accepted exactly if the object meets no obstacle at any of the interpolated poses, which are at most 0.03 apart, and the answer does not depend on the other motions of the batch.", "quantifier": "all batches, obstacles and poses", "why_tests_cant": "All batches. (The step count is shared, so the answer is batch dependent; an empty batch raises.)", "anchors": ["exps/tamp_environment/kuka_carry/run.py:BagOfBoundingBoxes.is_motion_valid"]}
{"id": "C69", "title": "Sampling region of the held object", "statement": "The sampling region contains the obstacle corners, the start and the goal, and every sample lies in it.", "quantifier": "all obstacle sets and draws", "why_tests_cant": "All draws. (The goal is not considered.)", "anchors": ["exps/tamp_environment/kuka_carry/run.py:BagOfBoundingBoxes.extents", "exps/tamp_environment/kuka_carry/run.py:BagOfBoundingBoxes.sample_from_env"]}
{"id": "C70", "title": "Objects are put down only where something supports them", "statement": "In every executable kuka plan each object is put down only at its start pose or at a supported pose in a sink or on a stove.", "quantifier": "all problems, certified stream facts and executable plans", "why_tests_cant": "All plans. (False: every plan with an insertion puts the object down at its pre-insertion pose first.)", "anchors": ["exps/tamp_environment/kuka_carry/domain.pddl", "exps/tamp_environment/kuka_carry/stream.pddl", "exps/tamp_environment/kuka_carry/run.py:pddlstream_from_problem"]}
{"id": "C71", "title": "Cleaned objects were inserted", "statement": "If no object lies in a sink at the start, an object that is clean after an executable kuka plan was carried into its sink by an insertion motion of that plan; a plan that reaches the goal contains an insertion for every movable object.", "quantifier": "all problems, certified stream facts and executable plans", "why_tests_cant": "Ranges over all plans the planner may return.", "anchors": ["exps/tamp_environment/kuka_carry/domain.pddl", "exps/tamp_environment/kuka_carry/stream.pddl", "exps/tamp_environment/kuka_carry/run.py:pddlstream_from_problem"]}
{"id": "C72", "title": "Executed kuka trajectory is connected", "statement": "For every executable kuka plan the executed command is a sequence of robot paths, each starting at the configuration where the one before it ended, from the initial configuration to the final one, carrying the held object; a plan that reaches the goal returns to the start configuration.", "quantifier": "all executable plans and certified motions", "why_tests_cant": "All plans of any length.", "anchors": ["exps/tamp_environment/kuka_carry/run.py:postprocess_plan", "exps/tamp_environment/kuka_carry/domain.pddl"]}
{"id": "C73", "title": "Insertion trajectory passes the planned poses", "statement": "Executing an insertion carries the object through its start pose, every pose of the planned path and its goal pose, in this order.", "quantifier": "all planned paths, grasps and results of inverse kinematics", "why_tests_cant": "Depends on which of arbitrarily many inverse kinematics calls fail. (False: poses without a solution are dropped silently and every pose is off by the approach offset.)", "anchors": ["exps/tamp_environment/kuka_carry/run.py:get_insert_motion_gen", "exps/tamp_environment/kuka_carry/kuka_primitives.py:get_ik_fn"]}
{"id": "C74", "title": "Clearance used for the sample bound", "statement": "The clearance from which the number of samples for an insertion is computed is a clearance the object really has between the walls of its container.", "quantifier": "all container and object sizes and positions", "why_tests_cant": "All sizes. (False: it is too large for every container of the experiment.)", "anchors": ["exps/tamp_environment/kuka_carry/run.py:get_insert_motion_gen", "exps/tamp_environment/kuka_carry/run.py:create_hollow_shapes", "exps/tamp_environment/kuka_carry/run.py:load_world"]}
{"id": "C75", "title": "Hollow shapes are hollow", "statement": "A container covers exactly its outer block without the cavity, which is open at the top; in general a hollow shape covers the part of the block within the wall thickness of the requested sides; the placement surface of a container is its floor.", "quantifier": "all sizes, thicknesses and points", "why_tests_cant": "All points of space and all sizes.", "anchors": ["exps/tamp_environment/kuka_carry/run.py:create_hollow_shapes", "exps/tamp_environment/kuka_carry/run.py:create_hollow"]}
{"id": "C76", "title": "Containers are apart and belong to their objects", "statement": "Containers of the grid do not overlap, and the obstacles used for planning the insertion of an object are the walls and the floor of the container it is inserted into.", "quantifier": "all grid and container sizes, all lists of bodies", "why_tests_cant": "All sizes and lists.", "anchors": ["exps/tamp_environment/kuka_carry/run.py:load_world", "exps/tamp_environment/kuka_carry/run.py:pddlstream_from_problem"]}
{"id": "C77", "title": "The sample count makes the samples a net", "statement": "For the count N that compute_numerical_bound(clearance, success_prob, volume, dim, tol) returns and any m >= N independent samples, uniform in a measurable region of at most the given volume, the probability that some ball of the net radius (clearance * tol/sqrt(1+tol^2), or clearance if tol is None) inside the region contains no sample is at most 1 - success_prob.", "quantifier": "all clearances, probabilities, volumes, dimensions >= 1, tolerances, regions, m >= N, and all outcomes of the sampler as an event of the probability space", "why_tests_cant": "A probability over continuous samples and a supremum over uncountably many balls; no finite number of runs settles it.", "anchors": ["nonasymptotic/bound.py:compute_numerical_bound", "nonasymptotic/bound.py:compute_sauer_shelah_bound_log2", "nonasymptotic/bound.py:compute_rho"]}
{"id": "C78", "title": "Probabilistic completeness of the returned count and radius", "statement": "With probability at least success_prob over the sampler, a SimpleFullConnRadiusPRM built with the radius returned by compute_numerical_bound and holding at least the returned number of samples answers, after any history of growth, queries and radius increases without reset, every query between two points that are joined by a path of the given clearance with a nonempty path.", "quantifier": "all free spaces inside the sampled region, all histories, all queries and all continuous clear paths at once; all dimensions, clearances, probabilities, tolerances", "why_tests_cant": "Quantifies over all paths and queries simultaneously, in probability.", "anchors": ["nonasymptotic/bound.py:compute_numerical_bound", "nonasymptotic/prm.py:SimpleFullConnRadiusPRM", "nonasymptotic/prm.py:SimplePRM.query_best_solution"]}
{"id": "C79", "title": "Path length guarantee of the returned count and radius", "statement": "With probability at least success_prob over the sampler, a SimpleFullConnRadiusPRM with the radius and at least the count returned for tolerance tol answers every query whose end points are joined by a path of the given clearance and of length L with a path no longer than (1 + tol) L.", "quantifier": "all free spaces, queries, rectifiable clear paths, histories; all dimensions, clearances, probabilities, tolerances", "why_tests_cant": "Optimality guarantee over all paths at once, in probability.", "anchors": ["nonasymptotic/bound.py:compute_numerical_bound", "nonasymptotic/bound.py:compute_connection_radius", "nonasymptotic/prm.py:SimpleFullConnRadiusPRM", "nonasymptotic/prm.py:SimplePRM.query_best_solution"]}
{"id": "C80", "title": "The neighbour tail bounds are bounds on probabilities", "statement": "For m independent samples, uniform in a region of at least the given volume, the probability that some sample has k or more others closer than the radius is at most the exponential of what compute_tail_knn_radius_log_prob_hoeffding / _chernoff_generic / _chernoff_kl return; with enable_union_bound_factor=False the Chernoff-KL value bounds the probability for one given sample.", "quantifier": "all sampler distributions satisfying the assumption, all sample counts, neighbour counts, radii, dimensions and volumes", "why_tests_cant": "A statement about probabilities over all sample sequences; simulation gives estimates only.", "anchors": ["nonasymptotic/bound.py:compute_tail_knn_radius_log_prob_hoeffding", "nonasymptotic/bound.py:compute_tail_knn_radius_log_prob_hoeffding_mean_variant", "nonasymptotic/bound.py:compute_tail_knn_radius_log_prob_chernoff_generic", "nonasymptotic/bound.py:compute_tail_knn_radius_log_prob_chernoff_kl"]}
{"id": "C81", "title": "Returned effective radii hold with the requested probability", "statement": "The radius found by halving_radius_search_over_log_prob_bound with the Chernoff-KL bound from rad_lb = 0, and the radius of compute_eff_conn_rad_bound, are such that with at least the requested probability every sample has fewer than k others closer than that radius.", "quantifier": "all samplers, sample and neighbour counts, dimensions, volumes, success probabilities, tolerances", "why_tests_cant": "Probability over all sample sequences.", "anchors": ["nonasymptotic/bound.py:halving_radius_search_over_log_prob_bound", "nonasymptotic/bound.py:compute_eff_conn_rad_bound"]}
{"id": "C82", "title": "Certified radius of the k-NN PRM", "statement": "A k-NN PRM with exact neighbours grown to m samples certifies a radius of at least r, except with probability at most the exponential of the Chernoff-KL value at r.", "quantifier": "all samplers, histories of growths, radius changes and queries, sample and neighbour counts, radii", "why_tests_cant": "Probability over all sample sequences and all histories.", "anchors": ["nonasymptotic/prm.py:SimpleNearestNeighborRadiusPRM.grow_to_n_samples", "nonasymptotic/bound.py:compute_tail_knn_radius_log_prob_chernoff_kl"]}
{"id": "C83", "title": "The k-NN PRM is probabilistically complete and near-optimal", "statement": "With the sample count and radius of compute_numerical_bound and exact neighbours, except with probability at most (1 - success_prob) plus the exponential of the Chernoff-KL value at that radius, the k-NN PRM answers every query between points joined by a path of the given clearance with a nonempty path; with stretch factor tol and a path of length L the answer is no longer than L + tol * max(L, 2 clearance / sqrt(1 + tol^2)).", "quantifier": "all samplers, free spaces, histories, queries and paths", "why_tests_cant": "Probability over sample sequences, and all environments, queries and paths at once.", "anchors": ["nonasymptotic/bound.py:compute_numerical_bound", "nonasymptotic/prm.py:SimpleNearestNeighborRadiusPRM.query_best_solution"]}
{"id": "C84", "title": "Environment samplers are uniform on the free space", "statement": "Successive calls of StraightLine.sample_from_env and NarrowPassage.sample_from_env return independent points that are uniform on the environment's free space. GrayCodeWalls.sample_from_env returns independent points uniform on the part of the free space that its regions cover; it never returns a point of the corner blocks where two walls' gaps meet, so it is not uniform on the whole free space.", "quantifier": "all dimensions, clearances and lengths, and all probability spaces carrying independent draws", "why_tests_cant": "Equality of laws over a continuum of sets; a statistical test can only fail to reject it.", "anchors": ["nonasymptotic/envs.py:StraightLine.sample_from_env", "nonasymptotic/envs.py:NarrowPassage.sample_from_env", "nonasymptotic/envs.py:GrayCodeWalls.sample_from_env"]}
{"id": "C85", "title": "Polygon samples are uniform", "statement": "If the triangulation splits the region into triangles that overlap only on their borders, successive points returned by random_point_in_mpolygon are independent and uniform on the region.", "quantifier": "all regions, triangulations with a triangle of positive area, and probability spaces carrying independent draws", "why_tests_cant": "Equality of laws over a continuum of sets, for every region.", "anchors": ["nonasymptotic/sampler.py:random_point_in_mpolygon"]}
{"id": "C86", "title": "Guarantee for the straight-line environment, from random numbers to answers", "statement": "Give the radius PRM the StraightLine environment's is_motion_valid and sample_from_env, and the sample count and radius returned by compute_numerical_bound for the environment's clearance and volume. With probability at least success_prob, once grown to that many samples it answers every query between two points of the environment's line with a nonempty path; with stretch factor tol the answer is no longer than L + tol*max(L, 2 clearance/sqrt(1+tol^2)), L the distance along the line.", "quantifier": "all dimensions, clearances, lengths, success probabilities, tolerances, and all pairs of points of the line at once", "why_tests_cant": "Probability over sample sequences for a continuum of queries.", "anchors": ["nonasymptotic/envs.py:StraightLine", "nonasymptotic/bound.py:compute_numerical_bound", "nonasymptotic/prm.py:SimpleFullConnRadiusPRM"]}
{"id": "C87", "title": "Guarantee for the narrow-passage environment, from random numbers to answers", "statement": "Give the radius PRM the NarrowPassage environment's is_motion_valid and sample_from_env, and the sample count and radius returned by compute_numerical_bound for a clearance and the environment's volume. For each query between points joined by a path of that clearance in the free space, with probability at least success_prob the answer is a nonempty path, with the length bound of C79. In particular the query of the narrow-passage experiment is answered, with a path at most (1+tol) times the length of the polygonal line through the middle of the passage.", "quantifier": "all dimensions, passage clearances in (0, 1/2), success probabilities, tolerances, queries and paths", "why_tests_cant": "Probability over sample sequences; the checker misjudges motions in special position, which must be shown to have probability zero.", "anchors": ["nonasymptotic/envs.py:NarrowPassage", "nonasymptotic/bound.py:compute_numerical_bound", "nonasymptotic/prm.py:SimpleFullConnRadiusPRM", "exps/run_narrow_passage_clearance_trial.py:narrow_passage_clearance"]}
{"id": "C88", "title": "Sizes and gap of the hallway world", "statement": "hallway_manip builds the asked number of targets, each with a radius between the robot's and 0.1 more, the first being the largest; the hallway, measured between its walls, is exactly dd wider than the largest target, and no other wall reaches into it. With no target an AssertionError is raised.", "quantifier": "all robot scales, gap parameters, target counts and random draws", "why_tests_cant": "Holds for every random draw and real parameter; the gap is the distance between walls that are placed by several formulas.", "anchors": ["exps/tamp_environment/turtlebot_move/problems.py:hallway_manip"]}
{"id": "C89", "title": "Clearance of the hallway", "statement": "In the worlds of hallway_manip and hallway a body that is lower than the gap can be carried from the start through the hallway, at distance gap/2 - (half its height) from every position that touches a wall, and no path between the rooms has a larger clearance. For hallway and the robot it was made for the clearance is dd/2.", "quantifier": "all parameters with a gap of at most 1.4, all rectangular bodies, all continuous paths", "why_tests_cant": "Optimality over all continuous paths.", "anchors": ["exps/tamp_environment/turtlebot_move/problems.py:hallway_manip", "exps/tamp_environment/turtlebot_move/problems.py:hallway"]}
{"id": "C90", "title": "Accepted motions do not tunnel through walls", "statement": "Although the turtlebot's motion check only looks at single poses, a path made of motions that it accepts never leaves the two rooms and the hallway, whatever other motions are in the batches. A body at least as high as the gap is never brought through; a motion during which the body touches no wall is always accepted, so a body that fits gets through along the middle line.", "quantifier": "all gaps up to 1.4, robot polygons with four vertices around their reference point, motions, batches and paths", "why_tests_cant": "Needs every position and direction of motion between two checked poses.", "anchors": ["exps/tamp_environment/turtlebot_move/streams.py:BagOfBoundingBoxes.is_motion_valid", "exps/tamp_environment/turtlebot_move/problems.py:hallway_manip", "exps/tamp_environment/turtlebot_move/separating_axis.py:vec_separating_axis_theorem"]}
{"id": "C91", "title": "Clearance used in adaptive mode", "statement": "In adaptive mode the clearance that is handed to compute_numerical_bound does not exceed the clearance of the passage for the carried body.", "quantifier": "all gaps and body sizes", "why_tests_cant": "Relates a computed number to all continuous paths through the hallway.", "anchors": ["exps/tamp_environment/turtlebot_move/streams.py:get_anytime_motion_fn", "exps/tamp_environment/turtlebot_move/problems.py:hallway_manip"]}
{"id": "C92", "title": "Sampling the hallway world", "statement": "The sampler of the turtlebot's planner draws independent points, uniform in the bounding box of the walls; the box contains both rooms and the hallway, and its area is at most the volume 16 that is handed to compute_numerical_bound.", "quantifier": "all gaps between 0 and 1.4, all sequences of independent uniform random numbers", "why_tests_cant": "Statement about the law of the samples.", "anchors": ["exps/tamp_environment/turtlebot_move/streams.py:BagOfBoundingBoxes.extents", "exps/tamp_environment/turtlebot_move/streams.py:BagOfBoundingBoxes.sample_from_env", "exps/tamp_environment/turtlebot_move/problems.py:hallway_manip"]}
{"id": "C93", "title": "The anytime planning call finds a path if its budget contains the sample bound", "statement": "If one of the sample counts floor(min*factor^i) that the anytime planning call can try is at least the count returned by compute_numerical_bound and within the budget, then the call answers with a path between any two points joined by a path of the given clearance, except with the failure probability given to the bound plus the Chernoff-KL bound on the k-neighbour radius. In the hallway world this holds with the turtlebot's own sampler and motion check.", "quantifier": "all dimensions, clearances, budgets with fast enough growth, neighbour counts, starts and goals", "why_tests_cant": "Probability over sample sequences, for a continuum of queries.", "anchors": ["exps/tamp_environment/turtlebot_move/streams.py:get_anytime_motion_fn", "nonasymptotic/bound.py:compute_numerical_bound", "nonasymptotic/prm.py:SimpleNearestNeighborRadiusPRM"]}
{"id": "C94", "title": "Placed objects stand on their surfaces and apart", "statement": "If sample_placements answers True, every body lies inside its surface (seen from above), one millimetre above it, farther than its minimum distance from every given obstacle and from every body placed before it, and nothing else was moved. It answers False only if some body is wider than its surface. It always answers.", "quantifier": "all sets of bodies, surfaces, obstacles, initial positions and random draws", "why_tests_cant": "Random draws, arbitrarily many bodies, and a loop without bound.", "anchors": ["exps/tamp_environment/turtlebot_move/problems.py:sample_placements", "exps/tamp_environment/turtlebot_move/problems.py:sample_placement_on_aabb"]}
{"id": "C95", "title": "Targets are placed where they can be carried from and to", "statement": "hallway_manip gives goal poses inside the first room and initial poses inside the second one, with every target clear of the walls and of the other targets; the motion planner's start and goal checks accept these poses, and a motion that it accepts does not run over another target.", "quantifier": "all robot scales, gaps, target counts and random draws", "why_tests_cant": "Depends on every random placement.", "anchors": ["exps/tamp_environment/turtlebot_move/problems.py:hallway_manip", "exps/tamp_environment/turtlebot_move/problems.py:sample_placements", "exps/tamp_environment/turtlebot_move/streams.py:get_anytime_motion_fn"]}
{"id": "C96", "title": "Clearance of the corner world", "statement": "In the corner world the best clearance of any path from start to goal is min(1/20, 1/40 + dd/4, dd/sqrt 2): there is a path of length at most 6 with this clearance and none with more. Accepted motions stay inside the outer walls.", "quantifier": "all robot scales and gaps dd > 0 that leave the inner walls a positive length (robot width + dd/2 < 1.4), and all continuous paths", "why_tests_cant": "Quantifies over all paths.", "anchors": ["exps/tamp_environment/turtlebot_move/problems.py:corner"]}
{"id": "C97", "title": "Holes of the sampled polygon are removed", "statement": "random_point_in_mpolygon passes every ring of the argument to the triangulation exactly once. Each of its hole points lies in none of the polygons, also when polygons lie inside holes of others, and every hole is removed. Other types of argument are refused.", "quantifier": "all valid polygons and multi-polygons, all choices of representative points", "why_tests_cant": "Arbitrary nesting of polygons and holes.", "anchors": ["nonasymptotic/sampler.py:random_point_in_mpolygon"]}
{"id": "C98", "title": "The kuka world starts without collisions", "statement": "When load_world returns, every object is at a pose drawn for the stove, touches no fixed body and no other object, has a robot configuration at its approach pose that touches no fixed body, and nothing else was moved.", "quantifier": "all objects, fixed bodies, random draws and inverse-kinematics answers", "why_tests_cant": "Random draws and arbitrarily many retries.", "anchors": ["exps/tamp_environment/kuka_carry/run.py:load_world", "exps/tamp_environment/kuka_carry/kuka_primitives.py:get_stable_gen", "exps/tamp_environment/kuka_carry/kuka_primitives.py:get_ik_fn"]}
{"id": "C99", "title": "The facts of the kuka problem are true", "statement": "If pddlstream_from_problem returns a problem, it has one initial-pose entry per object, with the object's pose in the world, and one insertion entry per pair of object and sink. Its poses and configurations are what the facts say: the final pose is a placement in that sink that touches no fixed body, the pose before it is the lifted one, and each configuration reaches its approach pose without touching a fixed body.", "quantifier": "all worlds, random draws and inverse-kinematics answers", "why_tests_cant": "The facts depend on every state the simulator went through before.", "anchors": ["exps/tamp_environment/kuka_carry/run.py:pddlstream_from_problem", "exps/tamp_environment/kuka_carry/kuka_primitives.py:get_fixed_stable_gen"]}
{"id": "C100", "title": "Motions of the arm avoid everything", "statement": "A free or holding motion that is planned (not teleported) leads from the first to the second configuration; in every configuration of it neither the arm nor the held object touches a fixed body or an object at the pose given by the current facts, whatever poses the simulator had before. Configurations of different robots raise AssertionError, unknown facts ValueError.", "quantifier": "all configurations, facts, and previous simulator states", "why_tests_cant": "The simulator's state is changed by every call.", "anchors": ["exps/tamp_environment/kuka_carry/kuka_primitives.py:get_free_motion_gen", "exps/tamp_environment/kuka_carry/kuka_primitives.py:get_holding_motion_gen", "exps/tamp_environment/kuka_carry/kuka_primitives.py:assign_fluent_state"]}
{"id": "C101", "title": "Grasps from above", "statement": "Every grasp puts the tool over the centre of the box, grasp_length below its top, pointing down, and the object held by the tool is where it was grasped. There is one grasp (two with under) for each of width and length that fits the gripper; the four grasps used differ by quarter turns and their approach poses are 1 cm higher.", "quantifier": "all boxes and all body poses", "why_tests_cant": "Quantifies over all poses.", "anchors": ["exps/tamp_environment/kuka_carry/kuka_primitives.py:get_top_grasps", "exps/tamp_environment/kuka_carry/kuka_primitives.py:GRASP_INFO", "exps/tamp_environment/kuka_carry/kuka_primitives.py:get_grasp_gen"]}
{"id": "C102", "title": "Submitting and resuming experiments", "statement": "Submitting an experiment never changes an existing one; it creates a directory of its own with the configuration, name and triples, and a script that runs the trials of the requested type with the configuration and results in that directory. Resuming submits the job of the most recently modified directory whose name begins with the given name, with the triples saved there; right after a submission it submits the same job again.", "quantifier": "all names, configurations, triples, times and existing directories", "why_tests_cant": "Depends on the whole history of the results directory.", "anchors": ["exps/submit_and_run_experiment_job.py"]}
{"id": "C103", "title": "Aggregating results loses and repeats nothing", "statement": "The aggregate contains every row of every result file of the chosen experiment once and no other file changes; aggregating again gives the same result; the time statistics leave out exactly the first row of each file.", "quantifier": "all sets of files and rows", "why_tests_cant": "Holds for any number of files and repetitions.", "anchors": ["exps/aggregate_runtimes_for_tuning.py"]}
{"id": "C104", "title": "The tuner submits every feasible split", "statement": "For a given number of processes (or threads) the tuner submits one job for each listed number of threads (or processes) whose product with it is at most 48, and no others.", "quantifier": "all integers", "why_tests_cant": "Quantifies over all integers.", "anchors": ["exps/tune_experiment_triples.py"]}
{"id": "C105", "title": "Deployment keeps within the queue limit and loses no experiment", "statement": "As long as squeue answers, fewer than 100 jobs are queued after every submission, and nothing is submitted while 50 or more are queued; when the script ends, every argument set was submitted the required number of times; and it ends if jobs keep ending.", "quantifier": "all histories of the job queue", "why_tests_cant": "The queue changes arbitrarily while the script waits.", "anchors": ["exps/tamp_environment/deploy_tamp_experiments.py", "exps/tamp_environment/deploy_tamp_experiments_kuka.py"]}
{"id": "C106", "title": "Executing a turtlebot plan moves the targets along accepted motions", "statement": "Executing the commands of a plan that solves the task, with trajectories and configurations returned by the streams, brings every target from its initial place to its goal place. The straight movements of the rover join up from its initial configuration on, each lies within a motion that the motion check accepted for the shape of what is moved, a held target is where the rover is, and nothing but the targets moves.", "quantifier": "all problems, plans, stream answers, random draws and worlds", "why_tests_cant": "Plans have any length, and the claim joins the planner, the roadmap, the interpolation and the execution.", "anchors": ["exps/tamp_environment/turtlebot_move/run.py:post_process", "exps/tamp_environment/turtlebot_move/run.py:main", "exps/tamp_environment/turtlebot_move/streams.py:get_anytime_motion_fn", "exps/tamp_environment/turtlebot_move/streams.py:get_ik"]}
{"id": "C107", "title": "Executing a kuka plan puts the objects where the plan says", "statement": "For every executable kuka plan whose motions, insertions and grasps come from the streams, postprocess_plan returns a command, and after executing the refined command every object is at the pose at which the plan leaves it, nothing else has moved, and if the plan reaches the goal the arm is back in its initial configuration. The motions join: the tool is at the beginning of each where it was at the end of the one before.", "quantifier": "all problems, executable plans, stream answers, states of the simulator at the time of each answer and inverse kinematics", "why_tests_cant": "Plans have any length, and the claim joins the planner, the roadmap, inverse kinematics, refinement and execution.", "anchors": ["exps/tamp_environment/kuka_carry/run.py:main", "exps/tamp_environment/kuka_carry/run.py:get_insert_motion_gen", "exps/tamp_environment/kuka_carry/kuka_primitives.py:Command.refine", "exps/tamp_environment/kuka_carry/kuka_primitives.py:BodyPath.iterator"]}
{"id": "C108", "title": "A narrow-passage table says which connections solve the problem, and more samples do not destroy a solution", "statement": "For every ascending sample schedule, narrow_passage_clearance returns one row for each size. With the states drawn so far as samples, the recorded lower value does not connect start and goal, the recorded upper value does, they are adjacent, and the recorded distance is that of a shortest path for the upper value. If a row records a solution, every later row does.", "quantifier": "all worlds, sampled states, start and goal states, largest connections and schedules, with the roadmap growing over the schedule", "why_tests_cant": "The repository tests it on 20 random seeds (tests/test_exps.py); the claim is for all states, and the roadmap keeps its state over the whole schedule.", "anchors": ["exps/run_narrow_passage_clearance_trial.py:narrow_passage_clearance", "tests/test_exps.py", "nonasymptotic/prm.py:SimpleRadiusPRM", "nonasymptotic/prm.py:SimpleNearestNeighborRadiusPRM"]}
{"id": "C109", "title": "The plots show the logged runs", "statement": "time_success_plot.py draws one bar for every setting (sample limits, adaptive or not) that occurs in the logs; its height is the fraction of the runs with this setting that were solved, and the mean of their times, with error bars that are the standard deviations divided by the root of the number of runs. bound_plot.py draws one point for every logged solution.", "quantifier": "all sets of log files, in any order", "why_tests_cant": "Logs come from any number of runs, with any output of the solver between the lines that are read; runs may crash or share file names.", "anchors": ["exps/tamp_environment/turtlebot_move/time_success_plot.py", "exps/tamp_environment/turtlebot_move/bound_plot.py", "exps/tamp_environment/turtlebot_move/run.py:main"]}
{"id": "C110", "title": "Repetitions of a deployed experiment have different seeds", "statement": "Every argument set is run with the seeds 1 to n, once each, for n repetitions.", "quantifier": "all lists of argument sets and all tasks of a job array", "why_tests_cant": "The runs are started by a shell script in tasks of job arrays on a cluster.", "anchors": ["exps/tamp_environment/deploy_tamp_experiments.py", "exps/tamp_environment/deploy_tamp_experiments_kuka.py", "exps/tamp_environment/deploy_tamp_adaptive_kuka.py", "exps/tamp_environment/deploy_experiments.sh", "exps/tamp_environment/deploy_experiments_kuka.sh"]}
{"id": "C111", "title": "The straight-line trial brackets the smallest sufficient radius", "statement": "straight_line_trial returns one row per sample size. The two radii of a row are neighbours among the distances up to the effective radius; the completeness check rejected the lower one and accepted the upper one.", "quantifier": "all environments, samplers, schedules, neighbour limits and completeness checks", "why_tests_cant": "The rows depend on random samples and on the number of different distances between them, and every growth starts from the roadmap before it.", "anchors": ["exps/run_straight_line_optimality_trial.py:straight_line_trial", "nonasymptotic/prm.py:SimpleNearestNeighborRadiusPRM.grow_to_n_samples", "nonasymptotic/envs.py:StraightLine.is_prm_epsilon_delta_complete"]}
{"id": "C112", "title": "The containers in the simulator are those that the planner checks", "statement": "For every container, the body that is created in the simulator has, link by link, the shapes and poses of the boxes that are handed to the planner as obstacles; their union is the container at its place in the grid; and the link on which objects are to be put is the floor of the container.", "quantifier": "all sizes of the grid, dimensions, wall thicknesses and poses", "why_tests_cant": "The shapes pass through nested frames (base, link, visual) whose composition has to be right for every dimension and position.", "anchors": ["exps/tamp_environment/kuka_carry/run.py:create_hollow", "exps/tamp_environment/kuka_carry/run.py:load_bin", "exps/tamp_environment/kuka_carry/run.py:load_world", "exps/tamp_environment/kuka_carry/run.py:placement_links"]}
{"id": "C113", "title": "The animation shows every sample, every edge once and every segment of the solution", "statement": "The last picture of animate_solution shows all samples, one line per edge between the two samples of the edge, and all segments of the solution; without a solution everything is red. At every moment only such points and lines are shown, in their order, and lines only after all samples.", "quantifier": "all roadmaps, solutions and positive batch sizes, and every moment of the animation", "why_tests_cant": "The slices of the frames depend on the remainder of the number of samples and edges modulo the batch sizes.", "anchors": ["nonasymptotic/prm.py:BasePRM.animate_solution"]}
{"id": "C114", "title": "save stores a roadmap that matches its samples", "statement": "After any history, save either raises and writes nothing because there are no samples, or writes a graph and an array: the graph has a node for each sample and no other, and its edges are the roadmap's with their lengths.", "quantifier": "all histories of grow, query, reset and radius changes, all three planners", "why_tests_cant": "Queries add nodes temporarily and growth reuses the graph; every interleaving has to leave graph and samples in step.", "anchors": ["nonasymptotic/prm.py:BasePRM.save"]}
{"id": "C115", "title": "The problem that kuka_carry solves describes the world in which the plan is executed", "statement": "However many worlds were given up before, and whatever the solver did to the simulator, when the plan is executed the arm is in the initial configuration of the problem, every object is where its AtPose fact says, touches nothing and can be approached, and every insertion fact is true of the fixed bodies as they stand.", "quantifier": "all simulators, random draws, numbers of attempts and actions of the solver on the simulator", "why_tests_cant": "Making the problem and solving it move the objects and the arm; the world is put back from a copy made in between.", "anchors": ["exps/tamp_environment/kuka_carry/run.py:main", "exps/tamp_environment/kuka_carry/run.py:pddlstream_from_problem", "exps/tamp_environment/kuka_carry/run.py:load_world"]}
{"id": "C116", "title": "What a run prints is in its log", "statement": "The log of a TAMP run has all visible characters that were printed, in their order and no others; every message is one line; a print of one text gives exactly the lines of the text, without white space at their ends.", "quantifier": "all series of writes to stdout and stderr, all texts", "why_tests_cant": "The stream is cut into messages write by write, and print makes several writes; the claim is about every way of cutting any text.", "anchors": ["exps/tamp_environment/kuka_carry/run.py:StreamToLogger.write", "exps/tamp_environment/turtlebot_move/run.py:StreamToLogger.write"]}
{"id": "C117", "title": "Collision test of a command with a movable object", "statement": "For an object that a kuka command does not move, the test made by get_movable_collision_test answers True exactly if, while the command is executed with the object at the given pose, the robot or something attached to it touches the object in one of the configurations shown. The answer is the same for the reversed command.", "quantifier": "all commands, objects, poses, scenes, and all collision checks that depend on the joints and the two poses", "why_tests_cant": "The test works on the shared simulator and stops at the first hit, path by path; the claim is about every command and every state that the simulator may be in.", "anchors": ["exps/tamp_environment/kuka_carry/kuka_primitives.py:get_movable_collision_test", "exps/tamp_environment/kuka_carry/kuka_primitives.py:BodyPath.iterator", "exps/tamp_environment/kuka_carry/kuka_primitives.py:Command.reverse"]}
{"id": "C118", "title": "World of random obstacles", "statement": "random_obstacles returns with probability one. Every box stands inside the floor, more than one centimetre away from the other boxes and from the robot at its start and goal. The planner gets the boxes as obstacles.", "quantifier": "all random draws, all numbers of boxes up to 444, all robot footprints inside squares of side 1 (any footprints and numbers for the first two parts of the placement)", "why_tests_cant": "The loop has no limit on the number of draws; that it ends is a statement about all random sequences but a null set.", "anchors": ["exps/tamp_environment/turtlebot_move/problems.py:random_obstacles", "exps/tamp_environment/turtlebot_move/problems.py:sample_placements", "exps/tamp_environment/turtlebot_move/streams.py:BagOfBoundingBoxes.extents"]}
{"id": "C119", "title": "The narrow-passage experiment confirms the bound", "statement": "Run the narrow-passage trial with at least the sample count that compute_numerical_bound returns for the clearance and the volume of the environment, and with a largest radius no smaller than the returned radius. Then, with at least the requested success probability, every such row of the table has the problem as solved and places the smallest sufficient radius in an interval that begins below the returned radius. With the k-NN roadmap the same holds for the number of neighbours, up to the probability that some sample has that many others within the returned radius.", "quantifier": "all dimensions, clearances below one half, success probabilities, stretch factors, ascending schedules, random draws (as a probability), seeds and timings", "why_tests_cant": "It is a statement about the probability of the table over all sequences of draws; a test sees one sequence.", "anchors": ["exps/run_narrow_passage_clearance_trial.py:narrow_passage_clearance", "nonasymptotic/bound.py:compute_numerical_bound", "nonasymptotic/envs.py:NarrowPassage", "nonasymptotic/prm.py:SimpleFullRadiusPRM", "nonasymptotic/prm.py:SimpleNearestNeighborRadiusPRM"]}
{"id": "C120", "title": "Guarantee of the k-NN planner in the environments, from random numbers to answers", "statement": "In the straight-line and the narrow-passage environment, the k-NN PRM with exact neighbours, grown to at least the sample count returned by compute_numerical_bound, answers queries between points joined by a path of the given clearance with a nonempty path, and with a path of the promised length if a stretch factor was given. This fails at most with the failure probability given to the bound plus the Chernoff-KL bound for k neighbours at the returned radius.", "quantifier": "all dimensions, clearances, lengths, success probabilities, stretch factors, numbers of samples and neighbours, random draws (as a probability), truncated or not", "why_tests_cant": "It is a probability over all sequences of draws, and needs uniform samplers, exact checkers and the planner to work together.", "anchors": ["nonasymptotic/envs.py:StraightLine", "nonasymptotic/envs.py:NarrowPassage", "nonasymptotic/prm.py:SimpleNearestNeighborRadiusPRM", "nonasymptotic/bound.py:compute_numerical_bound", "nonasymptotic/bound.py:compute_tail_knn_radius_log_prob_chernoff_kl"]}
{"id": "C121", "title": "Collision-free gray-code motions are accepted", "statement": "GrayCodeWalls.is_motion_valid accepts every motion that stays in the free corridor and keeps the wall thickness from every wall.", "quantifier": "all dimensions, numbers of layers, positive wall thicknesses, start and goal points, however many cubes apart", "why_tests_cant": "There are infinitely many motions, through any number of cubes; a test tries a few of them in one small corridor.", "anchors": ["nonasymptotic/envs.py:GrayCodeWalls.is_motion_valid", "nonasymptotic/envs.py:GrayCodeWalls.distance_to_wall"]}
{"id": "C122", "title": "Executing a hallway plan stays inside the house; too large targets make the task unsolvable", "statement": "In the hallway world, executing a plan whose motions come from the motion streams never takes the rover or a target out of the two rooms and the hallway, and at each moment the moved body is within 0.04 in each coordinate of a position where its bounding box touches no wall. If the bounding box of a target is at least as high as the gap, no plan at all brings this target to the other room; with the option --delta at most 0 the task has no solution.", "quantifier": "all plans, all numbers and places of targets, all results of the sampler and of the neighbour search, all numbers of samples, teleported or interpolated motions, all robot scales and gap widths up to 1.4", "why_tests_cant": "The motion check only looks at single poses and its resolution depends on the other motions of the batch; that no sequence of motions ever slips through a wall, and that no plan exists, are statements about all plans and samples.", "anchors": ["exps/tamp_environment/turtlebot_move/streams.py:get_anytime_motion_fn", "exps/tamp_environment/turtlebot_move/streams.py:BagOfBoundingBoxes.is_motion_valid", "exps/tamp_environment/turtlebot_move/problems.py:hallway_manip", "exps/tamp_environment/turtlebot_move/run.py:main"]}
{"id": "C123", "title": "The hallway task is solved with high probability when a small sample count is tried", "statement": "In the hallway world with box-shaped rover and targets lower than the gap, starting and ending in the rooms off the walls: if one of the sample counts the motion streams try is at most 33 (so that every sample is a neighbour of every other), then with probability at least 1 - 4 n (1 - beta/9.92)^count, for n targets, all motion stream calls for carrying the targets over one after the other return a trajectory, the plan made of them is executable and reaches the goal of the task, and executing it puts every target at its goal pose. Here beta is the area of the positions in one room from which a body can be moved straight through the hallway.", "quantifier": "all gap widths up to 1.4, all numbers and places of targets in the rooms, all box sizes that fit, all option values with a tried count of at most 33, all uniform independent draws, all results of the neighbour search", "why_tests_cant": "It is a probability over infinitely many sequences of random numbers, for a plan of any length; a test run only sees one sequence.", "anchors": ["exps/tamp_environment/turtlebot_move/streams.py:get_anytime_motion_fn", "exps/tamp_environment/turtlebot_move/streams.py:sample_from_env", "exps/tamp_environment/turtlebot_move/problems.py:hallway_manip", "exps/tamp_environment/turtlebot_move/run.py:pddlstream_from_problem", "exps/tamp_environment/turtlebot_move/run.py:post_process", "nonasymptotic/prm.py:SimpleNearestNeighborRadiusPRM.query_best_solution"]}
{"id": "C124", "title": "With the 32 neighbours of the experiments, the package's two bounds never guarantee a k-NN planning call", "statement": "For the count and radius that compute_numerical_bound returns, the bound on the probability that a k-NN roadmap with at least this many samples has all edges up to the radius is at least one whenever the number of neighbours is at most 2^(dim+3). In particular, in the turtlebot experiment (32 neighbours in the plane) the failure bound obtained from the package's two bounds is at least one, for all clearances, success probabilities and tolerances.", "quantifier": "all dimensions, clearances, success probabilities, tolerances, environment volumes, sample counts from the returned one on, and neighbour counts up to 2^(dim+3)", "why_tests_cant": "It is an inequality between two transcendental bounds for all parameter values; evaluating both for sample values cannot settle it.", "anchors": ["nonasymptotic/bound.py:compute_numerical_bound", "nonasymptotic/bound.py:compute_tail_knn_radius_log_prob_chernoff_kl", "exps/tamp_environment/turtlebot_move/streams.py:get_anytime_motion_fn"]}
{"id": "C125", "title": "The radius search answers in floating point", "statement": "With the rounding of binary64 arithmetic taken into account: if neighbouring floats between the two ends are no further apart than the tolerance, halving_radius_search_over_log_prob_bound stops and returns a float that is the lower end or was checked, such that the next rejected radius (or the upper end) is, in floats, within the tolerance. With the default tolerance this covers all nonnegative radii up to 2^33. Otherwise it need not stop: between two neighbouring floats further apart than the tolerance, of which the upper one has an even last bit, it never answers, whatever the bound function.", "quantifier": "all bound functions, limits, float interval ends and tolerances", "why_tests_cant": "Which roundings occur depends on the bits of both ends; an endless loop cannot be observed by a test, and its absence is a statement about all floats.", "anchors": ["nonasymptotic/bound.py:halving_radius_search_over_log_prob_bound"]}
{"id": "C126", "title": "What the narrow-passage motion check guarantees in floating point", "statement": "With the rounding of binary64 arithmetic taken into account: if the ends of a motion are free and NarrowPassage.is_motion_valid accepts it, the motion leaves the free space nowhere by more than rounding errors. This fails: with clearance 0.15 the motion from (0.7, 0.08) to (-0.5, 0.5) is accepted and goes through the middle of the block above the passage, and backwards it is rejected. It holds if the ends are at least 2^-48 away from the outer border: then every point of an accepted motion is free with the passage taken 2^-48 wider.", "quantifier": "all dimensions, clearances and pairs of free float configurations", "why_tests_cant": "The roundings that make the check miss a wall occur for a few pairs of configurations out of all pairs of floats; random tests do not meet them, and no test bounds how far an accepted motion can enter an obstacle.", "anchors": ["nonasymptotic/envs.py:NarrowPassage.is_motion_valid", "nonasymptotic/util.py:detect_intersect", "nonasymptotic/util.py:cross_2d"]}
{"id": "C127", "title": "Narrow-passage samples are free and clear motions are accepted in floating point", "statement": "With the rounding of binary64 arithmetic taken into account: every sample of a NarrowPassage is in the free space, and is_motion_valid accepts every motion that stays away from the obstacles by more than rounding errors. The second part fails as in exact arithmetic (standing still is rejected). It holds for motions that stay more than 2^-46 away, if no projection is a point or runs along a wall line and every coordinate changes by nothing or at least 2^-900.", "quantifier": "all dimensions, all float clearances, all draws, all pairs of float configurations", "why_tests_cant": "Rounding could push a sample out of its box or a crossing over the end of a wall for any of the pairs of floats; that it never does by more than 2^-46 is a statement about all of them.", "anchors": ["nonasymptotic/envs.py:NarrowPassage.sample_from_env", "nonasymptotic/envs.py:NarrowPassage.is_motion_valid", "nonasymptotic/util.py:detect_intersect"]}
{"id": "C128", "title": "The probabilistic guarantee for the narrow passage holds in floating point, up to rounding terms", "statement": "With rounded samples (53-bit uniform draws), rounded motion checks and distances with a bounded relative error: if the radius search for clearance delta returns N and r, then a SimpleRadiusPRM in a NarrowPassage with N samples and a radius slightly above r answers each float query that has a path of clearance slightly above delta, except with probability 1 - p plus (dimension)(N+1)^2 2^-50; the query of the narrow-passage experiment, computed in floats, is such a query. Conversely, except with probability (dimension-1) M 2^-46, no answer for any query away from the outer border leaves the free space with the passage taken 2^-48 wider.", "quantifier": "all dimensions, float clearances, success probabilities, stretch factors, sample counts, float queries, planners with the given checker and sampler", "why_tests_cant": "A probability over all sample sequences, for all queries; the rounding effects it allows for have probabilities far too small to be seen in a test.", "anchors": ["nonasymptotic/bound.py:compute_numerical_bound", "nonasymptotic/prm.py:SimpleRadiusPRM", "nonasymptotic/envs.py:NarrowPassage", "exps/run_narrow_passage_clearance_trial.py"]}
{"id": "C129", "title": "The straight-line environment works in floating point: samples never leave the box, and the guarantee holds", "statement": "With the rounding of binary64 arithmetic taken into account: whatever the draws, every motion between samples and points of the reference line of a StraightLine environment is accepted (rounding never moves a sample over a bound). If the radius search for clearance delta returns N and r, then with probability at least p a SimpleRadiusPRM with N samples and a radius that exceeds r by a few rounding errors answers every query between two points of the line.", "quantifier": "all dimensions, float clearances, float lengths, draws, success probabilities, stretch factors, sample counts, pairs of points of the line, planners with the given checker and sampler", "why_tests_cant": "Whether low + (high - low) * u exceeds high depends on the last bits of three rounded operations, for all pairs of bounds; the guarantee is a probability over all sample sequences.", "anchors": ["nonasymptotic/envs.py:StraightLine", "nonasymptotic/bound.py:compute_numerical_bound", "nonasymptotic/prm.py:SimpleRadiusPRM"]}
{"id": "C130", "title": "The anytime planning loop keeps its promises when the sample counts are rounded floats", "statement": "The anytime motion streams multiply the sample count by a float factor and take its integer part. With the rounding of these products taken into account: the call stops; the counts start with min, never exceed max and differ from floor(min * factor^i) by at most one; they grow strictly if min * (factor - 1) >= 1; 'no path' is only answered after all counts in the budget failed; a returned path is collision free from start to goal. With the default factor 1.5 no product is rounded at all. If one of the rounded counts is at least the count of compute_numerical_bound, the call answers with a path with the probability of the bounds.", "quantifier": "all roadmap worlds, starts, goals, minimal and maximal counts, factors, neighbour numbers, positions of the random generator", "why_tests_cant": "Whether rounding makes two consecutive integer parts equal (which raises ArithmeticError) depends on the last bits of the products, for all counts and factors; the guarantee is a probability over all sample sequences.", "anchors": ["exps/tamp_environment/turtlebot_move/streams.py:get_anytime_motion_fn", "exps/tamp_environment/kuka_carry/run.py:get_anytime_motion_fn", "nonasymptotic/prm.py:SimpleNearestNeighborRadiusPRM"]}
{"id": "C131", "title": "Roadmaps with motion checkers that judge whole batches", "statement": "The motion checkers of the turtlebot and of the arm are given all motions of a growth or of a query at once; the answer for a motion may depend on the others, and an empty batch raises ValueError. For a k-NN roadmap with such a checker: if some sample is within the connection radius of the start and some sample of the goal, a query answers with a distance between those of two roadmaps that check motions one by one, with the motions accepted in some batch and with those accepted in every batch; otherwise the query raises the exception of the empty batch and changes nothing. The anytime planning call never answers 'no path' if with one of its counts the stricter roadmap has a path: it returns a path whose motions were accepted in some batch, or raises at an earlier count at which no sample was within the radius of the start or the goal. In the hallway world the turtlebot's call has the guarantee of C93 with this exception. For checkers that judge each motion by itself everything is as with one motion at a time.", "quantifier": "all batch checkers, roadmap worlds with exact neighbours, histories of growths and queries, starts, goals, counts and factors", "why_tests_cant": "What the checker says about a motion depends on all samples drawn so far; whether an early roadmap has a sample near the start is random. Tests see a few seeds.", "anchors": ["nonasymptotic/prm.py:SimpleNearestNeighborRadiusPRM", "exps/tamp_environment/turtlebot_move/streams.py:BagOfBoundingBoxes.is_motion_valid", "exps/tamp_environment/turtlebot_move/streams.py:get_anytime_motion_fn", "exps/tamp_environment/kuka_carry/run.py:get_anytime_motion_fn"]}
{"id": "C132", "title": "The planner's picture of the obstacles is exact", "statement": "The turtlebot's environment, built from the bounding box of the robot (or of the object it holds) and the oriented bounding boxes of upright obstacles, each at least 1 mm wide and deep, is an exact picture of these bodies. A motion is accepted only if at every checked pose the robot's block shares no point with any obstacle's body in space, whatever the heights; a rejected motion has a pose at which the block touches an obstacle, if the heights overlap. Neither the order of the set of obstacles nor the corner and direction that the convex hull library starts with changes an answer. The sampled region is the smallest box around the obstacles. Without obstacles the constructor raises ValueError, with a thinner robot or obstacle AssertionError. In the experiments' worlds the built environment answers as the check with plain wall rectangles.", "quantifier": "all boxes, positions, yaw angles, lists of obstacles, batches of motions, and hull libraries that return the corners in cyclic order", "why_tests_cant": "Boxes, angles and motions are real numbers, the order of the set and of the hull's corners is up to the libraries.", "anchors": ["exps/tamp_environment/turtlebot_move/streams.py:BagOfBoundingBoxes.__init__", "exps/tamp_environment/turtlebot_move/streams.py:hull", "exps/tamp_environment/turtlebot_move/streams.py:BagOfBoundingBoxes.is_motion_valid", "exps/tamp_environment/turtlebot_move/streams.py:get_anytime_motion_fn"]}
{"id": "C133", "title": "The sample bound in floating point", "statement": "compute_numerical_bound, with every operation rounded to binary64 and library functions of relative error at most mu, returns a count that suffices and is not needlessly large, up to rounding: with that many samples the bound on the failure probability is at most 1-p times two to a small multiple of mu times the number of bits of the quantities compared, and unless the count is 2 one sample fewer gives at least 1-p divided by such a factor. The function answers whenever some power of two passes the exact test with a margin. The returned radius has relative error at most eight times the root of mu (the cancellation in 1 - alpha ** 2 makes errors of this order happen) but is below twice the net radius by at most 8 mu. A planner in the narrow passage built with the returned count and radius, all in floats, answers each query along a path with the clearance that was passed, with the probability asked for up to these errors and the chance of coinciding coordinates; likewise the straight corridor.", "quantifier": "all clearances, success probabilities, volumes, dimensions and stretch factors without underflow, all libraries of the stated accuracy, all counts and queries", "why_tests_cant": "The accuracy of the libraries is only known as an error bound, inputs range over all floats, and the guarantee is about a probability over all samples.", "anchors": ["nonasymptotic/bound.py:compute_numerical_bound", "nonasymptotic/bound.py:compute_sauer_shelah_bound_log2", "nonasymptotic/bound.py:doubling_sample_search_over_log2_prob_bound", "nonasymptotic/bound.py:compute_rho", "nonasymptotic/bound.py:compute_vol_unit_sphere"]}
{"id": "C134", "title": "Path lengths in floating point", "statement": "When compute_numerical_bound is asked for a tolerance eps, the planner built with the returned count and radius answers a query along a clear path of length L with a path of length at most (1+kappa) times (L + (eps + e/D) max(L, D)), where kappa is the relative error of the planner's distances, e a few units in the last place of the environment's size and D = 2 delta / sqrt(1+eps^2) the spacing of the samples on the path; samples, motion checks, query points and distances are rounded. This holds in the narrow passage (with the experiment's query as an instance) and for all queries on the straight corridor, with the count and radius computed exactly or in floats.", "quantifier": "all dimensions, clearances, tolerances, success probabilities, sample sequences up to the stated probability, larger counts, and all clear paths between float query points", "why_tests_cant": "The bound is over all paths and all queries at once, with a probability over all sample sequences, and rounding errors add up along paths of any number of samples.", "anchors": ["nonasymptotic/bound.py:compute_numerical_bound", "nonasymptotic/envs.py:NarrowPassage", "nonasymptotic/envs.py:StraightLine", "nonasymptotic/prm.py:SimplePRM.query_best_solution"]}
{"id": "C135", "title": "The closed-form number of samples suffices", "statement": "If a ball of the given net radius fits into the environment, then any number of samples of at least compute_blumer_bound(net_rad, dim, gamma, vol_env) meets the failure bound for gamma: with probability at least 1 - gamma independent uniform samples hit every ball of that radius, and a full radius PRM with that many samples answers every query along a path of that clearance, with the length bound of compute_numerical_bound if net radius and connection radius are taken from the tolerance. compute_numerical_bound never asks for more samples than the closed form rounded up, and it answers whenever the closed form is at most 2^53.", "quantifier": "all dimensions, radii, volumes, failure probabilities, larger numbers of samples, tolerances, histories of the planner without reset, queries and paths", "why_tests_cant": "The claims are inequalities between real functions of unbounded arguments, and probabilities over all sample sequences.", "anchors": ["nonasymptotic/bound.py:compute_blumer_bound", "nonasymptotic/bound.py:compute_numerical_bound", "nonasymptotic/prm.py:SimpleFullConnRadiusPRM.query_best_solution"]}
{"id": "C136", "title": "The separating-axis test in floats", "statement": "In IEEE double arithmetic, with coordinates up to R and no tiny edges, the vectorized separating-axis test answers for every row; whenever it reports no collision, moving one polygon by at most 2^-49 R in each coordinate makes the two disjoint; whenever some edge's normal separates the polygons by at least 2^-46 R it reports no collision. So it only errs for polygons that touch or overlap by, or miss each other by, about 1e-14 of their coordinates. It does err there: two triangles that share a point are reported as collision-free.", "quantifier": "all batches of polygons with equal numbers of vertices, all coordinates up to R, every way of rounding the dot products within their standard error", "why_tests_cant": "Rounding errors depend on every coordinate; a worst case over all polygons cannot be sampled.", "anchors": ["exps/tamp_environment/turtlebot_move/separating_axis.py:vec_separating_axis_theorem", "exps/tamp_environment/turtlebot_move/separating_axis.py:vec_project", "exps/tamp_environment/turtlebot_move/separating_axis.py:vec_vertices_to_edges"]}
{"id": "C137", "title": "The turtlebot's motion check in floats", "statement": "In IEEE double arithmetic the batch motion check answers for every non-empty batch and looks at evenly spaced poses from start to goal, less than 0.08 + 2^-49 R apart in each coordinate. If it accepts a motion, then at each of these poses every obstacle is disjoint from the robot after a shift of the obstacle by at most 2^-46 R in each coordinate. If at each of these poses every obstacle has an edge whose line is at least 2^-44 R away from the robot, the motion is accepted.", "quantifier": "all robot polygons, obstacle polygons with as many vertices, batches of motions and coordinates up to R", "why_tests_cant": "The rounded coordinates, the number of poses and the rounded test depend on all motions of the batch.", "anchors": ["exps/tamp_environment/turtlebot_move/streams.py:BagOfBoundingBoxes.is_motion_valid", "exps/tamp_environment/turtlebot_move/separating_axis.py:vec_separating_axis_theorem"]}
{"id": "C138", "title": "The hallway worlds in floats", "statement": "With the motion check in IEEE double arithmetic and wall corners that are within eps (at most 2 mm) of the true ones, a path of accepted motions stays within 2 eps + 2^-30 of the two rooms and the hallway; a box-shaped body higher than the gap by 4 eps + 2^-29 is never brought through the hallway; and a motion of a box-shaped body that keeps eps + 2^-30 away from all walls is accepted in every batch.", "quantifier": "all robot polygons with coordinates up to 1024, all hallway widths, all corner errors, all sequences of accepted motions in whichever batches, every way of rounding the dot products within their standard error", "why_tests_cant": "The claim is about all paths of any length and all roundings.", "anchors": ["exps/tamp_environment/turtlebot_move/problems.py:hallway_manip", "exps/tamp_environment/turtlebot_move/problems.py:hallway", "exps/tamp_environment/turtlebot_move/streams.py:BagOfBoundingBoxes.is_motion_valid"]}
{"id": "C139", "title": "The planning guarantee with the float motion check", "statement": "With the turtlebot's motion check in IEEE double arithmetic, called on whole batches, and rounded sample counts: if a path with the clearance given to the bound exists for a body larger by eps + 2^-30 on each side (eps is the error of the wall corners) and one of the counts within the budget is at least the count of the bound, then up to the two failure probabilities the planning call in the hallway world answers with a path between start and goal, and all configurations of this path are within 2 eps + 2^-30 of the rooms and the hallway.", "quantifier": "all hallway widths, box-shaped bodies, corner errors up to 2 mm, starts, goals, clearances, success probabilities, counts, growth factors and neighbour numbers; probability over the sampler", "why_tests_cant": "The claim is about a probability and about all starts and goals at once.", "anchors": ["exps/tamp_environment/turtlebot_move/streams.py:get_anytime_motion_fn", "exps/tamp_environment/turtlebot_move/streams.py:BagOfBoundingBoxes.is_motion_valid", "exps/tamp_environment/turtlebot_move/problems.py:hallway_manip", "nonasymptotic/prm.py:SimpleNearestNeighborRadiusPRM"]}
{"id": "C140", "title": "The kgraph back end in single precision", "statement": "The kgraph back end rounds coordinates and distances to single precision. If kgraph writes, for every row, at least k neighbours with half their squared distances up to a relative error eta, then building gives a table with k neighbours for every row in which every distance is that of the given rows up to (2 eta + 2^-22) times the distance plus 2^-21 times the square root of the dimension times the largest coordinate. After any number of updates the next update gives exactly what building from all rows as they were given would give, so errors do not add up. The distances are not exact for any library.", "quantifier": "all data of any size, dimension and magnitude, all numbers of neighbours, all sequences of updates, all libraries with the stated error", "why_tests_cant": "The bound must hold for all coordinates and all libraries; a test sees single roundings.", "anchors": ["nonasymptotic/ann.py:KGraphANN.new_graph_from_data", "nonasymptotic/ann.py:KGraphANN.update_graph_with_data"]}
{"id": "C141", "title": "The turtlebot task with the motion check called on whole batches", "statement": "The turtlebot's motion check judges a whole batch, its answer for a motion may depend on the batch, and it raises for the empty batch. With this check in the streams: every path that a stream returns consists of accepted motions; the commands of every executable plan take the targets to their goals along accepted motions; in the hallway world the rover and what it carries stay in the two rooms and the hallway and never go through a wall; a target as large as the gap cannot be brought to the other side by any plan; and when the first sample count is at most 33, the streams produce the motions for carrying the targets one after the other to their goals up to a stated probability.", "quantifier": "all tasks, plans, certified facts, sequences of random numbers, options of the streams and shapes; the probability is over the samples", "why_tests_cant": "The answer of the check for a motion depends on which motions are checked with it, so that a test of a motion says little about the planner; the claim is about all plans and all samples.", "anchors": ["exps/tamp_environment/turtlebot_move/streams.py:get_anytime_motion_fn", "exps/tamp_environment/turtlebot_move/streams.py:BagOfBoundingBoxes.is_motion_valid", "exps/tamp_environment/turtlebot_move/run.py:main", "nonasymptotic/prm.py:SimpleNearestNeighborRadiusPRM"]}
{"id": "C142", "title": "Planning with the library's own distances in the neighbour tables", "statement": "The nearest-neighbour libraries compute in single precision, the planner's queries in double precision, so the distances in the tables need not be those of the queries. Whatever the two distances are: after any history of the k-NN and of the radius PRM, every edge joins two samples by an accepted motion and has the library's distance as weight; a query raises nothing, its path is made of samples and accepted motions, its length is the sum of the library's distances between samples and the planner's at the two ends, it is empty exactly if no route exists, and no route is shorter in this measure. If both distances have a relative error and an absolute error, the reported length is that of the path up to these errors times the number of hops, and no route is truly shorter than the returned path by more than these errors.", "quantifier": "all sample sets, checkers, distances, tables with these distances, histories of operations and queries", "why_tests_cant": "The effect of two inconsistent distances on what is a shortest path depends on all sample sets and on all roundings.", "anchors": ["nonasymptotic/prm.py:SimpleNearestNeighborRadiusPRM", "nonasymptotic/prm.py:SimpleRadiusPRM", "nonasymptotic/ann.py:KGraphANN.new_graph_from_data", "nonasymptotic/ann.py:PyNNDescentANN"]}
{"id": "C143", "title": "Guarantee of the k-NN PRM with inexact distances", "statement": "Let the planner's distances and those of the nearest-neighbour library have a relative error and an absolute error within the bounds of the environment. Then, with the returned count and radius of compute_numerical_bound: the certified radius of the k-NN PRM is at least any given one, every query between points that a path of the given clearance joins is answered with a path, and the reported length is within the given stretch of the shortest such path plus the errors of the hops, up to failure probabilities of the same form as for exact distances, taken at radii that are larger by the errors.", "quantifier": "all environments, clearances, stretch factors, sample counts, neighbour counts, error bounds and histories; the probability is over the samples", "why_tests_cant": "The claim is about a probability over all sample sets and all queries, and about all roundings within the error bounds.", "anchors": ["nonasymptotic/prm.py:SimpleNearestNeighborRadiusPRM", "nonasymptotic/bound.py:compute_numerical_bound", "nonasymptotic/bound.py:compute_tail_knn_radius_log_prob_chernoff_kl", "nonasymptotic/ann.py:KGraphANN.new_graph_from_data", "nonasymptotic/ann.py:PyNNDescentANN"]}
{"id": "C144", "title": "Guarantee of the k-NN PRM in the two environments with everything rounded", "statement": "In the straight-line and the narrow-passage environment, let samples, motion checks and points of the line be computed in double precision, and let the planner's distances and those of the nearest-neighbour library have a relative and an absolute error on a set that contains the free space. Then the k-NN PRM, grown in whatever steps to at least the count that compute_numerical_bound returns, with the radius left as certified or set to no less than one that exceeds the returned one by the rounding errors, answers queries between points that a path of slightly more than the given clearance joins (in the straight line: all queries between points of the line) with a nonempty path, whose reported length is within the given stretch of that path plus rounding errors; up to the failure probability asked for, a Chernoff-KL tail at a radius larger by the rounding errors, and in the narrow passage the probability of about n*N^2*2^-50 that two samples agree in a coordinate.", "quantifier": "all dimensions, widths, clearances, stretch factors, counts, neighbour counts, error bounds, histories and queries; the probability is over the draws of the generator", "why_tests_cant": "The claim is about a probability over all draws, and about all roundings of samples, checks and distances at once.", "anchors": ["nonasymptotic/prm.py:SimpleNearestNeighborRadiusPRM", "nonasymptotic/envs.py:StraightLine", "nonasymptotic/envs.py:NarrowPassage", "nonasymptotic/bound.py:compute_numerical_bound", "nonasymptotic/bound.py:compute_tail_knn_radius_log_prob_chernoff_kl", "nonasymptotic/ann.py:KGraphANN.new_graph_from_data"]}
{"id": "C145", "title": "Edges skipped while edges are removed never cost a path", "statement": "set_connection_radius removes edges while networkit's generator runs over the edges, and the generator may then skip some. Whatever it skips, as long as it yields only edges of the roadmap: after every history of calls, radii, samples, tables and neighbour counts are the same as with a generator that yields all edges, no edge is missing, a query raises the same exception or answers with a path that is no longer (and with a path whenever there is one without skipping), and with exact neighbours every two samples closer than the radius set last, if this is at most the certified one, are joined when the motion is accepted. The answers can differ: a path may use an edge longer than the radius.", "quantifier": "all environments, generators that yield only existing edges, neighbour counts, histories of calls and queries", "why_tests_cant": "Ranges over all histories and over everything the generator may skip.", "anchors": ["nonasymptotic/prm.py:SimpleNearestNeighborRadiusPRM.set_connection_radius", "nonasymptotic/prm.py:SimpleNearestNeighborRadiusPRM.grow_to_n_samples", "nonasymptotic/prm.py:SimpleNearestNeighborRadiusPRM.query_best_solution"]}
