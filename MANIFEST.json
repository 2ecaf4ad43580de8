{
 "claims": [
  {
   "property": "C01",
   "status": "proved",
   "theorems": [
    "Verif.Props.C01_sufficient",
    "Verif.Props.C01_nonvacuous"
   ],
   "note": "Exact integer Sauer-Shelah sum, real-valued log bound."
  },
  {
   "property": "C02",
   "status": "proved",
   "theorems": [
    "Verif.Props.C02_least",
    "Verif.Props.C02_exact"
   ],
   "note": "C02_exact names the returned count as the least of a set described by the bound alone."
  },
  {
   "property": "C03",
   "status": "partial",
   "theorems": [
    "Verif.Props.C03_answers_partial",
    "Verif.Props.C03_only_overflow",
    "Verif.Props.C03_always_answers_false",
    "Verif.Props.C03_exact",
    "Verif.Props.C03_solvable",
    "Verif.Props.C03_overflow_nonvacuous"
   ],
   "note": "False as stated: the binary64 midpoint makes the bisection loop forever for some inputs whose answer lies above 2^53 (C03_always_answers_false). Proved: which of the three outcomes happens is decided exactly (C03_exact): a count is returned iff the bound at 2^53 already meets the target, OverflowError is raised iff the bound at 2^996 does not, and between the two the search never answers; no other exception is ever raised."
  },
  {
   "property": "C04",
   "status": "proved",
   "theorems": [
    "Verif.Props.C04_success_prob_checked"
   ],
   "note": ""
  },
  {
   "property": "C05",
   "status": "proved",
   "theorems": [
    "Verif.Props.C05_monotone",
    "Verif.Props.C05_nonvacuous"
   ],
   "note": ""
  },
  {
   "property": "C06",
   "status": "proved",
   "theorems": [
    "Verif.Props.C06_radius_consistent",
    "Verif.Props.C06_radius_existence",
    "Verif.Props.C06_radius_range",
    "Verif.Props.C06_net_radius"
   ],
   "note": ""
  },
  {
   "property": "C07",
   "status": "partial",
   "theorems": [
    "Verif.Props.C07_net_radius_partial",
    "Verif.Props.C07_net_radius_false"
   ],
   "note": "False as stated: the returned radius gives failure bound exactly 2*gamma (C07_net_radius_false); the proved part is the bound 2*gamma."
  },
  {
   "property": "C08",
   "status": "proved",
   "theorems": [
    "Verif.Props.C08_hoeffding",
    "Verif.Props.C08_hoeffding_nontrivial",
    "Verif.Props.C08_hoeffding_mean",
    "Verif.Props.C08_chernoff_kl",
    "Verif.Props.C08_chernoff_generic",
    "Verif.Props.C08_chernoff_generic_false"
   ],
   "note": "The generic Chernoff bound really is non-monotone past mu = k (C08_chernoff_generic_false)."
  },
  {
   "property": "C09",
   "status": "proved",
   "theorems": [
    "Verif.Props.C09_halving_search",
    "Verif.Props.C09_errors",
    "Verif.Props.C09_near_largest",
    "Verif.Props.C09_kl_certified"
   ],
   "note": ""
  },
  {
   "property": "C10",
   "status": "partial",
   "theorems": [
    "Verif.Props.C10_linear_search_partial",
    "Verif.Props.C10_linear_search_false"
   ],
   "note": "False as stated: the loop never advances the radius, so it runs forever unless the first test decides (C10_linear_search_false). All outcomes are characterised."
  },
  {
   "property": "C11",
   "status": "partial",
   "theorems": [
    "Verif.Props.C11_eff_radius_certified_partial",
    "Verif.Props.C11_eff_radius_certified_false"
   ],
   "note": "False when the unit ball is larger than the environment (C11_eff_radius_certified_false); proved otherwise."
  },
  {
   "property": "C12",
   "status": "proved",
   "theorems": [
    "Verif.Props.C12_no_miss"
   ],
   "note": ""
  },
  {
   "property": "C13",
   "status": "proved",
   "theorems": [
    "Verif.Props.C13_exact",
    "Verif.Props.C13_parallel",
    "Verif.Props.C13_swap_first",
    "Verif.Props.C13_swap_second",
    "Verif.Props.C13_swap_segments",
    "Verif.Props.C13_collinear_false_positive",
    "Verif.Props.C13_degenerate_asymmetric"
   ],
   "note": "Parallel or degenerate segments can be reported as intersecting although they do not (C13_collinear_false_positive); exactness is for non-parallel directions, as stated."
  },
  {
   "property": "C14",
   "status": "proved",
   "theorems": [
    "Verif.Props.C14_corridor_exact",
    "Verif.Props.C14_symmetric"
   ],
   "note": ""
  },
  {
   "property": "C15",
   "status": "proved",
   "theorems": [
    "Verif.Props.C15_init",
    "Verif.Props.C15_distance",
    "Verif.Props.C15_curve",
    "Verif.Props.C15_sample",
    "Verif.Props.C15_volume"
   ],
   "note": ""
  },
  {
   "property": "C16",
   "status": "proved",
   "theorems": [
    "Verif.Props.C16_accepted_free",
    "Verif.Props.C16_endpoints_not_checked"
   ],
   "note": "Free endpoints are a hypothesis of the property; C16_endpoints_not_checked shows that the checker does not test them itself."
  },
  {
   "property": "C17",
   "status": "partial",
   "theorems": [
    "Verif.Props.C17_clear_accepted_partial",
    "Verif.Props.C17_exact",
    "Verif.Props.C17_clear_accepted_false",
    "Verif.Props.C17_sideways_rejected",
    "Verif.Props.C17_collinear_rejected"
   ],
   "note": "False as stated: a clear motion collinear with or parallel to a wall is rejected (C17_clear_accepted_false, C17_sideways_rejected, C17_collinear_rejected). Proved for motions not parallel to a wall in any tested plane. Exactly those are accepted: C17_exact (passage narrower than the box)."
  },
  {
   "property": "C18",
   "status": "proved",
   "theorems": [
    "Verif.Props.C18_sample_free",
    "Verif.Props.C18_weights",
    "Verif.Props.C18_volume"
   ],
   "note": ""
  },
  {
   "property": "C19",
   "status": "partial",
   "theorems": [
    "Verif.Props.C19_dimension_false",
    "Verif.Props.C19_distance_raises_false",
    "Verif.Props.C19_distance_offset_false",
    "Verif.Props.C19_curve_partial"
   ],
   "note": "False as stated in dimension above two (C19_dimension_false, C19_distance_raises_false). Where distance_to_path does not raise, it is not the distance to the path either (C19_distance_offset_false). Proved: the curve in the plane."
  },
  {
   "property": "C20",
   "status": "proved",
   "theorems": [
    "Verif.Props.C20_hamiltonian_path",
    "Verif.Props.C20_graph",
    "Verif.Props.C20_init"
   ],
   "note": ""
  },
  {
   "property": "C21",
   "status": "proved",
   "theorems": [
    "Verif.Props.C21_weights",
    "Verif.Props.C21_sample_free"
   ],
   "note": ""
  },
  {
   "property": "C22",
   "status": "partial",
   "theorems": [
    "Verif.Props.C22_curve_partial",
    "Verif.Props.C22_clip",
    "Verif.Props.C22_ends",
    "Verif.Props.C22_unit_speed_partial",
    "Verif.Props.C22_lipschitz_partial",
    "Verif.Props.C22_exact",
    "Verif.Props.C22_curve_false",
    "Verif.Props.C22_continuous_false"
   ],
   "note": "False in dimension two with odd length, where the last half leg comes from the wrong side (C22_curve_false, C22_continuous_false). C22_exact says for every dimension, length and parameter when the point is the right one: except there, everywhere; the end points are right in all cases (C22_ends)."
  },
  {
   "property": "C23",
   "status": "partial",
   "theorems": [
    "Verif.Props.C23_accepted_free_partial",
    "Verif.Props.C23_check_stops",
    "Verif.Props.C23_same_cube",
    "Verif.Props.C23_nonvacuous",
    "Verif.Props.C23_crosses_wall_false",
    "Verif.Props.C23_cuts_corner_false"
   ],
   "note": "False as stated (C23_crosses_wall_false, C23_cuts_corner_false). Proved: sound for routes on which no coordinate changes twice and whose last step goes up (or thickness zero), in particular within one cube; the check always stops."
  },
  {
   "property": "C24",
   "status": "proved",
   "theorems": [
    "Verif.Props.C24_never_complete"
   ],
   "note": ""
  },
  {
   "property": "C25",
   "status": "proved",
   "theorems": [
    "Verif.Props.C25_full",
    "Verif.Props.C25_full_nonvacuous",
    "Verif.Props.C25_knn",
    "Verif.Props.C25_rad"
   ],
   "note": ""
  },
  {
   "property": "C26",
   "status": "proved",
   "theorems": [
    "Verif.Props.C26_radius_graph",
    "Verif.Props.C26_grow_succeeds"
   ],
   "note": ""
  },
  {
   "property": "C27",
   "status": "partial",
   "theorems": [
    "Verif.Props.C27_radius_graph_partial",
    "Verif.Props.C27_truncated",
    "Verif.Props.C27_nonvacuous",
    "Verif.Props.C27_swap_removal_false"
   ],
   "note": "Proved under the assumption that networkit's edge generator does not skip edges while edges are removed. With swap-with-last removal, as we read networkit's source, it does skip and the property fails (C27_swap_removal_false)."
  },
  {
   "property": "C28",
   "status": "proved",
   "theorems": [
    "Verif.Props.C28_full",
    "Verif.Props.C28_full_nonvacuous",
    "Verif.Props.C28_knn",
    "Verif.Props.C28_knn_nonvacuous",
    "Verif.Props.C28_rad",
    "Verif.Props.C28_rad_nonvacuous"
   ],
   "note": ""
  },
  {
   "property": "C29",
   "status": "proved",
   "theorems": [
    "Verif.Props.C29_full",
    "Verif.Props.C29_knn",
    "Verif.Props.C29_rad"
   ],
   "note": ""
  },
  {
   "property": "C30",
   "status": "proved",
   "theorems": [
    "Verif.Props.C30_full",
    "Verif.Props.C30_knn",
    "Verif.Props.C30_rad"
   ],
   "note": ""
  },
  {
   "property": "C31",
   "status": "proved",
   "theorems": [
    "Verif.Props.C31_grow",
    "Verif.Props.C31_nonvacuous"
   ],
   "note": ""
  },
  {
   "property": "C32",
   "status": "proved",
   "theorems": [
    "Verif.Props.C32_set_radius",
    "Verif.Props.C32_nonvacuous"
   ],
   "note": ""
  },
  {
   "property": "C33",
   "status": "partial",
   "theorems": [
    "Verif.Props.C33_full",
    "Verif.Props.C33_knn_partial",
    "Verif.Props.C33_knn_false",
    "Verif.Props.C33_rad"
   ],
   "note": "Proved for the full radius PRM (C33_full). False for the k-NN PRM: a refused growth clears the current radius (C33_knn_false); everything else is unchanged (C33_knn_partial)."
  },
  {
   "property": "C34",
   "status": "partial",
   "theorems": [
    "Verif.Props.C34_refused",
    "Verif.Props.C34_neighbors_partial",
    "Verif.Props.C34_neighbors_false",
    "Verif.Props.C34_nonvacuous"
   ],
   "note": "False as stated: an edge is dropped when it is behind place k for one end although it is within the first k of the other (C34_neighbors_false). Proved: the exact edge set, and inclusion in the k-neighbour roadmap."
  },
  {
   "property": "C35",
   "status": "partial",
   "theorems": [
    "Verif.Props.C35_history_independent_partial",
    "Verif.Props.C35_swap_removal_false",
    "Verif.Props.C35_refused_growth_false"
   ],
   "note": "Proved under the same assumption on networkit's edge generator as C27; fails for swap-with-last removal (C35_swap_removal_false)."
  },
  {
   "property": "C36",
   "status": "partial",
   "theorems": [
    "Verif.Props.C36_doubling_stops",
    "Verif.Props.C36_contains_partial",
    "Verif.Props.C36_radius_partial",
    "Verif.Props.C36_radius_false",
    "Verif.Props.C36_first_growth",
    "Verif.Props.C36_doubles_once",
    "Verif.Props.C36_growth_false",
    "Verif.Props.C36_nonvacuous"
   ],
   "note": "False as stated: the first growth applies no threshold (C36_radius_false), and later growths double the neighbour count only once (C36_growth_false). Proved: the doubling of the first growth stops at the first sufficient count; containment of the radius graph for direction-independent checkers as long as the distances reach the radius; new edges of later growths respect the radius. In general: the first growth to at most 16 samples ignores the radius (C36_first_growth), later ones double at most once (C36_doubles_once)."
  },
  {
   "property": "C37",
   "status": "partial",
   "theorems": [
    "Verif.Props.C37_full",
    "Verif.Props.C37_knn",
    "Verif.Props.C37_rad_partial",
    "Verif.Props.C37_rad_false",
    "Verif.Props.C37_rad_stale"
   ],
   "note": "Proved for the full radius and k-NN PRMs. False for the radius PRM after query and growth (C37_rad_false); proved there for histories without a query before a growth. In general: C37_rad_stale counts the vertices after growth, queries and growth."
  },
  {
   "property": "C38",
   "status": "proved",
   "theorems": [
    "Verif.Props.C38_pairs",
    "Verif.Props.C38_ids_nodup",
    "Verif.Props.C38_full_returns_exception",
    "Verif.Props.C38_nonvacuous"
   ],
   "note": "Proved. A full radius PRM returns an exception object in place of the distances instead of raising (C38_full_returns_exception)."
  },
  {
   "property": "C39",
   "status": "proved",
   "theorems": [
    "Verif.Props.C39_lookup",
    "Verif.Props.C39_distance_in_graph",
    "Verif.Props.C39_queries_covered",
    "Verif.Props.C39_nonvacuous"
   ],
   "note": "Proved for every duplicate-free selection; with start and goal on the path and one radius for selection and query, all lookups succeed."
  },
  {
   "property": "C40",
   "status": "partial",
   "theorems": [
    "Verif.Props.C40_full",
    "Verif.Props.C40_full_nonvacuous",
    "Verif.Props.C40_knn_partial",
    "Verif.Props.C40_knn_histories",
    "Verif.Props.C40_knn_nonvacuous",
    "Verif.Props.C40_knn_false",
    "Verif.Props.C40_rad_partial",
    "Verif.Props.C40_rad_exact",
    "Verif.Props.C40_rad_nonvacuous",
    "Verif.Props.C40_rad_false"
   ],
   "note": "Full radius PRM: proved. k-NN PRM: the neighbour count set by set_nearest_neighbors survives reset (C40_knn_false); radius PRM: the doubled count survives (C40_rad_false); proved when the count is the original one. For every history before and after the reset: the count is all that survives (C40_knn_histories, C40_rad_exact)."
  },
  {
   "property": "C41",
   "status": "proved",
   "theorems": [
    "Verif.Props.C41_padding",
    "Verif.Props.C41_parse",
    "Verif.Props.C41_ragged",
    "Verif.Props.C41_updates",
    "Verif.Props.C41_true_distances",
    "Verif.Props.C41_pynndescent",
    "Verif.Props.C41_pynndescent_nonvacuous",
    "Verif.Props.C41_nonvacuous"
   ],
   "note": "Proved over real numbers; C140 has the rounding to float32. The library's file is a parameter, C41_true_distances assumes that it writes half squares of the padded rows."
  },
  {
   "property": "C42",
   "status": "proved",
   "theorems": [
    "Verif.Props.C42_selection",
    "Verif.Props.C42_update_before_build_kgraph",
    "Verif.Props.C42_update_before_build_pynndescent",
    "Verif.Props.C42_nonvacuous"
   ],
   "note": ""
  },
  {
   "property": "C43",
   "status": "proved",
   "theorems": [
    "Verif.Props.C43_segments",
    "Verif.Props.C43_only",
    "Verif.Props.C43_nonvacuous"
   ],
   "note": ""
  },
  {
   "property": "C44",
   "status": "proved",
   "theorems": [
    "Verif.Props.C44_in_triangle",
    "Verif.Props.C44_weights",
    "Verif.Props.C44_area",
    "Verif.Props.C44_all_reached",
    "Verif.Props.C44_nonvacuous"
   ],
   "note": ""
  },
  {
   "property": "C45",
   "status": "proved",
   "theorems": [
    "Verif.Props.C45_split",
    "Verif.Props.C45_owner",
    "Verif.Props.C45_narrow",
    "Verif.Props.C45_line",
    "Verif.Props.C45_nonvacuous"
   ],
   "note": ""
  },
  {
   "property": "C46",
   "status": "partial",
   "theorems": [
    "Verif.Props.C46_rows_partial",
    "Verif.Props.C46_rows_false",
    "Verif.Props.C46_rows_lost",
    "Verif.Props.C46_seeds_partial",
    "Verif.Props.C46_seeds_no_loss",
    "Verif.Props.C46_seeds_false",
    "Verif.Props.C46_nonvacuous"
   ],
   "note": "False as stated: counting rows skips trials as soon as a trial has several rows (C46_rows_false); counting seeds repeats trials after a second interruption (C46_seeds_false). Proved: one row per trial, any crash history; seed counting, one interruption. Counting seeds never loses a trial, whatever the interruptions (C46_seeds_no_loss). Counting rows: exactly which trials a resumed session leaves out (C46_rows_lost)."
  },
  {
   "property": "C47",
   "status": "partial",
   "theorems": [
    "Verif.Props.C47_bisection_partial",
    "Verif.Props.C47_threshold_partial",
    "Verif.Props.C47_all_but_first",
    "Verif.Props.C47_smallest_false",
    "Verif.Props.C47_one_radius",
    "Verif.Props.C47_one_neighbor_count_false",
    "Verif.Props.C47_neighbor_counts",
    "Verif.Props.C47_nonvacuous"
   ],
   "note": "False as stated: the smallest setting is never tested (C47_smallest_false) and a single neighbour count is recorded untested (C47_one_neighbor_count_false). Proved: for any oracle with at least two settings, adjacency and the tested outcomes; the exact threshold for a monotone oracle whose first setting fails. C47_all_but_first: for every monotone oracle the pair is the threshold among all settings but the first."
  },
  {
   "property": "C48",
   "status": "partial",
   "theorems": [
    "Verif.Props.C48_bisection_partial",
    "Verif.Props.C48_threshold_partial",
    "Verif.Props.C48_all_but_ends",
    "Verif.Props.C48_short",
    "Verif.Props.C48_last_false",
    "Verif.Props.C48_truncated",
    "Verif.Props.C48_nonvacuous"
   ],
   "note": "False as stated: the last radius is never tested (C48_last_false). Proved: the loop stops; adjacent radii; the exact threshold for a monotone oracle that fails at the second and passes at the last radius. C48_all_but_ends: for every monotone oracle it is the threshold among the radii that are tested."
  },
  {
   "property": "C49",
   "status": "partial",
   "theorems": [
    "Verif.Props.C49_narrow_partial",
    "Verif.Props.C49_table",
    "Verif.Props.C49_short_row_false",
    "Verif.Props.C49_misplaced_false",
    "Verif.Props.C49_knn",
    "Verif.Props.C49_nonvacuous"
   ],
   "note": "False as stated: the row for no connections has ten values for twelve columns, which raises or shifts columns (C49_short_row_false, C49_misplaced_false). Proved for all other rows, including that every column holds what its name says."
  },
  {
   "property": "C50",
   "status": "proved",
   "theorems": [
    "Verif.Props.C50_sat2d_never_misses",
    "Verif.Props.C50_nonvacuous"
   ],
   "note": ""
  },
  {
   "property": "C51",
   "status": "proved",
   "theorems": [
    "Verif.Props.C51_vectorised_agrees",
    "Verif.Props.C51_nonvacuous",
    "Verif.Props.C51_repeated_vertex",
    "Verif.Props.C51_repeated_vertex_nonvacuous"
   ],
   "note": "Proved for equal vertex counts without zero edges. With a zero edge the scalar test raises ZeroDivisionError and the batched one answers 'no collision' (C51_repeated_vertex)."
  },
  {
   "property": "C52",
   "status": "proved",
   "theorems": [
    "Verif.Props.C52_sat2d_exact",
    "Verif.Props.C52_nonvacuous",
    "Verif.Props.C52_flat_polygons_false"
   ],
   "note": "Proved (both directions) for all convex polygons that are not flat; for polygons whose vertices lie on one line it is false (C52_flat_polygons_false)."
  },
  {
   "property": "C53",
   "status": "partial",
   "theorems": [
    "Verif.Props.C53_motion_poses_partial",
    "Verif.Props.C53_any_batch",
    "Verif.Props.C53_nonvacuous",
    "Verif.Props.C53_batch_dependent_false",
    "Verif.Props.C53_empty_batch_raises"
   ],
   "note": "Pose spacing, endpoints and exactness of the answer relative to the checked poses are proved. The claim that the answer does not depend on the other motions is false (C53_batch_dependent_false), and an empty batch raises (C53_empty_batch_raises). What holds in every batch: C53_any_batch."
  },
  {
   "property": "C54",
   "status": "proved",
   "theorems": [
    "Verif.Props.C54_interpolation",
    "Verif.Props.C54_empty_raises",
    "Verif.Props.C54_nonvacuous"
   ],
   "note": ""
  },
  {
   "property": "C55",
   "status": "partial",
   "theorems": [
    "Verif.Props.C55_anytime_partial",
    "Verif.Props.C55_answers",
    "Verif.Props.C55_nonvacuous",
    "Verif.Props.C55_repeated_count_false",
    "Verif.Props.C55_repeated_count_nonvacuous",
    "Verif.Props.C55_adaptive_false",
    "Verif.Props.C55_adaptive_nonvacuous"
   ],
   "note": "The loop stops, counts stay within the budget and the answer is a roadmap answer. False: strictly growing counts (a factor that does not raise the integer count repeats it, and growing a roadmap to its own size raises); adaptive mode tries no count as large as the bound (one sample short). The counts with rounded products: C130. The motion check is one of single motions that does not raise; for the checkers that judge whole batches and raise ValueError for the empty one see C131."
  },
  {
   "property": "C56",
   "status": "partial",
   "theorems": [
    "Verif.Props.C56_never_misses_partial",
    "Verif.Props.C56_ellipsoids",
    "Verif.Props.C56_false",
    "Verif.Props.C56_nonvacuous"
   ],
   "note": "Proved for orientations that mix only axes of equal half width (cubes in any orientation, boxes along the coordinate axes). False otherwise: half extents are applied along world axes after rotation, so a rotated long box is missed. In every orientation ellipsoids with half axes along the axes of space are never missed (C56_ellipsoids)."
  },
  {
   "property": "C57",
   "status": "proved",
   "theorems": [
    "Verif.Props.C57_consistent",
    "Verif.Props.C57_goal",
    "Verif.Props.C57_nonvacuous"
   ],
   "note": "For every executable plan from the initial facts plus any set of facts the streams may certify. PDDL semantics (delete, then add) and stream certification are the trusted reading of domain.pddl and stream.pddl."
  },
  {
   "property": "C58",
   "status": "proved",
   "theorems": [
    "Verif.Props.C58_consistent",
    "Verif.Props.C58_moves",
    "Verif.Props.C58_nonvacuous"
   ],
   "note": "As C57, for the kuka domain. Configurations and poses of different bodies are different objects (fresh wrapper objects), stated as KukaDistinct."
  },
  {
   "property": "C59",
   "status": "proved",
   "theorems": [
    "Verif.Props.C59_matched",
    "Verif.Props.C59_other",
    "Verif.Props.C59_none",
    "Verif.Props.C59_linked",
    "Verif.Props.C59_nonvacuous"
   ],
   "note": "Also: each trajectory starts where the one before it ended, for trajectories that run between the configurations they were certified for."
  },
  {
   "property": "C60",
   "status": "proved",
   "theorems": [
    "Verif.Props.C60_twice",
    "Verif.Props.C60_exchange",
    "Verif.Props.C60_visits",
    "Verif.Props.C60_bodies",
    "Verif.Props.C60_undo",
    "Verif.Props.C60_nonvacuous"
   ],
   "note": "Commands are their lists of entries; the running index is left out. Also: running a command and then its reverse restores the attachments, for commands that attach only loose and detach only attached bodies."
  },
  {
   "property": "C61",
   "status": "partial",
   "theorems": [
    "Verif.Props.C61_seeds_partial",
    "Verif.Props.C61_resumed_false",
    "Verif.Props.C61_resumed_repeats",
    "Verif.Props.C61_nonvacuous"
   ],
   "note": "False after a resume (C61_resumed_false). Proved for one session. In general: C61_resumed_repeats."
  },
  {
   "property": "C62",
   "status": "partial",
   "theorems": [
    "Verif.Props.C62_inverts",
    "Verif.Props.C62_solves",
    "Verif.Props.C62_radius",
    "Verif.Props.C62_tolerance_partial",
    "Verif.Props.C62_small_false",
    "Verif.Props.C62_large_false",
    "Verif.Props.C62_nonvacuous"
   ],
   "note": "C62_radius: the tolerance of the radius that compute_connection_radius returns for x in (0, 1] is x. C62_tolerance_partial: the same from the radius, for radii between 2 and 2 sqrt 2 times the clearance; missing are the other radii, for which the claim is false: below, the tolerance is negative (C62_small_false), above, it is nan (C62_large_false)."
  },
  {
   "property": "C63",
   "status": "partial",
   "theorems": [
    "Verif.Props.C63_effective_radius_partial",
    "Verif.Props.C63_exact",
    "Verif.Props.C63_equal_count_false",
    "Verif.Props.C63_nonvacuous"
   ],
   "note": "False if a neighbour count equals the sample size (C63_equal_count_false). Proved otherwise for ascending schedules. Exactly when the rows are recorded: C63_exact."
  },
  {
   "property": "C64",
   "status": "proved",
   "theorems": [
    "Verif.Props.C64_flat_vertices",
    "Verif.Props.C64_nonvacuous"
   ],
   "note": ""
  },
  {
   "property": "C65",
   "status": "partial",
   "theorems": [
    "Verif.Props.C65_too_wide_false",
    "Verif.Props.C65_wider_gap_partial",
    "Verif.Props.C65_nonvacuous"
   ],
   "note": "Monotone in the clearance while the robot fits. False when the robot is wider than the passage: the bound depends on the square of the clearance, so a finite budget results."
  },
  {
   "property": "C66",
   "status": "partial",
   "theorems": [
    "Verif.Props.C66_exact_partial",
    "Verif.Props.C66_far",
    "Verif.Props.C66_false",
    "Verif.Props.C66_nonvacuous",
    "Verif.Props.C66_far_nonvacuous"
   ],
   "note": "Full separating axis theorem (15 axes) for orthonormal orientations that mix only axes of equal half width. False otherwise, with a witness. In every orientation boxes far apart are not reported (C66_far)."
  },
  {
   "property": "C67",
   "status": "partial",
   "theorems": [
    "Verif.Props.C67_same_box_partial",
    "Verif.Props.C67_false",
    "Verif.Props.C67_nonvacuous"
   ],
   "note": "Proved for bounding boxes symmetric about the body origin. False otherwise: the centre of the bounding box is ignored."
  },
  {
   "property": "C68",
   "status": "partial",
   "theorems": [
    "Verif.Props.C68_motion_partial",
    "Verif.Props.C68_any_orientation",
    "Verif.Props.C68_empty_batch",
    "Verif.Props.C68_batch_false",
    "Verif.Props.C68_nonvacuous"
   ],
   "note": "Proved for shapes of C66/C67; pose interpolation is a parameter that gives equally many poses for every motion. False: independence of the other motions in the batch. For every orientation and every shape: C68_any_orientation."
  },
  {
   "property": "C69",
   "status": "partial",
   "theorems": [
    "Verif.Props.C69_region_partial",
    "Verif.Props.C69_goal_false",
    "Verif.Props.C69_nonvacuous"
   ],
   "note": "Obstacle corners and start are inside, samples stay inside; the goal is not part of the computation, so nothing holds for it."
  },
  {
   "property": "C70",
   "status": "partial",
   "theorems": [
    "Verif.Props.C70_unsupported_false",
    "Verif.Props.C70_nonvacuous",
    "Verif.Props.C70_places_partial"
   ],
   "note": "Proved: an object is put down only at its start pose, its pose in its sink or its pre-insertion pose. False as stated: before every insertion the object is put down at its pre-insertion pose, which nothing supports."
  },
  {
   "property": "C71",
   "status": "proved",
   "theorems": [
    "Verif.Props.C71_inserted",
    "Verif.Props.C71_nonvacuous"
   ],
   "note": "Assumes no object starts on a sink (surfaces computed at start do not include sinks) and fresh pose and configuration objects."
  },
  {
   "property": "C72",
   "status": "partial",
   "theorems": [
    "Verif.Props.C72_connected_partial",
    "Verif.Props.C72_nonvacuous"
   ],
   "note": "The paths of insertions do not begin and end at the configurations of the action (C107_jump_false), so the trajectory is connected in the plan but not in the joints. All other paths lead from the first to the second configuration."
  },
  {
   "property": "C73",
   "status": "partial",
   "theorems": [
    "Verif.Props.C73_order_partial",
    "Verif.Props.C73_offset_false",
    "Verif.Props.C73_dropped_false",
    "Verif.Props.C73_unbound",
    "Verif.Props.C73_left_out",
    "Verif.Props.C73_nonvacuous"
   ],
   "note": "Proved: the poses passed are a subsequence of the planned ones, shifted by the approach offset, and all of them if inverse kinematics always succeeds. False: the offset is never the identity, failed poses are dropped; if all fail an UnboundLocalError ends planning. A pose is left out only after ten failed attempts (C73_left_out)."
  },
  {
   "property": "C74",
   "status": "partial",
   "theorems": [
    "Verif.Props.C74_clearance_partial",
    "Verif.Props.C74_false",
    "Verif.Props.C74_option_false",
    "Verif.Props.C74_nonvacuous"
   ],
   "note": "Proved: exact condition for the computed value to be a clearance. False for the sizes used in the experiment: it exceeds the true clearance by half of (container width - buffer), up to the bounding box. The option --delta is off by two wall thicknesses."
  },
  {
   "property": "C75",
   "status": "proved",
   "theorems": [
    "Verif.Props.C75_shape",
    "Verif.Props.C75_bin",
    "Verif.Props.C75_named",
    "Verif.Props.C75_floor",
    "Verif.Props.C75_nonvacuous"
   ],
   "note": "Lengths in an ordered field; boxes unrotated."
  },
  {
   "property": "C76",
   "status": "proved",
   "theorems": [
    "Verif.Props.C76_disjoint",
    "Verif.Props.C76_count",
    "Verif.Props.C76_centered",
    "Verif.Props.C76_pairing",
    "Verif.Props.C76_nonvacuous"
   ],
   "note": "Any grid, container size and number of bodies; object names as in load_world."
  },
  {
   "property": "C77",
   "status": "proved",
   "theorems": [
    "Verif.Props.C77_net"
   ],
   "note": "Full epsilon-net theorem proved from scratch (Radon, Sauer-Shelah, symmetrisation with exchanges, Chebyshev): Verif.Lemmas.Traces, Swaps, Counts, NetTheorem. The failure event is measured by the outer measure."
  },
  {
   "property": "C78",
   "status": "proved",
   "theorems": [
    "Verif.Props.C78_complete",
    "Verif.Props.C78_nonvacuous"
   ],
   "note": "C77 composed with the PRM state machine (C26, C28, C29) and a connectedness argument along the path. Assumes independent uniform samples, a checker that accepts every straight motion in the free space, and a correct Dijkstra."
  },
  {
   "property": "C79",
   "status": "partial",
   "theorems": [
    "Verif.Props.C79_length_partial",
    "Verif.Props.C79_stretch_partial",
    "Verif.Props.C79_short_false",
    "Verif.Props.C79_nonvacuous"
   ],
   "note": "Proved in the form L + tol*max(L, 2*clearance/sqrt(1+tol^2)), hence (1+tol)L for all L of at least 2*clearance/sqrt(1+tol^2). Missing: shorter paths; there the claim is false because start and goal are linked through samples only (C79_short_false)."
  },
  {
   "property": "C80",
   "status": "partial",
   "theorems": [
    "Verif.Props.C80_hoeffding",
    "Verif.Props.C80_chernoff_generic_partial",
    "Verif.Props.C80_chernoff_kl_one",
    "Verif.Props.C80_chernoff_kl",
    "Verif.Props.C80_chernoff_generic_false",
    "Verif.Props.C80_hoeffding_mean_false",
    "Verif.Props.C80_nonvacuous"
   ],
   "note": "Hoeffding and Chernoff-KL: proved (C80_hoeffding, C80_chernoff_kl, C80_chernoff_kl_one). Generic Chernoff: proved for k at least the expected number of neighbours, false below (C80_chernoff_generic_false). The 'mean variant' of Hoeffding is not a bound (C80_hoeffding_mean_false): it divides by p^2 where it should multiply."
  },
  {
   "property": "C81",
   "status": "partial",
   "theorems": [
    "Verif.Props.C81_search",
    "Verif.Props.C81_formula_partial",
    "Verif.Props.C81_formula_false",
    "Verif.Props.C81_nonvacuous"
   ],
   "note": "Search: proved. Closed formula: proved for environments no smaller than the unit ball; false otherwise, because the code clamps the measure of the unit ball to 1 (C81_formula_false)."
  },
  {
   "property": "C82",
   "status": "proved",
   "theorems": [
    "Verif.Props.C82_certified"
   ],
   "note": "Exact sorted neighbour tables are assumed (pynndescent and kgraph are approximate)."
  },
  {
   "property": "C83",
   "status": "proved",
   "theorems": [
    "Verif.Props.C83_complete",
    "Verif.Props.C83_length",
    "Verif.Props.C83_nonvacuous"
   ],
   "note": "Exact sorted neighbour tables, iid uniform sampler, and a checker that accepts all straight motions in the free space are assumed; of the edge generator only that it yields existing edges (C145)."
  },
  {
   "property": "C84",
   "status": "partial",
   "theorems": [
    "Verif.Props.C84_straight",
    "Verif.Props.C84_narrow",
    "Verif.Props.C84_gray_partial",
    "Verif.Props.C84_gray_false",
    "Verif.Props.C84_nonvacuous"
   ],
   "note": "rng.uniform and rng.choice are modelled as independent draws with the documented laws (Spec/Draws.lean). Gray-code walls: C84_gray_false shows the sampler misses a set of positive measure of the free space; C84_gray_partial proves uniformity on the covered part."
  },
  {
   "property": "C85",
   "status": "proved",
   "theorems": [
    "Verif.Props.C85_uniform",
    "Verif.Props.C85_nonvacuous"
   ],
   "note": "The triangulation (library `triangle`) is a parameter with the stated hypotheses."
  },
  {
   "property": "C86",
   "status": "proved",
   "theorems": [
    "Verif.Props.C86_complete",
    "Verif.Props.C86_length",
    "Verif.Props.C86_nonvacuous"
   ],
   "note": "Composition of C14, C15, C78, C79 and C84. Correct shortest-path search and Euclidean distance are assumed (EnvWorld)."
  },
  {
   "property": "C87",
   "status": "proved",
   "theorems": [
    "Verif.Props.C87_complete",
    "Verif.Props.C87_length",
    "Verif.Props.C87_experiment",
    "Verif.Props.C87_experiment_length",
    "Verif.Props.C87_nonvacuous"
   ],
   "note": "The checker rejects clear motions that run parallel to a wall line (C17); almost surely no two samples, nor a sample and a query point, share a coordinate, so these do not matter. Correct shortest-path search and Euclidean distance are assumed (EnvWorld)."
  },
  {
   "property": "C88",
   "status": "proved",
   "theorems": [
    "Verif.Props.C88_sizes",
    "Verif.Props.C88_answers",
    "Verif.Props.C88_gap",
    "Verif.Props.C88_nonvacuous"
   ],
   "note": "Where the targets are put is not part of this property."
  },
  {
   "property": "C89",
   "status": "proved",
   "theorems": [
    "Verif.Props.C89_passes",
    "Verif.Props.C89_tight",
    "Verif.Props.C89_hallway",
    "Verif.Props.C89_nonvacuous"
   ],
   "note": "The rooms of hallway_manip have side 1.5, so a gap of at most 1.4 leaves the doorway walls a positive length."
  },
  {
   "property": "C90",
   "status": "proved",
   "theorems": [
    "Verif.Props.C90_stays",
    "Verif.Props.C90_stays_hallway",
    "Verif.Props.C90_blocked",
    "Verif.Props.C90_free",
    "Verif.Props.C90_accepts",
    "Verif.Props.C90_nonvacuous"
   ],
   "note": "Uses C52/C53 (exactness of the separating-axis test at the checked poses)."
  },
  {
   "property": "C91",
   "status": "partial",
   "theorems": [
    "Verif.Props.C91_adaptive_clearance_false",
    "Verif.Props.C91_half_partial",
    "Verif.Props.C91_nonvacuous"
   ],
   "note": "False: it is more than twice the clearance (the gap is not halved and 0.05 is added). Proved: halved and without the buffer it is the clearance, the best there is."
  },
  {
   "property": "C92",
   "status": "proved",
   "theorems": [
    "Verif.Props.C92_bounds",
    "Verif.Props.C92_uniform",
    "Verif.Props.C92_nonvacuous"
   ],
   "note": "random.uniform is taken to be independent uniform draws."
  },
  {
   "property": "C93",
   "status": "proved",
   "theorems": [
    "Verif.Props.C93_anytime",
    "Verif.Props.C93_hallway",
    "Verif.Props.C93_nonvacuous"
   ],
   "note": "Exact nearest neighbours, correct shortest-path search and Euclidean distance are assumed (KnnWorld, EuclideanWorld, TurtleWorld). The code's own adaptive mode does not meet the hypotheses: C55 (one sample short) and C91 (clearance). With the 32 neighbours of the code the two bounds together exceed one (C124). Rounded counts: C130. The motion check is one of single motions that does not raise; for the checkers that judge whole batches and raise ValueError for the empty one see C131."
  },
  {
   "property": "C94",
   "status": "partial",
   "theorems": [
    "Verif.Props.C94_placed",
    "Verif.Props.C94_refused",
    "Verif.Props.C94_first_partial",
    "Verif.Props.C94_loops_false",
    "Verif.Props.C94_nonvacuous",
    "Verif.Props.C94_ends",
    "Verif.Props.C94_almost_surely"
   ],
   "note": "True and False answers are characterised completely. It answers with probability one if there is always room (C94_ends, C94_almost_surely). In general it need not answer: if a body fits but is too near to an obstacle everywhere, the loop never ends (C94_loops_false); without assumptions: it takes the first acceptable draw (C94_first_partial)."
  },
  {
   "property": "C95",
   "status": "partial",
   "theorems": [
    "Verif.Props.C95_placed",
    "Verif.Props.C95_poses_partial",
    "Verif.Props.C95_goal_assert_false",
    "Verif.Props.C95_ignored_false",
    "Verif.Props.C95_other_targets_false",
    "Verif.Props.C95_nonvacuous",
    "Verif.Props.C95_returns",
    "Verif.Props.C95_returns_nonvacuous"
   ],
   "note": "Proved for targets that fit into a room. False for larger ones (both poses are the origin, the answer False is ignored), false for the planner's checks at the mouth of the hallway (AssertionError), and false for motions over other targets. The placement ends with probability one if the rooms are large enough for the targets (C95_returns)."
  },
  {
   "property": "C96",
   "status": "proved",
   "theorems": [
    "Verif.Props.C96_corner",
    "Verif.Props.C96_stays",
    "Verif.Props.C96_nonvacuous"
   ],
   "note": "Exact value of the best clearance, attained by an explicit path; the upper bound uses the intermediate value theorem."
  },
  {
   "property": "C97",
   "status": "partial",
   "theorems": [
    "Verif.Props.C97_rings",
    "Verif.Props.C97_type",
    "Verif.Props.C97_points",
    "Verif.Props.C97_removed_partial",
    "Verif.Props.C97_pieces_false",
    "Verif.Props.C97_far_false",
    "Verif.Props.C97_nonvacuous"
   ],
   "note": "Rings and points proved in full (the far point (-100,-100) must be outside, C97_far_false). Removal is proved for holes of which one connected piece is left; if another polygon cuts the hole into pieces only one of them is removed (C97_pieces_false)."
  },
  {
   "property": "C98",
   "status": "proved",
   "theorems": [
    "Verif.Props.C98_world",
    "Verif.Props.C98_objects_false",
    "Verif.Props.C98_nonvacuous"
   ],
   "note": "Assumes the library contract SimOk. Other objects are not considered when the approach configuration is checked (C98_objects_false)."
  },
  {
   "property": "C99",
   "status": "proved",
   "theorems": [
    "Verif.Props.C99_start",
    "Verif.Props.C99_insert",
    "Verif.Props.C99_rotation_false",
    "Verif.Props.C99_start_refused",
    "Verif.Props.C99_insert_refused",
    "Verif.Props.C99_refused_nonvacuous",
    "Verif.Props.C99_nonvacuous"
   ],
   "note": "Assumes SimOk. No problem is made, although an insertion is possible, if the first collision-free rotation cannot be reached (C99_rotation_false). When the problem is refused: C99_start_refused, C99_insert_refused."
  },
  {
   "property": "C100",
   "status": "proved",
   "theorems": [
    "Verif.Props.C100_motion",
    "Verif.Props.C100_errors",
    "Verif.Props.C100_teleport_false",
    "Verif.Props.C100_teleport",
    "Verif.Props.C100_nonvacuous"
   ],
   "note": "Assumes SimOk for plan_joint_motion. Teleported motions are not checked at all (C100_teleport, C100_teleport_false)."
  },
  {
   "property": "C101",
   "status": "proved",
   "theorems": [
    "Verif.Props.C101_rigid",
    "Verif.Props.C101_top",
    "Verif.Props.C101_held",
    "Verif.Props.C101_count",
    "Verif.Props.C101_turns",
    "Verif.Props.C101_nonvacuous"
   ],
   "note": "Over the reals, with the tool pose and body pose that the program uses; C101_count for all."
  },
  {
   "property": "C102",
   "status": "partial",
   "theorems": [
    "Verif.Props.C102_new",
    "Verif.Props.C102_resume",
    "Verif.Props.C102_named_partial",
    "Verif.Props.C102_back",
    "Verif.Props.C102_other_false",
    "Verif.Props.C102_other",
    "Verif.Props.C102_config_false",
    "Verif.Props.C102_nonvacuous"
   ],
   "note": "Another experiment whose name continues the given one is resumed instead (C102_other_false); without the configuration file the job is submitted all the same (C102_config_false). In general: C102_other."
  },
  {
   "property": "C103",
   "status": "partial",
   "theorems": [
    "Verif.Props.C103_rows",
    "Verif.Props.C103_again_partial",
    "Verif.Props.C103_again_false",
    "Verif.Props.C103_again_repeats",
    "Verif.Props.C103_timed",
    "Verif.Props.C103_prefix_false",
    "Verif.Props.C103_nonvacuous"
   ],
   "note": "Repetition counts the rows twice if the output name begins with out (C103_again_false); the prefix 1-1-2 selects the experiment 1-1-24 (C103_prefix_false). For every output name that begins with out, n+1 aggregations hold every row n+1 times (C103_again_repeats)."
  },
  {
   "property": "C104",
   "status": "proved",
   "theorems": [
    "Verif.Props.C104_tuned",
    "Verif.Props.C104_empty",
    "Verif.Props.C104_positive_false",
    "Verif.Props.C104_nonvacuous"
   ],
   "note": "Numbers below 1 are not rejected (C104_positive_false)."
  },
  {
   "property": "C105",
   "status": "partial",
   "theorems": [
    "Verif.Props.C105_load_partial",
    "Verif.Props.C105_load_false",
    "Verif.Props.C105_arrays",
    "Verif.Props.C105_chunks",
    "Verif.Props.C105_cancelled_false",
    "Verif.Props.C105_kept",
    "Verif.Props.C105_waits",
    "Verif.Props.C105_submissions",
    "Verif.Props.C105_ends",
    "Verif.Props.C105_nonvacuous"
   ],
   "note": "A failing squeue counts as an empty queue (C105_load_false); held jobs are cancelled and not submitted again (C105_cancelled_false). No other job is lost (C105_kept)."
  },
  {
   "property": "C106",
   "status": "proved",
   "theorems": [
    "Verif.Props.C106_executed",
    "Verif.Props.C106_nonvacuous",
    "Verif.Props.C106_targets_false"
   ],
   "note": "Assumes a sound world (exact neighbours, shortest paths) as C55 does, and exact arithmetic. Targets are not obstacles of each other (C106_targets_false). The motion check is one of single motions that does not raise; C141 has the check that judges whole batches."
  },
  {
   "property": "C107",
   "status": "partial",
   "theorems": [
    "Verif.Props.C107_places_partial",
    "Verif.Props.C107_offset_false",
    "Verif.Props.C107_jump_false",
    "Verif.Props.C107_single_false",
    "Verif.Props.C107_insertion_partial",
    "Verif.Props.C107_nonvacuous",
    "Verif.Props.C107_insertion_nonvacuous"
   ],
   "note": "Proved with the offset that the code adds: the approach pose (1 cm above) is used for the configurations of the facts and again for the configurations of an insertion, so that objects put down before insertion are one offset and inserted objects two offsets away from the planned pose (C107_offset_false), and the arm jumps at the beginning of an insertion (C107_jump_false). Assumes that inverse kinematics succeeds at both ends of every insertion; if only the last pose is reachable nothing is executed (C107_single_false). The roadmap's checker is a function of the whole batch (C131); C107_insertion_partial says what an insertion passes."
  },
  {
   "property": "C108",
   "status": "partial",
   "theorems": [
    "Verif.Props.C108_rows_partial",
    "Verif.Props.C108_schedule",
    "Verif.Props.C108_more_samples",
    "Verif.Props.C108_nonvacuous",
    "Verif.Props.C108_last_false",
    "Verif.Props.C108_single_false",
    "Verif.Props.C108_knn_false",
    "Verif.Props.C108_knn_rows_partial",
    "Verif.Props.C108_knn_nonvacuous"
   ],
   "note": "The bisection of C47 with the actual roadmaps as its oracle, keeping their state. Radius: rows proved except for the shortest connection (not tested), the longest one (max_connections is tested in its place, C108_last_false) and a single length (C108_single_false); more samples never destroy a solution (C108_more_samples). k-NN: rows proved under the conditions of C47 for strictly ascending schedules with full neighbour lists; more samples can destroy a solution (C108_knn_false). A schedule that is not ascending loses all rows (C108_schedule)."
  },
  {
   "property": "C109",
   "status": "partial",
   "theorems": [
    "Verif.Props.C109_errors_partial",
    "Verif.Props.C109_errors_nonvacuous",
    "Verif.Props.C109_groups_partial",
    "Verif.Props.C109_rates_partial",
    "Verif.Props.C109_current_false",
    "Verif.Props.C109_nonvacuous",
    "Verif.Props.C109_crashed_false",
    "Verif.Props.C109_overwritten_false",
    "Verif.Props.C109_current_nonvacuous",
    "Verif.Props.C109_bound_false",
    "Verif.Props.C109_points_partial",
    "Verif.Props.C109_points_nonvacuous"
   ],
   "note": "Proved for logs with different names in the format that the script expects, without the runs that ended with an exception. False: run.py prints the arguments as a dictionary, the plot looks for Namespace and raises KeyError (C109_current_false); bound_plot.py reads the wrong line and raises ValueError (C109_bound_false); crashed runs do not count as failures (C109_crashed_false); logs of the same name replace each other (C109_overwritten_false)."
  },
  {
   "property": "C110",
   "status": "partial",
   "theorems": [
    "Verif.Props.C110_task",
    "Verif.Props.C110_turtlebot_partial",
    "Verif.Props.C110_kuka_false",
    "Verif.Props.C110_adaptive",
    "Verif.Props.C110_nonvacuous"
   ],
   "note": "Proved for the turtlebot experiments and for single tasks. False for the kuka experiments: every job is an array of one task, so all repetitions have seed 1 (C110_kuka_false)."
  },
  {
   "property": "C111",
   "status": "partial",
   "theorems": [
    "Verif.Props.C111_sampler_false",
    "Verif.Props.C111_sampler_nonvacuous",
    "Verif.Props.C111_rows_partial",
    "Verif.Props.C111_total",
    "Verif.Props.C111_outcome",
    "Verif.Props.C111_general_false",
    "Verif.Props.C111_checked_false",
    "Verif.Props.C111_nonvacuous"
   ],
   "note": "C111_rows_partial and C111_total hold for any check; missing: the second smallest and the largest radius are recorded without having been checked. With the check of the code, which raises NotImplementedError, there are rows only for sizes with two or three kept radii, and these were never checked (C111_outcome, C111_checked_false); with five samples or more in general position the trial always raises (C111_general_false). With the sampler of the environment this happens almost surely from five samples on (C111_sampler_false)."
  },
  {
   "property": "C112",
   "status": "proved",
   "theorems": [
    "Verif.Props.C112_walls",
    "Verif.Props.C112_world",
    "Verif.Props.C112_nonvacuous"
   ],
   "note": "Holds. An empty list of shapes raises ValueError (C112_nonvacuous)."
  },
  {
   "property": "C113",
   "status": "proved",
   "theorems": [
    "Verif.Props.C113_final",
    "Verif.Props.C113_moments",
    "Verif.Props.C113_roadmap",
    "Verif.Props.C113_nonvacuous"
   ],
   "note": "C113_final and C113_moments hold for every edge list within the samples; C113_roadmap for the k-NN roadmap after any history. A batch size of zero raises."
  },
  {
   "property": "C114",
   "status": "partial",
   "theorems": [
    "Verif.Props.C114_full",
    "Verif.Props.C114_knn",
    "Verif.Props.C114_rad_partial",
    "Verif.Props.C114_rad_false",
    "Verif.Props.C114_nonvacuous"
   ],
   "note": "Full-radius and k-NN planners: proved. Radius planner: C114_rad_partial; missing that there are no other nodes, which is false after a query between two growths (C114_rad_false)."
  },
  {
   "property": "C115",
   "status": "proved",
   "theorems": [
    "Verif.Props.C115_described",
    "Verif.Props.C115_moved_false",
    "Verif.Props.C115_assert_false",
    "Verif.Props.C115_nonvacuous"
   ],
   "note": "C115_described. C115_moved_false: the facts are not true of the world in which making the problem ends, so the restored copy is needed. C115_assert_false: if a sink has no place for an object the assertion ends the program instead of a new world being loaded."
  },
  {
   "property": "C116",
   "status": "proved",
   "theorems": [
    "Verif.Props.C116_text",
    "Verif.Props.C116_lines",
    "Verif.Props.C116_exact",
    "Verif.Props.C116_print",
    "Verif.Props.C116_run",
    "Verif.Props.C116_arguments_false",
    "Verif.Props.C116_blank_false",
    "Verif.Props.C116_nonvacuous"
   ],
   "note": "C116_text, C116_lines, C116_exact, C116_print, C116_run. C116_arguments_false: a print with several arguments is spread over several lines. C116_blank_false: blank lines are lost."
  },
  {
   "property": "C117",
   "status": "proved",
   "theorems": [
    "Verif.Props.C117_exact",
    "Verif.Props.C117_steps",
    "Verif.Props.C117_reverse",
    "Verif.Props.C117_moved_false",
    "Verif.Props.C117_nonvacuous"
   ],
   "note": "C117_exact, C117_steps, C117_reverse. C117_moved_false: an object that the command moves is never reported, even if the robot drives into it before it is attached."
  },
  {
   "property": "C118",
   "status": "partial",
   "theorems": [
    "Verif.Props.C118_placed_partial",
    "Verif.Props.C118_returns",
    "Verif.Props.C118_planner_false",
    "Verif.Props.C118_nonvacuous"
   ],
   "note": "C118_placed_partial, C118_returns. Missing and false: the planner gets no obstacles, and building its environment raises ValueError (C118_planner_false). The function is not called by run.py."
  },
  {
   "property": "C119",
   "status": "proved",
   "theorems": [
    "Verif.Props.C119_rows",
    "Verif.Props.C119_nonvacuous",
    "Verif.Props.C119_knn"
   ],
   "note": "C119_rows for the radius roadmap, for a returned radius below a third of the distance between start and goal (otherwise there may be one connection only, see C108_single_false); C119_knn for the k-NN roadmap, with exact neighbour search. The row places the threshold in an interval as in C108; its upper end is not claimed to be below the returned radius."
  },
  {
   "property": "C120",
   "status": "proved",
   "theorems": [
    "Verif.Props.C120_line",
    "Verif.Props.C120_line_length",
    "Verif.Props.C120_narrow",
    "Verif.Props.C120_line_nonvacuous",
    "Verif.Props.C120_narrow_nonvacuous"
   ],
   "note": "C120_line, C120_line_length, C120_narrow. For the narrow passage per query, as in C87: motions in general position are accepted almost surely."
  },
  {
   "property": "C121",
   "status": "partial",
   "theorems": [
    "Verif.Props.C121_accepts_partial",
    "Verif.Props.C121_direct_partial",
    "Verif.Props.C121_exact_partial",
    "Verif.Props.C121_face_false",
    "Verif.Props.C121_plane_false",
    "Verif.Props.C121_nonvacuous"
   ],
   "note": "Proved from dimension three on for ends without integer coordinates (C121_accepts_partial), in every dimension along routes on which no coordinate changes twice (C121_direct_partial); with C23 this gives exactly the free motions when the last step goes up (C121_exact_partial). False for starts on an opening (C121_face_false) and in the plane for motions through four cubes (C121_plane_false)."
  },
  {
   "property": "C122",
   "status": "proved",
   "theorems": [
    "Verif.Props.C122_stays",
    "Verif.Props.C122_unsolvable",
    "Verif.Props.C122_delta",
    "Verif.Props.C122_nonvacuous",
    "Verif.Props.C122_delta_nonvacuous"
   ],
   "note": "Walls are thicker than the pose spacing, so that the sampled poses decide (C122_stays, from C53, C90 and C106). Targets may pass through each other (C106_targets_false). C122_unsolvable and C122_delta: box-shaped bodies at least as high as the gap; the bounding box may be larger than the target. The motion check is one of single motions that does not raise; C141 has the check that judges whole batches."
  },
  {
   "property": "C123",
   "status": "proved",
   "theorems": [
    "Verif.Props.C123_paths",
    "Verif.Props.C123_plan",
    "Verif.Props.C123_solves",
    "Verif.Props.C123_nonvacuous"
   ],
   "note": "Each stream call begins at a place of the sequence of random numbers that may depend on the earlier draws (NoLookAhead); that the program's own places are measurable is not proved. The argument is for one fixed count of at most 33, where the k-NN roadmap is complete; for larger counts the package's bounds give nothing (C124). The search of pddlstream for the plan is not modelled: the theorem says that the plan exists, that it is executable and what its execution does. The motion check is one of single motions that does not raise; C141 has the check that judges whole batches."
  },
  {
   "property": "C124",
   "status": "proved",
   "theorems": [
    "Verif.Props.C124_void",
    "Verif.Props.C124_hallway",
    "Verif.Props.C124_nonvacuous"
   ],
   "note": "A negative finding about the bound, not about the planner: the roadmap may still contain the edges. C93 is thus informative for larger neighbour counts only (C124_nonvacuous: with all samples as neighbours the bound is below one)."
  },
  {
   "property": "C125",
   "status": "proved",
   "theorems": [
    "Verif.Props.C125_answers",
    "Verif.Props.C125_default",
    "Verif.Props.C125_never",
    "Verif.Props.C125_large",
    "Verif.Props.C125_nonvacuous"
   ],
   "note": "Rounding of +, -, / as in IEEE 754 (nearest, ties to even, with subnormal numbers, without overflow). The bound function itself is any function of the tested float, so its own rounding is covered. C09 has the search in exact arithmetic."
  },
  {
   "property": "C126",
   "status": "partial",
   "theorems": [
    "Verif.Props.C126_exact",
    "Verif.Props.C126_accepted_near_free_partial",
    "Verif.Props.C126_through_block_false",
    "Verif.Props.C126_direction_false",
    "Verif.Props.C126_nonvacuous"
   ],
   "note": "Every numpy operation rounds as in IEEE 754 (nearest, ties to even, subnormal numbers; no value here is near overflow). With exact arithmetic the same definition is the check of C16 (C126_exact). Missing: the full claim, without the distance to the border; it is false (C126_through_block_false). The three missed walls are each passed within one rounding of a wall end."
  },
  {
   "property": "C127",
   "status": "partial",
   "theorems": [
    "Verif.Props.C127_exact",
    "Verif.Props.C127_sample_free",
    "Verif.Props.C127_clear_accepted_partial",
    "Verif.Props.C127_still_false",
    "Verif.Props.C127_nonvacuous"
   ],
   "note": "Samples: proved in full (C127_sample_free), for clearances that are floats. Motions: C127_clear_accepted_partial, for clearances from 2^-100 to below 1/2; missing are the motions excluded by the side conditions, for some of which the claim is false (C127_still_false). C126 is the other direction."
  },
  {
   "property": "C128",
   "status": "proved",
   "theorems": [
    "Verif.Props.C128_complete",
    "Verif.Props.C128_experiment",
    "Verif.Props.C128_near_free",
    "Verif.Props.C128_nonvacuous"
   ],
   "note": "C128_complete, C128_experiment, C128_near_free. The clearance is a float from 2^-100 to below 1/2. The bound search itself is taken in exact arithmetic here (its rounding is C125), as are the region weights of the sampler and the shortest-path sums over the computed distances; see DESIGN.md."
  },
  {
   "property": "C129",
   "status": "proved",
   "theorems": [
    "Verif.Props.C129_exact",
    "Verif.Props.C129_accepted",
    "Verif.Props.C129_complete",
    "Verif.Props.C129_nonvacuous"
   ],
   "note": "C129_accepted, C129_complete. The clearance given to the bound may be at most what the rounded box leaves around the line, and the volume must not be below the exact volume of the rounded box (the rounding of np.prod is not modelled). Numbers too large for binary64 are not considered."
  },
  {
   "property": "C130",
   "status": "proved",
   "theorems": [
    "Verif.Props.C130_counts",
    "Verif.Props.C130_answers",
    "Verif.Props.C130_three_halves",
    "Verif.Props.C130_rounded_false",
    "Verif.Props.C130_rounded_nonvacuous",
    "Verif.Props.C130_guarantee",
    "Verif.Props.C130_nonvacuous"
   ],
   "note": "C130_counts, C130_answers, C130_three_halves, C130_guarantee. C130_rounded_false: the unrounded counts of C55 are not the ones of the program for every float factor (5 samples, factor 1.2). Budgets are below 2^53 (2^25 for the comparison with the unrounded counts, 2^17 for the exactness with 1.5). The motion check is one of single motions that does not raise; for the checkers that judge whole batches and raise ValueError for the empty one see C131."
  },
  {
   "property": "C131",
   "status": "partial",
   "theorems": [
    "Verif.Props.C131_rowwise",
    "Verif.Props.C131_between_partial",
    "Verif.Props.C131_call_partial",
    "Verif.Props.C131_refusing",
    "Verif.Props.C131_rowwise_nonvacuous",
    "Verif.Props.C131_turtlebot",
    "Verif.Props.C131_anytime_partial",
    "Verif.Props.C131_hallway_partial",
    "Verif.Props.C131_empty_batch_false",
    "Verif.Props.C131_nonvacuous",
    "Verif.Props.C131_kuka",
    "Verif.Props.C131_kuka_nonvacuous"
   ],
   "note": "C131_rowwise, C131_between_partial, C131_call_partial, C131_turtlebot, C131_kuka, C131_anytime_partial, C131_hallway_partial, C131_refusing. The full claim, that the planning call finds a path whenever one of its counts suffices, is false for these checkers: C131_empty_batch_false (a call that raises ValueError at 2 samples although 4 samples, within the budget, suffice). Missing: changes of the radius between the growth and the query."
  },
  {
   "property": "C132",
   "status": "proved",
   "theorems": [
    "Verif.Props.C132_exact",
    "Verif.Props.C132_bounds",
    "Verif.Props.C132_order",
    "Verif.Props.C132_raises",
    "Verif.Props.C132_worlds",
    "Verif.Props.C132_nonvacuous"
   ],
   "note": "C132_exact, C132_order, C132_bounds, C132_raises, C132_worlds. Real arithmetic; the obstacles' poses are a position and a yaw; scipy's ConvexHull is a parameter with the contract HullLibrary (it exists: hullLibrary_exists)."
  },
  {
   "property": "C133",
   "status": "proved",
   "theorems": [
    "Verif.Props.C133_exact",
    "Verif.Props.C133_sufficient",
    "Verif.Props.C133_least",
    "Verif.Props.C133_answers",
    "Verif.Props.C133_radius",
    "Verif.Props.C133_cancellation",
    "Verif.Props.C133_narrow",
    "Verif.Props.C133_straight",
    "Verif.Props.C133_existence",
    "Verif.Props.C133_nonvacuous"
   ],
   "note": "C133_exact, C133_sufficient, C133_least, C133_answers, C133_radius, C133_cancellation, C133_narrow, C133_straight, C133_existence. Libraries are parameters with relative error at most mu (Accurate); np.sqrt and the arithmetic operations are correctly rounded without overflow; intermediate results near underflow are excluded (NoUnderflow)."
  },
  {
   "property": "C134",
   "status": "proved",
   "theorems": [
    "Verif.Props.C134_narrow",
    "Verif.Props.C134_experiment",
    "Verif.Props.C134_straight",
    "Verif.Props.C134_narrow_float",
    "Verif.Props.C134_straight_float",
    "Verif.Props.C134_nonvacuous"
   ],
   "note": "C134_narrow, C134_experiment, C134_straight for the exact count and radius; C134_narrow_float, C134_straight_float for those computed in floats (Accurate library, NoUnderflow as in C133). The planner's distances are a parameter with relative error kappa; the returned length is the sum of these distances in exact arithmetic."
  },
  {
   "property": "C135",
   "status": "proved",
   "theorems": [
    "Verif.Props.C135_value",
    "Verif.Props.C135_sufficient",
    "Verif.Props.C135_measure_needed",
    "Verif.Props.C135_count",
    "Verif.Props.C135_answers",
    "Verif.Props.C135_net",
    "Verif.Props.C135_complete",
    "Verif.Props.C135_length",
    "Verif.Props.C135_nonvacuous"
   ],
   "note": "C135_measure_needed: if the ball is larger than the environment, the closed form can be too small for the failure bound (no ball fits then, so C135_net and C135_complete need no such condition). compute_blumer_bound has no caller in the repository. Real arithmetic."
  },
  {
   "property": "C136",
   "status": "proved",
   "theorems": [
    "Verif.Props.C136_exact",
    "Verif.Props.C136_dots",
    "Verif.Props.C136_no_collision",
    "Verif.Props.C136_gap",
    "Verif.Props.C136_rectangles",
    "Verif.Props.C136_nonvacuous",
    "Verif.Props.C136_touching_false"
   ],
   "note": "C136_touching_false: exact separation does not hold in floats; two triangles sharing (1, 3) are reported as disjoint. Assumed of einsum: a dot product of two terms is within 3 roundings of the exact one (C136_dots: true with and without fused multiply-add). Overflow is left out (coordinates at most R, R squared finite)."
  },
  {
   "property": "C137",
   "status": "proved",
   "theorems": [
    "Verif.Props.C137_exact",
    "Verif.Props.C137_motion_poses",
    "Verif.Props.C137_nonvacuous"
   ],
   "note": "Same assumptions as C136. Robot edges at least 2^-40 R, R at least 1. C137_exact: without rounding the model is the one of C53."
  },
  {
   "property": "C138",
   "status": "proved",
   "theorems": [
    "Verif.Props.C138_stays",
    "Verif.Props.C138_stays_hallway",
    "Verif.Props.C138_blocked",
    "Verif.Props.C138_free",
    "Verif.Props.C138_nonvacuous"
   ],
   "note": "Same assumptions as C136. C138_stays and C138_blocked allow any polygons with corners near the true ones; C138_free needs axis-parallel rectangles."
  },
  {
   "property": "C139",
   "status": "partial",
   "theorems": [
    "Verif.Props.C139_anytime_partial",
    "Verif.Props.C139_hallway_partial",
    "Verif.Props.C139_nonvacuous"
   ],
   "note": "Partial for the reason of C131: when no sample is within the radius of the start or the goal at a count before the sufficient one, the checker gets an empty batch and the call raises ValueError; C139 says that this is the only other outcome. Samples and distances are exact; the check and the counts are rounded. Same assumptions on the dot products as C136."
  },
  {
   "property": "C140",
   "status": "proved",
   "theorems": [
    "Verif.Props.C140_updates",
    "Verif.Props.C140_distances",
    "Verif.Props.C140_update_distances",
    "Verif.Props.C140_exact_false",
    "Verif.Props.C140_nonvacuous"
   ],
   "note": "Rounding to binary32 is exact (ties to even, subnormal numbers); overflow is not modelled. What the library computes and prints is a parameter with relative error eta. C140_exact_false: no library makes the distances exact."
  },
  {
   "property": "C141",
   "status": "proved",
   "theorems": [
    "Verif.Props.C141_answers",
    "Verif.Props.C141_executed",
    "Verif.Props.C141_stays",
    "Verif.Props.C141_unsolvable",
    "Verif.Props.C141_solves",
    "Verif.Props.C141_nonvacuous",
    "Verif.Props.C141_solves_nonvacuous"
   ],
   "note": "Lifts C106, C122 and C123 to the checker as it is called. C141_solves is for the first count only: at an earlier count without a sample near the start or the goal the call would raise ValueError (C131_empty_batch_false)."
  },
  {
   "property": "C142",
   "status": "proved",
   "theorems": [
    "Verif.Props.C142_nonvacuous",
    "Verif.Props.C142_edges_knn",
    "Verif.Props.C142_edges_rad",
    "Verif.Props.C142_query_knn",
    "Verif.Props.C142_query_rad",
    "Verif.Props.C142_length_knn",
    "Verif.Props.C142_length_rad"
   ],
   "note": "Extends C25, C28 and C29, which take the tables' distances to be those of the planner."
  },
  {
   "property": "C143",
   "status": "proved",
   "theorems": [
    "Verif.Props.C143_certified",
    "Verif.Props.C143_complete",
    "Verif.Props.C143_length",
    "Verif.Props.C143_nonvacuous"
   ],
   "note": "Extends C82 and C83. The neighbours are exact in the library's distances, the samples are real vectors."
  },
  {
   "property": "C144",
   "status": "proved",
   "theorems": [
    "Verif.Props.C144_narrow",
    "Verif.Props.C144_narrow_length",
    "Verif.Props.C144_line",
    "Verif.Props.C144_line_length",
    "Verif.Props.C144_nonvacuous",
    "Verif.Props.C144_line_nonvacuous"
   ],
   "note": "Combines C128, C129 and C143. The count and the radius are those of the exact search; the neighbours are exact in the library's distances."
  },
  {
   "property": "C145",
   "status": "proved",
   "theorems": [
    "Verif.Props.C145_not_worse",
    "Verif.Props.C145_state",
    "Verif.Props.C145_contains",
    "Verif.Props.C145_arrays",
    "Verif.Props.C145_same_answer_false",
    "Verif.Props.C145_nonvacuous"
   ],
   "note": "The probabilistic guarantees of the k-NN PRM (all theorems about a KnnWorld or a NearKnn) ask no more of the generator than this; only the exact edge sets of C27 and C35, and C131 and C139 with truncation, need that nothing is skipped. C145_same_answer_false: with removal by swapping in the last entry, a query finds a path over an edge longer than the radius where there is none without skipping."
  }
 ]
}