# Formal model of nonasymptotic-mp: design

## Layout

* `lean/Verif/Model/*.lean` - the model: total Lean definitions, one per Python function, each citing file and lines.
* `lean/Verif/Spec/*.lean` - small specifications that do not mention the model.
* `lean/Verif/Lemmas/*.lean` - helper lemmas.
* `lean/Verif/Props/*.lean` - the property theorems, named `Cnn_...`, each followed by an `example` (or a
  `..._nonvacuous` theorem) showing that a concrete, non-trivial case meets the hypotheses. Theorems that say the code
  does *not* have the property carry `_false` / `_counterexample` in the name.
* `lean/Verif/Conformance/*.lean` - the project's own tests of the environments and of the intersection test (tests/test_envs.py,
  tests/test_utils.py) evaluated on the model at `ℚ`. These are checks of the model on the literals of the tests. No claim rests on them.
  Two tests of the repository (test_last_cube_odd_length, test_last_cube_even_length) lack their final assertion; the points that they
  expect are not those of the curve.

## Modelling conventions

* Python `int` is `Nat`/`Int`. Floats that carry geometry or probabilities are elements of `ℝ`, or of an arbitrary linear
  ordered field `K` when no transcendental function is needed (then the model is computable at `ℚ`).
  Rounding is not modelled, except where it changes control flow: `int((lb+ub)/2)` in bound.py is modelled with
  exact binary64 round-half-even, and divisions by zero in numpy (inf/nan, all comparisons false) are explicit branches.
* Exceptions are values (`Except`). Loops are structural recursion on lists, or fuel-indexed loops where `none` is "still
  running"; termination is then a theorem that some fuel suffices, divergence that no fuel does.
* numpy batch code is modelled row by row over `List`s. The roadmaps take a check of single motions that does not raise; the checkers of the
  turtlebot and of the arm judge whole batches and raise for an empty one: for these the k-NN roadmap and the anytime loop are modelled again in
  `Verif.Model.Batch` (C131), and with it the streams of the turtlebot in `Verif.Model.BatchExec` (C141) and the insertions of the arm (C107).
* External code (networkit, kgraph, pynndescent, shapely, sympy, numpy.random, pybullet) enters as parameters or as
  a reference implementation; what is assumed about it is listed under "Trusted base".
* Random draws are universally quantified inputs.

## Plan per property

| id | model | proof |
|----|-------|-------|
| C01 | Sauer-Shelah sum over Nat, bound over ℝ with logb 2, search loop with fuel | P_v(n)=ΣC(n,i) satisfies P(n+1)=2P(n)-C(n,v); C(n,v)/P(n) nondecreasing, so the log bound is concave, so good counts are upward closed |
| C02 | same | loop invariant lb bad/ub good + upward closure |
| C03 | same, with binary64 midpoint | bound tends to -∞; measure ub-lb; counterexample above 2^53; exact trichotomy (returns / overflows / never answers) by the values at 2^53 and 2^996 |
| C04 | compute_numerical_bound as Except | case split |
| C05 | same | good set monotone in rho and target; leastness |
| C06 | closed forms over ℝ | algebra with sqrt |
| C07 | closed form | exact value of the bound is 2γ: negation proved, plus the partial theorem with 2γ |
| C08 | closed forms, two-point relative entropy | monotonicity, Gibbs inequality |
| C09 | fuel loop over ℝ | halving measure, invariant |
| C10 | fuel loop | divergence theorem |
| C11 | closed form | s+log(1-s) ≤ -s²/2 |
| C12,C13 | detect_intersect over a field, x/0 as explicit branch | Cramer's rule |
| C14,C15 | StraightLine over ℝ^d | convexity; projection onto a segment |
| C16-C19 | NarrowPassage | per-plane rectangle argument; counterexamples |
| C20-C24 | GrayCodeWalls | induction on reflected Gray code |
| C25-C40 | networkit graph as finite node/edge store, three PRM classes as state machines | invariants by induction over operation lists, refinement to the radius graph; Dijkstra as reference specification |
| C41,C42 | ann.py with token lists | list algebra |
| C43,C44 | numpy cumsum/delete/insert on lists | induction over rings; convexity |
| C45-C49 | task slicing, resume, bisection loops | list stride lemma, loop invariants, counterexamples |
| C50-C53 | 2D SAT | projection of convex combinations; exactness by edge normals |
| C54 | interpolate_vectors over a normed space | linspace algebra |
| C55 | anytime loop with fuel | geometric growth |
| C56 | 3D SAT | correct for axis-aligned boxes and cubes; counterexample otherwise |
| C57,C58 | STRIPS semantics of both domains | invariants by induction over plans |
| C59,C60 | post_process, Command.reverse | induction over plans/lists |
| C61 | seeds of the narrow and straight-line scripts | residues of task ranks; counterexample after a resume |
| C62 | tolerance and radius formulas | algebra with sqrt, uniqueness of the solution |
| C63 | k-NN trial as a fold over a sorted table | column maximum; counterexample k = n |
| C64 | duplicate-corner removal on lists | case analysis over box corners |
| C65 | adaptive bound composed with the search | C05; counterexample for a robot wider than the gap |
| C66-C68 | 3D SAT, box construction, batched motion check | Minkowski sum of boxes, 15-axis theorem; counterexamples |
| C69 | sampling region of the held object | min/max over lists |
| C70,C71 | kuka STRIPS domain | invariants over plans |
| C72,C73 | kuka command list and insertion trajectory | induction over plans; sublists; counterexamples |
| C74-C76 | container geometry, arrangement, clearance formula | ordered-field geometry |
| C77 | sample bound (C01) and iid uniform samples on a measurable set | epsilon-net theorem from scratch (Radon, Sauer-Shelah, symmetrisation) |
| C78,C79 | C77 + full radius PRM state machine | chain of balls along a clear path; optimality of C29 |
| C80 | closed tail formulas against the binomial law of the neighbour count | moment generating functions, Hoeffding's lemma |
| C81 | radius search of C09 + C80 | union bound over rows |
| C82,C83 | k-NN PRM state machine + C77 + C81 | certified radius, chain of balls |
| C84 | environment samplers fed with independent draws | boxes as affine images of the unit cube; mixtures of uniform laws |
| C85 | polygon sampler fed with independent draws | folding of the unit square, linear images, mixture over the triangles |
| C86 | StraightLine environment + sampler + radius PRM + sample bound | composition of C14, C15, C78, C79, C84 |
| C87 | NarrowPassage environment + sampler + radius PRM + sample bound | general position almost surely; C17, C18, C77, C84 |
| C88 | walls and targets of the hallway world | computation |
| C89 | continuous paths in the free positions of a rectangular body | middle line; intermediate value theorem at the middle of the hallway |
| C90 | motion check of C53 on the hallway world | a step between two checked poses is shorter than the walls are thick; case analysis over walls |
| C91 | adaptive clearance of C65 on the hallway world | C89; counterexample for every parameter |
| C92 | bounding box, sampler | C84's image of the unit square |
| C93 | anytime loop of C55 + k-NN PRM + sample bound | C55, C83; for the hallway C89, C90, C92 |
| C94 | placement loop over abstract bounding boxes and distance test; independent uniform draws | induction over bodies and passes; second Borel-Cantelli lemma for ending with probability one |
| C95 | placement in the hallway world + motion check | C94, C90; explicit draws for the counterexamples |
| C96 | corner world | L-shaped path; intermediate value theorem |
| C97 | rings and hole points of a multi-polygon, shapely as a parameter with a set-of-points specification | regular closed sets; a square hole cut by a diamond for the counterexample |
| C98 | world building loops over an abstract simulator state | induction over passes and objects; frame conditions |
| C99 | the two loops of pddlstream_from_problem | induction; frame conditions |
| C100 | motion streams with fluents as a state update | induction over the facts |
| C101 | rigid transformations as matrices | matrix algebra |
| C102 | results directory as a list of directories with times | case analysis, induction over the list |
| C103 | files as names and rows | list algebra |
| C104 | the two loops as filters | membership |
| C105 | job queue with arbitrary outside changes; waiting as a loop | invariants of the loop, induction over the batches |
| C106 | streams as functions of values, simulated world with rover, objects and attachment | agreement of the world with the planner's state, induction over the plan, with C54, C55, C57 and C59 |
| C107 | stream answers, refinement and execution of commands in a scene of joints and poses | agreement of the scene with the planner's state, induction over the plan, with C72, C73 and the invariants of C58 and C70 |
| C108 | the whole narrow-passage trial over the radius and k-NN roadmap models, with the state kept over the schedule | a bisection with state and an invariant of the roadmap, induction over the schedule, with C14, C15, C20 and C47 |
| C109 | both plot scripts on lists of characters, with dictionaries, the regular expression and the lines run.py prints | invariants of the dictionaries over lines and files; first match of the expression |
| C110 | the loop of the shell scripts and the arrays that the deployment scripts submit | induction over the loop and the argument sets |
| C111 | the whole straight-line trial: growth of the k-NN roadmap along the schedule, truncation, bisection with a check that can raise, rows | invariant of the bisection; state of the roadmap before each growth; case distinction on the number of kept radii |
| C112 | bodies of the containers as the simulator gets them (base, links, frames), boxes handed to the planner, placement links | composition of frames in any group; translation of the covered points of C101 |
| C113 | frames of the animation, the slices drawn in each, colours | induction over the frames; prefixes of the lines |
| C114 | `save`: the two files, the error without samples | invariants of the planners after any history (C04, C37) |
| C115 | the loop of kuka_carry's `main` around making the problem, the saved world, its restoration | C98 and C99 applied to the attempt that succeeds |
| C116 | `StreamToLogger.write`, `str.splitlines`, `str.rstrip` with Python's white space, the writes of `print` | induction over the text; filter of visible characters |
| C117 | `get_movable_collision_test` on the scenes of `Command.execute` | induction over paths and configurations; poses of movers depend on the step only |
| C118 | `random_obstacles` with `sample_placements`; footprints of the robots as parameters | C94; second Borel-Cantelli lemma for the draws, area of the blocked draws for the room |
| C119 | the trials of C108 on the environment, sampler and bound of C87 | C87/C83 with C108; hops from one sample to two others have different lengths almost surely (spheres are null sets); with few close neighbours all short connections remain with k neighbours |
| C120 | the k-NN planner of C83 on the environments of C86 and C87 | C83; for the narrow passage again with chains in general position |
| C121 | `is_motion_valid` of GrayCodeWalls as for C23 | the parts of a free segment inside the cubes are closed; cubes with a common free point are neighbours, so by connectedness the segment passes all openings in order; from dimension three on a coordinate would have to return between two layers |
| C122 | execution of C106 in the worlds of C88, with the motion check of C53 | every point of an accepted motion is within 0.04 of a checked pose; a point beside a free pose is in the house exactly when the pose is; induction on the executed legs. A motion across the middle has a checked pose in the hallway, where a high box touches a wall |
| C123 | the motion streams of C93/C106 with the world of C88; plan semantics of C57 | a k-NN roadmap with at most k + 1 samples is complete; two samples hit the two areas at the ends of the hallway except with a small probability; the straight lines start - sample - sample - goal keep their clearance, by which the motion check accepts them; the plan is checked against the PDDL operators by induction on the targets |
| C124 | both bounds of `bound.py` | the returned count makes `2^dim * m * rho` exceed `2^(dim+3)`; the expected number of neighbours is then above k, and the KL bound is `m` |
| C125 | binary64 rounding (`Model/Float64.lean`), the search of C09 with it | the computed midpoint of floats that are no neighbours is strictly between them; the number of floats between the ends decreases; for odd/even neighbours the midpoint is the upper end, which is rejected |
| C126 | `detect_intersect` and the narrow-passage check with every operation rounded (`Model/FloatIntersect.lean`) | rounding is monotone and odd, so the parameter on the motion is never misjudged; the error of the parameter on the wall is bounded by products of rounded factors; a motion deep in a block must be low on both sides of it, else it crosses a side wall well between its ends. The counterexample is computed bit by bit |
| C127 | the rounded check of C126 and the rounded sampler | samples: rounding is monotone and the ends of the boxes are floats; motions: a reported wall gives bounds on both computed coefficients, hence a point of the motion within 100 rounding units of the wall |
| C128 | C87 with the sampler and checker of C126, C127, draws truncated to 53 bits and distances of relative error at most kappa (`Spec/FloatWorld`) | the chain of ideal samples of C87 is moved to the rounded samples, 4 rounding units per coordinate; samples that agree in a coordinate, for which the checker may reject, have small probability (a rounded coordinate takes each value on an interval of draws of length 2^-50); converse: C126 and the probability of a sample near the border |
| C129 | C86 with rounded bounds, sampler and curve points | the rounded width times a draw of at most 1 - 2^-53 is at most the exact width (if the width was rounded up, the product is rounded below it), so samples stay in the box; the chain of ideal samples is moved to the rounded ones, whose motions are accepted because the box is convex |
| C130 | anytime loop of C55 with `num_samples*factor` rounded to binary64 | the loop of C55 for any way to multiply; the integer part plus one is a float, so rounding to nearest cannot fall below it; relative error of i products |
| C131 | k-NN roadmap and anytime loop of C55 with the checker as a function of the whole batch, which may raise | the roadmap is between two roadmaps with checks of single motions, so are its shortest paths; induction over the counts; C53 for the turtlebot, C83 for the guarantee |
| C132 | `BagOfBoundingBoxes.__init__`, `hull`, `extents`, the query's robot shape, over reals; the hull library is a parameter | a parallelogram's corners are extreme, so the hull order is a permutation of them; C53 on footprints; bodies meet iff footprints and heights do |
| C133 | `compute_numerical_bound` with every operation rounded to binary64 and libm, gamma and the power operator as parameters of relative error mu (`Model/FloatBound.lean`) | error of each intermediate result as a number of factors 1+2mu; the comparison of the search against the exact one with a margin; C128 and C129 for any count and radius that meet the exact inequalities |
| C134 | the planner of C128, C129 and C133 with a tolerance; the query's length is the sum of the planner's distances | C87's chain of samples along the path, with its number of samples bounded by the length over the spacing; moving each sample by its rounding error lengthens the chain by twice the error per sample |
| C135 | `compute_blumer_bound` with real numbers | sums of binomial coefficients are at most (e n / d)^d, which half of the exponent outgrows from log2(13/measure) on; the other half pays for gamma; then C02, C03 and the proofs of C77-C79 |
| C136 | the vectorized separating-axis test with every operation rounded, dot products by any method with the standard error | error of normalised edges, of axes and of projections; an axis that separates computed projections nearly separates the exact ones; a gap larger than the errors is seen |
| C137 | `is_motion_valid` with every operation rounded | error of the interpolated vertices and of the number of poses; then C136 on the computed polygons and perturbation of near separation |
| C138 | the worlds of C88-C90 with the check of C137, wall corners off by at most eps | near separation says that the robot misses the walls made thinner by the tolerance; the case distinction of C90 with thinner walls and longer steps |
| C139 | C131 with the check of C137 and the counts of C130 | the call asks the checker only about motions between samples, start and goal, so the check may be replaced by one that is total outside the world; this one is between two checks of single motions by C137 and C138; C131 and C83 |
| C140 | the kgraph back end of C41 with binary32 rounding (`Model/Float32`, `Model/FloatAnn`) | rounding is idempotent and keeps zero, so updates reduce to building as for C41; doubling is exact; the root of a number of relative error d has relative error at most d; moving all coordinates by e moves distances by at most 2 e sqrt(n) |
| C141 | the streams of C106 with the planning call of C131 (`Model/BatchExec`) | whatever the checker answers in between, an answered path consists of motions accepted in some batch (invariant of the loop), which is all that C106 and C122 use; for the success probability the draws of C123, which at the first count let the query of C131 succeed |
| C142 | the k-NN and radius PRM with two distances (`Spec/TableDist`) | tag samples and query points, so that one distance on tagged points is the library's between samples and the planner's at the ends; the model commutes with the tags, hence C25, C28 and C29 apply; errors are summed along paths |
| C143 | as C83 with two inexact distances (`Spec/NearWorld`) | the net event gives a chain of samples whose computed distances are below the enlarged radius; the tail event at a once more enlarged radius gives the certified radius; then the query of C142 |
| C144 | C128, C129 for the k-NN PRM of C143: rounded samples, checks and distances (`Spec/FloatKnnWorld`) | the events of C128/C129 give a chain of rounded samples in exact distances; rounded samples are near ideal ones, so the tail event of the ideal samples at an enlarged radius bounds the certified radius; then the query of C142 |
| C145 | the k-NN PRM with any generator that yields only existing edges (`Spec/Generator`) beside the one that yields all | induction over histories on pairs of states that agree but for the roadmaps, the second a part of the first; the optimality of queries (C29) on both; the generator over adjacency arrays (`Model/NkArrays`) is an instance |

## Trusted base

* Lean's kernel. Every theorem depends at most on the axioms `propext`, `Classical.choice` and `Quot.sound`; `tools/axioms.sh` prints
  them for every theorem named in MANIFEST.json. No `sorry`, no own axioms, no `native_decide`, no `bv_decide`.
* The reading of the Python code: the model is written by hand from the text of /repo. Each definition cites the lines it models and
  says where it simplifies.
* Numbers: Python floats are exact reals (or elements of any ordered field). Rounding is covered in seven places only: the
  midpoint of the sample search (C03), the whole radius search (C125), the samplers and motion checks of the narrow passage and the straight line (C126-C129), the sample counts of the anytime loop (C130), `compute_numerical_bound` (C133, C134) and the separating-axis test with the turtlebot's motion check (C136-C139) are computed with exact
  binary64 rounding, and the data and distances of the kgraph back end (C140) with exact binary32 rounding. Division by zero is modelled where it is reachable
  (`ZeroDivisionError` for Python floats, inf/nan for numpy).
  For C133 `math.log2`, the power operator, `scipy.special.gamma` and the constant pi are assumed to have relative error at most mu (`Accurate`); `np.sqrt` is
  correctly rounded; overflow is not modelled.
  For C136-C139 a dot product of `np.einsum` is assumed to be off by at most `3 u (|x x'| + |y y'|) + 4 * 2^-1075` (`DotAccurate`; C136_dots proves it with and without
  fused multiply-add); overflow is not modelled.
  For C140 the half squares that kgraph writes are assumed to have relative error at most eta (`KGraphWrites`).
* networkit: `Verif.Model.Graph` is a reference model of its graph (node ids never reused, `addNode`, `addEdge`, `removeNode`,
  `removeEdge`, `weight`, `iterEdgesWeights`). `merge`, the graph file reader/writer and `SPSP`/`BidirectionalDijkstra` are parameters with
  their specification as a hypothesis (`World.Sound`, `DijkstraCorrect`: the path found is a shortest one, and empty iff there is none).
  `World.VisitsAll` says that the edge generator does not skip edges while edges are removed; `Verif.Model.NkArrays` shows that our
  reading of networkit's source contradicts it, and C27_swap_removal_false / C35_swap_removal_false show what follows.
  Only C27, C35 and, with truncation, C131 and C139 assume it. The guarantees of the k-NN PRM assume `World.VisitsExisting`: the generator yields
  only edges of the roadmap; our reading of networkit satisfies it (C145_arrays).
* Nearest neighbours (pynndescent, kgraph): arbitrary tables; where a theorem needs exact and sorted tables it says so
  (`World.TrueTable`, `World.ExactTable`, `SortedRows`). Approximate answers are outside of these theorems.
* Sampling: state machines take the sequence of draws as an arbitrary input. Probability theorems (C77-C83) take independent draws with the
  uniform law on the free set. C84 and C85 derive that law for the samplers of the code from `rng.uniform` and `rng.choice`, which are taken to
  be independent draws with the documented laws (`Spec/Draws.lean`). In C128 and C129 a uniform draw is truncated to 53 bits (`random53`) and the
  arithmetic of the sampler is rounded; the region weights are not rounded, and the sums of the shortest-path search are exact.
* Geometry libraries: pybullet (collision test, poses, inverse kinematics), pybullet_tools, shapely, `triangle` and scipy's hull are parameters.
  For C132 the hull library is assumed to return the corners of the convex hull in cyclic order (`HullLibrary`).
* PDDL: delete-then-add STRIPS semantics; streams may certify any set of facts of the form given in stream.pddl. PDDLStream's search itself is
  not modelled: theorems range over every executable plan.
* pandas/CSV: a file is the list of its rows, appended to row by row; a crash may happen between any two appends.

## What is modelled

| file | modelled | not modelled |
|------|----------|--------------|
| nonasymptotic/bound.py | all functions, with real numbers and, for the radius search and the sample bound, with rounded ones (C125, C133) | `print`ed progress |
| nonasymptotic/util.py | `detect_intersect` | - |
| nonasymptotic/envs.py | `StraightLine`, `NarrowPassage`, `GrayCodeWalls`, `Environment` defaults | plots; `is_prm_epsilon_delta_complete` after its `raise` (lines 105-257, dead code) |
| nonasymptotic/prm.py | the three roadmap classes, query methods, tables, caching, what is plotted and animated (C113), the saved file (C114) | drawing itself, `verbose` |
| nonasymptotic/ann.py | both back ends as list transformations, text file of kgraph, selection | the libraries |
| nonasymptotic/sampler.py | rings, hole points, segment arrays, triangle weights, drawn point | shapely, triangulation, plot |
| exps/run_*.py | argument slicing, resume, trials, rows | argument parsing, timing, printing |
| exps/submit_and_run_experiment_job.py, aggregate_runtimes_for_tuning.py, tune_experiment_triples.py, tamp_environment/deploy_tamp_experiments*.py | all | argument parsing, printing, failing `sbatch` and `scancel` |
| exps/tamp_environment/turtlebot_move | both domains, post-processing, motion checks, separating axis, anytime loop, worlds `hallway`, `hallway_manip` and `corner` with their sampler and the placement of targets, streams and execution of plans | simulator, GUI, drawing |
| exps/tamp_environment/kuka_carry | world and problem building, grasps, motion streams, domain, commands and their execution, boxes, containers, insertion, motion checks | simulator, inverse kinematics, logging |
| tests/ | - | all |

## Findings: properties that are false of the code

Each is a theorem `..._false` with a concrete witness; MANIFEST.json says what is proved instead.

* C03 the sample search can loop forever above 2^53. C07 the net radius meets 2*gamma, not gamma. C08/C80 two of the tail formulas are not
  bounds. C10 the linear radius search never advances. C11/C81 the closed radius formula is wrong for environments smaller than the unit ball.
* C13/C17 collinear or parallel motions are misjudged. C19 narrow-passage path geometry has one coordinate too many, and distance_to_path measures to half of the path only. C22/C23 the Gray-code curve
  jumps in dimension two with odd length, and accepted motions can cross a wall.
* C27/C35 removal during edge iteration. C33 a refused growth forgets the radius. C34 edges of the k-neighbour roadmap are lost. C36 the
  radius PRM exceeds or misses its radius. C37/C40 stale vertices and counts in the radius and k-NN PRMs.
* C46/C61 resuming skips or repeats trials and seeds. C47/C48 end points of bisections are never tested. C49 rows with too few values. C63 wrong
  column for k = n.
* C52 flat polygons. C53/C68 the answer for a motion depends on the other motions in the batch. C55/C65 the anytime loop repeats counts, stays one
  short, and gives a budget for impassable gaps. C56/C66/C67 oriented boxes are wrong unless symmetric or axis-aligned.
* C70 objects are put down in mid-air. C73 insertion poses are dropped or shifted. C74 the clearance is overestimated.
* C91 the adaptive mode hands more than twice the passage's clearance to the bound. C94 the placement loop need not end. C95 targets that
  are too large end up at the origin; a target at the mouth of the hallway makes the planner raise; other targets are no obstacles.
  C96 the slack of the corner world is not the gap `dd` but about half of it. C97 the polygon sampler draws from parts of holes that another polygon cuts into pieces,
  and removes everything if (-100, -100) is inside the polygon.
* C98 approach configurations may touch other objects. C99 only one of the four rotations is tried. C100 teleported motions are not checked.
* C102 a name resumes any experiment whose name it begins; a missing configuration file does not stop the submission. C103 an output name that begins with `out` is aggregated again. C104 numbers below 1 are accepted. C105 a failing `squeue` counts as an empty queue; cancelled jobs are not submitted again.
* C106 targets are not obstacles for each other, and while a target is held only its shape is checked, not that of the rover.
* C107 the approach offset is added twice: `Kin` facts hold for configurations one offset (1 cm) above the pose, and the insertion, planned between the poses of the body in these configurations, adds it again. Put down objects are one offset, inserted objects two offsets above the planned pose, and the arm jumps when an insertion begins. An insertion of which only one pose has a configuration is refined to nothing.
* C108 the longest radius is recorded as solving the problem though only `max_connections` was tested; with connections of one length (for example one sample, connected with itself at length 0) the largest radius is never tried; a schedule that is not ascending raises ArithmeticError and loses all rows. With radius roadmaps more samples never destroy a recorded solution; with k-NN roadmaps they can.
* C109 `time_success_plot.py` looks for a line with `Namespace`, but both run.py print `vars(args)`, a dictionary: with the present logs it raises KeyError. `bound_plot.py` expects the clearance on the line after `Delta:`, where run.py prints the sample size: ValueError (and it imports `compute_numerical_bound` from a module that does not define it). Runs that end with an exception do not count as failures. Logs of the same name in different directories replace each other.
* C110 the kuka scripts submit arrays of one task, so all repetitions have seed 1. (kuka_carry/run.py does not use its `--seed` at all, so these runs differ all the same, but none of them can be repeated.)
* C62 for radii below twice the clearance the straight-line trial computes a negative tolerance, for radii above `2 sqrt 2` times the clearance `nan`; both are handed to the completeness check without a warning. Only between the two it is the tolerance that belongs to the radius.
* C111 `straight_line_trial` cannot finish: the completeness check of `StraightLine` raises NotImplementedError, and it is reached as soon as four radii are kept, which is always so with five samples or more in general position (the default schedule begins with ten). With one radius the trial raises IndexError. Only with two or three kept radii there is a row, whose radii were not checked. With the sampler of the environment the error is almost sure (C111_sampler_false). Even with a working check the second smallest and the largest radius would be recorded without a check, the smallest never, and the check is not told the radius: it gets the tolerance only and the roadmap as it is.
* C114 the file that the radius planner saves has a node that is no sample if there was a query between two growths (each such query leaves one more; see C37).
* C115 kuka_carry tries another world if no configuration is found for an object, but if no place in a sink is found, the assertion in `pddlstream_from_problem` ends the program, although the next world may be fine. Making the problem leaves the objects in their sinks: without `saver.restore()` no fact about an object would be true.
* C116 in the logs of both TAMP experiments a `print` with several arguments (`print('Robot:', robot)`, `print(i, name, args, new_commands)`) is spread over one line per argument, as `print` writes every argument by itself and `write` ends a line with every call; blank lines are lost.
* C117 an object that is moved in some part of a command is never reported, not even for the parts in which it still stands in the way (C117_moved_false).
* C118 `random_obstacles` does not hand its boxes to the planner; with the empty list the planner's environment cannot be built: ValueError (C118_planner_false). `get_motion_fn` (streams.py:232-272, not called and not
* C121 `GrayCodeWalls.is_motion_valid` rejects free motions: those that start exactly on an opening and leave downwards (`t == 0`), C121_face_false; in the plane those through four cubes, where `between_cubes_point` is computed with the goal cube and not with the next cube, C121_plane_false. It also cannot serve as the checker of the PRM classes, which hand over arrays of motions (prm.py) where it asserts single points (envs.py:652).
* C122 `--delta` is compared with the radius of the largest target, whereas the motion check uses the bounding box that the physics library reports. If that box is larger by a margin of at least `delta / 2` on each side, no plan exists and `solve` with `max_time=np.inf` searches forever (C122_delta).
* C124 The turtlebot streams build k-NN roadmaps with 32 neighbours. With the radius and count of `compute_numerical_bound` the bound for k-NN edges (Chernoff-KL) is then at least one, for all clearances and success probabilities: the probability that C93 gives for these calls says nothing unless `_k_neighbors` is raised. C123 gives a guarantee for small counts by another argument.
* C125 `halving_radius_search_over_log_prob_bound` with the default tolerance never returns for some radii just above 2^33 (C125_large); C09 does not see this because it uses exact arithmetic.
* C133 In `compute_numerical_bound` the difference `1 - alpha ** 2` cancels for large `tol`: the returned radius then has only half of the digits (C133_cancellation; an error
* C135: `compute_blumer_bound` is too small for the failure bound if the ball is larger than the environment (measure 6.5: 4 samples are returned and do not meet it); it is unused in the repository.
* C136: in floats the separating-axis test reports no collision for the triangles (-2,-1), (4,7), (-2,7) and (1,3), (4,-1), (7,3), which share the point (1,3); with real numbers it reports one. Shared or overlapping points within about 1e-14 of the coordinates can be missed, deeper ones cannot.
  of more than 2^-31 relative to the exact radius for tol = 2^30). This does no harm to the guarantee, since the radius is never below twice the net radius by more than 8 mu.
* C131 A query with no sample within the radius of the start (or goal) calls the motion checker with an empty batch (prm.py:498-500). The checkers of the turtlebot
  (streams.py:96, `np.max` of an empty array) and of the arm (run.py:81) raise ValueError there. So `get_anytime_motion_fn` raises at a small count instead of trying the next one,
  C131_empty_batch_false. The checker of `GrayCodeWalls` refuses all batches (envs.py:652), so no roadmap can be grown with it (C131_refusing); the example at the end of prm.py (727)
  does this, and also leaves out the required argument `sdf_to_path`.
* C126 In float64, `NarrowPassage(2, 0.15, seed).is_motion_valid([[0.7, 0.08]], [[-0.5, 0.5]])` is true although the motion goes straight through the upper block (both its ends are free); the reverse motion is rejected. In exact arithmetic (C16) this cannot happen. The motion touches a corner of the block and a corner of the room, and rounding makes the test miss three walls at their ends.
  modelled) reads `problem.fixed`, which `RoversProblem` does not have: AttributeError unless `teleport` is set or `collisions` is not.
* C79 the length guarantee fails for very short paths. C84 the Gray-code sampler never visits the free corner blocks.

## Testing the theorems against wrong programs

`seeded/LOG.jsonl` has one line per edit. Each edit changes one definition of the model in a scratch copy, the way a realistic bug would, and the
project is rebuilt. `theorems_failed` lists the theorems whose proof, as written, is no longer accepted (or that depend on such a proof): a
failing proof does not by itself show that the statement became false, but a theorem that still proves although its claim should break is too weak.
Such theorems were tightened (`theorems_tightened`). Edits to unrelated files are built together; failures are attributed by file.
