{"id": "C01", "title": "set_site_state merges exactly", "statement": "After state.set_site_state(i, u): get_site_state(i) has every key of u with u's value and every other key it had before with its old value; a site that had no state gains '_site_id' = i; every other site's state and the general state are unchanged.", "quantifier": "every state, site id and update dict", "why_tests_cant": "Tests look at one or two keys of one site; the frame condition ranges over all other sites and keys.", "anchors": ["src/pylattica/core/simulation_state.py:SimulationState.set_site_state", "src/pylattica/core/simulation_state.py:SimulationState.get_site_state"]}
{"id": "C02", "title": "site ids are append-only and unique", "statement": "Over any history of state-changing calls, site_ids() never contains a duplicate, never loses an id, keeps first-set order, and size equals the number of distinct ids ever set.", "quantifier": "every finite history of set_site_state / set_general_state / batch_update calls", "why_tests_cant": "Needs all histories.", "anchors": ["src/pylattica/core/simulation_state.py:SimulationState.site_ids", "src/pylattica/core/simulation_state.py:SimulationState.size", "src/pylattica/core/simulation_state.py:SimulationState.batch_update"]}
{"id": "C03", "title": "every stored site knows its own id", "statement": "In any state reached from the empty state by updates that do not themselves write '_site_id', all_site_states() holds, for each stored site i, a dict whose '_site_id' is i.", "quantifier": "every such history", "why_tests_cant": "Analyzers rely on it for all states; tests inspect a few.", "anchors": ["src/pylattica/core/simulation_state.py:SimulationState.set_site_state", "src/pylattica/core/simulation_state.py:SimulationState.all_site_states", "src/pylattica/core/analyzer.py:StateAnalyzer.get_sites"]}
{"id": "C04", "title": "batch_update has the obvious pointwise meaning", "statement": "batch_update with a {GENERAL, SITES} batch merges each listed site's updates into that site, merges the general updates, and leaves everything else alone; a batch without GENERAL is read as {site id: updates}.", "quantifier": "every state and every batch", "why_tests_cant": "All combinations of present/absent sites and keys.", "anchors": ["src/pylattica/core/simulation_state.py:SimulationState.batch_update"]}
{"id": "C05", "title": "batch_update does not depend on the order of the batch", "statement": "Two batches that are equal as dicts (same entries in a different insertion order) lead to equal states.", "quantifier": "every state and every pair of equal batches", "why_tests_cant": "Insertion orders are unbounded in number.", "anchors": ["src/pylattica/core/simulation_state.py:SimulationState.batch_update", "src/pylattica/core/simulation_state.py:SimulationState.__eq__"]}
{"id": "C06", "title": "batch_update is idempotent", "statement": "Applying the same batch twice in a row gives a state equal to applying it once (this is what makes re-delivery of a batch to a worker harmless).", "quantifier": "every state and batch", "why_tests_cant": "All states and batches.", "anchors": ["src/pylattica/core/simulation_state.py:SimulationState.batch_update", "src/pylattica/core/runner/synchronous_runner.py:_step_batch_parallel"]}
{"id": "C07", "title": "general state is independent of site state", "statement": "set_general_state merges keys into the general state and changes no site; set_site_state never changes the general state; on a state built without a GENERAL section set_general_state raises TypeError and get_general_state returns None.", "quantifier": "every state and update", "why_tests_cant": "All states, including ones built from a partial dict.", "anchors": ["src/pylattica/core/simulation_state.py:SimulationState.set_general_state", "src/pylattica/core/simulation_state.py:SimulationState.get_general_state"]}
{"id": "C08", "title": "state equality is an equivalence respected by every operation", "statement": "== on states ignores insertion order, is reflexive, symmetric and transitive, and two equal states stay equal after the same update and answer get_site_state with equal dicts.", "quantifier": "all pairs/triples of states and all updates", "why_tests_cant": "Congruence over all operations.", "anchors": ["src/pylattica/core/simulation_state.py:SimulationState.__eq__"]}
{"id": "C09", "title": "copies are independent", "statement": "After c = s.copy(), no sequence of updates through c changes anything observable through s, and vice versa; c == s at the time of the copy.", "quantifier": "every state and every interleaving of updates on the two objects", "why_tests_cant": "Aliasing bugs need the right interleaving.", "anchors": ["src/pylattica/core/simulation_state.py:SimulationState.copy", "src/pylattica/core/simulation_state.py:SimulationState.__init__"]}
{"id": "C10", "title": "a state dict survives as_dict -> JSON -> from_dict", "statement": "Rebuilding a SimulationState from the JSON form of its as_dict() gives a state equal to the original, for every state whose site ids are ints and whose values are JSON-native; site ids come back as ints.", "quantifier": "every such state", "why_tests_cant": "All ids and values.", "anchors": ["src/pylattica/core/simulation_state.py:SimulationState.as_dict", "src/pylattica/core/simulation_state.py:SimulationState.from_dict"]}
{"id": "C11", "title": "update normalisation gives one shape", "statement": "For a dict returned by an update rule, the runner's stored update has the form {SITES, GENERAL}: a {SITES/GENERAL} dict contributes its two parts, a dict whose keys are all ints is a per-site map, any other dict (including {}) is an update of the visited site; an absent update changes nothing.", "quantifier": "every response, accumulated update and visited site", "why_tests_cant": "All key shapes.", "anchors": ["src/pylattica/core/runner/common.py:merge_updates"]}
{"id": "C12", "title": "update normalisation fails only without a target site", "statement": "merge_updates raises ValueError exactly when the response is neither a {SITES/GENERAL} dict nor an all-int-keyed dict and no site id was supplied.", "quantifier": "every response and accumulator", "why_tests_cant": "All key shapes.", "anchors": ["src/pylattica/core/runner/common.py:merge_updates"]}
{"id": "C13", "title": "synchronous step is simultaneous", "statement": "For an update rule that only updates the visited site, after one SynchronousRunner step each site's state is its old state merged with the rule's answer computed on the state before the step; no application sees another application's effect.", "quantifier": "every rule of that form, every state, every number of steps", "why_tests_cant": "All rules and states; tests use constant or increment rules.", "anchors": ["src/pylattica/core/runner/synchronous_runner.py:SynchronousRunner._run", "src/pylattica/core/runner/synchronous_runner.py:_step_batch"]}
{"id": "C14", "title": "synchronous result does not depend on site order", "statement": "For site-local rules, two equal states with different site insertion order give equal states at every step.", "quantifier": "every site-local rule that answers equal states equally, every pair of equal states, every step count", "why_tests_cant": "All permutations.", "anchors": ["src/pylattica/core/runner/synchronous_runner.py:_step_batch"]}
{"id": "C15", "title": "recorded history is the real history", "statement": "After a serial SynchronousRunner or AsynchronousRunner run, result.get_step(k) equals the live state the rule was shown at step k, result.last_step equals result.output, and len(result) is one more than the number of steps taken.", "quantifier": "every update rule (also stateful / random ones), every initial state and step count; the pre_run hook leaves the state it is given unchanged (C15_pre_run_mutation shows that this is needed; for any hook, C15_async_any and C15_serial_any say that the recorded changes are those of the run from the state after the hook, and that get_step applies them to the state before it)", "why_tests_cant": "All rules and lengths.", "anchors": ["src/pylattica/core/runner/base_runner.py:Runner.run", "src/pylattica/core/simulation_result.py:SimulationResult.get_step"]}
{"id": "C16", "title": "run leaves the caller's state alone", "statement": "Runner.run does not change the initial_state object passed in (serial, asynchronous, and the parent process of a parallel run), and later changes to that object do not change the result.", "quantifier": "every run with a pre_run hook that does not mutate it", "why_tests_cant": "Aliasing over all runs.", "anchors": ["src/pylattica/core/runner/base_runner.py:Runner.run"]}
{"id": "C17", "title": "parallel chunks partition the sites", "statement": "In a parallel step the batches handed to the pool contain every site id exactly once, in order, and there are at most as many batches as workers.", "quantifier": "every number of sites >= 1 and workers >= 1", "why_tests_cant": "All sizes, all off-by-one boundaries.", "anchors": ["src/pylattica/core/runner/synchronous_runner.py:SynchronousRunner._take_step_parallel"]}
{"id": "C18", "title": "parallel run equals serial run under every schedule", "statement": "For a site-local rule, SynchronousRunner(parallel=True) records the same steps as the serial runner, whatever worker executes each batch.", "quantifier": "every rule, state, worker count, step count and assignment of batches to workers; the rule answers equal states equally", "why_tests_cant": "Schedules are not controllable in a test.", "anchors": ["src/pylattica/core/runner/synchronous_runner.py:_step_batch_parallel", "src/pylattica/core/runner/synchronous_runner.py:SynchronousRunner._take_step_parallel"]}
{"id": "C19", "title": "parallel run equals serial run for fully rewriting rules", "statement": "If a site-local rule always rewrites the same set of keys at every site (as Game of Life does), the parallel run records the same steps as the serial run under every schedule, even if workers miss steps.", "quantifier": "every such rule that answers equal states equally, state, worker count, schedule", "why_tests_cant": "Schedules.", "anchors": ["src/pylattica/core/runner/synchronous_runner.py:_step_batch_parallel", "src/pylattica/models/game_of_life/controller.py:GameOfLifeController"]}
{"id": "C20", "title": "result.output is the final state", "statement": "After run, result.output equals result.last_step for every runner mode.", "quantifier": "every run, serial or parallel", "why_tests_cant": "All runs.", "anchors": ["src/pylattica/core/runner/base_runner.py:Runner.run", "src/pylattica/core/simulation_result.py:SimulationResult.set_output"]}
{"id": "C21", "title": "conflicting updates resolve identically in serial and parallel", "statement": "If two visited sites update the same third site (or the same general key) in one synchronous step, serial and parallel runs keep the same one.", "quantifier": "every rule and state", "why_tests_cant": "All conflict patterns and chunk boundaries.", "anchors": ["src/pylattica/core/runner/synchronous_runner.py:SynchronousRunner._take_step_parallel", "src/pylattica/core/runner/common.py:merge_updates"]}
{"id": "C22", "title": "conflict resolution within a serial step", "statement": "In one serial step the update stored for a site is the whole update dict of the last visited application that mentions it (updates for one site from two applications are not combined); general keys are combined key by key, last writer wins.", "quantifier": "every rule and state", "why_tests_cant": "All conflict patterns.", "anchors": ["src/pylattica/core/runner/common.py:merge_updates", "src/pylattica/core/runner/synchronous_runner.py:_step_batch"]}
{"id": "C23", "title": "site-local runs keep the set of sites", "statement": "A synchronous run of a site-local rule never adds or removes a site: site_ids() is the same list at every step.", "quantifier": "every rule, state, step count", "why_tests_cant": "All histories.", "anchors": ["src/pylattica/core/runner/synchronous_runner.py:SynchronousRunner._run"]}
{"id": "C24", "title": "a rule that answers None everywhere", "statement": "A synchronous serial step in which the rule answers None for every site (or there are no sites) raises TypeError rather than recording a step; one non-None answer is enough for the step to succeed.", "quantifier": "every rule and state", "why_tests_cant": "All positions of None answers.", "anchors": ["src/pylattica/core/runner/common.py:merge_updates", "src/pylattica/core/runner/synchronous_runner.py:_step_batch", "src/pylattica/core/simulation_state.py:SimulationState.batch_update"]}
{"id": "C25", "title": "asynchronous visiting order is FIFO", "statement": "The sequence of sites visited by AsynchronousRunner is: the sites first supplied by get_random_site, then, in order, the follow-up sites returned by each visit; get_random_site is consulted again only when the queue is empty.", "quantifier": "every rule and site supplier", "why_tests_cant": "All queues/histories.", "anchors": ["src/pylattica/core/runner/asynchronous_runner.py:AsynchronousRunner._run"]}
{"id": "C26", "title": "asynchronous run length and errors", "statement": "An asynchronous run raises RuntimeError iff the supplier offers no site at the start, never pops an empty queue, performs exactly one rule application per recorded step, and stops early only when the queue is empty after asking the supplier again.", "quantifier": "every rule, supplier, step count; the rule, the supplier and pre_run do not raise RuntimeError or IndexError themselves", "why_tests_cant": "All histories.", "anchors": ["src/pylattica/core/runner/asynchronous_runner.py:AsynchronousRunner._run"]}
{"id": "C27", "title": "asynchronous steps touch only what the rule mentions", "statement": "Between step k and k+1 of an asynchronous run only the sites and general keys mentioned in the k-th response change.", "quantifier": "every rule and history", "why_tests_cant": "All histories.", "anchors": ["src/pylattica/core/runner/asynchronous_runner.py:AsynchronousRunner._run"]}
{"id": "C28", "title": "asynchronous runs conserve what each application conserves", "statement": "If every response of the rule preserves the sum of a numeric state value over all sites, the sum is the same at every recorded step.", "quantifier": "every conserving rule, every initial state, any number of steps; the pre_run hook leaves the state it is given unchanged", "why_tests_cant": "The guide demonstrates it on 10000 steps; it must hold for all.", "anchors": ["src/pylattica/core/runner/asynchronous_runner.py:AsynchronousRunner._run", "docs/guides/runners.ipynb"]}
{"id": "C29", "title": "default site choice picks an existing site", "statement": "BasicController.get_random_site returns a stored site id for every outcome of the random generator, on every nonempty state built over a structure (ids 0..n-1).", "quantifier": "every state and random outcome", "why_tests_cant": "All outcomes.", "anchors": ["src/pylattica/core/basic_controller.py:BasicController.get_random_site"]}
{"id": "C30", "title": "get_step replays the diffs whatever was cached", "statement": "After any history of add_step, load_steps(interval) and get_step calls, get_step(k) for 0 <= k < len equals the initial state with the first k diffs applied.", "quantifier": "every history of calls, every interval, every k", "why_tests_cant": "Cache/history interactions.", "anchors": ["src/pylattica/core/simulation_result.py:SimulationResult.get_step", "src/pylattica/core/simulation_result.py:SimulationResult.load_steps", "src/pylattica/core/simulation_result.py:SimulationResult.add_step"]}
{"id": "C31", "title": "step numbers out of range are rejected", "statement": "get_step(k) raises for every k outside 0..len-1.", "quantifier": "every result and integer k", "why_tests_cant": "All k.", "anchors": ["src/pylattica/core/simulation_result.py:SimulationResult.get_step"]}
{"id": "C32", "title": "steps() yields every step", "statement": "Iterating result.steps() yields the state of step 0, 1, ..., len-1 in order.", "quantifier": "every result", "why_tests_cant": "All lengths.", "anchors": ["src/pylattica/core/simulation_result.py:SimulationResult.steps"]}
{"id": "C33", "title": "states handed out are snapshots", "statement": "A state obtained from get_step or steps() stays what it was at that step, and changing it does not change what the result later reports.", "quantifier": "every result and interleaving of calls and mutations", "why_tests_cant": "Aliasing interleavings.", "anchors": ["src/pylattica/core/simulation_result.py:SimulationResult.steps", "src/pylattica/core/simulation_result.py:SimulationResult.get_step", "src/pylattica/core/simulation_result.py:SimulationResult.load_steps"]}
{"id": "C34", "title": "load_steps stores the requested interval", "statement": "After load_steps(m) on a fresh result the cached step numbers are 0 and exactly the multiples of m up to len-1.", "quantifier": "every result and m >= 1", "why_tests_cant": "All lengths and intervals.", "anchors": ["src/pylattica/core/simulation_result.py:SimulationResult.load_steps"]}
{"id": "C35", "title": "results survive serialisation", "statement": "A result recorded by a runner, written with as_dict/to_file and read back, reports equal states for every step.", "quantifier": "every result", "why_tests_cant": "All results.", "anchors": ["src/pylattica/core/simulation_result.py:SimulationResult.as_dict", "src/pylattica/core/simulation_result.py:SimulationResult.from_dict"]}
{"id": "C36", "title": "coordinate conversions are inverse", "statement": "get_fractional_coords and get_cartesian_coords are inverse to each other on every lattice with independent vectors.", "quantifier": "every dimension, lattice and point (exact arithmetic)", "why_tests_cant": "All reals.", "anchors": ["src/pylattica/core/lattice.py:Lattice.get_cartesian_coords", "src/pylattica/core/lattice.py:Lattice.get_fractional_coords"]}
{"id": "C37", "title": "periodization lands in the cell and is canonical", "statement": "get_periodized_cartesian_coords moves a point by an integer combination of the periodic lattice vectors to fractional coordinates in [0,1) on periodic axes, leaves non-periodic axes untouched, is idempotent, and gives equal results for points that differ by periodic lattice translations.", "quantifier": "every lattice, periodicity flags, point", "why_tests_cant": "All reals, all flag combinations.", "anchors": ["src/pylattica/core/lattice.py:periodize", "src/pylattica/core/lattice.py:Lattice.get_periodized_cartesian_coords"]}
{"id": "C38", "title": "scaled lattices", "statement": "get_scaled_lattice(n) multiplies each vector by its count, keeps periodicity, composes multiplicatively, and every translation of the scaled lattice is a translation of the original.", "quantifier": "every lattice and counts", "why_tests_cant": "All sizes.", "anchors": ["src/pylattica/core/lattice.py:Lattice.get_scaled_lattice"]}
{"id": "C39", "title": "periodic distance is symmetric and a pseudo-distance on the torus", "statement": "cartesian_periodic_distance(a,b) = cartesian_periodic_distance(b,a) >= 0 and is 0 when a and b are images of one another.", "quantifier": "every lattice and pair of points", "why_tests_cant": "All reals, rounding ties.", "anchors": ["src/pylattica/core/lattice.py:Lattice.cartesian_periodic_distance", "src/pylattica/core/lattice.py:pbc_diff_cart", "src/pylattica/core/lattice.py:pbc_diff_frac_vec"]}
{"id": "C40", "title": "periodic distance ignores the choice of image", "statement": "cartesian_periodic_distance is unchanged when either point is moved by a periodic lattice translation.", "quantifier": "every lattice, points, translations", "why_tests_cant": "Ties at half a cell.", "anchors": ["src/pylattica/core/lattice.py:pbc_diff_frac_vec"]}
{"id": "C41", "title": "periodic distance is the minimum-image distance", "statement": "cartesian_periodic_distance(a,b) is the (rounded) smallest distance between a and any periodic image of b.", "quantifier": "every lattice and pair of points", "why_tests_cant": "All images.", "anchors": ["src/pylattica/core/lattice.py:pbc_diff_cart"]}
{"id": "C42", "title": "lattice serialisation", "statement": "Lattice.from_dict(lattice.as_dict()) (also through JSON) has the same vectors and periodicity.", "quantifier": "every lattice", "why_tests_cant": "All lattices.", "anchors": ["src/pylattica/core/lattice.py:Lattice.as_dict", "src/pylattica/core/lattice.py:Lattice.from_dict"]}
{"id": "C43", "title": "site ids are 0..n-1 in order of addition", "statement": "After any history of add_site calls the k-th successful one returned id k, site_ids is [0..n-1], and get_site(k) has _site_id k with the class and (periodized, rounded) location supplied.", "quantifier": "every history of add_site calls, including failing ones", "why_tests_cant": "All histories.", "anchors": ["src/pylattica/core/periodic_structure.py:PeriodicStructure.add_site", "src/pylattica/core/periodic_structure.py:PeriodicStructure.get_site"]}
{"id": "C44", "title": "no two sites share a position", "statement": "add_site raises AssertionError iff a site with the same rounded periodized position exists, and then changes nothing; so all sites of a structure have pairwise different positions.", "quantifier": "every history", "why_tests_cant": "All histories.", "anchors": ["src/pylattica/core/periodic_structure.py:PeriodicStructure.add_site"]}
{"id": "C45", "title": "a site is found at its location and at every periodic image", "statement": "After add_site(c, loc) returned i, site_at(loc') is site i for every loc' differing from loc by periodic lattice translations, and stays so after any later additions; site_at returns None where nothing with that rounded position was added.", "quantifier": "every history and location", "why_tests_cant": "All images, all later additions.", "anchors": ["src/pylattica/core/periodic_structure.py:PeriodicStructure.site_at", "src/pylattica/core/periodic_structure.py:PeriodicStructure.id_at", "src/pylattica/core/periodic_structure.py:PeriodicStructure.class_at"]}
{"id": "C46", "title": "a site is found at its stored location", "statement": "For every site, site_at(site_location(i)) is site i.", "quantifier": "every structure and site", "why_tests_cant": "Rounding boundary cases.", "anchors": ["src/pylattica/core/periodic_structure.py:PeriodicStructure.site_at", "src/pylattica/core/periodic_structure.py:PeriodicStructure.site_location"]}
{"id": "C47", "title": "structures survive serialisation", "statement": "PeriodicStructure.from_dict(as_dict()) succeeds and has the same sites (ids, classes, locations) and the same lookups.", "quantifier": "every structure", "why_tests_cant": "Rounding boundary cases.", "anchors": ["src/pylattica/core/periodic_structure.py:PeriodicStructure.as_dict", "src/pylattica/core/periodic_structure.py:PeriodicStructure.from_dict"]}
{"id": "C48", "title": "class queries partition the sites", "statement": "sites(c) lists exactly the sites of class c in id order, all_site_classes() lists each occurring class once, and the sizes of sites(c) over it add up to the number of sites.", "quantifier": "every structure and class", "why_tests_cant": "All structures.", "anchors": ["src/pylattica/core/periodic_structure.py:PeriodicStructure.sites", "src/pylattica/core/periodic_structure.py:PeriodicStructure.all_site_classes"]}
{"id": "C49", "title": "build_from tiles the motif", "statement": "build_from(lattice, n, motif) has prod(n) * |motif| sites: for each cell, one site of the right class at motif position + cell translation.", "quantifier": "every lattice, size and motif whose positions stay distinct", "why_tests_cant": "All sizes and lattices.", "anchors": ["src/pylattica/core/periodic_structure.py:PeriodicStructure.build_from"]}
{"id": "C50", "title": "builder size argument", "statement": "StructureBuilder.build(k) with an int builds k cells along every axis; a tuple must have one entry per axis, otherwise ValueError.", "quantifier": "every builder and size", "why_tests_cant": "All sizes.", "anchors": ["src/pylattica/core/structure_builder.py:StructureBuilder.build"]}
{"id": "C51", "title": "get_points_in_box enumerates the box", "statement": "get_points_in_box(lbs, ubs) lists every integer point with lb <= x < ub exactly once, in lexicographic order; the count is the product of the extents (0 if some extent is non-positive).", "quantifier": "all bounds and dimensions", "why_tests_cant": "All sizes.", "anchors": ["src/pylattica/core/coordinate_utils.py:get_points_in_box", "src/pylattica/core/coordinate_utils.py:get_points_in_cube"]}
{"id": "C52", "title": "square grids are complete tori", "statement": "SimpleSquare2D/3DStructureBuilder().build(size) has exactly one site for each integer coordinate in the box, and site_at of any integer location is the site at that location modulo the size.", "quantifier": "every size >= 1 per axis and every integer location", "why_tests_cant": "All sizes.", "anchors": ["src/pylattica/structures/square_grid/structure_builders.py:SimpleSquare2DStructureBuilder", "src/pylattica/structures/square_grid/structure_builders.py:SimpleSquare3DStructureBuilder", "src/pylattica/structures/square_grid/lattice.py:SquareGridLattice2D"]}
{"id": "C53", "title": "Moore neighbourhoods", "statement": "On a square grid the Moore builder of size r gives each site exactly the other sites whose torus Chebyshev distance is <= r; there are (2r+1)^d - 1 of them when the grid is at least 2r+1 wide.", "quantifier": "every r, grid size, site; 2D and 3D", "why_tests_cant": "All sizes and wraparounds.", "anchors": ["src/pylattica/structures/square_grid/neighborhoods.py:MooreNbHoodBuilder", "src/pylattica/core/neighborhood_builders.py:MotifNeighborhoodBuilder"]}
{"id": "C54", "title": "von Neumann neighbourhoods", "statement": "On a square grid the von Neumann builder of size r gives each site exactly the other sites whose torus Manhattan distance is <= r.", "quantifier": "every r, grid size, site; 2D and 3D", "why_tests_cant": "All sizes and wraparounds.", "anchors": ["src/pylattica/structures/square_grid/neighborhoods.py:VonNeumannNbHood2DBuilder", "src/pylattica/structures/square_grid/neighborhoods.py:VonNeumannNbHood3DBuilder"]}
{"id": "C55", "title": "neighbourhoods never contain the site itself or unknown sites", "statement": "For every builder and structure, neighbors_of(i) contains only ids of the structure and never i.", "quantifier": "every structure, builder, site", "why_tests_cant": "All structures.", "anchors": ["src/pylattica/core/neighborhood_builders.py:NeighborhoodBuilder.get", "src/pylattica/core/neighborhoods.py:Neighborhood.neighbors_of"]}
{"id": "C56", "title": "distance neighbourhoods are symmetric", "statement": "With Distance or Annular builders j is a neighbour of i iff i is a neighbour of j, with the same weight, and the weight lies strictly inside the cutoff (annulus).", "quantifier": "every structure, cutoff and pair", "why_tests_cant": "All pairs.", "anchors": ["src/pylattica/core/neighborhood_builders.py:DistanceNeighborhoodBuilder", "src/pylattica/core/neighborhood_builders.py:AnnularNeighborhoodBuilder"]}
{"id": "C57", "title": "motif neighbourhoods follow the offsets", "statement": "With a motif builder, j is a neighbour of i iff j != i and j sits at the location of i plus some motif offset; if the motif is closed under negation the relation is symmetric on aligned structures.", "quantifier": "every structure, motif and pair", "why_tests_cant": "All pairs.", "anchors": ["src/pylattica/core/neighborhood_builders.py:MotifNeighborhoodBuilder"]}
{"id": "C58", "title": "motif builder at open boundaries", "statement": "On a structure where some site plus offset is empty (e.g. non-periodic boundary), building a motif neighbourhood raises TypeError instead of returning a truncated neighbourhood.", "quantifier": "every structure and motif", "why_tests_cant": "All boundaries.", "anchors": ["src/pylattica/core/neighborhood_builders.py:MotifNeighborhoodBuilder.get_neighbors", "src/pylattica/core/neighborhood_builders.py:NeighborhoodBuilder.get"]}
{"id": "C59", "title": "class and stochastic neighbourhoods", "statement": "SiteClassNeighborhood answers with the neighbours given by the builder of the site's class and [] for classes without builder; StochasticNeighborhood always answers with one of its member neighbourhoods.", "quantifier": "every structure, builder map, random outcome", "why_tests_cant": "All outcomes.", "anchors": ["src/pylattica/core/neighborhoods.py:SiteClassNeighborhood", "src/pylattica/core/neighborhoods.py:StochasticNeighborhood", "src/pylattica/core/neighborhood_builders.py:SiteClassNeighborhoodBuilder"]}
{"id": "C60", "title": "Game of Life computes Life", "statement": "Running GameOfLifeController(variant) with the serial runner on a square grid makes step k the k-th iterate of the B/S rule on the torus.", "quantifier": "every variant, grid size, initial pattern, step count", "why_tests_cant": "All patterns.", "anchors": ["src/pylattica/models/game_of_life/controller.py:GameOfLifeController"]}
{"id": "C61", "title": "variant strings", "statement": "process_variant_string('B'+b+'/S'+s) gives the digits of b as birth counts and of s as survival counts.", "quantifier": "all digit strings", "why_tests_cant": "All strings.", "anchors": ["src/pylattica/models/game_of_life/controller.py:process_variant_string"]}
{"id": "C62", "title": "growth never overwrites", "statement": "Under GrowthController an occupied cell keeps its phase for the rest of the run; a background cell becomes occupied at a step iff some neighbour was occupied, and takes a phase of maximal count among its neighbours.", "quantifier": "every neighbourhood, state and step", "why_tests_cant": "All configurations.", "anchors": ["src/pylattica/models/growth/growth_controller.py:GrowthController"]}
{"id": "C63", "title": "growth front speed and completion", "statement": "With a Moore neighbourhood of size 1 on an n-wide grid, after k steps exactly the cells within torus Chebyshev distance k of a seed are occupied; after n steps everything is, if there was a seed.", "quantifier": "every seed set, n, k", "why_tests_cant": "All configurations.", "anchors": ["src/pylattica/models/growth/growth_controller.py:GrowthController", "src/pylattica/structures/square_grid/growth_setup.py:GrowthSetup.grow"]}
{"id": "C64", "title": "interface setup", "statement": "setup_interface(n,p1,p2) gives p1 to the sites with first coordinate < n//2 and p2 to the others.", "quantifier": "every n and phases", "why_tests_cant": "All sizes.", "anchors": ["src/pylattica/structures/square_grid/grid_setup.py:DiscreteGridSetup.setup_interface"]}
{"id": "C65", "title": "particle setup", "statement": "setup_particle gives the particle phase exactly to the sites closer than radius to the centre (plain Euclidean, not periodic), bulk elsewhere.", "quantifier": "every size, radius, phases", "why_tests_cant": "All sizes.", "anchors": ["src/pylattica/structures/square_grid/grid_setup.py:DiscreteGridSetup.setup_particle", "src/pylattica/structures/square_grid/grid_setup.py:DiscreteGridSetup.add_particle_to_state"]}
{"id": "C66", "title": "coordinate setup", "statement": "setup_coords gives the listed phase at each listed coordinate (last listed wins, coordinates wrap) and background elsewhere; an off-grid coordinate raises.", "quantifier": "every size and coordinate lists", "why_tests_cant": "All lists.", "anchors": ["src/pylattica/structures/square_grid/grid_setup.py:DiscreteGridSetup.setup_coords"]}
{"id": "C67", "title": "random site setup: counts and spacing", "statement": "When setup_random_sites returns, exactly num_sites_desired sites are non-background, and any two of them are more than buffer apart in torus Chebyshev distance (background not among the nucleus phases).", "quantifier": "every random outcome, size, count, buffer", "why_tests_cant": "All random outcomes.", "anchors": ["src/pylattica/structures/square_grid/grid_setup.py:DiscreteGridSetup.setup_random_sites"]}
{"id": "C68", "title": "random site setup: quotas and termination", "statement": "The per-phase counts add up to num_sites_desired and no phase exceeds its proportional share rounded up; the quota loop terminates for positive amounts, and the placement loop makes at most 1000*num+1 attempts before RuntimeError.", "quantifier": "every nuc_amts with positive amounts, every count, every random outcome", "why_tests_cant": "All ratios and outcomes.", "anchors": ["src/pylattica/structures/square_grid/grid_setup.py:DiscreteGridSetup.setup_random_sites"]}
{"id": "C69", "title": "noise setup", "statement": "setup_noise assigns every site one of the given phases.", "quantifier": "every size, phases, random outcome", "why_tests_cant": "All outcomes.", "anchors": ["src/pylattica/structures/square_grid/grid_setup.py:DiscreteGridSetup.setup_noise"]}
{"id": "C70", "title": "analyzer queries are exact", "statement": "get_sites returns, in order and without repetition, exactly the ids of the (class-restricted) sites whose state meets all criteria; get_site_count is its length; where_equal means all listed keys have the listed values.", "quantifier": "every state, structure, criteria", "why_tests_cant": "All states.", "anchors": ["src/pylattica/core/analyzer.py:StateAnalyzer.get_sites", "src/pylattica/core/analyzer.py:StateAnalyzer.get_sites_where_equal", "src/pylattica/core/analyzer.py:StateAnalyzer.get_site_count"]}
{"id": "C71", "title": "phase counts partition the sites", "statement": "Over phases_present(state), cell_count adds up to size and cell_fraction adds up to 1 (nonempty state whose sites all have an occupancy).", "quantifier": "every state", "why_tests_cant": "All states.", "anchors": ["src/pylattica/discrete/discrete_step_analyzer.py:DiscreteStepAnalyzer"]}
{"id": "C72", "title": "all_phases covers the whole result", "statement": "all_phases() contains every phase present at any step of the result, and final_phase_fractions adds up to 1.", "quantifier": "every result", "why_tests_cant": "All results.", "anchors": ["src/pylattica/discrete/discrete_state_result_analyzer.py:DiscreteResultAnalyzer.all_phases", "src/pylattica/discrete/discrete_state_result_analyzer.py:DiscreteResultAnalyzer.final_phase_fractions"]}
{"id": "C73", "title": "plot sampling stays in range", "statement": "The step numbers sampled for plotting start at 0, are strictly increasing, all valid, and at most 150 in number.", "quantifier": "every result length", "why_tests_cant": "All lengths.", "anchors": ["src/pylattica/discrete/discrete_state_result_analyzer.py:DiscreteResultAnalyzer._get_steps_to_plot"]}
{"id": "C74", "title": "colour maps", "statement": "build_color_map_from_phase_list gives every listed phase a palette colour, and different phases different colours.", "quantifier": "every phase list", "why_tests_cant": "All lengths.", "anchors": ["src/pylattica/visualization/cell_artist.py:DiscreteCellArtist.build_color_map_from_phase_list", "src/pylattica/visualization/helpers.py:color_map", "src/pylattica/visualization/colors.py:COLORS"]}
{"id": "C75", "title": "legend", "statement": "get_legend has one entry per label occurring in the state, with the colour of the first site carrying it.", "quantifier": "every state and artist", "why_tests_cant": "All states.", "anchors": ["src/pylattica/visualization/cell_artist.py:CellArtist.get_legend"]}
{"id": "C76", "title": "2D drawing", "statement": "On an n x n square grid every site's cell_size x cell_size block is inside the image, blocks of different sites do not overlap each other or the legend, and each pixel of the block has the site's colour.", "quantifier": "every n, cell size, state", "why_tests_cant": "All sizes.", "anchors": ["src/pylattica/visualization/square_grid_artist_2D.py:SquareGridArtist2D._draw_image"]}
{"id": "C77", "title": "animation frames", "statement": "_get_images returns one image per step number 0, f, 2f, ... < len in order, each drawn from that step, and to_gif leaves no temporary file behind.", "quantifier": "every result and frequency", "why_tests_cant": "All lengths.", "anchors": ["src/pylattica/visualization/result_artist.py:ResultArtist"]}
{"id": "C78", "title": "honeycomb structure", "statement": "HoneycombTilingBuilder().build(n) gives every site exactly six neighbours under HoneycombNeighborhoodBuilder for n >= 3.", "quantifier": "every n >= 3", "why_tests_cant": "All sizes.", "anchors": ["src/pylattica/structures/honeycomb/structure_builders.py:HoneycombTilingBuilder", "src/pylattica/structures/honeycomb/neighborhoods.py:HoneycombNeighborhoodBuilder"]}
{"id": "C79", "title": "pymatgen conversion", "statement": "Converting a pymatgen structure builds one site per input site with its species as class and occupancy, and converting back gives the same species and fractional coordinates (up to the stored rounding).", "quantifier": "every structure with distinct positions", "why_tests_cant": "All structures.", "anchors": ["src/pylattica/atomic/pymatgen_struct_converter.py:PymatgenStructureConverter"]}
{"id": "C80", "title": "distance maps", "statement": "EuclideanDistanceMap/ManhattanDistanceMap return for each listed offset its (rounded) distance from the origin, None for others, and are symmetric under negation.", "quantifier": "every list of offsets", "why_tests_cant": "All offsets.", "anchors": ["src/pylattica/core/distance_map.py:DistanceMap"]}
{"id": "C81", "title": "a fresh state covers exactly the structure", "statement": "SimulationState.from_struct(structure) has exactly the structure's site ids, in the structure's order; every site's state is {'_site_id': id} and get_general_state() is {}.", "quantifier": "every structure", "why_tests_cant": "Tests build one or two small structures.", "anchors": ["src/pylattica/core/simulation_state.py:SimulationState.from_struct"]}
{"id": "C82", "title": "stochastic square-grid neighbourhoods", "statement": "On a square grid at least 3 wide, the PseudoHexagonal 2D, PseudoHexagonal 3D and PseudoPentagonal neighbourhoods give each site exactly 6, 8 and 5 different other sites, all at torus Chebyshev distance 1, whichever member random.choice picks.", "quantifier": "every grid size >= 3, every site, every random outcome", "why_tests_cant": "all grid sizes and all random outcomes", "anchors": ["src/pylattica/structures/square_grid/neighborhoods.py:73-167", "src/pylattica/core/neighborhoods.py:65-72"]}
{"id": "C83", "title": "random particle setup", "statement": "setup_random_particles(size, radius, num_particles, bulk, particle_phases) drops num_particles balls of the given radius around grid points; a site covered by some ball holds the phase of the last ball covering it, every other site the bulk phase, and the balls hold the phase named by particle_phases.", "quantifier": "every size, radius, number of particles, phases and random outcome", "why_tests_cant": "The centres and phases are drawn at random, so any finite set of runs sees only some overlaps; the documented argument (one phase name) misbehaves only for names of more than one character.", "anchors": ["src/pylattica/structures/square_grid/grid_setup.py:DiscreteGridSetup.setup_random_particles", "src/pylattica/structures/square_grid/grid_setup.py:DiscreteGridSetup.add_particle_to_state"]}
{"id": "C84", "title": "phase fraction plot", "statement": "plot_phase_fractions draws exactly one trace for every phase of the result whose fraction exceeds min_prevalence at some plotted step; the x values are the plotted step numbers and the y values the phase's fractions at those steps; the x axis ends at the last plotted step.", "quantifier": "every result and threshold", "why_tests_cant": "All results; a phase that appears only in the last step is an easily missed case.", "anchors": ["src/pylattica/discrete/discrete_state_result_analyzer.py:DiscreteResultAnalyzer.plot_phase_fractions"]}
{"id": "C85", "title": "colours of the cells", "statement": "The artists made by from_discrete_state and from_discrete_result give every cell of the state, or of every step of the result, a palette colour that depends only on its phase and is never black.", "quantifier": "every state and every result", "why_tests_cant": "All results; a phase that appears only in the last step is an easily missed case.", "anchors": ["src/pylattica/visualization/cell_artist.py:DiscreteCellArtist.from_discrete_state", "src/pylattica/visualization/cell_artist.py:DiscreteCellArtist.from_discrete_result", "src/pylattica/visualization/cell_artist.py:DiscreteCellArtist.get_color_from_cell_state"]}
{"id": "C86", "title": "3D drawing", "statement": "For a cubic grid the 3D artist fills each site's cell in the voxel array of the site's colour and in no other colour's array, and fills no other cell; it recovers the side of the cube from the number of sites; boxes that are longer than that along some axis raise IndexError.", "quantifier": "every side, state and cell artist", "why_tests_cant": "All sizes and states; the side is computed from a cube root.", "anchors": ["src/pylattica/visualization/square_grid_artist_3D.py:SquareGridArtist3D._draw_image"]}
{"id": "C87", "title": "3D drawing of the shell", "statement": "With shell_only the 3D artist draws exactly the sites on the visible faces of the cube (y = 0, and the upper x and z faces).", "quantifier": "every side and state", "why_tests_cant": "The rendered picture is not compared with the faces of the cube.", "anchors": ["src/pylattica/visualization/square_grid_artist_3D.py:SquareGridArtist3D._draw_image"]}
{"id": "C88", "title": "pylattica to pymatgen and back", "statement": "Converting a PeriodicStructure to pymatgen and back gives a structure on the same lattice with the same number of sites and, at every stored location, a site of the same class.", "quantifier": "every PeriodicStructure", "why_tests_cant": "All structures, including sites whose stored locations coincide after rounding.", "anchors": ["src/pylattica/atomic/pymatgen_struct_converter.py:PymatgenStructureConverter.to_pymatgen_structure", "src/pylattica/atomic/pymatgen_struct_converter.py:PymatgenStructureConverter.to_pylattica_structure_and_state"]}
{"id": "C89", "title": "What a parallel worker sees", "statement": "In a parallel synchronous run, what is recorded for a site at step k is the rule's answer on the state made of the initial state and the recorded updates of exactly those earlier steps at which the executing worker received a batch afterwards; these always include the step just before.", "quantifier": "every site-local rule, initial state, number of workers, number of steps and assignment of batches to workers", "why_tests_cant": "Which worker gets which batch is decided by the operating system; tests see a handful of schedules.", "anchors": ["src/pylattica/core/runner/synchronous_runner.py:SynchronousRunner._run", "src/pylattica/core/runner/synchronous_runner.py:SynchronousRunner._take_step_parallel", "src/pylattica/core/runner/synchronous_runner.py:_step_batch_parallel"]}
{"id": "C90", "title": "Growth with the parallel runner", "statement": "A growth simulation run by the parallel synchronous runner succeeds; every site has the background phase or a phase of the initial state, occupied sites are never emptied, seeds keep their phase, and at every step exactly those sites are occupied that a serial run with the same controller occupies at that step.", "quantifier": "every structure, neighbourhood, initial phase state, number of workers, number of steps and assignment of batches to workers", "why_tests_cant": "The assignment of batches to workers is decided by the operating system and workers compute from stale states.", "anchors": ["src/pylattica/models/growth/growth_controller.py:GrowthController.get_state_update", "src/pylattica/core/runner/synchronous_runner.py:SynchronousRunner._run"]}
{"id": "C91", "title": "Parallel growth grows outwards only", "statement": "In a growth simulation run by the parallel synchronous runner, every step is a growth step: an occupied site keeps its phase, and a background site takes the phase of one of its neighbours occupied in the previous step.", "quantifier": "every structure, neighbourhood, initial phase state, number of workers, number of steps and assignment of batches to workers", "why_tests_cant": "A violation needs a worker that receives no batch in one step and one in the next.", "anchors": ["src/pylattica/models/growth/growth_controller.py:GrowthController.get_state_update", "src/pylattica/core/runner/synchronous_runner.py:_step_batch_parallel"]}
{"id": "C92", "title": "GrowthSetup.grow fills the grid", "statement": "grow returns a simulation in which a site is occupied exactly if a nucleus is within size hops of it in the growth neighbourhood; nuclei keep their phase and every phase is the background or one of nuc_amts; with the default neighbourhood and at least one nucleus no background is left.", "quantifier": "every size, number of sites, buffer, amounts, random choices, number of workers and assignment of batches to workers", "why_tests_cant": "All grid sizes, nucleation sites and schedules.", "anchors": ["src/pylattica/structures/square_grid/growth_setup.py:GrowthSetup.grow"]}
{"id": "C93", "title": "Simulations survive serialisation", "statement": "from_dict(as_dict()) and from_file after to_file give a simulation with the same state and the same structure (same lattice, sites, ids, classes, locations and lookups).", "quantifier": "every simulation whose state has int site ids and JSON-representable values", "why_tests_cant": "All structures and states, including sites whose stored locations collide after rounding.", "anchors": ["src/pylattica/core/simulation.py:Simulation.as_dict", "src/pylattica/core/simulation.py:Simulation.from_dict", "src/pylattica/core/simulation.py:Simulation.to_file", "src/pylattica/core/simulation.py:Simulation.from_file"]}
{"id": "C94", "title": "state_at finds the state of the site at a location", "statement": "state_at(x) is the state of the site at the place of x (periodic images included), and None if there is no site or the state does not know it; on a square grid the state of the cell at x modulo the size for integer x, and None away from integer points.", "quantifier": "every structure made by add_site calls, every state, every location", "why_tests_cant": "All locations and periodic images.", "anchors": ["src/pylattica/core/simulation.py:Simulation.state_at", "src/pylattica/core/periodic_structure.py:PeriodicStructure.site_at"]}
{"id": "C95", "title": "Game of Life in parallel", "statement": "With the parallel synchronous runner, step k of a Game of Life run on a square grid shows the k-th generation of the starting pattern, for any number of workers and any assignment of chunks to workers.", "quantifier": "every grid size, pattern, B/S variant, run length, worker count and schedule", "why_tests_cant": "All schedules of a process pool and all patterns; a test sees one schedule per run.", "anchors": ["src/pylattica/models/game_of_life/controller.py:GameOfLifeController", "src/pylattica/core/runner/synchronous_runner.py:SynchronousRunner._run"]}
{"id": "C96", "title": "Game of Life asynchronously", "statement": "With the asynchronous runner and the inherited get_random_site, step k of a Game of Life run shows the pattern after k single-cell updates: the drawn cell takes its next-generation value computed from the current pattern, all other cells stay; every sequence of cells can be drawn.", "quantifier": "every grid size, pattern, B/S variant, run length and outcome of the random draws", "why_tests_cant": "All outcomes of the random draws.", "anchors": ["src/pylattica/core/runner/asynchronous_runner.py:AsynchronousRunner._run", "src/pylattica/core/basic_controller.py:BasicController.get_random_site", "src/pylattica/models/game_of_life/controller.py:GameOfLifeController"]}
{"id": "C97", "title": "Growth asynchronously", "statement": "With the asynchronous runner, each step of a growth simulation changes at most the drawn site, which keeps its phase unless it is background and then becomes background or a phase of one of its neighbours; grown sites are never overwritten.", "quantifier": "every starting state, neighbourhood (also random), run length and outcome of the random draws", "why_tests_cant": "All outcomes of the random draws and all run lengths.", "anchors": ["src/pylattica/core/runner/asynchronous_runner.py:AsynchronousRunner._run", "src/pylattica/core/basic_controller.py:BasicController.get_random_site", "src/pylattica/models/growth/growth_controller.py:GrowthController"]}
{"id": "C98", "title": "Distance neighbourhoods hold the sites inside the cutoff", "statement": "With a Distance (Annular) builder, j is a neighbour of i iff j is another site and the closest periodic image of j is inside the cutoff (annulus), and the weight is that distance rounded to thousandths.", "quantifier": "every structure, cutoff and pair of sites", "why_tests_cant": "All lattices, skew ones included, and all placements of sites relative to the cell boundary.", "anchors": ["src/pylattica/core/neighborhood_builders.py:DistanceNeighborhoodBuilder.get_neighbors", "src/pylattica/core/neighborhood_builders.py:AnnularNeighborhoodBuilder.get_neighbors", "src/pylattica/core/lattice.py:Lattice.cartesian_periodic_distance"]}
{"id": "C99", "title": "Square grids in double precision", "statement": "With coordinates computed in double precision, the square grid builders succeed and return exactly one site of class _A per integer location of the box, stored at exactly that location, and site_at finds every site at its own location.", "quantifier": "every size from 1 to 2^30 per axis, 2D and 3D, int and tuple sizes", "why_tests_cant": "Rounding errors differ from size to size; tests look at a few small sizes.", "anchors": ["src/pylattica/structures/square_grid/structure_builders.py:SimpleSquare2DStructureBuilder", "src/pylattica/structures/square_grid/structure_builders.py:SimpleSquare3DStructureBuilder", "src/pylattica/core/periodic_structure.py:PeriodicStructure.build_from", "src/pylattica/core/periodic_structure.py:PeriodicStructure.site_at", "src/pylattica/core/lattice.py:Lattice.get_periodized_cartesian_coords"]}
{"id": "C100", "title": "Periodic lookups and neighbourhoods in double precision", "statement": "With coordinates computed in double precision, site_at wraps integer locations around the grid, and the Moore and von Neumann builders return the sites within the torus distance.", "quantifier": "every size from 1 to 2^30 per axis, 2D and 3D, every integer location up to one period away, every neighbourhood size up to the size of the grid", "why_tests_cant": "Whether n * (1/n) is 1 in floating point depends on n; the first size that fails is 49.", "anchors": ["src/pylattica/core/periodic_structure.py:PeriodicStructure.site_at", "src/pylattica/core/lattice.py:periodize", "src/pylattica/core/lattice.py:Lattice.get_fractional_coords", "src/pylattica/structures/square_grid/neighborhoods.py:MooreNbHoodBuilder", "src/pylattica/structures/square_grid/neighborhoods.py:VonNeumannNbHood2DBuilder"]}
{"id": "C101", "title": "Game of Life in double precision", "statement": "With the coordinates of the grid computed in double precision, a run of the Game of Life controller shows the generations of the rule on the torus.", "quantifier": "every grid of 1 to 2^30 cells per axis, every rule given by birth and survival digits, every pattern, every number of steps", "why_tests_cant": "The tests use a few small grids; the first size on which the neighbourhood cannot be built in floating point is 49.", "anchors": ["src/pylattica/models/game_of_life/controller.py:GameOfLifeController", "src/pylattica/structures/square_grid/neighborhoods.py:MooreNbHoodBuilder", "src/pylattica/core/periodic_structure.py:PeriodicStructure.site_at"]}
{"id": "C102", "title": "Distances in double precision", "statement": "On square grids the periodic distance of two sites, computed in double precision, is the double nearest to the exact torus distance rounded to three decimals; it is symmetric, zero only between a site and itself and at least 1 otherwise.", "quantifier": "every 2D and 3D grid with 1 to 4096 sites per axis, every pair of sites, every summation order that is accurate to 50 binary digits", "why_tests_cant": "Rounding errors of several operations add up before the result is rounded to three decimals; whether they can ever push a distance over a half-way point needs a bound for all pairs.", "anchors": ["src/pylattica/core/lattice.py:pbc_diff_cart", "src/pylattica/core/lattice.py:Lattice.cartesian_periodic_distance"]}
{"id": "C103", "title": "Distance neighbourhoods in double precision", "statement": "On square grids the Distance, Circular and Annular builders succeed in double precision for every size; with radii of three decimals the neighbours are exactly the other sites whose torus distance, rounded to three decimals, is strictly inside, and the weight is that distance.", "quantifier": "every 2D and 3D grid with 1 to 4096 sites per axis, every cutoff (annulus), every pair of sites", "why_tests_cant": "A distance equal to the cutoff up to rounding errors could fall on either side; tests look at a few cutoffs only.", "anchors": ["src/pylattica/core/neighborhood_builders.py:DistanceNeighborhoodBuilder", "src/pylattica/core/neighborhood_builders.py:AnnularNeighborhoodBuilder", "src/pylattica/structures/square_grid/neighborhoods.py:CircularNeighborhoodBuilder", "src/pylattica/core/lattice.py:Lattice.cartesian_periodic_distance"]}
{"id": "C104", "title": "Random sites in double precision", "statement": "With coordinates, shares and amounts in double precision, when setup_random_sites returns exactly num_sites_desired sites are non-background and any two are more than buffer apart; every arrangement that keeps the buffer can be drawn; the call ends with a simulation or RuntimeError.", "quantifier": "every 2D and 3D grid with 1 to 2^30 sites per axis, every count, buffer up to the size of the grid, positive double amounts, order of the additions in np.sum and random outcome", "why_tests_cant": "The quota loop compares a counter with rounded shares; whether it can run out of phases before the last site needs a bound on the rounding errors for all amounts. The neighbourhood fails for some sizes only, the first is 49.", "anchors": ["src/pylattica/structures/square_grid/grid_setup.py:DiscreteGridSetup.setup_random_sites"]}
{"id": "C105", "title": "Quotas of random sites in double precision", "statement": "With shares computed in double precision, the per-phase counts of setup_random_sites add up to num_sites_desired and no phase exceeds its proportional share rounded up.", "quantifier": "every nuc_amts with positive double amounts, every count with count * (phases + 2) at most 2^52, every order of the additions in np.sum, every random outcome", "why_tests_cant": "a / total * num can be larger than an integer share by one rounding error, which gives one site too many; only certain ratios show it (7 of 100 does).", "anchors": ["src/pylattica/structures/square_grid/grid_setup.py:DiscreteGridSetup.setup_random_sites"]}
{"id": "C106", "title": "Interface and particle setups in double precision", "statement": "With lengths and distances computed in double precision, setup_interface splits the grid at n // 2, and setup_particle gives the particle phase exactly to the sites closer than radius to the centre of the grid.", "quantifier": "every 2D and 3D size up to 2^25 (interface) or 2^20 (particle), every double radius, every order in which numpy may sum squares, with or without fused multiply-add", "why_tests_cant": "Whether a rounded square root is below the radius depends on the last bit; only radii within one rounding error of the distance of a site show a difference.", "anchors": ["src/pylattica/structures/square_grid/grid_setup.py:DiscreteGridSetup.setup_interface", "src/pylattica/structures/square_grid/grid_setup.py:DiscreteGridSetup.setup_particle", "src/pylattica/structures/square_grid/grid_setup.py:DiscreteGridSetup.add_particle_to_state", "src/pylattica/core/distance_map.py:distance"]}
{"id": "C107", "title": "Random particles and noise in double precision", "statement": "With distances computed in double precision, random particles cover exactly the balls around the drawn grid points, the last one wins and everything else is bulk; setup_noise gives every site one of the phases and can give every filling.", "quantifier": "every 2D and 3D size up to 2^20 (particles) or 2^30 (noise), every number of particles, every radius, every random outcome, every order in which numpy may sum squares", "why_tests_cant": "All random outcomes, and radii for which the rounding of a distance decides.", "anchors": ["src/pylattica/structures/square_grid/grid_setup.py:DiscreteGridSetup.setup_random_particles", "src/pylattica/structures/square_grid/grid_setup.py:DiscreteGridSetup.add_particle_to_state", "src/pylattica/structures/square_grid/grid_setup.py:DiscreteGridSetup.setup_noise"]}
{"id": "C108", "title": "Listed coordinates in double precision", "statement": "With lookups in double precision, setup_coords wraps integer coordinates around the grid; the last listed phase of a cell wins and every other cell is background.", "quantifier": "every 2D and 3D size up to 2^30, every dict of coordinates up to one period outside of the grid", "why_tests_cant": "A coordinate equal to the size is found only for sizes n with n * (1/n) = 1 in double arithmetic; the first that fails is 49.", "anchors": ["src/pylattica/structures/square_grid/grid_setup.py:DiscreteGridSetup.setup_coords", "src/pylattica/core/periodic_structure.py:PeriodicStructure.site_at"]}
{"id": "C109", "title": "GrowthSetup.grow in double precision", "statement": "With coordinates and shares in double precision, grow with the default neighbourhood returns a simulation in which the nuclei keep their phase and no background is left.", "quantifier": "every 2D and 3D size up to 2^30, number of sites, buffer, positive double amounts, random outcome, number of workers and assignment of batches to workers", "why_tests_cant": "All sizes and schedules; the first size for which every call raises TypeError is 49.", "anchors": ["src/pylattica/structures/square_grid/growth_setup.py:GrowthSetup.grow"]}
{"id": "C110", "title": "malformed sites are reported, not skipped", "statement": "A site dict without an id makes get_sites raise KeyError; an id that is None or no integer makes get_sites_where_equal raise AttributeError, and a list as id makes it raise TypeError. A site without an occupancy makes phases_present, phase_count, the game of life (if it is the visited site or a neighbour) and the growth rule (if it is the visited site, or a neighbour of an empty site) raise KeyError; a neighbour missing from the state makes the game of life raise TypeError. The growth rule leaves an occupied site alone whatever its neighbours hold.", "quantifier": "every state, neighbourhood graph and criteria; the other sites being well-formed", "why_tests_cant": "All states, and all positions of the malformed site.", "anchors": ["src/pylattica/core/analyzer.py:StateAnalyzer.get_sites", "src/pylattica/discrete/discrete_step_analyzer.py:DiscreteStepAnalyzer.phases_present", "src/pylattica/models/game_of_life/controller.py:GameOfLifeController.get_state_update", "src/pylattica/models/growth/growth_controller.py:GrowthController.get_state_update"]}
{"id": "C111", "title": "honeycomb tiling in double precision", "statement": "With coordinates in double precision HoneycombTilingBuilder().build(size) returns a structure with exactly one site per hexagon of the box, of class A, stored at the middle of the hexagon rounded to three decimals, at pairwise different locations. site_at finds the site of a hexagon from its middle (to within 1e-8) and from its stored location (to within 0.0004), also when these are moved by up to one period in each direction. HoneycombNeighborhoodBuilder().get connects exactly the hexagons that touch across the edges of the box, with weights between 0.998 and 1.002 (three decimals); every site has six neighbours.", "quantifier": "every size from 3 to 1024 in each direction, every order of summation with or without fused multiply-add, every inverse matrix with a small normwise error (in particular every one that Gaussian elimination with partial pivoting computes)", "why_tests_cant": "All sizes, locations and arithmetic libraries; a middle that is close to a tie of the rounding would be stored differently on different machines.", "anchors": ["src/pylattica/structures/honeycomb/structure_builders.py:HoneycombTilingBuilder", "src/pylattica/structures/honeycomb/lattice.py:RhombohedralLattice", "src/pylattica/structures/honeycomb/neighborhoods.py:HoneycombNeighborhoodBuilder", "src/pylattica/core/lattice.py:Lattice.get_periodized_cartesian_coords"]}
{"id": "C112", "title": "phase fractions in double precision", "statement": "cell_fraction as a double lies in [0, 1], is 0 exactly if no site has the phase and 1 exactly if all have it, and compares with other fractions (other phase, other state of the same size, or of another size) like the exact fraction; the fractions of the phases of a state add up to 1 within 2^-53 (summed exactly; a sum from left to right in double precision may miss 1). cell_ratio is below, equal to or above 1 like the counts. final_phase_fractions has a zero exactly for the phases that have died out. plot_phase_fractions draws exactly the phases, among those present at some step except the last, whose exact fraction exceeds min_prevalence at a plotted step.", "quantifier": "every state with fewer than 2^52 sites (products of sizes below 2^52 when sizes differ), every phase, every result, every threshold p/q given as the nearest double with q times the number of sites below 2^52", "why_tests_cant": "All counts and sizes; rounding could merge two different fractions or move a fraction across the threshold.", "anchors": ["src/pylattica/discrete/discrete_step_analyzer.py:DiscreteStepAnalyzer.cell_fraction", "src/pylattica/discrete/discrete_step_analyzer.py:DiscreteStepAnalyzer.cell_ratio", "src/pylattica/discrete/discrete_state_result_analyzer.py:DiscreteResultAnalyzer.final_phase_fractions", "src/pylattica/discrete/discrete_state_result_analyzer.py:DiscreteResultAnalyzer.plot_phase_fractions"]}
{"id": "C113", "title": "batch size and plotted steps in double precision", "statement": "With the quotients computed in double precision, the batch size of the parallel runner is the smallest with which the workers' batches hold all sites, so that parallel runs are those of exact arithmetic; the steps chosen for plotting start at 0, are the multiples of a distance, are at most 149, and are all steps if there are fewer than 150.", "quantifier": "every number of sites and steps below 2^53, every number of workers, every controller and schedule", "why_tests_cant": "All sizes; a quotient slightly above or below an integer or a half would be rounded the wrong way.", "anchors": ["src/pylattica/core/runner/synchronous_runner.py:SynchronousRunner._run", "src/pylattica/discrete/discrete_state_result_analyzer.py:DiscreteResultAnalyzer._get_steps_to_plot"]}
{"id": "C114", "title": "structures survive serialisation in double precision", "statement": "In double precision, from_dict(as_dict()) of a square grid or of a honeycomb tiling gives the same structure (ids, classes, locations, lookup table), also after a trip through JSON, and a simulation on it is read back from its dict and its file with the same state. For any structure, from_dict either raises AssertionError or gives the same ids and classes on the same lattice (it does raise for sites at 0 and 0.9996 in a cell of length 1).", "quantifier": "every grid with up to 2^30 sites per axis in two and three dimensions, every honeycomb tiling with 3 to 1024 hexagons per direction and every way to compute products and inverses admitted in C111, every sequence of add_site calls for the last part", "why_tests_cant": "All sizes; a stored location that rounds or wraps differently the second time would get another key.", "anchors": ["src/pylattica/core/periodic_structure.py:PeriodicStructure.as_dict", "src/pylattica/core/periodic_structure.py:PeriodicStructure.from_dict", "src/pylattica/core/simulation.py:Simulation.from_file"]}
{"id": "C115", "title": "square grids do not depend on the linear algebra library", "statement": "For square grids, building, site_at and id_at, distances (up to the sum of squares), neighbourhoods by offsets, distance and rings, and reading back give the same results whatever the order of summation, the use of fused multiply-add and the variant of the LU decomposition that numpy's libraries choose.", "quantifier": "every grid with up to 2^30 sites per axis in two and three dimensions, every location, every way to add up products in double arithmetic, every LU decomposition with any choice of pivots", "why_tests_cant": "A test runs on one machine with one library.", "anchors": ["src/pylattica/core/lattice.py:Lattice.inv_matrix", "src/pylattica/core/lattice.py:Lattice.get_cartesian_coords", "src/pylattica/core/lattice.py:Lattice.get_fractional_coords", "src/pylattica/core/periodic_structure.py:PeriodicStructure.build_from"]}
{"id": "C116", "title": "compound neighbourhood builders", "statement": "Builders may be nested: a stochastic builder may have stochastic builders, builders by site class and builders of one graph as members, to any depth. get() succeeds exactly when every builder of one graph inside can build its graph and the builders given per site class are of that kind (a compound builder there raises TypeError). For each site the answers of neighbors_of over all random draws are exactly the possible ones: the neighbours in the graph of one of the members, chosen anew in each call, or those in the graph of the site's class, or nothing for a class without builder. No call raises for an existing site as long as no random choice is among no members; with none, neighbors_of raises IndexError. With and without weights the same sites are listed, all of them sites of the structure and different from the site asked for.", "quantifier": "every structure reachable through the API, every nesting of builders, every site, every sequence of random draws", "why_tests_cant": "Builders nest to any depth and every draw has to be considered.", "anchors": ["src/pylattica/core/neighborhood_builders.py:StochasticNeighborhoodBuilder.get", "src/pylattica/core/neighborhood_builders.py:SiteClassNeighborhoodBuilder.get", "src/pylattica/core/neighborhoods.py:StochasticNeighborhood._get_nbhood", "src/pylattica/core/neighborhoods.py:SiteClassNeighborhood._get_nbhood"]}
{"id": "C117", "title": "growth with random neighbourhoods", "statement": "GrowthSetup.grow with any nested builder returns a state in which a site is occupied only if a nucleus can be reached by at most size moves to sites that may be neighbours, and is occupied if a nucleus can be reached by moves to sites that are neighbours whatever is drawn; nuclei keep their phase and no new phase appears. With the 2D pseudohexagonal neighbourhoods the grid is therefore filled; with the 3D ones at least the sites at torus Manhattan distance up to size from a nucleus are occupied, but from size 12 on the sites opposite a single nucleus may be left over; with the pseudopentagonal ones the nucleus may stay alone. In serial runs each site makes a growth step with respect to a possible answer.", "quantifier": "every grid size, nuclei, builder, random draw in every worker, number of CPUs and schedule", "why_tests_cant": "The draws and the schedule are random, sizes are unbounded.", "anchors": ["src/pylattica/structures/square_grid/growth_setup.py:GrowthSetup.grow", "src/pylattica/models/growth/growth_controller.py:GrowthController.get_state_update", "src/pylattica/structures/square_grid/neighborhoods.py:PseudoHexagonalNeighborhoodBuilder2D"]}
{"id": "C118", "title": "states and results rebuilt in memory", "statement": "SimulationState.from_dict(s.as_dict()) without a file in between: if every site id of s can be read as an int, it returns a state with the sites under their int ids (of several ids with the same int the last one counts), and s itself has these ids afterwards, no other state changes; otherwise it raises ValueError and nothing changes. If all ids are ints, the new state equals s and no state changes. The two states are independent afterwards. The dict returned by as_dict() is live: whatever is done later, it shows the content that the state has then. SimulationResult.from_dict(r.as_dict()) gives a result with an initial state of its own that replays the updates of r, with their ids read as ints and without their general parts, on the initial state with its ids read as ints. With int ids in the initial state and in the updates it reports at every step what replaying the updates of r gives, and it leaves all states and what every result reports unchanged. With ids that are not ints, the original state and what the original result reports can change.", "quantifier": "every program of calls on states, results and values, including any number of reloads; for isolation: every dict handed to from_dict and arbitrary mutating code afterwards", "why_tests_cant": "The effect is through shared objects in arbitrary later programs.", "anchors": ["src/pylattica/core/simulation_state.py:SimulationState.as_dict", "src/pylattica/core/simulation_state.py:SimulationState.from_dict", "src/pylattica/core/simulation_result.py:SimulationResult.from_dict", "src/pylattica/core/simulation_result.py:SimulationResult.as_dict"]}
{"id": "C119", "title": "growth with random neighbourhoods in double precision", "statement": "With coordinates and shares in double precision, the growth controller with a stochastic builder of motifs answers every call of neighbors_of with the sites that one of the motifs leads to around the boundaries, each once, and every motif can be drawn. GrowthSetup.grow with such a builder returns a simulation in which a site is occupied only if a nucleus can be reached by at most size moves along the motifs and is occupied if one can be reached by moves that are in all motifs; nuclei keep their phase. With the 2D pseudohexagonal neighbourhoods the grid is filled; with the 3D ones the sites at torus Manhattan distance up to size are occupied and others may be left over; with the pseudopentagonal ones the nucleus may stay alone.", "quantifier": "every 2D and 3D size up to 2^30, motifs with offsets up to the size, nuclei, positive double amounts, random draw in every worker, number of workers and schedule", "why_tests_cant": "Sizes, draws and schedules are unbounded; the first size for which every call raises TypeError is 49.", "anchors": ["src/pylattica/structures/square_grid/growth_setup.py:GrowthSetup.grow", "src/pylattica/core/neighborhood_builders.py:StochasticNeighborhoodBuilder.get", "src/pylattica/structures/square_grid/neighborhoods.py:PseudoHexagonalNeighborhoodBuilder3D"]}
{"id": "C120", "title": "serial runs can be continued", "statement": "Running a controller with the serial SynchronousRunner for n steps and then, with the controller object as the first run left it, for m more steps from the output of the first result is the same as one run of n + m steps: the longer run succeeds exactly when the second run does and raises the same exception otherwise; its steps are the steps of the first result followed by those of the second; the outputs agree. A shorter run is the beginning of a longer one; this is so for the asynchronous runner with the same choices of sites and for the parallel runner with the same distribution of the batches too, and whatever pre_run does. Continuing is possible for controllers whose pre_run leaves the state and an already prepared controller alone, as GameOfLifeController's does. It is not possible with the asynchronous runner, which forgets its queue.", "quantifier": "every controller (with any internal state and exceptions), start state, n and m", "why_tests_cant": "Controllers, states and numbers of steps are unbounded.", "anchors": ["src/pylattica/core/runner/synchronous_runner.py:SynchronousRunner._run", "src/pylattica/core/runner/base_runner.py:Runner.run", "src/pylattica/core/simulation_result.py:SimulationResult.get_step"]}
{"id": "C121", "title": "Life: symmetry and speed of light", "statement": "On a 2D periodic square grid the Game of Life controller, with any rule, treats all cells and directions alike: if a start pattern is shifted around the edges, mirrored, or (on equal sides) transposed or turned, every step of the run is moved in the same way. Nothing travels faster than one cell per step: after k steps a cell is the same in two runs whose start patterns agree at torus Chebyshev distance up to k from it.", "quantifier": "every grid size, rule, pattern, symmetry of the torus, cell and number of steps", "why_tests_cant": "Sizes, patterns, rules and numbers of steps are unbounded.", "anchors": ["src/pylattica/models/game_of_life/controller.py:GameOfLifeController.get_state_update", "src/pylattica/structures/square_grid/neighborhoods.py:MooreNbHoodBuilder"]}
{"id": "C122", "title": "Life: patterns behave as on the plane", "statement": "As long as the evolution of a pattern on the infinite plane fits into a square two cells smaller than the grid (in particular for n steps of a pattern of w by w cells on a grid at least w + 2n wide), the run on the periodic grid shows the plane's pattern wrapped around it, for every rule that does not give birth without live neighbours. With B3/S23 a block stays (sides from 4 on), a blinker turns in every step and a glider moves by one cell along both axes every four steps, forever and around the edges (sides from 5 on); on an n x n grid it is back after 4n steps.", "quantifier": "every grid size, rule without B0, pattern, position and number of steps", "why_tests_cant": "Sizes, patterns, positions and numbers of steps are unbounded.", "anchors": ["src/pylattica/models/game_of_life/controller.py:GameOfLifeController.get_state_update", "src/pylattica/models/game_of_life/controller.py:Life"]}
{"id": "C123", "title": "rules may share the objects they return", "statement": "A serial or asynchronous run does not depend on which dict objects the rule returns, as long as the rule (after pre_run) only makes objects and reads states and changes no existing object: it may return one object for many sites, the same object in every step, or the dicts of the live state itself. The result object then reads the same as for a rule that returns fresh dicts with the same contents: same initial state, same recorded updates, same output, same answers of get_step, also after later updates of other states; the caller's state and all other states are untouched, and exceptions are the same. It matters that objects are not changed: a rule that writes into a dict it returned before gives all sites the last value and alters the recorded steps.", "quantifier": "every rule (any internal state, exceptions, objects kept between calls), every situation a client can bring about (including earlier runs), start state and number of steps", "why_tests_cant": "The ways in which returned objects can be shared with each other, with the state and with earlier answers are unbounded; tests use rules with fresh dicts.", "anchors": ["src/pylattica/core/runner/common.py:merge_updates", "src/pylattica/core/runner/synchronous_runner.py:_step_batch", "src/pylattica/core/runner/synchronous_runner.py:SynchronousRunner._run", "src/pylattica/core/runner/asynchronous_runner.py:AsynchronousRunner._run", "src/pylattica/core/runner/base_runner.py:Runner.run", "src/pylattica/core/simulation_state.py:SimulationState.batch_update"]}
{"id": "C124", "title": "asynchronous runs are random walks", "statement": "If random.randint is uniform and its answers are independent, an asynchronous run with the inherited get_random_site and a rule without follow-up sites is a Markov chain: whatever happened before, the next recorded state arises by visiting one of the m sites, each with probability 1/m. Every sequence of n sites is visited with probability m^-n. For the Game of Life a visit gives the drawn cell, and only it, its state in the next generation.", "quantifier": "every rule (with its own attributes and pre_run), every set of situations closed under visits, every start state, number of steps and event about the recorded steps", "why_tests_cant": "A test sees single runs; the claim is about the distribution over all of them, for all rules and lengths.", "anchors": ["src/pylattica/core/basic_controller.py:BasicController.get_random_site", "src/pylattica/core/runner/asynchronous_runner.py:AsynchronousRunner._run"]}
{"id": "C125", "title": "asynchronous growth fills the grid with probability 1", "statement": "With uniform independent draws, growth under the asynchronous runner leaves no background site with probability at least 1 - 2^b (1 - 1/(2m))^n after n steps (m sites, b of them background at the start), provided that from every site moves to neighbours lead to a site occupied at the start; so the probability tends to 1. With the default neighbourhood on a square grid one occupied site is enough.", "quantifier": "every neighbourhood (also one that varies between calls, as long as the connecting neighbours are always there), every start state, grid size in any dimension and number of steps", "why_tests_cant": "A statement about probabilities and a limit, for all sizes.", "anchors": ["src/pylattica/models/growth/growth_controller.py:GrowthController.get_state_update", "src/pylattica/core/basic_controller.py:BasicController.get_random_site", "src/pylattica/core/runner/asynchronous_runner.py:AsynchronousRunner._run"]}
{"id": "C126", "title": "law of setup_noise", "statement": "If random.choice is uniform and its answers are independent, setup_noise chooses the phases of the sites independently and each uniformly from the list of phases, with repetitions counted: the probability that every site i has a phase in A_i is the product of the fractions of the list in A_i. With different phases all assignments are equally likely.", "quantifier": "every dimension with a setup (2 and 3), size, list of phases and family of sets of phases", "why_tests_cant": "A statement about the joint distribution of all sites.", "anchors": ["src/pylattica/structures/square_grid/grid_setup.py:DiscreteGridSetup.setup_noise"]}
{"id": "C127", "title": "law of setup_random_sites", "statement": "If random.choice is uniform and its answers are independent: the drawn sites are taken in order, skipping those taken already or within the buffer of a taken one, and the k-th site taken gets the k-th of a list of phases that does not depend on the draws; if 1000 m + 1 draws do not give m sites the call raises RuntimeError. Without buffer all sets of m cells are equally likely; with or without buffer a result is as likely as its image under any map of the cells that respects the buffer, and every cell becomes a nucleation site with probability m / n^d (times that of success). The call fails with probability at most 2^m (1 - w/(2 n^d))^(1000 m + 1) if w cells are free until the last site is placed; if the blocked cells are at most half of the grid this is below 10^(-120 m).", "quantifier": "every size, number of sites (also not an integer), phases with amounts, buffer, order of neighbours, map of the cells and set of cells", "why_tests_cant": "Statements about the distribution, for all sizes and symmetries.", "anchors": ["src/pylattica/structures/square_grid/grid_setup.py:DiscreteGridSetup.setup_random_sites"]}
{"id": "C128", "title": "which documents from_dict accepts", "statement": "int(text) succeeds exactly on int literals (ASCII white space, optional sign, digit groups joined by underscores, white space), else ValueError. SimulationState.from_dict loads every document {'state': {'SITES': {key: dict}, 'GENERAL': dict}} whose keys are ints or literals; ids become ints, and of several keys for the same site the last decides. SimulationResult.from_dict loads the initial state and turns every diff into the dict of its site entries with int ids, dropping GENERAL. PeriodicStructure.from_dict equals adding the sites of the document in order to an empty structure (AssertionError if one is rejected), whatever their ids. Simulation.from_dict loads iff both parts do, the state first. Everything else raises: a missing entry KeyError, a non-dict where a document is subscripted TypeError, a non-dict where .items() is called AttributeError, a key that is no literal ValueError; of several bad diffs the first decides.", "quantifier": "every document, key and string", "why_tests_cant": "All strings and all nested documents.", "anchors": ["src/pylattica/core/simulation_state.py:SimulationState.from_dict", "src/pylattica/core/simulation_result.py:SimulationResult.from_dict", "src/pylattica/core/periodic_structure.py:PeriodicStructure.from_dict", "src/pylattica/core/simulation.py:Simulation.from_dict", "src/pylattica/core/lattice.py:Lattice.from_dict"]}
{"id": "C129", "title": "states of any shape", "statement": "SimulationState(v) accepts any value. If v is a dict with a dict of dicts under SITES and a dict or nothing under GENERAL (and whatever else), all methods return, change and raise exactly what they do on the plain state, also when a batch raises half way, and leave the other entries alone; == is equality of the plain states if there are no other entries. Otherwise the methods raise: TypeError for a non-dict (AttributeError for the general state), KeyError without SITES, AttributeError if SITES is no dict, TypeError for set_general_state without a dict under GENERAL and for set_site_state on a site whose state is neither None nor a dict; a site whose state is None is treated like a new one. batch_update of a list, tuple or string raises AttributeError, of None or a number TypeError. from_dict loads a document iff there is a dict of sites whose keys are all int literals, keeps all other entries and the values as they are.", "quantifier": "every value as state, every key, update, batch and document", "why_tests_cant": "All nested values.", "anchors": ["src/pylattica/core/simulation_state.py:SimulationState"]}
{"id": "C130", "title": "rules that write into the state they are shown", "statement": "The runners show the controller the live state itself. A controller that writes nothing runs as the properties about runs say. In an asynchronous run a rule may carry out its own answer on the spot: the run is exactly the same. In a serial synchronous run such a rule (with answers about its own site) is applied site after site instead of simultaneously, so the result depends on the order of the sites, but the recorded history is still the real one. What a rule writes without answering it is not recorded: if it answers {} everywhere, every recorded step is the initial state, whatever the output is. In an asynchronous run every call of the rule and of get_random_site sees all that was written and carried out before it, and get_step(k) is the initial state with the first k answers carried out and nothing else. In a parallel run the output is the initial state whatever the rule writes; a rule that answers {} everywhere leaves no trace; a rule that carries out its own answer gives results that differ from the serial run and depend on which worker takes which batch.", "quantifier": "every controller with internal state that may write anything, every state, number of steps, workers and schedule", "why_tests_cant": "All controllers.", "anchors": ["src/pylattica/core/runner/synchronous_runner.py:_step_batch", "src/pylattica/core/runner/asynchronous_runner.py:AsynchronousRunner._run"]}
{"id": "C131", "title": "growth from one nucleus: how many sites", "statement": "On an n x n (or n x n x n) grid set up by setup_coords with one cell of a phase in a background, the growth model with the Moore neighbourhood of size 1 (the default) has after k steps exactly min(n, 2k+1)^d sites of the phase and all others of the background, as get_site_count_where_equal counts them. With the von Neumann neighbourhood it is the number of cells within Manhattan distance k on the torus: 2k^2+2k+1 in 2D and (2k+1)(2k^2+2k+3)/3 in 3D as long as 2k+1 <= n. The serial runner and the parallel runner give the same numbers for every number of workers and every assignment of chunks.", "quantifier": "every grid size, coordinate, pair of phases, number of steps, order of neighbours, number of workers and schedule, in 2D and 3D", "why_tests_cant": "The project tests one grid (20 x 20) at steps 1 and 2; the formula is for all sizes, steps and schedules.", "anchors": ["src/pylattica/models/growth/growth_controller.py:GrowthController.get_state_update", "src/pylattica/structures/square_grid/grid_setup.py:DiscreteGridSetup.setup_coords", "src/pylattica/core/analyzer.py:StateAnalyzer.get_site_count_where_equal"]}
{"id": "C132", "title": "how many sites of each phase the setups make", "statement": "setup_interface(n, p1, p2) with different phases makes exactly (n//2) n^(d-1) sites of p1, (n - n//2) n^(d-1) of p2 and none of any other phase, as cell_count counts them; cell_fraction of p1 is (n//2)/n, and for even n both fractions are exactly 0.5 in double precision. setup_coords whose coordinates name different cells (after wrapping) and none of whose phases is the background makes as many sites of each phase as are listed for it, and all others are background.", "quantifier": "every size, dimension 2 and 3, phases and coordinate lists", "why_tests_cant": "The project tests an interface on one 4 x 4 grid and a single coordinate; the counts are for all sizes and lists.", "anchors": ["src/pylattica/structures/square_grid/grid_setup.py:DiscreteGridSetup.setup_interface", "src/pylattica/structures/square_grid/grid_setup.py:DiscreteGridSetup.setup_coords", "src/pylattica/discrete/discrete_step_analyzer.py:DiscreteStepAnalyzer.cell_count"]}
{"id": "C133", "title": "information travels one hop per step", "statement": "In a serial synchronous run of a rule whose answer at a site concerns that site and reads only the general state, the site and its neighbours, the state of a site at step k depends only on the initial states of the sites within k hops (and on the general state). A set of sites that no hop leaves evolves on its own, whatever the other sites hold and however many there are.", "quantifier": "every rule, neighbourhood relation, pair of initial states, number of steps", "why_tests_cant": "All rules, states and step counts.", "anchors": ["src/pylattica/core/runner/synchronous_runner.py:SynchronousRunner", "src/pylattica/core/basic_controller.py:BasicController.get_state_update"]}
{"id": "C134", "title": "serial runs repeat themselves", "statement": "If two steps of a serial run of a rule without memory or chance show the same state, the recorded history repeats itself from the first of them on. If sites only ever take q different states, a run on m sites repeats itself with some period p from some step j on, j + p <= q^m. Every Life-like automaton on an a x b grid does so with j + p <= 2^(ab), and j and p do not depend on the length of the run.", "quantifier": "every rule, state, number of steps; every Life variant, grid size and pattern", "why_tests_cant": "All rules, patterns and lengths; the bound is exponential in the number of sites.", "anchors": ["src/pylattica/core/runner/synchronous_runner.py:SynchronousRunner", "src/pylattica/models/game_of_life/controller.py:GameOfLifeController.get_state_update", "src/pylattica/core/simulation_result.py:SimulationResult.get_step"]}
{"id": "C135", "title": "serial growth with random neighbourhoods fills the grid", "statement": "With a StochasticNeighborhood of q single neighbourhoods and uniform independent answers of random.choice, serial growth leaves no background site with probability at least 1 - 2^b (1 - 1/(2q))^n after n steps (b background sites at the start), provided that from every site moves to possible neighbours lead to an occupied site; so the probability tends to 1. With the pseudopentagonal neighbourhoods one occupied site on a 2D grid is enough (the bound is 1 - 2^b (7/8)^n), although growth may stall for any number of steps. Whatever is drawn, after k steps a site is occupied only if k possible moves lead to a nucleus and is occupied if k sure moves do; with the 3D pseudohexagonal neighbourhoods a grid with one nucleus is full after N0//2 + N1//2 + N2//2 steps.", "quantifier": "every structure, list of neighbourhood builders, start state, order of neighbours, number of steps; probabilities over all outcomes of the draws", "why_tests_cant": "A statement about probabilities over all draws; a test sees single outcomes.", "anchors": ["src/pylattica/models/growth/growth_controller.py:GrowthController.get_state_update", "src/pylattica/core/neighborhoods.py:StochasticNeighborhood._get_nbhood", "src/pylattica/structures/square_grid/neighborhoods.py:PseudoPentagonalNeighborhoodBuilder"]}
{"id": "C136", "title": "grown grains are nearest-nucleus regions", "statement": "After k steps of serial growth the occupied sites are those from which at most k moves to a neighbour lead to a nucleus; an occupied site has the phase of a nearest nucleus (fewest moves), and a shortest way to such a nucleus runs within the phase, so every grain is connected to its nucleus. Where all nearest nuclei have one phase the site has that phase, whatever ties do elsewhere. With the default neighbourhood on a square grid distance is the Chebyshev distance on the torus. The same holds for parallel runs, and for grow() from random nuclei, when in every step every worker gets a batch or there is one worker; it can fail when a worker sits out a step.", "quantifier": "every structure, neighbourhood builder, start state, order of neighbours, number of steps; every schedule of the workers without absence", "why_tests_cant": "All arrangements of nuclei and all orders in which ties are resolved; tests look at one picture.", "anchors": ["src/pylattica/models/growth/growth_controller.py:GrowthController.get_state_update", "src/pylattica/core/runner/synchronous_runner.py:SynchronousRunner", "src/pylattica/structures/square_grid/growth_setup.py:GrowthSetup.grow"]}
{"id": "C137", "title": "runs do not depend on what the values are called", "statement": "If a rule answers on a renamed state with the renamed answer, its run from the renamed start state is its run renamed: the same exceptions, the same number of diffs, every recorded diff and every reconstructed step renamed, with the serial, parallel and asynchronous runner and any schedule or draws. Growth is such a rule for every renaming of the phases that gives different phases different names, the background included.", "quantifier": "every rule, renaming, state, number of steps, schedule, sequence of draws", "why_tests_cant": "All renamings and runs; tests use fixed phase names.", "anchors": ["src/pylattica/core/runner/synchronous_runner.py:SynchronousRunner", "src/pylattica/core/runner/asynchronous_runner.py:AsynchronousRunner", "src/pylattica/core/simulation_result.py:SimulationResult.get_step", "src/pylattica/models/growth/growth_controller.py:GrowthController.get_state_update"]}
{"id": "C138", "title": "law of randomly dropped particles", "statement": "setup_random_particles with uniform independent draws: a cell stays bulk with probability (1 - f)^num, where f is the fraction of cells closer than the radius to it measured inside the grid; otherwise it has the phase of a particle and each entry of the list of phases is equally likely. With a positive radius the probability of staying bulk tends to 0 as num grows. Particles do not reach across the periodic border: the corner cell is covered less often than inner cells.", "quantifier": "every grid size, dimension 2 or 3, radius, number of particles, list of phases, cell", "why_tests_cant": "Probabilities over all draws; tests see single samples.", "anchors": ["src/pylattica/structures/square_grid/grid_setup.py:DiscreteGridSetup.setup_random_particles", "src/pylattica/structures/square_grid/grid_setup.py:DiscreteGridSetup.add_particle_to_state"]}
{"id": "C139", "title": "growth with phases that cannot be hashed", "statement": "If every phase in the start state can be hashed, growth runs as the other properties say, with every runner and any background. A call raises TypeError exactly when a background site lists a neighbour whose phase is neither the background nor hashable; the first step of a serial run raises TypeError exactly when there is such a site, and a parallel run then raises it whichever worker gets which batch. Lists or dicts that do not touch the background are harmless: then runs of every length succeed, and a site keeps its phase or changes from the background to a hashable phase that is not the background.", "quantifier": "every state with a phase on every site, every neighbourhood, number of steps, schedule", "why_tests_cant": "All placements of odd values and all runs; tests only use strings as phases.", "anchors": ["src/pylattica/models/growth/growth_controller.py:GrowthController.get_state_update", "src/pylattica/core/runner/synchronous_runner.py:SynchronousRunner", "src/pylattica/core/runner/asynchronous_runner.py:AsynchronousRunner"]}
{"id": "C140", "title": "how setup_random_sites shares the sites among the phases", "statement": "Each phase has a limit: its share rounded up (0 if negative); if the amounts add up to 0, no limit for positive amounts and 0 for the others. The phases take turns in their order, each taking one site per turn while below its limit, until the wanted number is reached; every phase other than the background ends with exactly that many sites, also if the background is listed among the phases. So with positive amounts a phase gets less than one site more than its share and at most (number of phases - 1) sites less, and it can miss its share by more than one. With no sites wanted the call returns the background; without phases it raises StopIteration; with amounts that add up to 0 and none positive it never returns; otherwise it returns or raises RuntimeError.", "quantifier": "every grid size, number of sites, dict of amounts (positive, negative, zero), background, buffer, sequence of draws", "why_tests_cant": "All amounts and numbers of sites, and a call that never returns; tests use a few positive ratios.", "anchors": ["src/pylattica/structures/square_grid/grid_setup.py:DiscreteGridSetup.setup_random_sites"]}
{"id": "C141", "title": "which arguments make a lattice, and what it does with lists of every length", "statement": "The constructor accepts exactly the nonempty lists of vectors of one common length whose total number of entries is a square, whatever periodic is (IndexError without vectors, ValueError otherwise). d vectors of length d give an object of dimension d that computes in the lattice with these rows: every method returns the exact value for lists of d numbers and raises ValueError for other lengths; with dependent vectors the conversions to fractional coordinates, periodizing and distances raise LinAlgError for every argument. A list of one flag counts for all axes; any other wrong number of flags makes periodizing and distances raise for every argument. For k vectors of length m with k*m = s*s the object computes in the s-dimensional lattice whose rows are read off the entries s at a time, while dim is m.", "quantifier": "every list of vectors, periodic argument and list of coordinates of any length", "why_tests_cant": "All shapes, including singular and misshapen ones; tests use well-shaped vectors in two and three dimensions.", "anchors": ["src/pylattica/core/lattice.py:Lattice.__init__", "src/pylattica/core/lattice.py:Lattice.get_fractional_coords", "src/pylattica/core/lattice.py:Lattice.get_periodized_cartesian_coords", "src/pylattica/core/lattice.py:pbc_diff_cart"]}
{"id": "C142", "title": "structures and locations, counts and motif positions of every length", "statement": "On a lattice of d independent vectors add_site and site_at with d numbers do what the d-dimensional structure does; with another number of numbers they raise ValueError and change nothing; with dependent vectors they raise LinAlgError always. On a lattice of any shape a first site can be added exactly if the matrix is regular, the location has one entry per row, the flags are one or one per row, and the vectors have one entry or one per row (or there is one row). build_from uses the first d of the counts and takes a position of one number as that number on every axis; with fewer than d counts it never makes a structure with a site; a position of another length makes it raise as soon as there is a cell. StructureBuilder.build agrees for every size argument.", "quantifier": "every lattice, structure, location, motif, list of counts, of any length", "why_tests_cant": "All shapes of all arguments; tests use locations of the right length.", "anchors": ["src/pylattica/core/periodic_structure.py:PeriodicStructure.add_site", "src/pylattica/core/periodic_structure.py:PeriodicStructure.site_at", "src/pylattica/core/periodic_structure.py:PeriodicStructure.build_from", "src/pylattica/core/structure_builder.py:StructureBuilder.build"]}
{"id": "C143", "title": "motif neighbourhoods with offsets of every length", "statement": "MotifNeighborhoodBuilder on a d-dimensional structure: offsets with at least d entries connect the same sites, edge for edge and in the same order, as their first d entries, and raise in the same cases; an offset with fewer than d entries makes get raise as soon as there is a site. The distance stored with a neighbour is the rounded length of the last offset leading there, counted with all its entries. Hence Moore and von Neumann builders made for e >= d dimensions give on a square grid exactly the sites within the torus Chebyshev or Manhattan distance, the Moore builder with the distance sqrt(|w|^2 + (e-d) r^2) for the offset w on grids at least 2r+1 wide; made for fewer dimensions they raise.", "quantifier": "every structure, site class, list of offsets of any lengths; every square grid, builder size and builder dimension", "why_tests_cant": "All dimensions, grid sizes and lists of offsets; tests use builders of the dimension of the grid.", "anchors": ["src/pylattica/core/neighborhood_builders.py:MotifNeighborhoodBuilder.get_neighbors", "src/pylattica/core/distance_map.py:EuclideanDistanceMap", "src/pylattica/structures/square_grid/neighborhoods.py:MooreNbHoodBuilder"]}
{"id": "C144", "title": "on which lattices wrapped distances are right", "statement": "For independent lattice vectors: cartesian_periodic_distance is the rounded smallest distance to a periodic image, in the supercells of k cells along every axis for all k, exactly if every vector along a periodic axis is orthogonal to all other vectors; exactly then it does not depend on the choice of the images either. On such lattices Distance and Annular neighbourhoods hold exactly the sites whose closest image is inside the cutoff, with that distance. The honeycomb tiling has supercells where the distances are wrong.", "quantifier": "every lattice of any dimension with any periodicity flags, all points, all supercells", "why_tests_cant": "An equivalence over all lattices; tests look at a few distances on square lattices.", "anchors": ["src/pylattica/core/lattice.py:pbc_diff_cart", "src/pylattica/core/lattice.py:Lattice.cartesian_periodic_distance", "src/pylattica/core/neighborhood_builders.py:DistanceNeighborhoodBuilder.get_neighbors"]}
{"id": "C145", "title": "information travels one hop per step in parallel runs too", "statement": "Two parallel runs with the same number of workers and the same hand-out of batches, on the same site ids and general state, of a rule that reads only the visited site, its neighbours and the general state: the state of a site after k steps depends only on the initial states of sites within k hops, however stale the workers' private states are. Hence a set of sites that no hop leaves evolves on its own. All recorded steps can be asked for, except possibly the last one (which can be unless no site was given an update in it).", "quantifier": "every site-local rule, initial states, worker count, schedule, number of steps", "why_tests_cant": "Which worker sees which update depends on the scheduling of the pool; a test observes one schedule.", "anchors": ["src/pylattica/core/runner/synchronous_runner.py:SynchronousRunner._run", "src/pylattica/core/runner/synchronous_runner.py:SynchronousRunner._take_step_parallel"]}
{"id": "C146", "title": "what the state of a site depends on in an asynchronous run", "statement": "Two asynchronous runs whose controllers follow the same site-local rule (and choose sites as they like) and that have visited the same k sites: if the initial states agree at every site from which a chain of visits, each looking at a neighbour, leads to site i, then the states after k steps agree at i. Such sites are within k hops, and a site not visited yet still has its initial state.", "quantifier": "every site-local rule, controllers with any internal state whose pre_run leaves the state it is given unchanged, any visiting sequence, any number of steps", "why_tests_cant": "A statement about all pairs of runs and all visiting sequences.", "anchors": ["src/pylattica/core/runner/asynchronous_runner.py:AsynchronousRunner._run"]}
{"id": "C147", "title": "visits to sites that do not read each other can be exchanged", "statement": "Two asynchronous runs of the same site-local rule from the same state whose visiting sequences differ only in that sites which do not read each other have overtaken each other end in the same state after the same number of steps. If no visited site reads another one, visiting them one after the other gives what updating all of them at once on the initial state gives.", "quantifier": "every site-local rule, controllers with any internal state whose pre_run leaves the state it is given unchanged, all visiting sequences", "why_tests_cant": "Quantifies over all reorderings of all visiting sequences.", "anchors": ["src/pylattica/core/runner/asynchronous_runner.py:AsynchronousRunner._run", "src/pylattica/core/simulation_state.py:SimulationState.set_site_state"]}
{"id": "C148", "title": "runs on relabelled or folded sets of sites", "statement": "Let a map of the site ids be such that the rule asks the same of site i and of its image whenever they see the same. If the image of every site holds in one initial state what the site holds in another (apart from the stored id), this stays so at every step of serial runs; if the first run returns, so does the second. In particular symmetric patterns stay symmetric, and a pattern that repeats itself on a large torus evolves like one copy on a small one. For asynchronous runs the same holds for injective maps when the second run visits the images of the sites the first one visits.", "quantifier": "every site-local rule (controllers whose pre_run leaves the state it is given unchanged), every map of site ids, every pair of initial states, any number of steps", "why_tests_cant": "A statement about all symmetries of all rules and all run lengths.", "anchors": ["src/pylattica/core/runner/synchronous_runner.py:SynchronousRunner._run", "src/pylattica/core/runner/asynchronous_runner.py:AsynchronousRunner._run"]}
{"id": "C149", "title": "grid setups on rectangular grids", "statement": "With a tuple (a, b) or (a, b, c) as size, all setups build the grid with extents (b, a) or (b, a, c). setup_noise, setup_coords (wrapping along every axis with that axis' extent) and setup_random_sites (numbers, buffers and reachable arrangements on the rectangular torus) do there what they do for an int size. setup_interface, setup_particle and setup_random_particles measure with the first entry a along every axis: the interface is at a // 2 along the first axis, whose extent is b; the particle is centred at (a/2, a/2, ..); centres are drawn from 0..a-1 on every axis. So there is no interface if b <= a // 2, and no particle if an axis ends at least the radius before a/2.", "quantifier": "every int or tuple of positive entries, every pair of phases, radius, list of coordinates, sequence of random draws", "why_tests_cant": "The tests use int sizes only; the claim is about all pairs and triples of extents.", "anchors": ["src/pylattica/structures/square_grid/grid_setup.py:DiscreteGridSetup.setup_interface", "src/pylattica/structures/square_grid/grid_setup.py:DiscreteGridSetup.setup_particle", "src/pylattica/structures/square_grid/grid_setup.py:DiscreteGridSetup.setup_random_particles", "src/pylattica/structures/square_grid/grid_setup.py:DiscreteGridSetup.setup_coords", "src/pylattica/structures/square_grid/grid_setup.py:DiscreteGridSetup.setup_random_sites"]}
{"id": "C150", "title": "what the digits of a Life variant imply", "statement": "For serial and parallel runs of GameOfLifeController on square tori: (a) if every birth/survival digit k of one variant corresponds to the missing survival/birth digit 8-k of another, runs of the two variants from states with alive and dead exchanged have alive and dead exchanged at every step (tori at least 3 wide); the variant Anneal of the code is its own opposite. (b) If the survival digits contain 0..8, live cells stay alive; if no birth digit is among 0..8, dead cells stay dead; in both cases nothing changes after as many steps as there are cells. (c) Without survival digits (Seeds) no cell is alive at two steps in a row. (d) A world of dead cells stays so for ever if 0 is not a birth digit, and is all alive after one step if it is.", "quantifier": "every torus size, every variant, every state, every number of steps, every schedule of the parallel runner", "why_tests_cant": "All patterns on all tori for all numbers of steps.", "anchors": ["src/pylattica/models/game_of_life/controller.py:GameOfLifeController", "src/pylattica/models/game_of_life/controller.py:Anneal", "src/pylattica/models/game_of_life/controller.py:Seeds"]}
{"id": "C151", "title": "Life variants one cell at a time: rest and order", "statement": "For asynchronous runs of GameOfLifeController on square tori: (a) opposite variants (C150) from opposite states that draw the same sites stay opposite at every step (tori at least 3 wide). (b) If the survival digits contain 0..8, live cells stay alive whatever is drawn; if no birth digit is among 0..8, dead cells stay dead. (c) The states in which no cell wants to change are the same for all runners, and an asynchronous run never leaves one. (d) A variant without deaths (births) comes to rest: with u dead (live) cells at the start and m cells, step n is at rest with probability at least 1 - 2^u (1 - 1/(2m))^n. (e) If with a birth (survival) digit all larger ones up to 8 are birth (survival) digits and birth digits are survival digits, then from a state in which no live cell wants to die (or none wants to be born) every asynchronous run that comes to rest ends in the pattern in which the serial run ends, and the probability of this tends to 1. Without the condition on the digits the order of the visits can matter: B1/S012345678 on the 3 x 3 torus.", "quantifier": "every torus size, every variant, every state, every sequence of draws, every number of steps", "why_tests_cant": "All patterns, all orders of visits, and a limit of probabilities.", "anchors": ["src/pylattica/models/game_of_life/controller.py:GameOfLifeController", "src/pylattica/core/runner/asynchronous_runner.py:AsynchronousRunner._run", "src/pylattica/core/basic_controller.py:BasicController.get_random_site"]}
{"id": "C152", "title": "Asynchronous growth: connected grains, and exactly which clusters can arise", "statement": "(a) In every asynchronous run of the growth model, with any neighbourhood (also a random one) and any draws, at step k every occupied site is connected by at most k moves to possible neighbours, all having its phase, to a site that had this phase at the start. (b) With one phase besides the background and a fixed neighbourhood: the sets of sites that can be occupied after n steps, for some draws, are exactly the sets that contain the nuclei, in which every site is connected to a nucleus by moves within the set, and which have at most n sites more than there were nuclei. (c) On square grids with the default neighbourhood this holds with 'neighbour' meaning at most one apart along every axis of the torus.", "quantifier": "every structure/grid size, every set of nuclei, every cluster, every number of steps, every sequence of draws", "why_tests_cant": "An equivalence between a geometric condition on all sets of sites and the existence of a sequence of random draws.", "anchors": ["src/pylattica/models/growth/growth_controller.py:GrowthController.get_state_update", "src/pylattica/core/runner/asynchronous_runner.py:AsynchronousRunner._run", "src/pylattica/core/basic_controller.py:BasicController.get_random_site"]}
{"id": "C153", "title": "Life variants that ask for odd numbers: copies, overlays, powers of two", "statement": "For serial and parallel runs of GameOfLifeController on tori at least 3 wide with a variant whose digits ask whether the number of live cells among the eight neighbours is odd (B1357/S1357, Replicator), or among the eight neighbours and the cell itself (B1357/S02468, Fredkin): (a) a cell is alive at step t + 2^k exactly if an odd number of the eight cells (nine with itself) at 2^k moves in the eight directions, around the edges, were alive at step t. (b) The run from the overlay (cells alive in exactly one of two states) is at every step the overlay of the two runs. (c) If the sides of the torus divide 2^k: Replicator has no live cell from step 2^k on, and Fredkin's rule shows at step t + 2^k the pattern of step t.", "quantifier": "every torus size from 3 on, every state, every t and k, every number of steps, every schedule", "why_tests_cant": "Exponentially many steps, all patterns, and an algebraic law of the update rule.", "anchors": ["src/pylattica/models/game_of_life/controller.py:GameOfLifeController", "src/pylattica/core/runner/synchronous_runner.py:SynchronousRunner"]}
{"id": "C154", "title": "Life: states that no run can produce", "statement": "For every variant and every torus: there is a state whose pattern no run (serial or parallel, from any state, of any length) shows at any step after the start, exactly if two states with different patterns have the same pattern after one step. If 0 and 1 are not birth digits and 0 is not a survival digit there is such a state on every torus; this covers the five variants named in the code. On tori (at least 3 wide) whose sides divide a power of 2 Fredkin's rule has none.", "quantifier": "every torus size, every variant, every state", "why_tests_cant": "A statement about all runs from all states (non-existence of predecessors).", "anchors": ["src/pylattica/models/game_of_life/controller.py:GameOfLifeController", "src/pylattica/models/game_of_life/controller.py:GameOfLifeController.get_state_update"]}
{"id": "C155", "title": "Life variants: patterns that stay in a rectangle, and how fast populations grow", "statement": "(a) If all birth digits are above 3, then in every run of GameOfLifeController (serial, parallel, asynchronous) on every torus, live cells never leave a rectangle that contained them at the start, provided the rectangle leaves at least two cells free along each axis or covers it; the variant Anneal of the code is one of these. (b) If some birth digit is at most 3 this fails on every torus at least 5 wide: a pattern in a 3 x 3 square leaves it in the first step. (c) If all birth digits are at least beta and all survival digits at least sigma, then in every step beta times the number of births plus sigma times the number of survivors is at most 8 times the number of cells that lived before.", "quantifier": "every torus size, every variant, every rectangle, every state, every number of steps, every schedule and sequence of draws", "why_tests_cant": "All patterns and an exact condition on the digits.", "anchors": ["src/pylattica/models/game_of_life/controller.py:GameOfLifeController", "src/pylattica/core/runner/asynchronous_runner.py:AsynchronousRunner._run"]}
{"id": "C156", "title": "Growth on the honeycomb tiling: the front and the centred hexagonal numbers", "statement": "On a honeycomb tiling of n0 by n1 hexagons (both at least 3) with HoneycombNeighborhoodBuilder, GrowthController run for any number of steps, serially or in parallel, from any start state: after k steps exactly the sites at most k hexagons away (around the tiling) from a site occupied at the start are occupied. From one nucleus the analyzer counts 3k^2+3k+1 occupied sites after k steps while 2k+1 <= n0, n1, and all others as background. If any site is occupied at the start, all are from step n0//2 + n1//2 on.", "quantifier": "every tiling size, every start state, every number of steps, every schedule of the workers, every order in which neighbours are drawn", "why_tests_cant": "The project has no test that runs a model on the honeycomb tiling; the claim is about all sizes, states and steps.", "anchors": ["src/pylattica/models/growth/growth_controller.py:GrowthController.get_state_update", "src/pylattica/structures/honeycomb/structure_builders.py:HoneycombTilingBuilder", "src/pylattica/structures/honeycomb/neighborhoods.py:HoneycombNeighborhoodBuilder", "src/pylattica/core/analyzer.py:StateAnalyzer.get_site_count_where_equal"]}
{"id": "C157", "title": "Growth on the honeycomb tiling in double precision", "statement": "C156 holds for the tilings as doubles build them: for 3 to 1024 hexagons in each direction, if products are rounded sums of rounded products and the matrix inverse is accurate (which Gaussian elimination in doubles is, C111), GrowthController with HoneycombNeighborhoodBuilder occupies after k steps, serially or in parallel, exactly the sites stored at hexagons at most k away from a hexagon occupied at the start; from one nucleus an analyzer counts 3k^2+3k+1 sites while 2k+1 <= n0, n1; all sites are occupied from step n0//2 + n1//2 on if one was.", "quantifier": "every tiling size from 3 to 1024, every admissible order of summation, every start state, every number of steps, every schedule of the workers", "why_tests_cant": "Rounding errors depend on the size and on the order of summation; one missing neighbour link would show only in some sizes.", "anchors": ["src/pylattica/models/growth/growth_controller.py:GrowthController.get_state_update", "src/pylattica/structures/honeycomb/neighborhoods.py:HoneycombNeighborhoodBuilder", "src/pylattica/core/neighborhood_builders.py:DistanceNeighborhoodBuilder", "src/pylattica/core/lattice.py:Lattice"]}
{"id": "C158", "title": "The law of clusters grown one site at a time", "statement": "GrowthController run by the asynchronous runner with independent uniform draws, one phase on a background: the set of sites that have the phase is a Markov chain.  The chance of the cluster T after n+1 steps is (1 - b(T)/m) times its chance after n steps plus 1/m times the sum of the chances of T without i after n steps, over the sites i of T that have a neighbour among the others; b(T) is the number of vacant sites with a neighbour in T, m the number of sites.  The cluster of the nuclei is unchanged after n steps with chance (1 - b/m)^n, and each vacant neighbour i is the first to join within n steps with the same chance (1 - (1 - b/m)^n)/b.", "quantifier": "every structure and start state with one phase and a background, every neighbourhood that does not change, every number of steps, every cluster", "why_tests_cant": "The claim is about the distribution of whole runs; a small bias towards some sites needs very many runs to see, and a test looks at one cluster.", "anchors": ["src/pylattica/models/growth/growth_controller.py:GrowthController.get_state_update", "src/pylattica/core/runner/asynchronous_runner.py:AsynchronousRunner", "src/pylattica/core/basic_controller.py:BasicController.get_random_site"]}
{"id": "C159", "title": "Life from a random start: the chance of a live cell after one step", "statement": "setup_noise with a list of phases made of \"alive\" and \"dead\" (independent uniform draws, one per site), then one step of GameOfLifeController with any variant, serially or in parallel, on an n by n grid with n >= 3: every cell is alive with probability sum over j of C(8,j) q^j (1-q)^(8-j) (q [j a survival digit] + (1-q) [j a birth digit]), where q is the fraction of \"alive\" in the list; the mean number of live cells is n^2 times that. For the Game of Life with one \"alive\" and one \"dead\" it is 35/128.", "quantifier": "every grid size from 3, every list of phases, every variant, every cell, every schedule of the workers", "why_tests_cant": "A test sees single draws; the claim is about the distribution of the results over all draws.", "anchors": ["src/pylattica/structures/square_grid/grid_setup.py:DiscreteGridSetup.setup_noise", "src/pylattica/models/game_of_life/controller.py:GameOfLifeController.get_state_update", "src/pylattica/core/runner/synchronous_runner.py:SynchronousRunner"]}
{"id": "C160", "title": "Life from a random start: homogeneity, independence and concentration", "statement": "setup_noise with phases \"alive\" and \"dead\", then k steps of any variant of Life on an n by n grid: all cells are alive with the same probability; two cells more than 2k apart (around the grid, in the larger of the coordinate differences) are alive independently; the number of live cells differs from its mean by eps n^2 or more with probability at most ((4k+1)/(eps n))^2. For the Game of Life from an even noise the fraction of live cells after one step is within eps of 35/128 except with probability at most (5/(eps n))^2.", "quantifier": "every grid size, every list of phases, every variant, every number of steps, every pair of cells, every eps > 0", "why_tests_cant": "The claim is about joint distributions over all draws and all grid sizes; correlations between far cells are invisible in a single run.", "anchors": ["src/pylattica/structures/square_grid/grid_setup.py:DiscreteGridSetup.setup_noise", "src/pylattica/models/game_of_life/controller.py:GameOfLifeController.get_state_update", "src/pylattica/core/runner/synchronous_runner.py:SynchronousRunner"]}
{"id": "C161", "title": "all_phases answers from a cache shared by all analyzers", "statement": "DiscreteResultAnalyzer.all_phases is cached per analyzer object in one cache of 128 answers for the whole process. An analyzer that was never answered reads its result. An analyzer that was answered before repeats its last answer, whatever was added to its result since, as long as fewer than 128 other analyzers were answered in between; once 128 others were, it reads its result again. With at most 128 analyzers in a process every analyzer keeps its first answer forever.", "quantifier": "every sequence of calls by any number of analyzers on any results", "why_tests_cant": "The answer of one analyzer depends on how many unrelated analyzers were asked since; a test with one or two analyzers never leaves the cached case.", "anchors": ["src/pylattica/discrete/discrete_state_result_analyzer.py:DiscreteResultAnalyzer.all_phases"]}
{"id": "C162", "title": "What the result analyzer reports about runs of Life", "statement": "After a run of n steps of any variant of Life (serial or parallel) from a state whose sites know their ids, phase_fraction_at(k, \"alive\") is the number of cells alive in generation k divided by the number of cells, and phase_fraction_at(k, \"dead\") is the rest; all_phases lists \"alive\" (\"dead\") exactly if some cell is alive (dead) in one of the generations 0 to n-1, and final_phase_fractions gives the fractions of generation n for these. If all cells are alive and nothing survives or is born, final_phase_fractions after one step is {\"alive\": 0} although all cells are dead. From setup_noise with \"alive\" and \"dead\" phase_fraction_at(1, \"alive\") of the Game of Life is within eps of 35/128 except with probability at most (5/(eps n))^2.", "quantifier": "every grid size, variant, starting pattern, number of steps, schedule of the workers", "why_tests_cant": "It composes setup, runner, rule, stored diffs and analyzer for all patterns and run lengths, and the last part is about all draws.", "anchors": ["src/pylattica/discrete/discrete_state_result_analyzer.py:DiscreteResultAnalyzer.phase_fraction_at", "src/pylattica/discrete/discrete_state_result_analyzer.py:DiscreteResultAnalyzer.final_phase_fractions", "src/pylattica/models/game_of_life/controller.py:GameOfLifeController.get_state_update"]}
{"id": "C163", "title": "Pictures and animations of runs of Life", "statement": "After a run of n steps of any variant of Life (serial or parallel) on a grid at most as wide as high, the step artist with DiscreteCellArtist.from_discrete_result draws without error, and with draw_freq f the animation has the frames j with j*f <= n; frame j shows generation j*f: every pixel of a cell's block that the label \"Step ...\" does not cover has one colour if the cell is alive in that generation and another if it is dead. Each of the two colours is a palette colour if its phase occurs in one of the generations 0 to n-1, and black otherwise; for n >= 1 the two are different, so the generations can be read back from the file to_gif leaves; for n = 0 the whole grid is drawn black whatever the pattern.", "quantifier": "every grid size, cell size, variant, starting pattern, number of steps, draw_freq, schedule of the workers, font", "why_tests_cant": "It composes runner, rule, stored diffs, analyzer, colour map and drawing for all patterns; a test looks at the size of one picture.", "anchors": ["src/pylattica/visualization/result_artist.py:ResultArtist.to_gif", "src/pylattica/visualization/cell_artist.py:DiscreteCellArtist.from_discrete_result", "src/pylattica/visualization/square_grid_artist_2D.py:SquareGridArtist2D._draw_image"]}
{"id": "C164", "title": "What the result analyzer reports about growth runs", "statement": "After a growth run of at least one step, with the synchronous runner in one process, in parallel or with the asynchronous runner, from any start state the setups make, with any neighbourhood on any structure, all_phases lists exactly the phases of the start state; the fractions final_phase_fractions gives add up to 1; the fraction of the background is at most what it was at the start and the fraction of every other phase is at least that. Along the run phase_fraction_at of the background never increases; along a run in one process phase_fraction_at of no other phase decreases (in a parallel run it can), and with the asynchronous runner each step changes a fraction by 0 or by one site's share. With the artist from_discrete_result no site of any step is drawn black, and with at most 22 phases in the start state different phases have different colours.", "quantifier": "every structure, neighbourhood, start state, number of steps, order of neighbours, outcome of the draws, number of workers and schedule", "why_tests_cant": "It composes setup, runner, growth rule, stored diffs, analyzer and colour map for all start states and schedules.", "anchors": ["src/pylattica/discrete/discrete_state_result_analyzer.py:DiscreteResultAnalyzer.final_phase_fractions", "src/pylattica/models/growth/growth_controller.py:GrowthController.get_state_update", "src/pylattica/visualization/cell_artist.py:DiscreteCellArtist.from_discrete_result"]}
{"id": "C165", "title": "What the result analyzer reports about asynchronous Life runs", "statement": "In an asynchronous run of any variant of Life on a square grid of any size, phase_fraction_at(k, 'alive') is the part of the cells that are alive after the first k visits, each of which gives the visited cell its state in the next generation of the current pattern, and phase_fraction_at(k, 'dead') is the rest. With every step the fraction of live cells grows by one cell's share, falls by one cell's share or stays, as the visited cell is born, dies or keeps its state; from a pattern at rest under the rule it is the same at every step. Every sequence of cells is visited by some run.", "quantifier": "every grid size, variant, start pattern, sequence of visited cells, length of the run and step", "why_tests_cant": "The visited cells are random; the statement is about every sequence of draws and every pattern.", "anchors": ["src/pylattica/discrete/discrete_state_result_analyzer.py:DiscreteResultAnalyzer.phase_fraction_at", "src/pylattica/models/game_of_life/controller.py:GameOfLifeController.get_state_update", "src/pylattica/core/runner/asynchronous_runner.py:AsynchronousRunner"]}
{"id": "C166", "title": "Pictures and animations of growth runs", "statement": "For a growth run of at least one step, with any of the three runners and any neighbourhood, on a square grid at most as wide as high, drawn with the artist made by from_discrete_result, every fr-th step: get_images makes exactly the frames of the steps j*fr up to the end of the run, and frame j shows every cell in the palette colour of its phase at step j*fr at all pixels outside the label. With at most 22 phases at the start, to_gif leaves a file in whose frames the colour of a cell is the colour of a phase exactly if the cell has that phase, a cell that once does not have the colour of the background never has it again in later frames, and in runs in one process it keeps its colour.", "quantifier": "every grid size with width at most height, start state with hashable phases, background phase, neighbourhood, runner, sequence of draws, length of the run, frame step and cell size", "why_tests_cant": "The statement is about all cells of all frames of all runs, whatever is drawn and in whatever order the phases are listed.", "anchors": ["src/pylattica/visualization/result_artist.py:ResultArtist.to_gif", "src/pylattica/visualization/result_artist.py:ResultArtist._get_images", "src/pylattica/models/growth/growth_controller.py:GrowthController.get_state_update", "src/pylattica/visualization/square_grid_artist_2D.py:SquareGridArtist2D"]}
{"id": "C167", "title": "Notebook output, saved pictures, and pictures drawn on Windows", "statement": "jupyter_play of a result all of whose steps can be drawn shows the steps 0, 1, ... in order, each alone in the output and for `wait` seconds, and ends with the last step in the output; for a run of Life what is seen during pause k is a picture of generation k. jupyter_show_step(k) shows the same picture of step k; for k >= len(result) it raises, for negative k it shows the initial state under the label of k. If a step cannot be drawn jupyter_play shows nothing; with a negative wait it raises ValueError after step 0. save_img leaves the picture in the named file and other files alone, or raises with no file changed. On Windows _get_images gives the same pictures as elsewhere.", "quantifier": "every result, history of method calls on it, step artist, step number, waiting time and state of the output before", "why_tests_cant": "The notebook methods are marked no cover; the statement is about all results and everything that was in the output before.", "anchors": ["src/pylattica/visualization/result_artist.py:ResultArtist.jupyter_play", "src/pylattica/visualization/result_artist.py:ResultArtist.jupyter_show_step", "src/pylattica/visualization/result_artist.py:ResultArtist._get_images", "src/pylattica/visualization/structure_artist.py:StructureArtist.save_img"]}
{"id": "C168", "title": "Saving results without a file name keeps them", "statement": "to_file writes the result under the given name, or under a name made from the clock, returns that name and leaves other files alone; from_file with that name reads a result with the same steps. Of two results saved one after the other without names both can be read afterwards.", "quantifier": "every two results with diffs in the documented format, every two times and every set of files before", "why_tests_cant": "It depends on when the calls happen; the statement is about every pair of clock times.", "anchors": ["src/pylattica/core/simulation_result.py:SimulationResult.to_file", "src/pylattica/core/simulation_result.py:SimulationResult.from_file"]}
{"id": "C169", "title": "How fast asynchronous growth covers a structure on average", "statement": "With the site to update drawn uniformly at random in every step of an asynchronous growth run: the average number of sites that are not background grows, from step n to step n+1, by exactly the average over step n of the part of all sites that are background and have a neighbour that is not. If no site is a neighbour of more than D sites this average is at most (number at the start) * (1 + D/m)^n on m sites; D = 3^d - 1 on a grid with sides of at least 3 and the default neighbourhood. If every site can be reached from a site occupied at the start, the average number of steps until no site is background is finite, at most m times the number b of background sites at the start and at least m * (1 + 1/2 + ... + 1/b); no run takes fewer than b steps.", "quantifier": "every structure whose sites are numbered 0..m-1, neighbourhood, start state with any number of phases, background phase, number of steps; square grids of every size and dimension for the neighbour counts", "why_tests_cant": "It is about averages over all sequences of draws and about an infinite sum over step numbers.", "anchors": ["src/pylattica/models/growth/growth_controller.py:GrowthController.get_state_update", "src/pylattica/core/runner/asynchronous_runner.py:AsynchronousRunner", "src/pylattica/core/basic_controller.py:BasicController.get_random_site"]}
{"id": "C170", "title": "Asynchronous Life on average", "statement": "With the cell to update drawn uniformly at random in every step of an asynchronous run of any variant of Life on a grid of m cells: the average number of live cells moves, with one more step, by exactly the m-th part of the way from the average number of live cells to the average number of live cells in the next generation of the current patterns. Whatever the variant, the average numbers of live and of dead cells fall by at most the factor 1 - 1/m a step, and for the variant 'B/S' the first is reached. The chance that a step changes the pattern is the average part of the cells that have another state in the next generation.", "quantifier": "every grid size, variant, start pattern and number of steps; averages over all sequences of draws", "why_tests_cant": "It is about exact averages over all sequences of draws, for every variant and grid.", "anchors": ["src/pylattica/models/game_of_life/controller.py:GameOfLifeController.get_state_update", "src/pylattica/core/runner/asynchronous_runner.py:AsynchronousRunner", "src/pylattica/core/basic_controller.py:BasicController.get_random_site"]}
{"id": "C171", "title": "Average covering time of asynchronous growth, exactly", "statement": "With the site to update drawn uniformly at random in every step of an asynchronous growth run on m sites: if the number of background sites that have a neighbour which is not background depends only on the number k of sites that are not background (for the sets of sites that can come up), say r(k), the average number of steps until no site is background is exactly m * (1/r(a) + ... + 1/r(m-1)), a being the number at the start. So it is m * (1 + 1/2 + ... + 1/b) with b background sites at the start if all sites are neighbours of each other, as on every grid with no side longer than 3 and the default neighbourhood; m * m / 2 on a ring of m cells (a grid with all sides but one equal to 1) with the default neighbourhood, from one cell; and m * (m - 1) on a ring with the motif neighbourhood of the one offset -1. The first and the last are the bounds of C169, which therefore cannot be improved.", "quantifier": "every structure, neighbourhood, start state and background phase with that property; grids and rings of every size", "why_tests_cant": "It is an infinite sum over step numbers of averages over all sequences of draws.", "anchors": ["src/pylattica/models/growth/growth_controller.py:GrowthController.get_state_update", "src/pylattica/core/runner/asynchronous_runner.py:AsynchronousRunner", "src/pylattica/core/basic_controller.py:BasicController.get_random_site", "src/pylattica/core/neighborhood_builders.py:MotifNeighborhoodBuilder"]}
{"id": "C172", "title": "Asynchronous growth reaches a site in time proportional to its distance", "statement": "With the site to update drawn uniformly at random in every step of an asynchronous growth run on m sites: a site from which h moves along the neighbourhood lead to a site that is not background at the start is background in at most m * h steps on average; for every x > 1 the chance that it is still background after n steps is at most (x^h - 1)/(x - 1) * (1 - (1 - 1/x)/m)^n; if this holds for every site, the chance that some site is background after n steps is at most the number b of background sites at the start times that, and the average number of steps until none is background is at most 2m(h log 2 + log b + 1) + 1. On square grids with the default neighbourhood the number of moves is the Chebyshev distance on the torus, at most half the longest side, so the covering time grows at most like m times (the side length plus log m), where C169 only gives m times b.", "quantifier": "every structure, neighbourhood, start state, background phase, site, n and x > 1; grids of every size", "why_tests_cant": "It bounds averages over all sequences of draws of every length, for structures of every size.", "anchors": ["src/pylattica/models/growth/growth_controller.py:GrowthController.get_state_update", "src/pylattica/core/runner/asynchronous_runner.py:AsynchronousRunner", "src/pylattica/core/basic_controller.py:BasicController.get_random_site"]}
{"id": "C173", "title": "Average background fraction reported for asynchronous growth", "statement": "With the site to update drawn uniformly at random in every step of an asynchronous growth run on m sites from a start state made for the structure: phase_fraction_at for the last step and the background phase answers for every sequence of draws, with the part of the sites that are still background. One more step lowers its average by the average number of background sites with a neighbour that is not background, divided by m squared. If no site is a neighbour of more than D sites, the average after n steps is at least 1 - (a/m)(1 + D/m)^n, a being the number of sites that are not background at the start; if h moves along the neighbourhood lead from every site to one of those, it is at most the fraction at the start times (2^h - 1)(1 - 1/(2m))^n, and so tends to 0. On square grids with the default neighbourhood D is 3^d - 1 (no side shorter than 3) and h half the longest side.", "quantifier": "every structure, neighbourhood, start state, hashable phases, background phase and number of steps; averages over all sequences of draws; grids of every size", "why_tests_cant": "It is about averages over all sequences of draws of every length, and a limit.", "anchors": ["src/pylattica/discrete/discrete_state_result_analyzer.py:phase_fraction_at", "src/pylattica/models/growth/growth_controller.py:GrowthController.get_state_update", "src/pylattica/core/runner/asynchronous_runner.py:AsynchronousRunner", "src/pylattica/core/basic_controller.py:BasicController.get_random_site"]}
{"id": "C174", "title": "Average fraction of live cells reported for asynchronous Life", "statement": "With the cell to update drawn uniformly at random in every step of an asynchronous run of any variant of Life on a grid of m cells, from a state whose sites know their ids: phase_fraction_at for the last step and 'alive' answers for every sequence of draws, with the part of the cells that are alive. With one more step its average moves by exactly the m-th part of the way to the average fraction of live cells in the next generation of the current patterns. Whatever the variant, with the fraction q at the start the average after n steps is between q(1 - 1/m)^n and 1 - (1 - q)(1 - 1/m)^n; for the variant 'B/S' the first is reached, so the average tends to 0.", "quantifier": "every grid size, variant, start pattern and number of steps; averages over all sequences of draws", "why_tests_cant": "It is about exact averages over all sequences of draws of every length, and a limit.", "anchors": ["src/pylattica/discrete/discrete_state_result_analyzer.py:phase_fraction_at", "src/pylattica/models/game_of_life/controller.py:GameOfLifeController.get_state_update", "src/pylattica/core/runner/asynchronous_runner.py:AsynchronousRunner", "src/pylattica/core/basic_controller.py:BasicController.get_random_site"]}
{"id": "C175", "title": "growth counts on rectangular grids, from any cells of one phase", "statement": "On a grid with any numbers of cells along the axes whose cells hold a phase or the background, the growth model with the Moore neighbourhood of size 1 (the default) has after k steps as many sites of the phase, as get_site_count_where_equal counts them, as there are cells within Chebyshev distance k on the torus of a cell that held it at the start, and background on all others; with the von Neumann neighbourhood within Manhattan distance k. The serial runner and the parallel runner agree for every number of workers and assignment of chunks. With Moore and one cell the number is the product over the axes of the smaller of 2k+1 and the size; in general it is at most (2k+1)^d for each cell of the start, and everything once 2k+1 is at least every size (from one cell not earlier). The von Neumann number is never larger, and from one cell it is 2k^2+2k+1 in 2D and (2k+1)(2k^2+2k+3)/3 in 3D as long as 2k+1 is at most every size. setup_coords with one phase, setup_interface and setup_particle make such start states, for an int or a tuple as size; with either neighbourhood the h layers of an interface are min(size, h+2k) layers after k steps.", "quantifier": "every grid size along each axis, set of cells, pair of phases, number of steps, order of neighbours, number of workers and schedule, in 2D and 3D", "why_tests_cant": "The project tests one nucleus on one square grid; this is for all rectangles, sets of cells, step counts and schedules.", "anchors": ["src/pylattica/structures/square_grid/grid_setup.py:DiscreteGridSetup.setup_interface", "src/pylattica/models/growth/growth_controller.py:GrowthController.get_state_update", "src/pylattica/core/runner/synchronous_runner.py:SynchronousRunner", "src/pylattica/core/analyzer.py:StateAnalyzer.get_site_count_where_equal"]}
