# Formal model of pylattica in Lean 4: design

Source: `/repo` (mcgalcode/pylattica, pinned commit), read as text, never run.
Lean project: `/verif/lean`, modules under `Verif/`.

## Layout

| directory | content |
|---|---|
| `Verif/Model/*` | the model: total functions that mirror the Python, one definition per function, each citing file and lines |
| `Verif/Spec/*` | small specifications written without the model's helpers (torus Life, Chebyshev torus distance, FIFO queue, ...) |
| `Verif/Lemmas/*` | helper lemmas |
| `Verif/Props/*` | the property theorems `Cnn_...`, each next to an `example` showing its hypotheses are met by a concrete non-trivial case |

## Modelling conventions

* **Exceptions are values**: `Py α = Except Err α`, `Err` has one constructor per Python exception class that the code can raise.
* **Dicts** are insertion-ordered association lists `Dict κ ν` with Python's semantics (`d[k]=v` keeps the position of an
  existing key, appends a new one). `Dict.WF` = keys pairwise different, which every Python dict satisfies. `==` on dicts
  (order-insensitive) is `Dict.Equiv`.
* **Values** are `Val`: None, numbers, strings, lists, tuples, dicts. int, bool and float are one constructor `num : Rat`
  because Python compares and hashes them as equal when they are numerically equal. NaN and infinities are not modelled.
* **Update rules** (controllers) are arbitrary functions. Stateful / random controllers are functions with an extra threaded
  state `σ`. They do not mutate the SimulationState they are shown (documented contract of the library).
* **Randomness** is an oracle argument: theorems quantify over all oracles. Some properties (C124–C127, C135, C138, C151, C158–C160, C162, C169–C174) speak about probabilities and averages: `Spec.chance m k P` is the fraction of
  the `m ^ k` sequences of `k` draws from `m` possibilities for which `P` holds, i.e. the probability if the draws are uniform and independent (which is assumed
  of `random`); `Spec.mean m k X` is the average of `X` over them.
* **Object identity** (copies, generators yielding one live object, cached states) is modelled separately with an explicit heap of
  `SimulationState` objects (`Model/Heap.lean`).
* **Exact arithmetic**: coordinates are elements of an arbitrary linearly ordered field with floor
  (`ℚ`, `ℝ`, ...), operations exact. `np.round` (half to even) is modelled exactly on such numbers.
* **Double precision** is modelled in eight files: `Model/Double.lean`, for the path that the square grids take through `lattice.py`,
  `periodic_structure.py` and `neighborhood_builders.py` (C99-C103), `Model/DoubleSetup.lean`, for `grid_setup.py` and
  `growth_setup.py` on these grids (C104-C109), `Model/DoubleNested.lean`, for growth with random neighbourhoods on them (C119),
  `Model/DoubleHoneycomb.lean`, for structures with fractional motifs on any lattice and the
  honeycomb tiling (C111), `Model/DoubleHoneyGrowth.lean`, for growth on it (C157), `Model/DoubleAnalyzer.lean`, for the quotients of the analyzers and of the parallel runner (C112, C113),
  `Model/DoubleJson.lean`, for reading structures and simulations back (C114), and `Model/DoubleAny.lean`, which repeats the functions of the square grids
  with what numpy leaves open as a parameter (C115). A double is its rational value; every operation rounds its exact
  result with `fl`. `C99_rounding` shows that `fl` gives a double and that no double is nearer.
* **Worker processes** of the parallel runner are modelled by one private state per worker and an arbitrary assignment
  (step, batch) ↦ worker.

## Plan per property

C01–C08 dict-level semantics of `SimulationState` (`Model/State.lean`); direct proofs / induction over operation lists.
C09 heap model; frame lemma by induction over interleavings.
C10 JSON layer (`Model/Json.lean`): keys become strings and are parsed back; round-trip proof incl. decimal printing/parsing.
C11–C12 `merge_updates` branch by branch.
C13, C14, C22–C24 `_step_batch` as a fold; characterise the folded dict. C13 refined to an abstract "simultaneous map" step.
C15, C20 replay theorem: the fold over recorded diffs equals the live state; C20 is false for parallel runs (output is the initial
state): negation proved.
C16 heap model of `Runner.run`.
C17 arithmetic of chunking. C18 parallel = serial: false in general (a worker that gets no batch in a step misses that step's
updates): negation proved with a concrete schedule; proved under "every worker executes some batch at every step" (`_partial`).
C19 proved for all schedules. C21 false: negation proved.
C25–C28 the async loop as a recursion on the remaining steps, compared with a FIFO specification.
C29 trivial arithmetic over all outcomes; false for non-contiguous ids (negation).
C30–C35 `SimulationResult`; C31, C32, C33, C35 are false as stated for the code: negations proved plus the part that holds.
C36–C42 exact linear algebra with Mathlib matrices. C40, C41 false in general (skew lattices): negation plus orthogonal case.
C43–C50 `PeriodicStructure` as a state machine. C46, C47, C49 have false corner cases: negation plus aligned case.
C51–C54 square grids: integer arithmetic modulo size.
C55–C59 neighbourhood graphs.
C60–C63 models on top of the runner and grid theorems. C64–C69 setup code with random oracle.
C70–C73 analyzers. C74–C77 visualisation logic (pixels as a function, files as a map).
C78 honeycomb over ℝ. C79 conversion logic with pymatgen structures as plain records. C80 distance maps.
C81-C94 setups, plots, voxels, reloading, `Simulation`: on top of the models above. C95-C97 Game of Life and growth with the other runners.
C98 distance neighbourhoods and real periodic distances.
C99, C100 square grids in double precision: error bounds for one axis, then a comparison of the double lookup table with the exact one.
C101 Game of Life on such grids: the neighbourhood is the exact one or cannot be built.
C102, C103 distances: error bound through difference, sum of squares, root and scaling; 1000 times the root of an integer is never half-way between integers (parity), which leaves a gap larger than the error.
C104-C109 setups: the double grid has the same sites as an exact one (`Behind`); wherever a decision is taken on a rounded number, the
rounded number is compared with the exact one; everything else is carried over from the theorems on exact grids.
C110 malformed sites: the exception of the first malformed site that is looked at goes through every loop.
C111 honeycomb tiling: error bounds for `x @ inv(M)`, the periodic wrap and `f @ M` around the middles of hexagons. The middle of a row is at an odd multiple
of sqrt(3)/4; that it is not close to a tie of the rounding to thousandths is checked for each of the 1024 rows by the kernel (`honey_rows`), which is where
the bound on the size comes from. What numpy leaves open is a parameter (`Dbl.Arith`): order of summation and fused multiply-add (`Products`), and the
inverse, of which only an error bound is assumed (`InverseOf`). `C111_inverse` derives that bound from Gaussian elimination with partial pivoting.
C112, C113 quotients of ints: two different quotients of small ints differ by more than the rounding error (`fl_div_lt`), a quotient that is no integer is
further from the integers than the error, and integers and halves are doubles.
C114 reading back: `from_dict` adds the stored locations again; they have the keys of their sites and are stored unchanged (`refold`).
C115 independence: a sum of products of which at most one is not zero has the same value in every order (`DotOf.sparse`), and an LU decomposition of a
matrix with one entry per row and column only divides (`C115_inverse`). This justifies the fixed order of summation and the fixed inverse of
`Model/Double.lean`.
C116 compound builders: induction over the nesting; the possible answers are an inductive predicate (`CanAnswer`) that does not mention draws.
C117 growth with random neighbourhoods: an answer lists at least the sure neighbours and at most the possible ones; the two bounds are carried through the
parallel run together (`growth_front_between`). All pseudohexagonal motifs have the unit steps, so the Manhattan ball is filled; for every step some
pseudopentagonal motif does not have it, so there are draws that hide the nucleus from all sites. In 3D a potential (`flatDist`) that some motif decreases by
at most 1 at every site shows that the far side may be left over.
C118 reloading in memory: the simulation of C09/C33 between the heap and plain values is extended by the two `from_dict` methods; a frame condition (`Frame`)
says that objects outside the private ones are not touched, which gives the live dict and the values of updates.
C119 growth with random neighbourhoods in double precision: on sizes with an exact reciprocal the controller is equal to the one of the exact grid behind the double grid
(`growthInit_behind`), so C117 carries over; `Leads` states the answers in cell coordinates.
C120 continuing runs: the loop after `n` steps is the loop started there (`syncLoop_add`), and replaying a longer list of updates starts with the shorter one.
C121, C122 Life: on top of C60. A symmetry of the torus permutes the neighbourhoods (`generation_move`); a cell looks only one step far
(`generation_local`); in a window without overlaps the torus looks like the plane (`generation_wrapped`). The known patterns are then checked on the plane, where a
generation is a finite computation, and moved anywhere.
C123 runs on the heap: the rule is arbitrary code on the memory; `Follows` says that it carries out a controller by making objects and reading states. The
run on the heap stays in lockstep with the run on values (`Running`), because nothing but the runner changes an object, and the runner changes only the
private dicts of the live state; the dicts it merges are its own.
C124, C125 random runs: a run is the walk driven by the draws (`runAsync_visit`), and counting draws step by step gives the chain (`chance_walk`). For growth the
number of background sites never increases and from every situation some visit decreases it; a weight 2^μ shows geometric decay (`chance_settle_many`).
C126, C127 random setups: the result as a function of the draws (`noise_result`, `placeLoop_taken`); permuting the values of all draws permutes the result and
does not change the probability (`chance_perm`). Sets and cells are counted twice (`chance_sum`, `chance_double`).
C128 loading: `int()` is the grammar `IntLiteral` (`toInt_str`); a comprehension keeps the last value of every key (`intKeys_ok`); the rest is the order in which
the entries of a document are looked at.
C129 raw states: the relation `Holds` between values and plain states is a simulation for all methods.
C130 writing rules: a rule may write into the state it is shown (`Writer`). Carrying out an update twice is the same as carrying it out once (`batch_again`), so
a rule that carries out its own update runs like the pure rule in asynchronous runs; a serial step becomes a sweep over the sites in visiting order
(`writer_step_own`), which is not the simultaneous step. `Passage` follows the calls of an asynchronous
run together with the queue; the recorded diffs replay the answers alone. In parallel runs the writes stay in the workers' private states.
C131 counting growth: `GrownTo` says what `k` steps of growth make of a start state with either runner; moves in the neighbourhood graph are torus distances
(`hops_dist`), and the cells of a cube or diamond on the torus are counted by induction on the dimension (`card_cubeBall`, `card_diamond_succ`).
C132 counting setups: the cells of a phase are a box (interface) or the listed cells (coords); `sitesWith_cells` turns them into a count.
C133, C134 runs as dynamical systems: `step_exact` gives each site's next state; the light cone is an induction on `Within`; periods come from the pigeonhole
principle on the functions from sites to states, for Life on the subsets of the torus (`generation_congr`).
C135 random neighbourhoods: a serial step makes as many calls of `neighbors_of` as there are background sites (`takeStep_at`), so the draws of a step are a block whose
length is known before the step (`chance_settle_var`).
C136 grains: `grains_of_steps` is an induction on the steps; a newly grown site has the phase of an occupied neighbour, whose shortest way it extends. With workers that sit
out a step this fails (`C136_parallel_false`).
C137 renaming: `Renames h θ c c'` says that a rule commutes with a renaming of stored values; each runner is followed step by step with exceptions kept (`C137_serial` and so on), and
the growth rule is shown to be such a rule (`growth_renames`).
C138 random particles: the law is counted over all draws; the phase of a cell is that of the last particle that covers it (`lastDropped`), by induction on the number of particles.
C139 phases that cannot be hashed: `Model/GrowthAny.lean` has the rule with `==` and hashing; `AgreeOn` carries the equality with `Model/Growth.lean` through the runners
for states whose phases are hashable, and `stepBatch_any` finds the exact condition for the TypeError.
C140 shares: the quota loop's state after `c` calls is a closed formula (`TInv`: limit and number of turns, whichever is smaller); nan and the infinities appear as
constructors of `Ext`. The background may be among the phases (`PInvAny`).

C141/C142 shapes: `Model/RawLattice.lean` repeats lattice.py and the location arithmetic of periodic_structure.py on lists of numbers of any length, with numpy's
rules for shapes. `Fits R L` says that the flat list of entries, cut into rows, is the matrix of `L`; every method then equals that of `L` (`Computes`), and the
structure code is compared step by step (`Both`, a relation kept by `foldlM`). So the simplifications of `Lattice.init` and of `Structure` lose nothing but the
misshapen objects, and those are described by `C141_any_shape`, `C141_flags` and `C142_first`.
C143 offsets of every length: `Model/RawMotif.lean` repeats the motif builder on those structures, with `zip` cutting the offset to the location; the edges are compared
with those of the cut offsets (`C143_long`), so every theorem about motif builders carries over, and the stored distances are followed separately (`C143_weight`).
C144 skew lattices: the squared length is written with the Gram matrix; if periodic vectors are orthogonal to all others, wrapping shortens it term by term. Otherwise the
point half-way along the periodic vector has two images of different length, and in a large supercell the difference survives the rounding.
C145 light cones in parallel runs: strong induction on the step over the lists of patches of `Lemmas/ParallelBy.lean`; a worker's view at a site is the initial state
with the patches that reached it, all of which are from earlier steps.
C146, C147 asynchronous runs as visits: a returned run of a controller that follows a site-local rule is the fold of single visits over the popped sites
(`runAsync_visits`); `Reaches` and `Reordered` are relations on the list of popped sites (`trace`, bookkeeping of the model).
C148 maps of sites: no bijectivity is needed for serial runs, since every site is compared with its image; `held` leaves the stored `_site_id` out of the comparison.
C149 rectangular grids: `setup_builds_rect` is `setup_builds` for tuples; the painting lemmas of C64-C69 take any torus.
C150 digits of Life variants: facts about `generation` (counts of live and dead neighbours add up to 8; an increasing chain of subsets of a finite set), carried to
runs by C60 and C95.
C151 asynchronous Life variants: facts about single visits of a pattern (`visitCell`), carried to runs by C96; rest with probability 1 by `chance_settle` with the
number of cells that can still change; independence of the order because `generation` is monotone (as in bootstrap percolation).
C152 clusters: the run follows a walk on sets of occupied sites (`visitSet`); the draws for a given cluster are built by induction on the number of steps, each time
visiting a site of the cluster at the border of the occupied set.
C153 parity rules: one generation is a linear map over the integers modulo 2, and squaring it doubles the distances because mixed terms cancel (`spreadBy_twice`).
C154 states without predecessor: a map of a finite set to itself is injective exactly if it is surjective.
C155 rectangles: a cell outside has at most 3 live neighbours (`liveAround_outside`); populations by counting pairs of neighbours in two ways.
C156 honeycomb growth: hops on the graph of C78 are the hexagonal distance (`HexTorus.hops`), counted by rows (`card_hexBall`); the runs come from C131's `grown_serial`/`grown_parallel`.
C157 the same in doubles: `HexTorus` asks only which site belongs to which hexagon and who is whose neighbour, so C111 gives it for the tiling built in doubles.
C158 the law of asynchronous growth: C152's reduction of a run to a walk on sets, then the chances by conditioning on the last draw (`chance_snoc`) or the first (`chance_succ`).
C159 Life from noise, one step: the nine cells of a neighbourhood are nine different draws; the chance of exactly j live neighbours is binomial (`chance_count`).
C160 Life from noise, k steps: translations of the torus permute the draws (`chance_reindex`); a cell depends on the draws at most k away (`soup_local`), so far cells are independent; Chebyshev's inequality with the number of near pairs.
C161 The cache of `all_phases`: the cache before a call is the first 128 of the distinct analyzers answered so far, latest first (`before_eq`).
C162 Analyzers on Life runs: runs keep all keys but the occupancy (`life_run_kept`, `life_parallel_kept`), so every step can be analyzed; then C71, C72 and C160.
C163 Pictures of Life runs: `draw_life` (C75, C76 with the phases of a Life state), `lifeRun_kept` for the steps, C162 for the phases in the colour map, C77 for frames and file.
C164 Analyzers on growth runs: every step has the start's sites and only the start's phases (`growthRun_steps`, from C62, C90, C97 and C131), so C72's condition for fractions that add up to 1 holds.
C165 Analyzers on asynchronous Life runs: the steps of C96 with unique keys and unchanged ids (`life_async`), counted as in C162; one visit changes the count as it changes the visited cell.
C166 Pictures of growth runs: the artist of C75 on a state all of whose sites have a phase (`draw_phases`), the frames of C77 and the steps of C164; with at most 22 phases the palette is injective, so the frames inherit what C164 says about the steps.
C167 Notebook output: the events of `jupyter_play` are replayed on an output (`screen`, `seen`); induction on the frames of C77. Windows: mapping the composition of two steps succeeds exactly if mapping one after the other does.
C168 Files: the name from the clock has fields of fixed width around the year, so it tells the minute and nothing more; false within one minute.
C169 Covering times: the set of sites that are not background does a walk on sets (C97); the average after one more draw is the average plus the average border over m; summing over the steps bounds the sum of the chances that a site is left; from below the same with 1 + 1/2 + ... + 1/u for u sites left, which a draw lowers by at most 1/m on average.
C170 Life on average: the pattern after a run is `oneByOne` of the visited cells (C96); sites and cells correspond one to one, so summing what one visit changes over all sites gives the number of live cells of the next generation minus that of the pattern.
C171 exact covering time: the sum of 1/r(k) from the number of occupied sites on falls on average by 1/m times the chance that the structure is not covered, so the partial sums of these chances are exact; it tends to 0. On a ring the sets that come up are arcs, kept in the form `place below l` after turning the ring.
C172 distance and covering time: the distance from a site to the occupied set falls by one when the last background site of a shortest way is drawn (chance 1/m), so a non-decreasing function psi of it falls on average by at least (psi(h) - psi(h-1))/m; psi(h) = h gives the average, psi(h) = x^h - 1 the exponential bound; the tail sum of min(1, bound) gives the covering time.
C173 average of the reported background fraction: for every sequence of draws the report is 1 minus the reached part of the sites (C164's analyzable steps), so its average is linear in the averages of C169 and the chances of C172.
C174 the same for asynchronous Life: C165 says what is reported for each sequence of draws, C170 gives the averages.
C175 rectangles: as C131, with the size of each axis; a diamond that does not meet itself has as many cells as on a large square grid (`card_rdiamond`, induction on the dimension).

## Trusted base

What has to be believed for the theorems to say something about the code:

1. **Lean's kernel** (4.33.0) and the correctness of its compiled checker. No `sorry`, `admit`, `native_decide`,
   `bv_decide`, no added axioms. `decide +kernel` is used for concrete counterexamples and for the `example`s; it is
   evaluated by the kernel itself.
2. **Axioms**: every theorem in `MANIFEST.json` depends on a subset of `propext`, `Classical.choice`, `Quot.sound`.
   `AXIOMS.txt` lists the output of `#print axioms` for each of them. Mathlib is used for ordered fields, matrices,
   lists and permutations; it adds no further axioms.
3. **The model**: the definitions in `Verif/Model` were written by reading the Python text. They were never compared with
   a run of the program. Each cites the file and lines it mirrors and states its simplifications. They were compared with
   what the project's own tests expect: `Verif/Tests` evaluates the expectations of `/repo/tests/core` about states, results, merged
   updates, runners, lattices, structures and neighbourhoods, and of `/repo/tests/structures/square_grid` about sites and two-dimensional
   neighbourhoods, on the model in Lean's kernel; `Verif/Tests/Setup.lean` does the same for grid setups, the Game of Life rule, the discrete
   analyzers, cell artists, colour maps and honeycombs, partly by deriving the expectation from the property theorems. Those files are tests, not proofs of properties, and no claim in `MANIFEST.json` rests on
   them. Random draws are fixed to one sequence, and long runs and large grids are shortened where a comment says so. The growth tests are
   the example at the end of `Props/GrowthCount.lean`. The other tests (random setups, pictures, pymatgen, files of structures and simulations) are
   not ported. Nobody ran the Python tests here, so that they pass is assumed.
4. **The specifications** in `Verif/Spec` and the statements in `Verif/Props`: these have to be read to know what is claimed.
5. The behaviour of the Python language and of libraries as written down in the model: dict order and equality, `deque` as a FIFO
   `random.*` returning some element of the documented range, `rustworkx.PyGraph` as a multigraph whose
   `neighbors` lists adjacent nodes without repetition in some order, numpy arithmetic as exact arithmetic (in `Model/Double.lean` and `Model/DoubleSetup.lean`:
   as IEEE 754 binary64 with rounding to nearest even; `np.linalg.inv` of a matrix with one non-zero entry per row and column as one
   division per entry; `np.round(x, 3)` as multiply, round to integer, divide; `np.linalg.norm` as a correctly rounded root of a sum of squares that is
   accurate to 50 binary digits; in the setups: of a sum of squares computed in any order, with or without fused multiply-add, `SquaresOf`;
   `np.sum` as double additions in any order and grouping, `SumOf`), `multiprocessing.Pool.map`
   returning the answers in the order of the batches and executing every batch on some worker.

## Which code is modelled

All paths under `/repo/src/pylattica`.

| file | modelled (lines) | model | not modelled |
|---|---|---|---|
| `core/constants.py` | all | State, Structure, Lattice | |
| `core/simulation_state.py` | all: constructor, readers, `set_*`, `batch_update`, `copy`, `__eq__`, `as_dict`, `from_dict`, `from_struct` | State, RawState (any value as state), Json, Heap, HeapJson | subclasses of dict as states |
| `core/simulation.py` | all; files as JSON values | GridSetup, Simulation | file system, JSON text |
| `core/simulation_result.py` | all | Runner, Result, Json, ResultFile, Heap, HeapJson | JSON text, monty beyond calling `as_dict` and `from_dict`, file names that cannot be written |
| `core/runner/common.py` | all | Runner, HeapRun, Writer | |
| `core/runner/base_runner.py` | `run` | Runner, Heap, HeapRun | log printing |
| `core/runner/synchronous_runner.py` | all | Runner, DoubleAnalyzer, HeapRun, Writer | tqdm, process start-up, pickling; a worker that raises only as "the step raises" |
| `core/runner/asynchronous_runner.py` | all | Runner, HeapRun, Writer | tqdm, log printing |
| `core/basic_controller.py` | all | Runner | |
| `core/lattice.py` | all | Lattice, RawLattice (vectors, flags and locations of every length, singular matrices), Double, DoubleHoneycomb, DoubleAny | floats outside the square grids and the honeycomb tiling |
| `core/coordinate_utils.py` | all | Structure | |
| `core/periodic_structure.py` | all | Structure, RawLattice (locations, counts and positions of every length), Double, DoubleHoneycomb, DoubleJson, DoubleAny | a motif whose offsets are lists (raises `TypeError` on hashing) |
| `core/structure_builder.py` | all | Structure, RawLattice | |
| `core/neighborhoods.py` | all | Neighborhood, Nested | |
| `core/neighborhood_builders.py` | all | Neighborhood, RawMotif (offsets of every length), Nested, Double, DoubleHoneycomb, DoubleAny | |
| `core/distance_map.py` | all | Neighborhood | |
| `core/analyzer.py` | all | Analyzer | criteria that mutate the state |
| `core/utils.py` | none (printing) | | `printif` |
| `discrete/*` | all | Analyzer, DoubleAnalyzer | `plot_phase_counts` (calls a method on a missing attribute, see findings); plotly figures beyond their data |
| `structures/square_grid/*` | all | SquareGrid, GridSetup, RandomSitesAny, GrowthSetup, Nested, Double, DoubleSetup, DoubleNested | `dim` other than 2 and 3 |
| `structures/honeycomb/*` | all | Honeycomb, DoubleHoneycomb | |
| `models/game_of_life/controller.py` | all | Life | non-ASCII digits in variant strings |
| `models/growth/growth_controller.py` | all | Growth, GrowthAny, Nested, DoubleSetup, DoubleHoneyGrowth | |
| `visualization/colors.py`, `helpers.py` | all | Viz | |
| `visualization/cell_artist.py` | all | Viz | |
| `visualization/square_grid_artist_2D.py` | all; a picture is a function from pixels to colours, text is one operation painting unspecified pixels in a box | Viz | fonts, image formats |
| `visualization/square_grid_artist_3D.py` | filled voxels and their colours | Viz | matplotlib rendering |
| `visualization/result_artist.py` | all; the directory is a map from names to files, the output of a notebook cell a list of pictures | Viz, Notebook | |
| `visualization/structure_artist.py` | all | Notebook | |
| `atomic/pymatgen_struct_converter.py` | all; pymatgen objects are records | Pymatgen | pymatgen itself (its constructor is taken to keep species strings and fractional coordinates, `coords = frac_coords @ matrix`) |

## Assumptions and simplifications, collected

* Except in `Model/Writer.lean` (C130), update rules do not mutate the state they are shown; they change no object they returned; `pre_run` may mutate and is
  modelled so. That the answers need not be fresh dicts is proved (C123, `Model/HeapRun.lean`).
* The private dict handed out by `as_dict()["state"]` is passed back only to `from_dict` (`Model/HeapJson.lean`), not as an update.
* Floats are replaced by exact numbers except in the `Model/Double*.lean` files; NaN, infinities, rounding errors and overflow are absent. In particular
  float step sizes in plots are outside the model. `amounts` that add up to 0 in `setup_random_sites` (nan, infinities) are in `Model/RandomSitesAny.lean`.
* Values keep their numeric value but not their numeric type (`1 == 1.0 == True`, as for Python's `==` and `hash`).
* Iteration order of Python sets is an arbitrary permutation; theorems hold for each of them.
* `while` loops that need not end are recursions on fuel; `none` means "still running".
* Sizes are natural numbers unless a theorem says otherwise.

## Findings: claims of the documentation that the code does not meet

Each has a machine-checked counterexample in the model (theorem in brackets) and a positive theorem for the part that holds.

* A rule with a mutating `pre_run` makes the recorded history differ from the real one (hypothesis of C15). What is recorded then is
  `C15_serial_any` and `C15_async_any`; `C18_one_worker_any` and `C20_parallel_output_any` are the parallel counterparts. `C15_serial_hook`,
  `C15_parallel_hook` and `C15_async_hook` say that apart from the recorded first state the run is the one without the hook from the state it leaves.
* Parallel runs: a worker that got no batch in a step misses that step's updates and computes from a stale state
  (`C18_false`); the output of every parallel run is its initial state (`C20_false`); conflicts are resolved
  differently from serial runs (`C21_false`).
* `GrowthSetup.grow` always uses the parallel runner: a worker with a stale state overwrites the phase of sites that another
  grain already occupies (`C91_false`, and `C91_false_grid` with everything built by the library); the set of occupied sites is nevertheless right at every step (`C90_same_sites`);
  a site may end with a phase that none of its nearest nuclei has (`C136_parallel_false`).
* `get_step(-1)` gives the initial state (`C31_false`); `steps()` never yields the last step (`C32_false`) and yields one
  live object (`C33_steps_false`).
* A rule that writes into the state it is shown falls out of the history: the change takes effect but is recorded nowhere (`C130_unrecorded`,
  `C130_history_false`).
* `to_file()` without a name uses the clock without seconds: of two results saved within one minute the first is lost (`C168_overwrites`, `C168_false`).
* `jupyter_show_step(-1)` shows the initial state labelled "Step -1" (`C167_step_range`).
* Results recorded by the runners cannot be reloaded (`C35_runner_false`); general parts of diffs are dropped on reload
  (`C35_general_false`).
* Periodic distances on skew lattices are not minimum-image distances and depend on the image at half-way points
  (`C40_false`, `C41_false`); distance neighbourhoods on such lattices miss sites inside the cutoff (`C98_false`).  Distances below half the gap between
  opposite faces of the cell are right on every lattice (`C41_short_partial`, `C98_short_partial`). In supercells of all sizes they are right exactly
  if every periodic vector is orthogonal to all other vectors (`C144_exactly`), so not on the honeycomb tiling (`C144_honeycomb`).
* In double arithmetic `49 * (1/49)` is not 1. On a 49 x 49 grid `site_at((49, 0))` is therefore None and the Moore and von Neumann
  builders raise `TypeError` (`C100_false`). The same happens for 98, 103, 107, 161, ... (the model's criterion `ReciprocalExact`, `C100_sizes`).
  Game of Life cannot be run on such grids (`C101_false`). Distance neighbourhoods are not affected (`C103_weights`).
  `setup_random_sites` with a buffer (`C104_false`), `setup_coords` with a coordinate 49 (`C108_false`) and `GrowthSetup.grow` (`C109_false`) raise `TypeError` too.
* A site whose distance to the centre is below the radius but rounds to it is not covered by a particle (`C106_false`).
* `7 / 100 * 100` is more than 7 in double arithmetic: of 100 sites, 8 get a phase whose share is exactly 7 (`C105_false`).
* Sites whose exact locations differ can be stored at the same location (`C44_false`); a site stored on the far face of the
  cell is not found there (`C46_false`) and such structures cannot be reloaded (`C47_false`).  The exact conditions: `C46_exact`, `C47_loads`, `C47_same`.
* Cartesian motifs are placed wrongly on lattices with a non-symmetric matrix (`C49_false`).
* `setup_random_particles` picks letters of the phase name (`C83_false`). Its particles do not reach across the periodic border, so cells at the border are covered
  less often than others (`C138_border`).
* The setups accept tuples as size, but `setup_interface`, `setup_particle` and `setup_random_particles` measure every axis with the first entry, which is the extent
  of the second axis: on a grid of size (8, 3) there is no interface and no particle (`C149_no_interface`, `C149_no_particle`).
* `setup_random_sites` gives every phase one site in turn, so that small phases come out ahead: a phase can miss its share by almost as many sites as there are other
  phases (`C140_off`, `C140_close`). Amounts that add up to 0 without a positive one make it loop forever (`C140_returns`).
* The check that all lattice vectors have the same length never fires (`np.array` raises before), and that there are as many vectors as entries is not checked: any
  square number of entries is accepted, e.g. four vectors of length one, which make a plane lattice with `dim == 1` (`C141_four_numbers`). The number of flags is not
  checked; wrong numbers raise on first use (`C141_flags`). Dependent vectors are accepted and raise on first use (`C141_square`). `build_from` ignores surplus counts,
  and a motif position of one number is used on every axis (`C142_build`).
* Neighbourhood offsets with more entries than the space has dimensions are cut without notice (`C143_long`), but the stored distance counts the entries that were
  cut off: a Moore builder made for three dimensions gives the right neighbours on a plane grid, with wrong distances (`C143_moore`, `C143_moore_weight`). Offsets with
  fewer entries raise (`C143_short`, `C143_too_few`).
* A phase that is a list or dict makes growth raise TypeError as soon as it touches the background (`C139_unhashable`).
* `get_sites_where_equal({k: None})` also finds sites without `k` (`C70_none_matches_absent`); without a structure the class
  argument is ignored (`C70_class_ignored`).
* `all_phases`, the phase plot and `from_discrete_result` miss phases that appear only in the last step (`C72_false`,
  `C84_false`, `C85_false`); `all_phases` is cached and goes stale (`C72_stale`); the cache
  is one for all analyzers and holds 128 answers, so whether an answer is stale depends on unrelated analyzers (`C161_example`).
* `plot_phase_counts` reads `self.steps`, an attribute that is never set: it always raises `AttributeError` (read off the
  text, not modelled).
* The palette repeats from 23 phases on (`C74_collision`).
* Labels are written over the sites; on wide grids the legend bar is drawn over sites (`C76_false`, `C76_wide`).
* `to_gif` leaves its temporary files when saving raises, and overwrites and deletes files of the user that have the same
  name (`C77_false`).
* 3D pictures: non-cubic boxes raise `IndexError` (`C86_not_cubic`); `shell_only` draws the plane y = 0 only (`C87_false`).
* Periodicity flags are lost in both pymatgen conversions (`C79_pbc`); a structure with two stored locations at the same
  place does not survive the round trip (`C88_false`).
* Simulations on structures with two sites stored at the same location cannot be reloaded (`C93_false`; exact condition `C93_exact`).
