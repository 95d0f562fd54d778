# Formal model of foxes in Lean 4 — design

## 1. Trusted base

* Lean 4.33.0's kernel. No own axioms, no `native_decide`/`bv_decide`, no unfinished proofs. Every property theorem depends
  on a subset of `propext`, `Classical.choice`, `Quot.sound`; the list per theorem is in `AXIOMS.md`, generated by
  `tools/axioms.py` from `#print axioms`.
* The reading of the Python source: the theorems are about the Lean model. Every model definition cites the file and lines it
  models and names its simplifications. Nothing was executed; the model was compared with the source by reading only.
* Numbers: numpy float64 is modelled by exact arithmetic (`ℕ`, `ℤ`, `ℚ`, `ℝ`). Rounding, overflow and signed zero are *not*
  modelled. NaN is modelled (as `Option`/`none`) only where the code branches on it; infinities as extended reals in Geom2d.
  `int(a / b)` of two integers is integer division, which agrees with float64 below 2^53.
* numpy/xarray/pandas/scipy/matplotlib primitives (slicing, concatenation, fancy indexing, argsort, interp, array_split,
  interp1d, Path.contains_points) are modelled by their documented behaviour on lists/functions, or are parameters.
* Pools (`concurrent.futures`, dask, ray, mpi4py): modelled as "each submitted job is executed once, in any order; `_result`
  returns the value of the job". Process start-up, pickling and dying workers are not modelled.

## 2. Layout

* `lean/Verif/Model/*.lean` — the model: definitions only, each with source citation.
* `lean/Verif/Proof/*.lean` — helper lemmas.
* `lean/Verif/Props/*.lean` — the property theorems `Cxx_...` with their small specification vocabulary (plain definitions in
  terms of the API: what the user passes in and gets out) and, beside each, a non-vacuity `example`.
* Theorems that refute a property, or a clause of it, as a user would state it, have names such as `..._false`, `..._not`,
  `..._counterexample`, `..._leaks`, `..._wrong`; what remains true is proved in full generality and has the suffix `_partial`
  if the clause in `properties.jsonl` is wider.
* `properties.jsonl` is written by `tools/gen_props.py`, `MANIFEST.json` by `tools/gen_manifest.py` from `tools/manifest.txt`
  (theorem names are collected from the Props modules by `tools/refresh.py`).
* `seeded/LOG.jsonl` — one line per wrong program that was tried against the theorems.

## 3. Properties: model and proof method

| id | modelled code | method |
|----|---------------|--------|
| C01, C02 | `Engine.calc_chunk_sizes` (Chunks) | total function into `Except`; arithmetic by cases, loop by well-founded recursion |
| C03, C04, C06 | `get_chunk_input_data`, `combine_results`, pool/single/numpy `run_calculation` (Run) | induction over chunk lists; completion order = any permutation of (key, value) pairs |
| C05 | `Engine.map` (Run) | `np.array_split` on lists |
| C07 | engine life cycle (Engine) | transition system, invariant by induction over all call sequences |
| C08, C09 | chunk store and concurrent runs (ChunkStore) | contiguous partition; small-step interleaving, explicit bad schedule |
| C10, C11 | reordering of turbines (Downwind, Numbering) | permutation lemmas |
| C12, C14, C16 | farm wakes calculation (Downwind, Iterative) | fold invariant of the turbine loop; uniqueness of the downwind recursion; nilpotency |
| C13 | calculation order (Order) | sorting, projection on the wind direction |
| C15, C17, C18 | `Iterative.calc_farm`, convergence (Iterative) | loop with fuel, arbitrary convergence oracle |
| C19 | `Sequential` iterator (Sequential) | state machine, induction over `next` calls |
| C20, C21 | `FarmController` (Controller) | merging lists of names, index bookkeeping |
| C22, C23 | model/algorithm initialise, finalise, data stash (Lifecycle) | state machine over all model objects |
| C24, C25 | all 13 wake superpositions (Superposition) | each as (init, add, final); fold permutation lemmas |
| C26, C27, C47, C48 | induction and wake models (WakeModels) | real analysis |
| C28 | `calc_area` (Circles) | equality with Lebesgue measure of the intersection |
| C29 | partial wakes (PartialWakes) | areas of rings, weights |
| C30 | rotor models (Rotor) | finite sums, weights |
| C31 | `wind_dir.py` (WindDir, DeltaWd) | trigonometry, floor arithmetic |
| C32 | wake frames (Frames) | isometries |
| C33, C34, C44 | turbine models (TurbineModels) | one state, arrays as functions of the index |
| C35 | turbine types (PowerCurve) | piecewise linear interpolation |
| C36, C49 | vertical profiles, point models (Abl) | logarithms, monotonicity |
| C37 | areas (Geom2d) | induction over geometry terms |
| C38 | ScanStates, StatesTable, TabStates (InputStates) | mixed radix arithmetic, lists |
| C39 | FarmResultsEval (FarmEval) | finite sums |
| C40, C50 | layouts, farm, turbine objects (Layout, TurbineObj) | lists; heap with aliasing |
| C41 | factories (Factory) | string matching, dictionary histories |
| C42 | ground mirror (Mirror) | heap with views |
| C43 | Data (DataBox) | invariant over all sequences of additions, slices |
| C45 | cubic roots (Cubic) | trigonometric solution |
| C46 | random layouts (RandomXY) | loop with fuel, arbitrary generator |
| C51 | data lookup of models, wake growth (GetData) | case analysis over sources, shapes; interleavings as lists |
| C52 | time dependent wakes: tables per chunk, exchange through the chunk store, rounds (DynWakes) | invariant over all reachable stores; number of filled places as measure for termination |
| C53 | point results (PointCalc) | induction over wake models; link to the farm loop of C12 |
| C54 | several heights (MultiHeight) | invariant of the loading loop, index arithmetic of the reshaped array, case analysis of the bracket search, triangle inequality |
| C55 | field data (FieldData) | invariant of the numbering and filling loops, case analysis of the bracket search per axis, induction over the files |
| C56 | one point flow (OnePoint) | reduction to distances along the wind, induction along both searches, induction over output variables |
| C57 | Timelines wake frame (Timelines) | loop invariant (position, length, running minimum, last good step) over the backward search; reduction to distances along the wind in the steady case |
| C58 | centreline integrals (CentrelineInt) | grid cell induction, comparison of step sums, mean value theorem on every cell |
| C59 | induction models (Induction) | closed form of the Rathmann shape function, monotonicity of mu and sech, bound on the distance of the Rankine body surface, rotation of wind vectors |
| C60 | Bastankhah2016 (Bast16) | closed form of the near wake, gluing of continuous branches, monotone log argument, Gaussian integrals; induction over evaluation histories |
| C61 | Streamlines2D (Streamlines) | induction over streamline points, argmin, reduction of the uniform case to the straight frame, stable sort |
| C62 | SeqDynamicWakes (SeqWakes) | refinement of the trace memory to particle paths by induction over states and evaluation sequences; nearest-particle argmin; steady case |
| C63 | WRG states (Wrg) | states as pairs by div/mod, interpolation through FieldData lemmas, telescoping sum of the Weibull distribution function and limit, witnesses for the selection defects |
| C64 | Look-up tables (Lookup) | completeness as card of a product, order of first appearance in lexicographically sorted complete tables, multilinear interpolation by induction over axes, arrays as references in a memory |
| C65 | Slices (Slice) | grids as lists in row-major order by induction, limits as IsLeast/IsGreatest, meshes, values at coordinates of labelled arrays (xarray variables as functions of index tuples), concat and transpose |
| C66 | Wind roses (Rose) | numpy histograms as sums over states with bins of sorted bounds (searchsorted by counting), sectors by floor modulo n, real angles |
| C67 | windIO site and farm (WindIO) | dictionaries as association lists, fields as arrays with named dimensions; induction over the entries with an invariant on coordinates and fields, then the states table model of C38 |
| C68 | chunk data (ChunkData) | containers of C43 with the class checks; a cut is specified by offsets and sizes per dimension name (Window) and shown through all callbacks; an invariant on the table of sizes shows acceptance |
| C69 | windIO attributes and outputs (WioAttrs) | reader functions as functions to Except; the specification Wanted/Valid lists the models per entry; acceptance proved in both directions; table and planes specified entry by entry |
| C70 | running from dictionaries (YamlRun) | library calls are arbitrary functions to Except; a history of stored labels is the specification of the label table, shown by refinement in both directions; priority of settings by lookups; events of a run; the input dictionary after a run is part of the model |
| C71 | dask engines (Dask) | sessions over the engine state machine of C03 plus the settings of dask; invariants by induction over operations; the transfer is concatenation, cutting and rebuilding of containers, shown to be the identity by mirroring the checks of the constructors; stores by lookups; blocks, selections and hand-over of the xarray engine by list lemmas |
| C72 | file names, data book, directories (TurbineFiles) | texts as lists of characters; pieces are classified by shape in a separate specification (Says), fold over pieces shown equivalent by induction; common start as longest common prefix; paths as components with round trip through text; book as additions, last one counts, for any history; search order by cases |
| C73 | two tables over wind speed and a second quantity (TwoTables) | array model with selections, in-place broadcasting and scattering; one lemma (step_eq) reduces the array program to a pointwise specification, tables by sorted grids and cell lemmas of C64 |
| C74 | model lists, names, parameters as shared dictionary objects, relaxation positions, sums (ModelLists) | heap of dictionaries; induction over the list gives each model's final parameters in closed form (C74_params_spec); mutual induction for nested sums |
| C75 | formats of table files, decimal formats, farm results writer as a state machine (ResultFiles) | strings as character lists, rationals for the decimals; induction over histories of writes; reshape/flatten lemmas for the arrays |
| C76 | layouts in csv/json and back, rounding in netCDF files, point calculator, colours, map edges (LayoutOut) | rationals; pandas' column types and xarray's dimension coordinates as explicit rules; list inductions for round trips, dictionaries as association lists |
| C77 | default engine: choice of the inner engine, engine slot before, during and after a calculation (DefEng) | on top of the engine slot model of C07; scripts with try blocks as lists; invariants over all sequences; real-valued threshold as integer inequality |
| C78 | mean and state images, arrows, rotor lines, colour limits and bars, titles, plugin for sequential runs (FlowPlots) | on top of the slices of C65; the interpreter's set order is an arbitrary permutation; trigonometry for rotor lines; lists of figures by induction |
| C79 | calculators, rotor centre results, selections, repeated evaluation by ambient and downwind passes, farm models from turbine models (UserSteps) | farm data as partial maps over any value type; induction over the list of evaluations (any order, any number of wake models) with invariants per turbine |
| C80 | areas from shapefiles (Shapes) | Nested lists of rings as in _extract_poly_coords; conversion with the remembered zone as state; induction over trees and over the names with an invariant that determines all collected rings; the geometry by the union and difference theorems of C37. |
| C81 | random states (RandStates) | The generator as a state machine; columns as a recursion over the variables; induction with the number of draws as invariant (C81_fresh); sums and absolute values over the reals. |
| C82 | farm data and target data (DataKinds) | Checks of the classes on top of the model of C43; a law that lifts any property established by the checks to all histories (induction over histories, loops and coordinate creation); exact acceptance by computing the loop for arbitrary lists of variables. |
| C83 | animations (Anim) | Generators as lists of what they still yield; one pass and the loop characterised by induction with the number of remaining yields as fuel; the plugin composed with the animator. |
| C84 | turbine curve plots and rotor point plots (Curves) | Calculation abstract; loop over variables characterised exactly by induction; labels of the colour bar by a closed form for the backward loop. |
| C85 | configuration dictionaries (CfgDict) | Mutual inductive type of values and entries; conversion by mutual recursion; contents compared by a function that forgets classes and names; induction over the nesting. |
| C86 | classes by name, python strings, regularised root (UtilFns) | Class hierarchy as a graph with a rank, membership equals the transitive closure; nested structures by mutual induction; calculus for the root. |
| C87 | stored model data and farms of another size (StoredData) | Arrays are shapes with values at indices; the store is two dictionaries; the loops carry what they leave behind on errors; induction over variables, models and histories with the invariant that flags are right. |
| C88 | from wake deltas to waked rotor values (FinalWakes) | Arrays of one state as lists of rows; numpy broadcasting of the last axis; sums over points; induction over wake models and permutations. |
| C89 | values set only once (SetOnce) | interleaved events as a list; projection to a chunk by induction; induction over calculations of a session with the set of chunks already done |
| C90 | `Sequential` with points and plugins (SeqPlugins) | state machine with a log of plugin calls; induction over `next` calls; composition of loops |

Nothing in the list is "not expressible"; where only part is covered this is recorded in MANIFEST.json.

## 4. What is not modelled

* Floating point: real (or rational) numbers replace doubles everywhere; NaN and infinities are modelled where the code distinguishes them (the comment
  at the definition says how), overflow and rounding are not, except for the formats of numbers in files (C75, C76).
* The bytes of files: csv, nc, json, yaml, pkl and shape files are values of a parsed form (tables, dictionaries, rings); pandas, xarray, yaml and numpy
  calls are modelled by their documented effect on these.
* Drawing by matplotlib (what is handed to it is modelled: C65, C66, C78, C83, C84), printing, progress bars, profiling.
* The scheduling inside dask, ray and mpi; workers are arbitrary interleavings or arbitrary completion orders of jobs. Hardware failure of workers.
* Operating system effects other than existence of files and directories (C72).
* `ICONStates`/ICON data preparation, the optimisation interface (foxes_opt is a package of its own).
* `foxes.data` static files, package versions, command line parsing other than the commands of C70.

## 5. Where the code disagrees with what a user would expect

Each line is a theorem (see the property's entry in MANIFEST.json) unless marked (read), which means found by reading only.

* C02: chunks of size `chunk_size + 1` occur.
* C09: iterative runs on threads share the store: bad schedule.
* C11: `ORDER_INV` in the results is the inverse of the wrong array unless the order is the identity.
* C12/C16: several wake models: contributions of earlier wake models are not updated (Downwind). Mixed upwind/downwind models
  raise KeyError (read).
* C13: RotorWD order follows the mean wind vector; counterexample for inhomogeneous wind direction.
* C15/C17/C18: Iterative: the final run reorders the results of the sweep before the last (iterative.py:303, 326); ambient
  runs, runs ending in iteration 0 and `_reamb` return results in downwind order; `max_it` default is 2+n².
  URelax is unusable (urelax.py:74-76, read).
* C19: repeated labels raise; exactly one state fails at the first step if the number of states was known when the algorithm was
  constructed (`SingleStateStates`, or states used before), and scans or WRG states never used before raise AttributeError at
  construction (seq_state.py:32, 87, C19_kinds); an interrupted loop is resumed; `next()` after the end gives TypeError (read); `self.ambient` is not
  passed on (sequential.py:200-205, read).
* C20/C21: pre-rotor models listed after post-rotor models are moved forward (`prer=None` reset, farm_controller.py:250);
  state selections get shifted. `calc_parameters` alias one dictionary if the user gives an entry (downwind.py:437-453, read).
* C23: a failed calculation leaves the algorithm in state running forever, data lost; `force` is not forwarded.
* C49: `SetUniformData` cannot be used (set_uniform_data.py:30-60: no base constructor, so no `name`; `data` unbound for dictionaries;
  `mdata[v]` is not the stored name) (read).
* C24/C25: WSProduct: no wake gives wind speed 0; reset to 1 when the whole array is below 1e-14.
* C26: Madsen induction exceeds 1/2 for ct ≥ 1.2.
* C29: PartialTopHat/PartialAxiwake use the diameter of the wake causing turbine; PartialAxiwake loses the wake at R = D/2.
* C30: LevelRotor nint = 2 has no points; CentreRotor does not cut negative REWS.
* C31: `delta_wd` is wrong beyond 1.5 turns. C32: YawedWakes gives all points of a target the same y; centreline mirrored.
* C33: PowerMask reads P_rated in farm order with downwind data; ct = -inf beyond Betz.
* C34: SetFarmVars: post-rotor data permuted twice, pre-rotor data not reordered; other pre-rotor variables are not reordered by
  InitFarmData. D/H arrays raise with more than one chunk (read).
* C35: density correction inverted; P_nominal divided by the unit twice; `*=` on a view overwrites farm data; modify_cutin raises
  IndexError without cut-in and has no effect for integer wind speeds; CpCtFile misses the ct column; WsRho2PCtFromTwo looks ct
  up at the power wind speed. Several turbine types drop the user's `parameters` when files are given (read).
* C36/C49: unstable profile negative above z0; Ustar2TI's `max_ti` is a lower bound; WakeDeltas(normalize=True) always raises.
* C37: edges of half planes are in the plane and in its inverse; intersections exclude edges; Circle's nearest point at the
  centre; inside distance of unions underestimated; p_min of intersections of unbounded areas. `g - [list]` raises (read).
* C38: profile variables still need a table column; a profile dictionary can be used once only.
* C39: `calc_farm_mean` and `reduce_all(mean_no_weights)` are sums; weights of results are not normalised by default (C39_default_weights),
  `calc_farm(outputs=..., normalize=True)` without weight and the ambient farm yield end with KeyError; irregular time series; single time: IndexError.
* C40: turbine_ids of add_from_csv are looked up by row label, not position (C40_csv_ids_labels);
  ring distance is arc length; integer offsets truncate angles; mixed given/default indices duplicate names; two csv tables
  repeat names. C50: turbines of a layout share their models list, and so do all turbines without models.
* C41: names with continuations and unclosed `<` are accepted; `in` is true although the lookup raises; misspelt growth
  parameters of `yawed_` are silently dropped. WakeKFactory drops the user's var2arg and mutates the user's kwargs (read).
* C42: the main wake uses `wmodel.contribute` instead of `pwake.contribute`; mirrors have no effect with Timelines; a replaced
  `fdata[H]` leaks into the turbine positions.
* C43: a refused entry stays stored; stale coordinates; only the last superfluous axis is squeezed; slices of entries with axes of
  size one are refused; slices along other dimensions lose `states_i0`; an empty slice gives IndexError.
* C44: SectorManagement ignores `st_sel`; farm index used as downwind position; the full circle never matches; a rule that applies to the
  values without wakes is not undone when wakes change the range variable (C44_stale_rule). Model of all range and target variables: Sectors.
* C45: one real root or a triple root: nothing found. C46: seed 0 ignored; start size 0 never ends.
- C51: a number given by the user is overwritten by farm data of the same name with time dependent wakes; data with a turbine axis found in model or target data are returned unsliced; the wake
  growth object keeps the last value between calls, so overlapping calls in threads can use another call's value.
- C52: beyond the maximal length, which wake points exist depends on the division into chunks; the default iteration limit `2 + n_turbines**2` does not know the number of chunks, though each round brings a wake
  only one chunk further, so that runs with many chunks end, without a message, with wake points missing.
- C53: in point calculations the second wake model takes the waked value for the ambient one (farm calculations do not), so points and turbines disagree and the order of models matters; extra point models run again after the wakes and erase them in variables of the states; ambient point calculations without farm results pass the check and then fail.
- C54: with wind directions at heights the wind speed is the norm of the interpolated vector, even if the speed is a fixed value or a single column; a netCDF attribute as data raises (`np.full(self._N, data.attrs)`); heights are checked for bounds even if no variable depends on height; the weight as an output variable raises.
- C55: the region of the grid along x is `slice(xy_min[0], xy_max[1])`, so turbines with x beyond the largest y (plus the extra space) are cut off; if WD and WS are both output variables and one is a fixed value, the calculation raises; with an xarray Dataset as data source `_N` is never set.
- C56: in OnePointFlowStates the branch for air that passed before the first state is never reached: such points get the *last* state; on the last step before, the first state is blended with the last one (`data[s - 1]` with s = 0); a calm state gives the last state everywhere; upstream at whole steps the value is one state off (`cfs <= 0` includes 0); output variables before WS/WD are dropped; weights of table states raise (dims given as a string), unequal weights with several heights raise (broadcast comparison); time steps are cut to whole seconds, and irregular steps are shifted by one.
- C57: Timelines.get_centreline_points starts from `np.arange(n_states)` without the first state of the chunk, so all chunks use the first displacements; the rest of the length is subtracted instead of added (`trp - trl / dl * dxy`), which mirrors the point at the closest whole step; for x <= 0 the index `trace_si + 1` is out of bounds at the last state.
- C58: calc_centreline_integral returns 0 beyond max_length_km (fill_value), so TurbOParkWakeIX has its near wake width again there; if all x of a chunk are <= -dx the number of steps is negative and numpy raises (TurbOParkIX itself calls it only if a target is downstream).
- C59: Rathmann.G uses sin2alpha = 2x/..., sina from the acute branch only, so inside the unit sphere around the rotor (x^2+r^2 < R^2) the blockage is too small, 0 at the hub, and NaN exactly at the rotor edge (0/0). VortexSheet: negative blockage at x <= 0, positive at x > 0 outside the rotor: sign jump across the rotor plane.
- C60: Bastankhah2016Model stores PARS but has_data does not compare them: two Bastankhah2016 wake models with different alpha/beta/induction/k in one calculation share data, the second one silently uses those of the first. For 2a(ct) >= 1 (Madsen, ct > 1.16) r_pc is NaN and rfactor 1 everywhere: near wake without lateral bound, deficit > 1. For yawed turbines the near wake uses sigma_y0 for both directions, so the deficit jumps at x0 off hub height.
- C61: Streamlines2D.calc_order is executed by InitFarmData before AMB_WD is calculated (fdata holds NaN); the NaN streamlines are stored in mdata and reused, since the stored first points equal the rotor centres. All wake coordinates in farm calculations are NaN and farm results contain no wakes. np.lexsort(keys=coosx[si]) sorts by the last turbine's coordinates, NaN (upstream) last.
- C62: SeqDynamicWakes keeps its traces as attributes of the model object: they are lost in worker processes (wakes never longer than one time step), survive into a second iteration of the same algorithm, and are wrong if get_wake_coos was not called at every state (last turbine of the farm without point evaluations). Irregular time steps leave gaps in the wake since the selection uses the coming time step.
- C63: WRGStates: sector frequencies fs/10 are percent, so weights sum to about 100 unless normalize=True; the utmx/utmy columns are unused (rows are assumed x-fastest); the farm-bounds cut drops the covering grid point at the upper side (ValueError for bounds_extra_space below the resolution) and wraps around with a negative start index at the lower side.
- C64: FromLookupTable returns the thrust coefficient of the second (power) look-up since LookupTable writes into the farm data arrays and `ct` is an alias; its default nominal power raises KeyError with a varmap for P; lookup_pars defaults raise KeyError. LookupTable with a single input variable raises AttributeError (levshape). TableFactors raises TypeError/ValueError in np.sum(st_sel) whenever st_sel is a tuple, i.e. if all turbines have the model or in the Downwind algorithm.
- C65: SliceData mean slices sum weight times value without dividing by the weight of the selected states; with variables=None they fail for weights without point dimension since the weights are among the variables; state slices cannot be obtained in pandas format (2-D columns); pandas rows have point numbers instead of coordinates; ret_grid returns normalized in-plane coordinates but an unnormalized plane coordinate and points; a side shorter than half the resolution gets one point at its lower limit; SlicesData does not normalize the plane coordinate and fails if it is renamed; x_direction = 0 makes the x axis point south although the documentation says 0 = north.
- C66: the wind rose counts wind speeds equal to the last bound in the last bin although the legend says [a, b); directions below minus half a sector (e.g. -90 degrees) are silently dropped; by rounding np.arange(0, 360, 360/n) has n+1 entries for some n (161, 175, 227) and the rose fails.
- C67: windIO input: a constant turbulence_intensity is silently replaced by 0.05 (read_site.py 101, 146); single states and constant wind speed or direction always fail (read_site.py 51 iterates over names); with heights, functions of time only are dropped; integer keys in turbine_types raise TypeError (utils/dict.py 45); power_curve numbers are taken in W while Cp curves give kW; Cp curves ignore the wind speed exponents; one exponent alone is dropped.
- C68: TData accepts any number of weights for one point per target, and then reports that number of points; TData acceptance depends on the order of entries; farm variables per state other than weight are refused (data.py 370-381); coordinates with states other than `state` are not cut (data.py 276-282): chunks of one state then report all states; from_points/from_tpoints change the dictionaries of the caller; targets_i0 is a label if targets have a coordinate.
- C69: windIO name TurbOPark leads to a class that does not exist (refused); deflection Bastankhah2016 is refused, only the misspelt Batankhah2016 is accepted; ceps with Jensen or Bastankhah2016 is refused; missing background averaging is refused; lists and dictionaries of partial wakes are not checked by the constructor; missing cases_run leads to KeyError; an empty subset selects all states in the table but none in the planes.
- C70: run_dict changes its input (layouts, calc_points and the switch of calc_farm are popped; algorithm settings stay), so a second run fails or differs; run_outputs always returns a pair (dict.py 426); empty string arguments raise IndexError (dict.py 293); the engine is not shut down after errors; verbosity is written to idict and not to the engine (dict.py 142); with a given algorithm iterative and algo_pars are ignored; foxes_yaml with one engine option drops all engine settings of the file; foxes_windio -o raises AttributeError (windio.py 178), and -r, -p, -w, -f, -it are ignored.
- C71: the default dask_config is one dictionary for all engines and cluster engines write into it (dask.py 59, 812); initialize sets the settings before it fails; finalize of any engine refreshes all settings (dask.py 183); results without variables drop the chunk store (engine.py 467-497); XArrayEngine: chunk sizes are not restored after errors (dask.py 426-538), variables are found by name across data sets (dask.py 215-220) so that farm values replace point values of the same name, target coordinates raise KeyError (dask.py 162, 452), points are never chunked; loop_dims tests chunk_size_states twice (engine.py 199); select_subsets skips data without the coordinate.
- C72: names without dash and underscore raise UnboundLocalError whatever the user gives (parse.py 39-44); `.csv.gz` names raise ValueError; dots before dashes truncate the name and drop all data silently; words like Demo or NEW raise; two files: user parameters are ignored (PCt_from_two.py 98-104 and alike), different turbines are accepted and named by shared letters; DataBook(data_book) always raises (data_book.py 38); ending '' selects nothing; a failing add_files keeps earlier files; curves of the book are found only by bare name; layouts: relative paths of the book are put below the input directory, `.csv.gz` from the book or as Path raises TypeError (from_file.py 46).
- C73: WsTI2PCtFromTwo / WsRho2PCtFromTwo look the thrust up at var_ws_P (wsti 340, wsrho 319) and limit it by the range of the power table (330, 309), so thrust tables of smaller range raise; with rho the densities of all selected entries are multiplied to the wind speeds of those in range (300, 349), ValueError unless all or none are in range, depending on chunks; corrected wind speeds below cut-in raise instead of giving zero; yaw beyond 90 degrees raises; load_data sorts the user's DataFrame in place (207, 226).
- C74: `calc_parameters` entries are used as they are and changed (downwind.py:438-453): any entry for the controller gets pre_rotor=False before the models run, so pre-rotor models never run and post-rotor ones run twice; one dictionary for two models raises TypeError; models constructed in later calculations are named `…_instancek`, so entries by class name are ignored; `FarmDataModelList(models=[])` default is shared; sums of farm models raise ValueError; URelax raises TypeError (urelax.py:74), with ambient also IndexError (iterative.py:199); Sequential passes calc_pars as keywords of calc_farm (sequential.py:200-205), so the documented format raises, and self.ambient is not passed on.
- C75: the format is the text after the FIRST dot of the file name, so `power-7.5MW.csv` is refused; `write_file` always takes the csv defaults and updates the class's dictionary in place (pandas_utils.py:166-167), so keywords of one write leak into all later writes; h5 therefore raises without `key`, and after one h5 write no csv can be written; nc is never writable (no DataFrame.to_netcdf); ResultsWriter with turbine_names=True changes its own data (or the user's frame), after which writes of chosen variables raise; a failed state_turbine_table of all variables leaves the data reset; renaming the state index raises and pops from the user's dictionary; netCDF with names needs a state labelled 0.
- C76: a turbine without own H/D (taken from its type) comes back from csv with NaN, which is then used in calculations (init_farm_data.py:96-104); names of digits become numbers and names like NA become NaN; write_json keeps one turbine per name, raises TypeError for numpy ids (as read by add_from_csv with col_id) after emptying an existing file, and writes neither H nor D; plots in units of D fail if a turbine without D follows one with D, not the other way round; write_nc rounds the caller's dataset in place, so StateTurbineTable.get_dataset returns rounded values if a file is written; PointCalculator with states_mean returns a dataset without data variables and writes a file without any result (calc_points.py:106-115: arrays without dimension names become coordinates); fixed points with a subset of states raise.
- C77: DefaultEngine.run_calculation finalizes itself before running the inner engine and re-initializes only after success (default.py:60-110), so an exception of a model is replaced by 'Exit called for not entered engine' in a with-block; if the script catches the exception, later calculations in the block silently run with a new engine with standard chunk sizes, and that engine stays in the slot after the block.
- C78: get_mean_fig_*(ret_data=True) returns data[:, :, 0], the first variable of list(set([var, WD, WS])), which depends on the hash seed (flow_plots.py:99, 157); rotor lines of figure n are taken from state n of the full farm results, not from the n-th selected state (602-619); rotor lines with other axis labels raise UnboundLocalError (get_fig.py:183-213); in vertical plots rotors are drawn at map coordinates, right only for direction 270; get_fig returns None without colour bar and given figure; the plugin's title function is evaluated during the run, so that all images have the last title; images of xz and yz animations cannot be made, and the documented 'yx' is refused.
- C79: a Calculator function that changes a farm variable for all entries (e.g. P := 0.9 P) is applied again in each later downwind step: n - t times for the turbine at position t (calculator.py:96-99, farm_wakes_calc.py:100-105); functions see turbines in downwind order, so per-turbine constants go to the wrong turbines; Turbine2FarmModel makes its selection for all states and fails with several chunks (turbine2farm.py:92); SetUniformData.__init__ does not call the base class, its dictionary source leaves `data` unbound and calculate looks up mdata[v] (set_uniform_data.py).
- C80: shp2geom2d subtracts the union of all holes from the union of all exteriors: an area that lies in the hole of another one (island, neighbouring feature) is lost (C80_island). Only the first row of each name is read, others are ignored without a message (C80_later_rows); rows without name are dropped. Without conversion, ret_utm_zone returns the string NoneNone; other geometry types raise AttributeError while the message is made (geom.type).
- C81: create_random_abl_states names columns after the keys of cols_minmax but looks for them under var2col: with renamed columns neither the Obukhov limits nor the normalisation apply (C81_renamed). write_random_abl_states replaces any digits the user gives (C81_digits_ignored). random_timseries_data ignores the seed 0 (C81_seed_zero).
- C82: from_tpoints accepts any number of weights if there is one point per target, the container then says it has as many points as weights (C82_weights_unmatched; refused if the weights come first, C82_order). Combined positions are made once: adding other X, Y or H leaves them stale (C82_positions_stale). An empty TData is accepted but every add on it raises (C82_empty_target).
- C83: frames after one in which no generator has artists are lost (C83_empty_frame); if no generator yields anything, animate fails with an unbound name although the animator has a figure (C83_nothing), hence always on a second call (C83_again); the wake debug plugin gives its images once (C83_once).
- C84: without axes several variables fail after all calculations (C84_one_axis), and a created axis is not returned (C84_returned); if the power mask calculation fails, a helper model stays in the caller's model book (C84_left_behind); RotorPointPlot ignores ax unless fig is given (C84_axis_ignored); the wind speeds go beyond ws_max unless the step divides the range (C84_beyond).
- C85: in a dictionary without name the nested dictionaries are called None.key (C85_names), which shows up in the messages about missing keys.
- C86: the name of the base class itself is not found (C86_base); classes of the same name are chosen by set order (C86_ambiguous); exec_python on a list or dictionary ignores the caller's name space and new line sign and uses a name space that survives between calls (C86_args_dropped).
- update_n_turbines sets the number before checking: a refused change is half done and the same call is silent afterwards (C87_half_done, C87_refused_then_silent); flags are never renewed (C87_stale_flag); turbine-first data are refused or end in an AxisError (C87_turbine_first).
- PartialSegregated pairs the wake points with the rotor points of the same number if their numbers agree, even if they are different points (C88_points_paired).
- SetFarmVars with once=True gives NaN in later calculations without finalisation for chunks with a known first state (C89_session), so in sequential runs from the second step on (C89_sequential); iterations give other results in threads than in processes (C89_iterations_engines).
- after an error of a plugin or of the points calculation the sequential iteration repeats the state on data that has advanced, and calls the plugins before the failing one again (C90_plugin_raises, C90_points_fail); `calc_farm()` before the first step gives zeros (C90_calc_farm_early).

## 6. How wrong programs were tried

`/verif/lean/Verif` is copied to a scratch directory, one definition of the model is edited the way a realistic bug would, and
everything is rebuilt. Edits that no theorem noticed led to stronger theorems (column `theorems_tightened` in
`seeded/LOG.jsonl`); the remaining survivors are equivalent programs and marked so.
