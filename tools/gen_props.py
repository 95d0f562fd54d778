#!/usr/bin/env python3
"""Generates /verif/properties.jsonl (one JSON object per line)."""
import json, os
P = []
def p(id, title, statement, quantifier, why, anchors):
    P.append(dict(id=id, title=title, statement=statement, quantifier=quantifier,
                  why_tests_cant=why, anchors=anchors))

p("C01", "Chunk sizes partition the work",
  "Engine.calc_chunk_sizes never trips its own assertions: for at least one state it returns state chunks that are all >= 1 and sum to n_states, and target chunks that sum to n_targets (all >= 1 if n_targets >= 1); its internal while loop terminates.",
  "all n_states >= 1, n_targets >= 0, n_procs >= 1, and all optional chunk sizes >= 1",
  "the arithmetic has several regimes (procs > states, chunk > states, the adaptive while loop); a unit test samples finitely many (n, c, p) triples",
  ["foxes/core/engine.py: Engine.calc_chunk_sizes"])
p("C02", "Requested chunk sizes are respected",
  "With an explicit chunk_size_states (or chunk_size_points) c, no chunk is larger than c. (As stated this is false of the code: sizes up to c+1 occur; the strongest true bound is c+1.)",
  "all n >= 1, c >= 1", "off-by-one appears only when n mod c falls in certain residues",
  ["foxes/core/engine.py: Engine.calc_chunk_sizes"])
p("C03", "Chunking does not change results",
  "For a calculation that is local in states and targets, splitting the input by the engine's chunks, computing each chunk and combining gives exactly the array of the un-chunked calculation, for every engine configuration; hence any two chunk configurations agree.",
  "all inputs, all models local in state and target, all n_procs and chunk sizes",
  "infinitely many (input, chunking) pairs",
  ["foxes/engines/pool.py: PoolEngine.run_calculation", "foxes/engines/numpy.py: NumpyEngine.run_calculation", "foxes/core/engine.py: get_chunk_input_data, combine_results"])
p("C04", "Results do not depend on the completion order of jobs",
  "Pool engines return the same combined result whatever order the submitted chunk jobs finish in, and it equals the result of the sequential NumpyEngine.",
  "all completion schedules (permutations of all jobs)", "schedules are not under a unit test's control",
  ["foxes/engines/pool.py: PoolEngine.run_calculation", "foxes/engines/futures.py"])
p("C05", "Engine.map equals the plain map",
  "PoolEngine.map(f, inputs) returns [f(x) for x in inputs], in input order and with input length, for every n_procs and every completion order.",
  "all input lists, all n_procs >= 1", "splitting arithmetic depends on the remainder of len(inputs) by n_procs",
  ["foxes/engines/pool.py: PoolEngine.map, _run_map"])
p("C06", "Weights are reduced to per-state variables only when that is what they are",
  "combine_results collapses a variable to dimension (state,) exactly if every chunk produced a single target/turbine column while more exist; the collapsed value is the per-state value, and a full per-turbine/per-target variable is never collapsed.",
  "all shapes, all chunk counts", "depends on coincidences between chunk counts and array widths",
  ["foxes/core/engine.py: Engine.combine_results (reducing weights dimensions)"])
p("C07", "At most one global engine, and it is always released",
  "After any sequence of enter/exit/initialize/finalize/reset calls on any engines, the global engine slot holds the unique initialized engine or None; a successful `with engine:` block leaves the slot empty; initializing a second engine raises.",
  "all call sequences over any number of engines", "histories are unbounded",
  ["foxes/core/engine.py: Engine.__enter__, __exit__, initialize, finalize, get_engine, reset_engine"])
p("C08", "Chunk store lookup of previous chunks",
  "find_chunk_in_store(prev_s=k) returns the chunk that lies exactly k chunks before in the state direction whenever the store holds a contiguous partition of chunks, and reports failure exactly if fewer than k chunks precede.",
  "all chunk partitions, all k", "depends on partition and on position",
  ["foxes/core/algorithm.py: find_chunk_in_store, get_from_chunk_store, add_to_chunk_store"])
p("C09", "Chunk store of a shared algorithm under thread schedules",
  "A chunk calculation always finds the data it stored itself. (True for every schedule of the process/numpy engines and for non-iterative thread runs; false for iterative runs on the thread engine: there is a schedule in which one worker removes the shared store under another.)",
  "all interleavings of the workers' store operations", "needs a specific interleaving",
  ["foxes/engines/pool.py: _run", "foxes/core/algorithm.py: reset_chunk_store", "foxes/engines/futures.py: ThreadsEngine"])
p("C10", "Farm results come back in the farm's turbine order",
  "The downwind reordering of the farm data at the start of a calculation is exactly undone at the end: the result of turbine i is in column i, for any per-state order, including the shortcut taken when the order is the identity.",
  "all per-state permutations, any number of states/turbines", "needs all permutations and chunk layouts",
  ["foxes/algorithms/downwind/models/init_farm_data.py", "foxes/algorithms/downwind/models/reorder_farm_output.py"])
p("C11", "Reported ORDER_INV inverts reported ORDER",
  "In the farm results ORDER_INV is the inverse permutation of ORDER. (False of the code: ORDER is exempt from the final reordering, ORDER_INV is not.)",
  "all per-state permutations", "identity and self-inverse orders hide it",
  ["foxes/algorithms/downwind/models/reorder_farm_output.py"])
p("C12", "Every turbine feels exactly the wakes of the turbines before it in the order",
  "In the Downwind algorithm a turbine's final inflow is the ambient inflow plus exactly one contribution of each turbine earlier in the order, each evaluated with that earlier turbine's final (waked) state; the first turbine keeps ambient results.",
  "any number of turbines, any wake contributions", "induction over the turbine loop",
  ["foxes/algorithms/downwind/models/farm_wakes_calc.py"])
p("C13", "Downwind order is sorted along the wind",
  "For wake frames based on rotor wind direction the calculation order is a permutation of the turbines, sorted by downwind coordinate: no turbine is evaluated before one that is strictly upstream of it.",
  "all layouts, all wind directions", "all layouts",
  ["foxes/models/wake_frames/rotor_wd.py: calc_order", "foxes/models/wake_frames/farm_order.py"])
p("C14", "Results do not depend on how turbines are numbered",
  "Renumbering the turbines of the farm permutes the Downwind results accordingly (contributions vanish for targets that are not strictly downstream and are superposed commutatively).",
  "all permutations of all farms, incl. ties", "factorially many permutations",
  ["foxes/algorithms/downwind/models/farm_wakes_calc.py", "foxes/models/wake_frames/rotor_wd.py"])
p("C15", "Iterative algorithm stops",
  "Iterative.calc_farm performs at most max_it+1 sweeps and stops at the first sweep at which the convergence criterion holds and no block was requested.",
  "all convergence behaviours", "convergence histories are unbounded",
  ["foxes/algorithms/iterative/iterative.py", "foxes/core/algorithm.py: eval_conv_block"])
p("C16", "Iterative agrees with Downwind",
  "For purely downwind wakes the iterative sweeps reach the Downwind result after at most n_turbines sweeps and then stay there; conversely any fixed point of the sweep is the Downwind result.",
  "all farms and all downwind wake models", "all farms and all contributions",
  ["foxes/algorithms/iterative/models/farm_wakes_calc.py", "foxes/algorithms/downwind/models/farm_wakes_calc.py"])
p("C17", "Iterative results come back in farm order",
  "Iterative.calc_farm returns results in the farm's turbine order. (False if the loop ends at iteration 0: the ReorderFarmOutput step is then missing.)",
  "all orders, all iteration counts", "depends on max_it/convergence history",
  ["foxes/algorithms/iterative/iterative.py"])
p("C18", "Convergence criterion semantics",
  "ConvVarDelta reports convergence iff a previous result exists and every listed variable changed by no more than its limit everywhere (NaN never converges); lists of criteria are conjunctions.",
  "all data", "all data",
  ["foxes/algorithms/iterative/convergence.py"])
p("C19", "Sequential iteration visits every state once, in order",
  "Iterating the Sequential algorithm over states with distinct labels yields each state exactly once in order, stores its results at that state's index, and stops. (Not so if the states are known to be exactly one at construction: then the first step raises KeyError; scan and WRG states that were never used before raise AttributeError at construction; repeated labels raise; an interrupted loop is resumed.)",
  "all numbers and kinds of states, all calculations", "all lengths",
  ["foxes/algorithms/sequential/sequential.py"])
p("C20", "Turbine models run in the order each turbine lists them",
  "The farm controller merges the per-turbine model lists into one execution order that runs every turbine's models exactly once and in that turbine's order; it raises exactly if the lists contradict each other (a cyclic precedence).",
  "all farms and all model lists (distinct names per turbine)", "merging of partial orders",
  ["foxes/core/farm_controller.py: FarmController._analyze_models"])
p("C21", "Turbine model state selections go to the right model",
  "The mstates_sel entry given for position i in a turbine's model list restricts the i-th model of that list. (False if pre-rotor and post-rotor models are mixed.)",
  "all turbines/model lists", "depends on the mix of model kinds",
  ["foxes/core/farm_controller.py: _analyze_models, collect_models"])
p("C22", "Model life cycle",
  "A model is initialized at most once, data loading happens only at initialization, set_running/unset_running restore the model and all its sub models exactly, and illegal transitions raise.",
  "all call sequences, all sub model trees", "unbounded histories",
  ["foxes/core/model.py", "foxes/core/algorithm.py: set_running, unset_running"])
p("C23", "An algorithm can be used again after a failed calculation",
  "If calc_farm raises, the algorithm can be called again. (False: the running flag and the stashed model data are not restored.)",
  "all failure points in the calculation", "failure points",
  ["foxes/core/algorithm.py: calc_farm"])
p("C24", "Wake superposition does not depend on the order of wakes",
  "For every superposition model the final wake delta is independent of the order in which source turbines are added.",
  "all wake lists, all permutations", "factorially many orders",
  ["foxes/models/wake_superpositions/*.py"])
p("C25", "Wake superposition respects its limits and its neutral element",
  "With limits set, the resulting value lies within them; adding zero wakes changes nothing; no wakes at all give zero delta. (The last part is false for WSProduct.)",
  "all ambient values, wake lists, limits", "all values",
  ["foxes/models/wake_superpositions/*.py"])
p("C26", "Axial induction is physical",
  "The Betz and Madsen induction factors are defined for every ct >= 0 (with the documented cut), zero at ct = 0, monotone, and Betz inverts ct = 4a(1-a) on its range.",
  "all ct in the admissible range", "continuum",
  ["foxes/models/axial_induction/*.py"])
p("C27", "Single wake models produce bounded deficits",
  "Jensen/Bastankhah/TurbOPark deficits lie in [-1, 0] (relative) under the parameters the code accepts, vanish upstream, decay with distance (Jensen), and vanish outside the wake radius for top-hat models.",
  "all positions, ct, k", "continuum",
  ["foxes/models/wake_models/wind/*.py", "foxes/models/wake_models/top_hat.py"])
p("C28", "Circle overlap area",
  "two_circles.calc_area returns the area of the intersection of the two discs, for every pair of radii and every distance of the centres (disjoint, touching, overlapping, contained).",
  "all radii and distances", "continuum",
  ["foxes/utils/two_circles.py: calc_area"])
p("C29", "Partial wakes are weighted averages",
  "The partial wakes models average the wake over the rotor disc of the waked turbine: the top hat weight is the fraction of that rotor's area inside the wake disc, the ring weights of the axisymmetric model are the area fractions of its rings, they are non-negative and sum to one, so a constant wake has its full effect. (False of the code if rotor diameters differ - the diameter of the wake causing turbine is used - and for PartialAxiwake when the wake axis passes exactly through the rotor rim.)",
  "all geometries", "continuum, boundary cases",
  ["foxes/models/partial_wakes/*.py"])
p("C30", "Rotor point weights",
  "Rotor models average: weights are non-negative and sum to 1; a homogeneous wind field gives exactly that wind as rotor equivalent value; REWS-type means lie between min and max of the points.",
  "all rotor discretisations", "all n",
  ["foxes/models/rotor_models/*.py", "foxes/core/rotor_model.py"])
p("C31", "Wind direction and vector conversions are inverse",
  "uv2wd(wd2uv(wd, ws)) = wd modulo 360 in [0,360), with positive ws; the speed is the norm; delta_wd(a,b) is congruent to b-a and lies in [-180,180] for directions in [0,360).",
  "all angles, speeds", "continuum",
  ["foxes/utils/wind_dir.py"])
p("C32", "Wake coordinates are rigid motions",
  "Wake coordinates preserve distances, put the causing rotor at the origin, have x along the wind, and centreline points of the frame have lateral coordinate zero. (For YawedWakes targets with several points lose their lateral position, and the centreline points are mirrored.)",
  "all positions and wind directions", "continuum",
  ["foxes/models/wake_frames/rotor_wd.py"])
p("C33", "Power mask limits power and adjusts the thrust consistently",
  "After PowerMask the power of a selected turbine with a limit below rated power is the smaller of its own power and the limit, entries without limit or selection are untouched, a limit above rated power raises the power to the limit only near rated power; the new thrust coefficient is the one at which momentum theory gives the new power at unchanged efficiency, and derating lowers it. (False of the code: the rated power is looked up for the wrong turbine if the downwind order is not the farm order; beyond the Betz limit the thrust coefficient is not finite.)",
  "all data", "all data",
  ["foxes/models/turbine_models/power_mask.py"])
p("C34", "SetFarmVars writes user data to the right turbine and state",
  "Non-NaN user data for (state, turbine) appear in the farm results at that state and turbine, NaN entries leave the model's own value, for any chunking. (False of the code unless the downwind order is the farm order: post-rotor data are permuted twice, pre-rotor data not at all; diameters and heights work with one chunk only.)",
  "all data, all orders, all chunkings", "needs non-self-inverse orders",
  ["foxes/models/turbine_models/set_farm_vars.py", "foxes/algorithms/downwind/models/init_farm_data.py"])
p("C35", "Power and thrust curve look-up",
  "For any table, in any row order: the look-up returns the table values at table wind speeds, the straight line in between, and 0 outside of the tabulated range; the nominal power is the maximum of the curve; the corrections for yaw and air density reproduce P ~ rho ws^3 cos^p in partial load, do not change the wind speed in the results, and act on power and thrust independently; a continuous cut-in leaves the curve above cut-in as it is and is increasing below. (False of the code for the density correction, which is inverted; for the nominal power in other units than W; and if all turbines share the type, the corrected wind speeds appear in the results.)",
  "all curves, all wind speeds", "continuum",
  ["foxes/models/turbine_types/PCt_file.py"])
p("C36", "Atmospheric profiles",
  "Log and shear profiles reproduce the reference wind speed at the reference height, give the same profile from any reference height, grow with height, are non-negative above the roughness length (the last is false for unstable stratification) and tend to the neutral profile for large Monin-Obukhov length; data profiles interpolate their data in any order.",
  "all heights, roughness, stability", "continuum",
  ["foxes/utils/abl/*.py", "foxes/models/vertical_profiles/*.py"])
p("C37", "Area geometry obeys set algebra",
  "points_inside of unions, intersections, differences and inverses agrees with the Boolean combination, double inverse is the identity, and De Morgan holds; points_distance is the distance to the boundary with the nearest point on it; moving a point by less than its distance never changes whether it is inside; points inside are within the bounding box. (False of the code on edges of half planes, for inside points of overlapping unions, and for the box of intersections of unbounded areas.)",
  "all geometries built from circles, half planes and polygons", "infinitely many compositions",
  ["foxes/utils/geom2d/*.py"])
p("C38", "Input states: scans, tables, tab files",
  "ScanStates yields every combination of the scanned values exactly once, in row-major order; a states table returns for each selected row the fixed value or the value of the assigned column, for any internal order of variables; default weights sum to one and given ones are those of the rows; a normalised tab file gives weights summing to the share of the sectors that have wind speed frequencies. Profile variables do not need a table column (false of the code), states can be initialised twice (false with a profile dictionary).",
  "all scans, tables, selections, tab files", "all numbers and lengths of scanned variables, all set orders, all tables",
  ["foxes/input/states/scan.py:ScanStates", "foxes/input/states/states_table.py:StatesTable,TabStates", "foxes/utils/tab_files.py:read_tab_file"])
p("C39", "Result evaluation: weights, means, yields, efficiency",
  "With normalize=True the weights of farm results sum to one per turbine and keep their proportions, by default they are those of the states; for weights that sum to one weighted means lie between the bounds of the values; sums, minima, maxima, standard deviations are what they are called; the mean farm power is the sum of the turbine means; states with NaN are left out of weighted means of own data; the annual yield does not depend on the covered period and the yield of a regular series is the sum of power times step; efficiencies and capacities lie in [0,1]. calc_farm_mean returns a mean over turbines (false: a sum), reduce_all(mean_no_weights) returns a mean (false: a sum), the weighted mean of a constant is the constant (false by default if the weights of the states do not sum to one), normalised results can be asked for without the variable weight (false: KeyError), ambient farm yield (false: KeyError).",
  "all results, weights, periods", "all numbers of states and turbines, all data",
  ["foxes/output/farm_results_eval.py:FarmResultsEval", "foxes/algorithms/downwind/downwind.py:Downwind._launch_parallel_farm_calc"])
p("C40", "Wind farm container and layout functions",
  "add_row, add_grid, add_ring, add_from_csv, add_from_json append exactly the expected turbines in order, at the documented positions, with the given or default indices and names, and leave existing turbines; without given indices the index is the position in the farm and default names are distinct; bounds of a farm include all turbines with the extra space and are tight; ring turbines are equally spaced at distance dist. (Ring: false for integer offset_deg, including the default, if the number does not divide 360; the distance is smaller than dist. Two tables without names: names repeat.)",
  "all numbers of turbines, steps, offsets, tables, sequences of layouts", "all n, all reals",
  ["foxes/input/farm_layout/row.py:add_row", "foxes/input/farm_layout/grid.py:add_grid", "foxes/input/farm_layout/ring.py:add_ring", "foxes/input/farm_layout/from_csv.py:add_from_csv", "foxes/input/farm_layout/from_json.py:add_from_json", "foxes/core/wind_farm.py:WindFarm"])
p("C41", "Parametrised model names",
  "ModelFactory.check_match/construct parse exactly the names built from the template, with the values that were put in; FDict lookup prefers stored entries, then the first matching factory, and is stable under repetition.",
  "all names and parameter values", "unbounded strings",
  ["foxes/utils/factory.py"])
p("C42", "Ground mirror restores its inputs",
  "WakeMirror contributions leave target and turbine heights unchanged, and a mirror with no mirror heights behaves like no ground model. (The latter false for partial wakes that override contribute.)",
  "all heights lists", "all lists",
  ["foxes/models/ground_models/wake_mirror.py"])
p("C43", "Data container invariants",
  "Every entry accepted by Data has sizes consistent with all other entries up to broadcasting (size 1); slicing states keeps states_i0 pointing at the first selected state; slices of slices compose.",
  "all operation sequences", "unbounded histories",
  ["foxes/core/data.py"])
p("C44", "Sector management ranges",
  "A turbine is affected exactly if all its range variables lie in the ranges given for it (wind directions: in the possibly north-wrapping sector), and the target variables are then set to the values of the last matching row; rules are for the turbine with the given number or name; if nothing else changes the variables, the repeated calls in a calculation are as good as one. (False of the code for sectors of the full circle, which never match, if the downwind order is not the farm order, and if wakes change a range variable: then rules that apply without wakes stay applied.)",
  "all directions, sectors, numbers of range and target variables, tables, passes", "continuum with wrap-around",
  ["foxes/models/turbine_models/sector_management.py"])
p("C45", "Cubic roots",
  "find_poly3roots returns exactly the real roots of the cubic. (False of the code if there is only one real root or a triple root: nothing is returned; true in the other cases, and everything returned is a root.)",
  "all coefficients", "continuum", ["foxes/utils/cubic_roots.py"])
p("C46", "Random layouts keep the minimal distance",
  "For every sequence of random numbers: if random_xy_square returns, the layout has n points with all pairwise distances at least min_dist and mean zero, within a square of the final size; the loop cannot get stuck once the square grows enough per pass; a seed makes the result independent of earlier draws. (False for seed 0, which is ignored; with start size 0 the loop never ends.)",
  "all generators, seeds, sizes, numbers of passes", "all random draws",
  ["foxes/utils/random_xy.py:random_xy_square", "foxes/input/farm_layout/from_random.py:add_random"])
p("C47", "Turbulence wake models are continuous where regimes meet and bounded in shape",
  "The near and far wake formulas of the Crespo-Hernandez turbulence model agree at the switch distance; its added turbulence is positive, never exceeds the near wake value and never grows downstream. The IEC added turbulence is positive, at most 2/3 and never grows downstream.",
  "all thrust coefficients, turbulence intensities and distances", "continuum",
  ["foxes/models/wake_models/ti/crespo_hernandez.py", "foxes/models/wake_models/ti/iec_ti.py"])
p("C48", "Derived turbine quantities",
  "The Thrust2Ct turbine model sets the thrust coefficient to the unique value that reproduces the given thrust for density, rotor area and wind speed; the kTI model sets the wake growth to kTI*TI + kb; both leave unselected states and turbines untouched.",
  "all thrusts, densities, diameters, wind speeds, turbulence intensities, selections", "continuum",
  ["foxes/models/turbine_models/thrust2ct.py", "foxes/models/turbine_models/kTI_model.py"])
p("C49", "Point data models",
  "Turbulence intensity from friction velocity is 1/log(h/z0) in a neutral profile and never exceeds the given upper limit (false of the code: the limit acts as a lower bound); turbulence intensity from TKE satisfies (TI WS)^2 = 3/2 TKE; wake deltas are waked minus ambient values, normalised by the ambient value on demand (false of the code: that always raises).",
  "all values, all variable lists", "continuum, arbitrary variable lists",
  ["foxes/models/point_models/ustar2ti.py", "foxes/models/point_models/tke2ti.py", "foxes/models/point_models/wake_deltas.py"])
p("C50", "Models of a turbine",
  "After any sequence of creating turbines (directly, by layout functions) and adding or inserting models, each turbine has exactly the models given to it and added to it, and as many states selections as models. (False: turbines of one layout call share the list of models, and turbines without models share one default list.)",
  "all sequences of operations", "unbounded histories, object sharing",
  ["foxes/core/turbine.py:Turbine", "foxes/input/farm_layout/row.py:add_row", "foxes/core/farm_controller.py:FarmController"])
p("C51", "Data lookup of models",
  "A model parameter given by the user as a number is used for all states and targets, whatever other data of that name exist (false of the code for time dependent wakes: farm data of that name overwrite it); data of the wake causing turbine are those of that turbine at the same state, or, for time dependent wakes after convergence, at the state in which the wake was created, however the states are divided into chunks; selections and upcasts keep values; missing data, wrong shapes and wrong targets are errors. The wake growth is k, or ka*TI+kb, or the farm variable of the wake causing turbine. (False of the code: model and target data with a turbine axis are returned unsliced; overlapping calls in threads can lose the value of k.)",
  "all sizes, arrays, lookup orders, chunk positions, selections, interleavings of calls", "all shapes and chunk positions, all schedules",
  ["foxes/core/model.py:Model.get_data", "foxes/core/wake_model.py:WakeK", "foxes/core/wake_frame.py:WakeFrame.get_wake_modelling_data"])
p("C52", "Time dependent wakes are carried through all chunks",
  "Every wake point that is used in a state is the point that left the turbine a steps earlier and drifted with the ambient wind of the states in between, its length that of the path, whatever the chunks, the engine and the order of chunk runs. The exchange between chunks ends after finitely many rounds, and then all wake points are there that are not too old and were not too long one step before; if none gets too long, the wake that acts at a point is the nearest one, independent of chunks and engine. (False of the code: beyond the maximal length the result depends on the chunks; the default limit of iterations depends on the number of turbines only, so that runs with many chunks end with wake points missing.)",
  "all winds, positions, divisions into chunks, orders of chunk runs (on a shared store or on copies), numbers of rounds", "all schedules and divisions",
  ["foxes/models/wake_frames/dynamic_wakes.py:DynamicWakes", "foxes/core/algorithm.py:Algorithm.get_from_chunk_store", "foxes/engines/pool.py", "foxes/algorithms/iterative/iterative.py:Iterative.calc_farm"])
p("C53", "Point results",
  "At every point, each variable of the ambient states is its ambient value changed by the wakes of all turbines, wake model by wake model; ambient copies of the variables are the values without wakes; a point that no wake reaches has ambient results; points do not influence each other; if final wake deltas do not look at the ambient value, wake models add up in any order; the result at a turbine's place is the flow that the turbine was evaluated with. (False of the code: with several wake models that scale with the ambient value, points and turbines disagree and the order of models matters; point models that write a variable of the states erase its wakes; ambient calculations without farm results fail.)",
  "all variables, points, turbines, wake models, point models, orders", "arbitrary lists of models, turbines and points",
  ["foxes/algorithms/downwind/downwind.py:Downwind.calc_points", "foxes/algorithms/downwind/models/point_wakes_calc.py", "foxes/algorithms/downwind/models/set_amb_point_results.py", "foxes/core/point_data_model.py:PointDataModelList"])
p("C54", "Ambient states with data at several heights",
  "Every variable with one column per height is, between two neighbouring heights, the linear interpolation of the entries of its own two columns in the row of the state, and exact at the heights; wind speed and direction are those of the interpolated wind vector, so the speed never exceeds the interpolated speeds and equal directions are kept; outside the heights it is an error or, if asked for, the value of the nearest height; fixed values and single columns are used unchanged at all heights (false of the code for the wind speed when directions are given at heights); loading and calculation succeed exactly if the documented columns exist; weights are the given ones or equal with sum one. (False of the code: dataset attributes as data raise; heights out of bounds raise even if nothing depends on height.)",
  "all tables, column names, variables, heights, states, target heights", "continuum of heights, arbitrary tables",
  ["foxes/input/states/multi_height.py:MultiHeightStates", "foxes/input/states/multi_height.py:MultiHeightNCStates"])
p("C55", "Ambient states from field data",
  "Every variable read from a field data set is, at a target inside a grid cell, the trilinear blend of its entries at the corners of that cell, in its own state and whatever the order of its dimensions, and exact at grid nodes; wind speed and direction are those of the blended wind vector; no value leaves the range of the entries; targets outside the grid raise if asked for, and axes that no variable uses do not matter; fixed values are used unchanged (false of the code for wind speed and direction: they raise); reading files on the fly gives for every division into files and every chunk the same states as loading all of them; the region selected around the farm contains all turbines (false of the code along x).",
  "all data sets, dimension orders, grids, file divisions, chunks, states, targets", "continuum of targets, arbitrary grids and file divisions",
  ["foxes/input/states/field_data_nc.py:FieldDataNC"])
p("C56", "Inflow from time series at one point",
  "With time series data at a reference point, a point downstream has the value which the reference had when its air passed there, a point upstream the value which the reference will have when its air arrives, linear between the states; displacements across the wind do not matter; values never leave the range of the data; between heights values are linear, outside an error; the result of a state does not depend on chunks; air that passed before the first state has the values of the first state, air that arrives after the last one those of the last (false of the code for the first); all requested variables are in the results (false of the code for variables listed before the wind), weights are kept (false of the code: table weights and unequal weights with several heights raise).",
  "all wind histories, time stamps, points, heights, states, chunks, lists of variables", "continuum of points and wind histories",
  ["foxes/input/states/one_point_flow.py:OnePointFlowStates", "foxes/models/wake_frames/timelines.py:Timelines._precalc_data"])
p("C57", "Wakes that travel with the wind history (Timelines)",
  "With the wake frame Timelines the wake coordinates of a point are those of the earliest time at which the air that is now at the point was closer to the turbine than ever since and within one time step of passing it: the distance along the wind of then plus the way made since then, and the distance across; the wake is attributed to that state. Where the air never passed the turbine there is no wake (1e20). Later states have no influence, the source state is never later than the state, chunks do not matter; the history of the turbine's own height is used; in steady wind the coordinates are those of the RotorWD frame, once the wake had time to arrive. Centreline points at x have coordinate x, and do not depend on chunks (false of the code).",
  "all wind histories, points, states, chunks, height lists, maximal lengths", "continuum of points and wind histories",
  ["foxes/models/wake_frames/timelines.py:Timelines.get_wake_coos", "foxes/models/wake_frames/timelines.py:Timelines.get_centreline_points"])
p("C58", "Integrals along the wake centreline",
  "The integral of a variable along the centreline, from the rotor to a point, does not depend on the other points of the chunk; a constant gives the constant times the distance; it is linear in the variable, keeps its bounds, grows with the distance for non-negative variables; for a variable that changes at most with rate K the error is at most K times step size times distance; the wake of TurbOParkIX widens and weakens downstream (false of the code beyond the maximal wake length, where the integral drops to zero and the near wake returns), and in uniform turbulence it is the Bastankhah wake with growth k times TI; chunks with all points upstream give zero (false of the code: they raise).",
  "all variables along the centreline, step sizes, maximal lengths, sets of points, distances", "continuum of functions and distances",
  ["foxes/core/wake_frame.py:WakeFrame.calc_centreline_integral", "foxes/models/wake_models/wind/turbopark.py:TurbOParkWakeIX"])
p("C59", "Induction (blockage) models",
  "The induction models slow the wind down upstream of the rotor, never by more than the axial induction (Rankine half body: never by more than the wind speed, up to 1e-15), decaying with distance from the rotor; turbines without thrust do nothing; there is no effect directly behind the rotor, nor downstream at all in the upstream-only mode; outside the rotor radius the downstream speed-up is the mirror image of the upstream slow-down; the turbulence-independent shape of the Rathmann model is the published one (false of the code inside the sphere around the rotor, where the blockage goes to zero at the hub and is undefined at the rotor edge); the slow-down is continuous across the rotor plane (false of the code for the vortex sheet); the Rankine deltas of wind speed and direction give the vector sum of wind and disturbance.",
  "all axial induction functions, thrust coefficients, rotor diameters, points, wind speeds and directions", "continuum of points and parameters",
  ["foxes/models/wake_models/induction/rathmann.py:Rathmann.contribute", "foxes/models/wake_models/induction/self_similar.py:SelfSimilar.contribute", "foxes/models/wake_models/induction/self_similar2020.py:SelfSimilar2020", "foxes/models/wake_models/induction/vortex_sheet.py:VortexSheet.contribute", "foxes/models/wake_models/induction/rankine_half_body.py:RankineHalfBody"])
p("C60", "Bastankhah & Porté-Agel 2016 wake of yawed turbines",
  "The deficit is between 0 and 2a < 1, zero upstream and without thrust; it is constant 2a on the near wake axis, recovers downstream and vanishes far downstream; with the axial induction of momentum theory the momentum missing in any far wake plane is the rotor thrust; without yaw the wake is round and undeflected; opposite yaw gives the opposite deflection; the deflection has the sign of the yaw misalignment, grows downstream, is bounded and continuous; the deficit is continuous along the wake (false of the code above and below the hub for yawed turbines); the near wake is laterally bounded for all thrust coefficients (false of the code if the induction reaches 1/2); the results of one model do not depend on which evaluations were made before (false of the code if two models of this type are used together).",
  "all induction models (positive, growing), rotor diameters, thrust coefficients, yaw misalignments below 90 degrees, turbulence intensities, parameters, points; all evaluation histories of a chunk", "continuum of points and parameters, integrals over planes, all histories",
  ["foxes/models/wake_models/wind/bastankhah16.py:Bastankhah2016Model.calc_data", "foxes/models/wake_models/wind/bastankhah16.py:Bastankhah2016.calc_wakes_x_yz", "foxes/models/wake_frames/yawed_wakes.py:YawedWakes._update_y"])
p("C61", "Streamline-following wakes (Streamlines2D)",
  "The streamline of a turbine starts at its rotor and follows the wind direction of the states in steps of fixed length at hub height; wake coordinates are those of the nearest streamline point's local frame, x being the distance along the streamline; in uniform wind they are the coordinates of the straight wake frame within the streamline's length; centreline points are points of the streamline (false of the code upstream of the rotor: the coordinate origin is returned); turbines are calculated in an order in which no turbine comes before one upstream of it (false of the code: lexicographic sorting puts the last turbine of the farm before those upstream of it); farm calculations use the ambient wind direction (false of the code: the streamlines are calculated and stored before it is known, so the order is the farm order and the turbines have no wakes in farm results).",
  "all wind fields, step sizes, streamline lengths, turbine layouts, points", "continuum of points and wind fields, induction over streamline points, all farm sizes",
  ["foxes/models/wake_frames/streamlines.py:Streamlines2D", "foxes/algorithms/downwind/models/init_farm_data.py:InitFarmData.calculate", "foxes/core/engine.py:Engine.get_chunk_input_data"])
p("C62", "Dynamic wakes of sequential runs (SeqDynamicWakes)",
  "The wake of a turbine consists of particles released at the rotor at every state and carried by the wind of the states; wake coordinates of a point refer to the nearest particle: path length plus distance along the local wind, and lateral distance; wake data are those of the state of release; the number of evaluations per state does not matter; in steady wind with constant time steps they are the coordinates of the straight frame as far as the wake has travelled, and the state of origin is right within half a step; every point that the air of the rotor has reached has a wake (false of the code for irregular time steps); runs can be repeated (false of the code: the second run starts with the particles of the first); the result does not depend on the engine or on which states were evaluated before (false of the code: worker processes and skipped evaluations lose the particles, wakes then end after one time step).",
  "all wind fields in space and time, time steps, turbine motions, evaluation sequences, points, states", "all histories of evaluations, continuum of winds and points",
  ["foxes/models/wake_frames/seq_dynamic_wakes.py:SeqDynamicWakes", "foxes/algorithms/sequential/sequential.py:Sequential.__next__", "foxes/engines/pool.py:PoolEngine.run_calculation"])
p("C63", "States from WRG files (WRGStates)",
  "The states of a wind resource grid are all pairs of a wind speed bin and a sector, each once; at a grid point the weight of a state is the sector frequency of that grid point times the Weibull probability of the bin; between grid points it is the bilinear mean of the neighbours, it is nonnegative, and outside of the loaded grid there is an error; as the bins are refined the weights sum to the sector frequencies; the weights sum to one (false of the code: they sum to 100, as frequencies are converted to percent, unless normalize is set); values belong to the coordinates stated in the file (false of the code: the coordinate columns are ignored); the loaded part of the grid covers the farm and the margin around it if the file does (false of the code).",
  "all files, grids, resolutions, sector counts, wind speed bins, farm bounds, points", "continuum of points and Weibull parameters, all grid sizes and bounds",
  ["foxes/input/states/wrg_states.py:WRGStates.load_data", "foxes/input/states/wrg_states.py:WRGStates.calculate", "foxes/utils/wrg_utils.py:ReaderWRG"])
p("C64", "Table look-ups in several variables (LookupTable, FromLookupTable, TableFactors)",
  "A look-up table in any number of input variables gives at the inputs of a row the value of that row (the mean for repeated rows), between neighbouring table values in each variable the straight line, within its range values between the smallest and largest table value, and outside an error or the fill value; the order of rows does not matter, incomplete tables are refused, tables of one variable work (false of the code); inputs missing in the farm data come from the default values; only selected entries of the output variables change. A turbine type from a table has its power at the corrected power wind speed and its thrust coefficient at the corrected thrust wind speed (false of the code: at the power wind speed); default inputs and default nominal power work (false of the code); TableFactors multiplies by the bilinear table value (false of the code unless a part of the turbines has the model and all turbines are calculated at once).",
  "all tables, numbers of variables, row orders, farm data, selections, inputs", "all table shapes and a continuum of inputs; array aliasing",
  ["foxes/models/turbine_models/lookup_table.py:LookupTable", "foxes/models/turbine_types/lookup.py:FromLookupTable.calculate", "foxes/models/turbine_models/table_factors.py:TableFactors.calculate"])
p("C65", "Slices through the flow (SliceData, SlicesData)",
  "A horizontal or vertical slice covers the rectangle with the given limits, or with all turbines of the selected states and the requested margin, with the requested number of points or a spacing close to the resolution, in the given plane or half way between the extreme turbines; vertical slices are true pictures of their plane, with the x axis in direction of a wind from x_direction. In xarray, numpy and (for means) pandas format the entry of a grid point has the value calculated at exactly this point: for mean slices the weighted sum over the selected states, for state slices the value of that state, divided by the normalization and cut at vmin, vmax; several slices in one data set have at the value of the plane and the coordinates the value at that point of that plane. False of the code: mean slices of a selection of states are means, variables=None means all, pandas format for states, pandas rows tell coordinates, returned grids are consistent, sides shorter than half the resolution are covered, planes can be renamed or normalized in several slices.",
  "all farms, state selections, resolutions, limits, directions, variables, normalizations, label maps, lists of planes", "all grids and index arithmetic for arbitrary sizes; a continuum of positions",
  ["foxes/output/grids.py:get_grid_xy", "foxes/output/grids.py:get_grid_xz", "foxes/output/grids.py:get_grid_yz", "foxes/output/grids.py:np2xr_p", "foxes/output/grids.py:np2xr_sp", "foxes/output/slice_data.py:SliceData", "foxes/output/slices_data.py:SlicesData"])
p("C66", "Wind roses (RosePlotOutput, WindRoseBinPlot)",
  "The frequency of sector i and wind speed bin j is 100 times the sum of the weights of the states whose wind direction at the requested turbine or point is, up to full turns, within half a sector of the direction i*360/n and whose wind speed is in the bin; every direction belongs to exactly one sector, and with a bin to infinity, wind speeds from the first bound on and weights with sum one the frequencies sum up to 100. Coordinates are the centres of sectors and bins. The bin plot shows the weighted mean, mean or sum of a variable over the states in each bin, means between the extreme values, no value for empty bins. In the plot north is up, east is right, and the bars of a sector are stacked up to the frequency of the sector. A rose of states (StatesRosePlotOutput) has the frequencies of the ambient wind at the user's point, with the wind speed variable renamed to AMB_WS, for turbine 0 only. False of the code: bins are half open as the legend says (the last bound is counted in the last bin unless there is a bin to infinity); directions below minus half a sector are counted.",
  "all numbers of sectors, bins, farms and points, states, weights, wind directions from minus half a sector to half a sector before 720 degrees", "all real directions and speeds, including those on bounds, any number of sectors and bins",
  ["foxes/output/rose_plot.py:RosePlotOutput.get_data", "foxes/output/rose_plot.py:RosePlotOutput.get_figure", "foxes/output/rose_plot.py:WindRoseBinPlot.get_data"])
p("C67", "Site and wind farm from windIO input",
  "For a windIO wind resource with time as only coordinate, the states are the given times in order, with wind direction, turbulence intensity, weights and (without profile) wind speed as given at each time; with roughness length and reference height the wind speed comes from the neutral or stability-dependent logarithmic profile with the given inputs. With time and height as coordinates the data at time i and height j are the given ones in either order of dimensions. Unknown names, formats and wrong numbers of dimensions are refused. The wind farm has the turbines of all layouts in order, at their coordinates and with their types; a turbine type has the given hub height, rotor diameter, power and thrust at the given wind speeds, and for power coefficients the power of the wind through the rotor times the coefficient. False of the code: a constant turbulence intensity is used (0.05 always replaces it); one state or constant wind speed or direction are possible; with heights, functions of time only are used (they are dropped silently); integer keys of turbine types as in windIO's examples are accepted (TypeError); power is in the same unit for power curves and power coefficients (factor 1000); given wind speed exponents hold for power coefficient curves.",
  "all wind resources of these kinds (any number and order of entries, any arrays, any number of times and heights), all farms, layouts, curves", "any combination and order of entries, arrays of any size, all real values",
  ["foxes/input/yaml/windio/read_fields.py:read_wind_resource_field", "foxes/input/yaml/windio/read_site.py:read_site", "foxes/input/yaml/windio/read_site.py:get_states", "foxes/input/yaml/windio/read_farm.py:read_farm", "foxes/input/yaml/windio/read_farm.py:read_turbine_types", "foxes/models/turbine_types/CpCt_from_two.py:CpCtFromTwo", "foxes/utils/dict.py:Dict"])
p("C68", "Input data of a chunk: model, farm and target data",
  "For every consistent dataset and every chunk of states and targets, the model, farm and target data handed to the calculation are accepted and contain every variable of the datasets cut to the chunk: the value at state i and target j of the chunk is the value at state i0+i and target j0+j of the dataset. Missing output variables are there, filled with NaN, for exactly the states and turbines (or targets) of the chunk; the counter of the first state is i0, the first target is j0 if targets have no labels; states are shared with the model data. Points a user gives, for all states or per state, reach the chunk unchanged with weight one. Constructed and extended farm data have dimensions (state, turbine, ...), target data (state, target, point, ...), except coordinates, names and weights; other shapes are refused. The combined positions are x, y, height. The mean over target points is the weighted sum: linear, constant preserving for weights of sum one, and between the bounds of the values for non-negative weights. False of the code: a wrong number of weights is always refused (accepted for one point per target); acceptance does not depend on the order of entries; variables per state are accepted in farm data (only weights); coordinates depending on states are cut; callers' dictionaries stay unchanged in from_points.",
  "all datasets with consistent sizes (any variables, dimensions, values), all chunks of states and targets, all lists of output variables, all sequences of additions", "any dataset, any chunk borders, any number of dimensions, and any history of additions",
  ["foxes/core/data.py:Data", "foxes/core/data.py:FData", "foxes/core/data.py:TData", "foxes/core/data.py:Data.from_dataset", "foxes/core/data.py:TData.from_points", "foxes/core/data.py:TData.from_tpoints", "foxes/core/data.py:TData.tpoint_mean", "foxes/core/engine.py:Engine.get_chunk_input_data", "foxes/core/algorithm.py:Algorithm.new_point_data"])
p("C69", "windIO analysis and outputs: the models and reports the file asks for",
  "For every windIO attributes section that is accepted, the algorithm has exactly the wake models asked for (deficit, turbulence, blockage), with the class, induction, superposition and wake growth of the file, under distinct names; it is iterative if and only if a blockage model is given; the rotor and partial wakes are those of the rotor averaging; the wake frame is the one of the deflection entry. Acceptance is characterised exactly. The turbine table contains exactly the selected states, turbines and variables; the horizontal planes have equidistant points from bound to bound and the heights asked for; reports switched off are not written; file names are as given. Partial wakes fit the wake model when given by name. False of the code: TurbOPark and the deflection Bastankhah2016 can be used; ceps can be given for every deficit model; an absent background averaging is accepted; lists and dictionaries of partial wakes are checked; cases_run is optional; an empty subset means the same for table and planes.",
  "all windIO attribute sections and output sections (any combination of optional entries, names and numbers), all lists of hub heights", "any combination of optional entries, any list of wakes, partial wakes, states and grid sizes",
  ["foxes/input/yaml/windio/read_attributes.py:read_attributes", "foxes/input/yaml/windio/read_outputs.py:read_outputs", "foxes/algorithms/downwind/downwind.py:Downwind.__init__", "foxes/models/model_book.py:ModelBook.default_partial_wakes", "foxes/output/state_turbine_table.py:StateTurbineTable.get_dataset"])
p("C70", "Running from a dictionary or file: overriding, labels, order and repetition",
  "For every input dictionary, farm, states and model book are the given objects or those the dictionary describes (models and layouts in file order), an algorithm together with one of them is refused, and every parameter of the algorithm has the value of highest priority: additional parameters that are not None, forced verbosity, farm/states/model book, forced iterative type, file. The engine is made from given parameters, else from the file, else not at all. A run does the farm calculation unless switched off, the point calculation as asked for, then the outputs, then shuts down the engine it made. Outputs run one after the other: there is one entry per output and one result per function, outputs are skipped exactly if they need farm results and there are none, `$x` is the result stored most recently under this label and `$x[i,j]` the part with these indices, other labels are refused. Command line options override the file, and without options the file counts. False of the code: additional arguments overrule a given algorithm; forced verbosity reaches the engine of the file; labels are only returned if asked for; empty strings can be arguments; the engine is shut down after errors; a dictionary can be used for a second run; arguments of a run do not stay in the dictionary; one engine option keeps the other engine settings of the file; options of the windIO tool have an effect, including the output directory.",
  "all dictionaries, arguments and command line options, all behaviours of constructors, calculations and output functions (values or errors), any number of outputs, functions and labels, runs repeated on the same dictionary", "any history of stored labels and repeated runs, any combination of file entries and arguments, errors at every step",
  ["foxes/input/yaml/dict.py:read_dict", "foxes/input/yaml/dict.py:run_obj_function", "foxes/input/yaml/dict.py:run_outputs", "foxes/input/yaml/dict.py:run_dict", "foxes/input/yaml/yaml.py:foxes_yaml", "foxes/input/yaml/windio/windio.py:foxes_windio"])
p("C71", "Dask engines: settings, one engine, transfer to workers, results that come back",
  "In every session of scripts that create, enter, leave, initialize, finalize and delete dask based engines, whatever errors are caught: at most one engine is active and it is the registered one; a with block releases what it opened, ends with no engine registered and with dask settings as in the files; inside, the engine's own settings hold, on top of the previous ones, as long as no other engine is touched. Lists of function calls return the results in the order of the inputs for any number of processes. The workers of a cluster calculate with the same containers as a local engine: same arrays, dimensions, sizes, loop dimensions and first state. After an iterative run the chunk store holds what each worker stored for its own chunk, over what was there before. The engine based on xarray splits all states and targets into non-empty blocks of at most its smallest chunk size, hands each chunk all variables of all its data sets, fills missing results from the first fitting container or fails, and has its chunk sizes as before. Selections by label or position pick the requested entries in the requested order or fail. False of the code: engines without settings run without settings of earlier engines (cluster engines write into the shared default); a failed enter changes nothing; finalizing an engine that is not in use leaves the settings of the active one; settings of the script survive; data of workers comes back also without result variables; a failed preparation leaves the chunk sizes of the xarray engine; equal names in farm and point data are kept apart; targets are chunked or accepted with coordinates; chunk size for points alone gives a loop dimension; selections cut all data sets.",
  "all sequences of engine calls with caught errors on any number of engines, all settings, all data sets, chunks, sizes, stores and selections", "any history of the process-wide settings and engine, any number of chunks, workers and variables",
  ["foxes/engines/dask.py:DaskBaseEngine", "foxes/engines/dask.py:_run_as_ufunc", "foxes/engines/dask.py:XArrayEngine", "foxes/engines/dask.py:_run_on_cluster", "foxes/engines/dask.py:LocalClusterEngine", "foxes/core/engine.py:select_subsets", "foxes/core/engine.py:loop_dims", "foxes/core/engine.py:combine_results"])
p("C72", "Turbine data from file names, data book, directories",
  "A file name whose parts are separated by dashes (or by underscores) gives: the first part and all parts not starting with D or H as name, joined by dashes; the last power part (kW, MW, GW or W) as nominal power in kW; the last D and H parts as diameter and hub height, with d as decimal dot; it is accepted if and only if each part is one of these. In particular every name in the documented format, in any directory, gives its name, power, diameter and height. With a dash after a dot, or both separators, only the text before the first dot is read. Two files are accepted if and only if both names can be read, agree on power, diameter and height, and have a common start; their order does not matter. For one file what the user gives wins over the file name; for tables only the user counts; types with power coefficients need a diameter; tbl files give height, diameter and power. Absolute paths are taken as they are, relative ones are below the input or output directory, which fall back to the working directory; looking directories up never changes them. After any history of additions, failed or not, the data book gives for a name the path added last; the table of contents is sorted and complete; the static data are the files with the listed endings. Input files are searched in the input directory, then in the data book. False of the code: names without separator or with two endings can be read; the user's parameters count when two files are given; a table can be combined with a file; a data book can be copied; an empty ending selects all files; curves in subdirectories are found in the book by name; relative paths of the book work for layouts; compressed layouts can be given as paths.",
  "all file names, number formats, user parameters, directories, file systems, and histories of a data book", "any text of any length, any history of additions and any configuration",
  ["foxes/data/parse.py:parse_Pct_file_name", "foxes/data/parse.py:parse_Pct_two_files", "foxes/models/turbine_types/PCt_file.py:PCtFile.__init__", "foxes/models/turbine_types/PCt_from_two.py:PCtFromTwo.__init__", "foxes/models/turbine_types/CpCt_file.py:CpCtFile.__init__", "foxes/models/turbine_types/CpCt_from_two.py:CpCtFromTwo.__init__", "foxes/models/turbine_types/TBL_file.py:TBLFile.__init__", "foxes/core/turbine_type.py:TurbineType.__init__", "foxes/config/config.py:Config", "foxes/config/config.py:get_path", "foxes/utils/data_book.py:DataBook", "foxes/data/static_data.py:StaticData", "foxes/input/farm_layout/from_file.py:add_from_file"])
p("C73", "Power and thrust from two tables over wind speed and turbulence intensity or air density",
  "A table over wind speeds and values of a second quantity has, wherever it is evaluated within its ranges, the value of its cells at the cells and linear values between neighbouring rows and columns, never beyond the smallest and largest cell; it raises outside; the order of rows and columns does not matter; with a repeated wind speed or column every look-up raises; loading again changes nothing. After a calculation, power and thrust of unselected turbines are unchanged; the power is zero if the wind speed is NaN or outside of the table, and otherwise the value at the corrected wind speed, whose cube carries the ratio of the densities and the power of the yaw cosine; no other variable changes. The results of a turbine in a state depend only on its own data, whatever the chunk. The calculation works exactly if the points looked up are within the tables, and with a density correction only if all or none of the selected entries are in range. False of the code: thrust is looked up at the wind speed given for thrust and limited by the thrust table; success does not depend on the chunks; the user's table is left as it is; yaw or density corrections beyond the table give zero.",
  "all tables, all selections, chunks, farm data including NaN, all parameters", "all tables of any size, all real wind speeds and any chunk size",
  ["foxes/models/turbine_types/wsti2PCt_from_two.py:WsTI2PCtFromTwo.load_data", "foxes/models/turbine_types/wsti2PCt_from_two.py:WsTI2PCtFromTwo.calculate", "foxes/models/turbine_types/wsrho2PCt_from_two.py:WsRho2PCtFromTwo.load_data", "foxes/models/turbine_types/wsrho2PCt_from_two.py:WsRho2PCtFromTwo.calculate"])
p("C74", "Model lists: which models run, in which order, with which parameters",
  "A farm calculation calls the controller for the turbine models before the rotor, then sets initial data, evaluates the rotor, calls the controller for the models after the rotor, stores ambient results, calculates wakes unless the run is ambient, and restores the turbine order if outputs are wanted. Each model gets the parameters the user gave under its name plus the flags set by the algorithm, and the calculation gets through exactly if each dictionary has only keys its model accepts. Models of the same class always have different names, the k-th one with suffix _instancek. Sums of point models run the first, then the second, whatever the nesting. Relaxation models are inserted at the documented places. False of the code: parameters for the controller only add to its parameters (any dictionary for it, even an empty one, makes both calls run the models after the rotor); the user's dictionaries are left unchanged; parameters by class name are found in later calculations; a dictionary may be used for two models; sums of farm models can be calculated; lists constructed without argument are independent; relaxation can be used; parameters of sequential runs are given by names of models; a sequential run constructed as ambient is ambient.",
  "all configurations, all user dictionaries and sharings of dictionary objects, all histories of constructed objects, all nested sums", "all histories of object construction, aliasing of dictionaries, nested sums of any depth",
  ["foxes/algorithms/downwind/downwind.py:Downwind._collect_farm_models", "foxes/algorithms/iterative/iterative.py:Iterative._collect_farm_models", "foxes/core/model.py:Model.__init__", "foxes/core/farm_data_model.py:FarmDataModelList", "foxes/core/point_data_model.py:PointDataModelList", "foxes/algorithms/sequential/sequential.py:Sequential.__next__"])
p("C75", "Results in files: formats of files and columns, and the writer of farm results",
  "A table file is read by exactly the reader its format names (csv, csv.gz, csv.bz2, csv.zip, h5, nc), and written likewise; a number written with an f-format column is the nearest decimal and reading it back differs by at most half a unit of the last place. Writing the farm results to csv twice gives the same file. A csv of chosen variables has one row per state and turbine, with the states and turbines as index, the chosen variables in order, and the values unchanged; renamed columns keep their values; the state-turbine table has one row per state and one column per turbine; a netCDF file has the variables as state x turbine arrays with these entries. False of the code: names with dots before the format work; the format of the file decides the writing parameters; keywords of one write do not affect later writes; h5 needs no key; nc can be written by write_file; writing changes no data of the writer; turbine names can be asked for chosen variables; the state column can be renamed; names in netCDF files work for any states.",
  "all file names, all histories of writes in a process, all numbers and precisions, all frames of results, all lists of variables and renamings", "all histories of writes, all rationals and digits, frames of any size",
  ["foxes/utils/pandas_utils.py:PandasFileHelper.read_file", "foxes/utils/pandas_utils.py:PandasFileHelper.write_file", "foxes/output/output.py:Output.write", "foxes/output/results_writer.py:ResultsWriter._get_data_vars", "foxes/output/results_writer.py:ResultsWriter.write_csv", "foxes/output/results_writer.py:ResultsWriter.write_nc"])
p("C76", "Layouts and point results in files: what is written comes back",
  "A layout written with write_csv and read with add_from_csv (columns for names, heights and diameters) gives the same turbines in the same order: names, diameters, positions and heights within half of 1e-4, exactly if they have at most four decimals; writing again gives the same file. Written with write_json and read with add_from_json: the same names, indices, positions and farm name. Coordinates from results are those of the chosen state. Turbines in layout plots are coloured by the weighted sum, sum, smallest or largest value over the states. netCDF files have the variables with the same dimensions, rounded to the nearest number with the digits of the variable, or exact. Point results are the same for fixed points and for points repeated for each state; means over states are the sums weighted with the chosen turbine's weights, and are means exactly if the weights sum to one. False of the code: turbines without own height or diameter come back the same (NaN, and NaN in calculations, instead of the type's value); all names survive csv (digits become numbers, NA-like names NaN); turbines with equal names survive json; farms with ids from csv can be written to json; a failed write_json leaves the old file; plots in units of the diameter do not depend on the order of turbines; writing a table to file does not change the returned table; the mean's file contains the results; fixed points can be used with subsets of states; maps of one state can be plotted.",
  "all farms, names, coordinates, parameters, results of any size, all datasets and rounding dictionaries, all points and weights", "round trips must hold for all farms and numbers; rounding for all rationals; arrays of any size",
  ["foxes/output/farm_layout.py:FarmLayoutOutput", "foxes/input/farm_layout/from_csv.py:add_from_csv", "foxes/input/farm_layout/from_json.py:add_from_json", "foxes/utils/xarray_utils.py:write_nc", "foxes/output/calc_points.py:PointCalculator.calculate", "foxes/output/state_turbine_table.py:StateTurbineTable.get_dataset", "foxes/output/state_turbine_map.py:StateTurbineMap.plot_map"])
p("C77", "The default engine: which engine runs, and what it leaves behind",
  "Without a user's engine, or with DefaultEngine, a calculation with at least one turbine runs in a process pool exactly if states² × turbines³ is at least 500³ × processors or if more than 10000 pairs of state and point are asked for, else in a single process; larger cases never go back to a single process. It runs with the user's chunk sizes and number of processors, and afterwards the user's engine is back in its place, with no pools left behind. A with-block without failures ends with the slot free. Without a block each calculation makes or reuses an engine with standard parameters, and failures have no consequences for the next one. Results at points do not depend on the choice. False of the code: an exception of a model in a with-block reaches the user (it is masked by 'Exit called for not entered engine'); after a caught exception the calculation goes on with the user's parameters and the slot is free after the block (a new engine with standard parameters takes its place, and stays); farms without turbines (division by zero).",
  "all engine parameters, all cases (states, turbines, points), all sequences of calculations with failures and caught failures, all histories of engines before", "depends on every history of engines, failures and catches",
  ["foxes/engines/default.py:DefaultEngine.run_calculation", "foxes/core/engine.py:get_engine", "foxes/core/engine.py:Engine.__enter__", "foxes/core/engine.py:Engine.__exit__"])
p("C78", "Flow plots and animations show the flow",
  "An image of mean values shows at column i and row j the weighted mean of the plotted variable at the grid point (i, j), clipped to the user's limits; an image of a state shows that state's value; images come one for each selected state, in their order, titled with the state's label or by the user's function. Arrows start at every n-th point and show the horizontal wind vector there. In horizontal plots the rotor is a line of length D through the hub, perpendicular to wind direction plus yaw misalignment. Animated horizontal plots have one common colour scale, the range of all values unless the user gives limits, and one colour bar. Animations of sequential runs in the plane xy have one image for each iteration, in order. False of the code: the data returned with ret_data are those of the plotted variable (they are those of the first variable in the interpreter's set order); rotor lines belong to the selected state (they are those of state number n of the full results); rotors can be drawn with other axis labels; vertical plots put rotors at the right place for any direction; a figure is always returned; vertical animations have a common colour scale; in animations of sequential runs a title function gives each image its title (all have the last one); the documented orientations xz and yz can be drawn there.",
  "all results, grids, states, selections, variables, orders of sets, plot parameters, all sequences of iterations", "needs all grids and numbers of states, and all hash seeds of the interpreter; image tests compare a few pictures at best",
  ["foxes/output/flow_plots_2d/flow_plots.py:FlowPlots2D", "foxes/output/flow_plots_2d/get_fig.py:get_fig", "foxes/output/seq_plugins/seq_flow_ani_plugin.py:SeqFlowAnimationPlugin"])
p("C79", "The user's own functions inside a calculation",
  "A Calculator in the model lists of turbines: it runs if each input is in the farm data or the model data and the function returns as many arrays as outputs. If the function does not look at the selection and outputs are not inputs, the final outputs are the function of the final inputs, for all turbines (also those without the model); entry by entry if the function is. If the function changes selected entries only, the turbines and states with the model get the function of their final inputs, the others keep their values. RotorCentreCalc gives, with downwind wake models, the states' and wakes' results at each rotor centre for the final data of all turbines. Entries no model selects keep what they had. False of the code: a function that changes a variable without looking at the selection is applied once (it is applied n - t times to the turbine at position t of n in the downwind order); functions get the turbines in the order of the farm (they get the downwind order of each state); the model book's farm models made from turbine models work in calculations with several chunks; SetUniformData works (its constructor misses the base class).",
  "all functions, inputs, outputs, model lists, selections, wakes and rotor models, numbers of turbines, states and wake models", "holds for all user functions and all orders of evaluation",
  ["foxes/models/turbine_models/calculator.py:Calculator.calculate", "foxes/models/turbine_models/rotor_centre_calc.py:RotorCentreCalc.calculate", "foxes/core/farm_controller.py:FarmController.calculate", "foxes/algorithms/downwind/models/farm_wakes_calc.py:FarmWakesCalculation.calculate", "foxes/models/farm_models/turbine2farm.py:Turbine2FarmModel.calculate"])
p("C80", "Areas from shapefiles",
  "shp2geom2d reads the first row of each wanted name (by default all names; rows without name are not read): it works exactly if each of these rows is a polygon or multi polygon, and a name that is not in the file is an error. All rings are converted to the same UTM zone: the one the user asked for, else the one of the ring that is converted first. In these coordinates a point is inside exactly if it is in the exterior of one of the polygons and in no hole of any; so a point inside is in a polygon of the file and in none of its holes. False of the code: each point of a polygon of the file is inside (areas within the hole of another area, such as islands, are lost).",
  "all files (rows, names, polygons with holes), wanted names, zones, conversions, points", "holds for all files and all points of the plane",
  ["foxes/utils/geopandas_utils.py:read_shp_polygons", "foxes/utils/geopandas_utils.py:shp2geom2d", "foxes/utils/geopandas_utils.py:_extract_poly_coords"])
p("C81", "Random states",
  "create_random_abl_states and random_timseries_data return n values for each variable, within the range of the variable, each from a fresh number of numpy's generator. Obukhov lengths outside the allowed absolute range are missing, allowed ones are kept; normalised weights of positive range sum to 1 and the written file keeps them. A time series has the variables of the user and WS, WD in their ranges; it is reproducible for a non-zero seed and a further variable does not change the others. False of the code: the limits and the normalisation apply for any var2col; requested digits are used; the seed 0 makes the series reproducible.",
  "all generators, numbers of states, variables, ranges, column names, seeds", "holds for all random numbers, sizes and tables",
  ["foxes/input/states/create/random_abl_states.py:create_random_abl_states", "foxes/input/states/create/random_abl_states.py:write_random_abl_states", "foxes/input/states/create/random_timeseries.py:random_timseries_data"])
p("C82", "Farm data and target data",
  "After any sequence of successful constructions, additions and slices, farm data that is not empty has numbers of states and turbines and each entry (dimension names, turbine names and weights excepted) starts with these two axes; target data has target points of shape states x targets x points x 3, a list of weights, and each other entry starts with the axes states, targets, points; sizes agree with the container or are one. Entries of this form are accepted. X, Y, H of the same dimensions are combined to positions whose last axis is X, Y, H. from_points and from_tpoints work exactly for points of the right shape and give the points, weights and missing variables. False of the code: weights match the points; later X, Y, H update the positions; an empty TData can be filled; acceptance does not depend on the order of entries.",
  "all histories of construction, addition and slicing, all entries, dimensions, shapes", "holds for all histories and all shapes",
  ["foxes/core/data.py:FData", "foxes/core/data.py:TData", "foxes/core/data.py:Data._auto_update", "foxes/core/data.py:TData.from_points", "foxes/core/data.py:TData.from_tpoints"])
p("C83", "Animations",
  "An animation made from generators has as its k-th frame the artists of the k-th yield of each generator, in the order in which the generators were added, generators that ended contributing nothing; it ends at the first frame without artists, so that with no empty yields it has as many frames as the longest generator and nothing is lost. It is made only if all yields taken are pairs with one and the same figure, the one given to the animator if any. Without generators there is no animation and no error. The wake debug plugin adds one image per state: for each turbine the wake points of all states so far, and per state an arrow from the point by vector times time step. False of the code: frames after an empty one are shown; an animator with a figure and exhausted generators gives an empty animation; a second animation can be made.",
  "all numbers and lengths of generators, all figures and artists, all runs", "holds for all families of generators and runs of any length",
  ["foxes/output/animation.py:Animator", "foxes/output/seq_plugins/seq_wake_debug_plugin.py:SeqWakeDebugPlugin"])
p("C84", "Turbine curve plots and rotor point plots",
  "The wind speeds of a curve plot are min, min+step, ... up to the first that is at least max, less than a step above. There is one plot per variable, in order, on the given axis or a new one, showing the results of a turbine with this type alone and, if a power mask is asked for, of a turbine with this type, the model that sets the maximal power and the power mask of the book, in this order; given titles and labels are used, else the defaults. Success leaves the model book unchanged. The rotor point plot shows each point at its position in the rotor plane with its weight in percent; the colour bar ticks are the different weights, increasing; smallest and largest are always labelled, any other exactly if it is more than 5% of the range below the next (and the second also above the first), so that labels other than the smallest are more than 5% apart. False of the code: wind speeds stay within the maximum; axes can be left out for several variables; created axes are returned; failure leaves the book unchanged; an axis without figure is used; all labels are 5% apart.",
  "all ranges and steps, variables, axes, titles, books and calculation outcomes; all rotor points and weights", "holds for all lists, ranges, books and weights",
  ["foxes/output/turbine_type_curves.py:TurbineTypeCurves.plot_curves", "foxes/output/rotor_point_plots.py:RotorPointPlot.get_point_figure"])
p("C85", "Configuration dictionaries",
  "A foxes dictionary made from an ordinary dictionary can be made exactly if the keys at all levels are strings (otherwise type error); it has the same keys in the same order and the same contents at all levels, so that every path of keys leads to the same value or to nothing, and all dictionaries inside are foxes dictionaries named by the path. Of several dictionaries the later wins key by key; a key given both ways is a type error. get_item returns the entry, else the default, else a key error; the default is never used if there is an entry, an ordinary dictionary is returned as foxes dictionary of the same contents, a foxes dictionary as it is. pop_item returns the same, afterwards exactly this key is gone.",
  "all nested dictionaries of any depth, all keys, names and defaults", "holds for all nested dictionaries, unbounded depth",
  ["foxes/utils/dict.py:Dict"])
p("C86", "Classes by name, python strings, regularised root",
  "X.new(name) gives a class derived from X, directly or not, with this name; it is a key error exactly if there is none, and the class is determined if the name is unique; no name gives nothing. exec_python returns a structure without command strings unchanged and runs nothing; otherwise the result has the same structure, with the value in place of each string %v%c1;c2;..., whose commands are run in order, elements from left to right, the first failure ending it; more than two indicators are a value error and run nothing. sqrt_reg is the root from x0 on, positive everywhere, never below the root, strictly increasing and differentiable. False of the code: a base class is found by its own name; the choice among classes of the same name is determined; name space and new line sign given to exec_python are used inside structures.",
  "all class hierarchies, all nested structures, strings and outcomes of commands, all real arguments", "holds for all hierarchies, nestings and arguments",
  ["foxes/utils/subclasses.py:new_cls", "foxes/utils/subclasses.py:all_subclasses", "foxes/utils/exec_python.py:exec_python", "foxes/utils/regularize.py:sqrt_reg"])
p("C87", "Stored model data and farms of another size",
  "Model data given to an algorithm are read back unchanged, replaced only on demand, removed only if stored, and other models are never touched. If the farm gets another number n of turbines and update_n_turbines is called for the first time, it is accepted exactly if no stored variable depends on the turbine (turbine being the second dimension, or of size one); then each variable with turbines has n of them with the value it had at any turbine, all others are unchanged, and so it is after any sequence of sizes, every further one being accepted; back at the first size all is as before. Of variables with equal names the one stored last is handed to the calculation. False of the code: data with turbines as first dimension are accepted; a refused change leaves everything as it was; a refused call is refused again; data replaced or stored later are checked; data of different models are never confused.",
  "all stored models, variables, shapes and values, all sequences of numbers of turbines", "holds for all shapes, values and histories of farm sizes",
  ["foxes/core/algorithm.py:Algorithm.update_n_turbines", "foxes/core/algorithm.py:Algorithm.store_model_data", "foxes/core/algorithm.py:Algorithm.get_model_data", "foxes/core/algorithm.py:Algorithm.del_model_data", "foxes/core/algorithm.py:Algorithm.get_models_idata"])
p("C88", "From wake deltas to waked rotor values",
  "The final wake deltas at a turbine are added to its values at the rotor points, for each wake model with wake points of its kind, and no other turbine is touched: with wake points at the rotor points, at each point the final delta there with the ambient value there; with the centre point, the final delta of the centre with the ambient value at each point; with a rotor of its own, at each point the weighted mean of the final deltas at its points with the mean ambient value. For homogeneous ambient conditions this mean is over the wake points whatever their number; if the wake points are the rotor points the rotor means of both ways agree. Several wake models add up in any order. Zero deltas add nothing. The mean over target points is linear and between smallest and largest value. False of the code: with as many wake points as rotor points the mean does not depend on how the points are listed.",
  "all numbers of turbines and points, weights, ambient values, deltas, superposition functions, lists of wake models", "holds for all values, sizes and orders",
  ["foxes/models/partial_wakes/rotor_points.py:RotorPoints.finalize_wakes", "foxes/models/partial_wakes/segregated.py:PartialSegregated.finalize_wakes", "foxes/models/partial_wakes/centre.py:PartialCentre", "foxes/algorithms/downwind/models/farm_wakes_calc.py:FarmWakesCalculation.calculate", "foxes/core/data.py:TData.tpoint_mean"])
p("C89", "Values set only once (SetFarmVars with once=True)",
  "A turbine model that sets user values with the flag once writes them for a chunk of states the first time it is evaluated there, and afterwards leaves the variable to the other models; without the flag it writes them at every evaluation. How the evaluations of different chunks interleave does not matter: results of a chunk depend on its own evaluations only. Each calculation of a session has the user's values where they are given and selected if it is finalised before the next one, or if the flag is not set, or if the evaluations happen in other processes. False of the code for calculations without finalisation in the user's process: a chunk has the values only if no earlier calculation had a chunk with the same first state, otherwise all are NaN; in a sequential run only the first step has them; iterations give other results with threads than with processes.",
  "all sessions of calculations with any chunk sizes, all interleavings of chunks, all selections, data with missing values, all changes by other models", "histories of calculations and thread schedules",
  ["foxes/models/turbine_models/set_farm_vars.py:SetFarmVars.calculate", "foxes/models/turbine_models/set_farm_vars.py:SetFarmVars.initialize", "foxes/core/engine.py:Engine.get_chunk_input_data", "foxes/engines/pool.py:PoolEngine.run_calculation", "foxes/algorithms/sequential/sequential.py:Sequential.__next__", "foxes/core/model.py:Model.initialize"])
p("C90", "Sequential iteration with points and plugins",
  "A complete loop over a Sequential algorithm with points yields the farm and point results of all states in order, after which both result tables hold in each row those of that state. Each plugin is initialised once, updated once for each state with its number and results, in the states' order and, for each state, in the order of the plugins, and finalised once, at the end. Leaving the loop and starting a new one gives the same as one loop: no second initialisation, no early finalisation. Inside the loop calc_farm() gives the results of the state that was yielded last; outside it raises. A plugin or a points calculation that raises ends the loop at this state. (Findings: before the first state calc_farm() gives zeros; after such an error the state is calculated again, on data that has advanced already, and the plugins before the one that raised are called again for it.)",
  "all numbers of states, plugins and points, all calculations that depend on earlier states, all points of interruption and failure", "histories of loops, interruptions and failures",
  ["foxes/algorithms/sequential/sequential.py:Sequential.__iter__", "foxes/algorithms/sequential/sequential.py:Sequential.__next__", "foxes/algorithms/sequential/sequential.py:Sequential.calc_farm", "foxes/algorithms/sequential/models/plugin.py:SequentialPlugin"])
if __name__ == "__main__":
    with open(os.path.join(os.path.dirname(__file__), "..", "properties.jsonl"), "w") as f:
        for q in P: f.write(json.dumps(q) + "\n")
    print(len(P))
