import Mathlib.Analysis.Real.Sqrt
import Mathlib.Algebra.BigOperators.Fin
import Mathlib.Algebra.Order.BigOperators.Group.Finset
/-
Model of the evaluation of farm results, foxes/output/farm_results_eval.py (class FarmResultsEval). Results are matrices of `S` states and
`T` turbines; real numbers replace doubles, `none` as an entry stands for NaN.
-/
namespace Foxes.FarmEval

noncomputable section
open scoped Classical

/-- a variable of the farm results: values by state and turbine, `none` is NaN -/
abbrev Mat (S T : ℕ) := Fin S → Fin T → Option ℝ

/-- the variable `weight`, of dimensions (state) or (state, turbine) (farm_results_eval.py:80, 97) -/
inductive Weights (S T : ℕ)
  | s (w : Fin S → ℝ)
  | st (w : Fin S → Fin T → ℝ)

/-- the weight of a state for a turbine -/
def Weights.at {S T : ℕ} : Weights S T → Fin S → Fin T → ℝ
  | .s w, i, _ => w i
  | .st w, i, j => w i j

/-- Division of the weights by their sum over all states (foxes/algorithms/downwind/downwind.py:512-513). -/
def normalized {S T : ℕ} : Weights S T → Weights S T
  | .s w => .s (fun i => w i / ∑ k, w k)
  | .st w => .st (fun i j => w i j / ∑ k, w k j)

/-- The weights of `calc_farm` results for the weights `w` of the states: the parameter `normalize` of `_launch_parallel_farm_calc` (downwind.py:481,
512-513), which `calc_farm(normalize=...)` passes on (downwind.py:580-586, foxes/core/algorithm.py:830-836), is `False` by default. -/
def resultWeights {S T : ℕ} (normalize : Bool) (w : Weights S T) : Weights S T := if normalize then normalized w else w

/-- Do the results of `calc_farm` for the requested output variables arrive at the user? (downwind.py:572-575, 507-515) The results contain
the requested farm variables only, and the normalisation, if requested, looks up `weight`; `false`: KeyError after the calculation. -/
def farmResultsReturned (normalize : Bool) (farmVars : List String) (outputs : Option (List String)) : Bool :=
  !normalize || match outputs with
    | none => farmVars.contains "weight"
    | some o => (o.filter (fun v => farmVars.contains v)).contains "weight"

/-- `sel` (84, 101): no field has a NaN in this state -/
def Sel {S T : ℕ} (fs : List (Mat S T)) (i : Fin S) : Prop := ∀ f ∈ fs, ∀ j, f i j ≠ none

/-- the weights appended to the fields (83-95, 100-112): those of the results if there is no NaN, else those of the states without NaN,
scaled to the same sum (over all states, by turbine if there is a turbine dimension). `none`: division by zero, which gives NaN or inf. -/
def selWeight {S T : ℕ} (w : Weights S T) (fs : List (Mat S T)) (i : Fin S) (j : Fin T) : Option ℝ :=
  if ∀ i, Sel fs i then some (w.at i j)
  else
    let w0 := ∑ k, w.at k j
    let w1 := ∑ k, if Sel fs k then w.at k j else 0
    if w1 = 0 then none else some (w.at i j * (w0 / w1))

/-- product of the fields in a state for a turbine -/
def prodAt {S T : ℕ} (fs : List (Mat S T)) (i : Fin S) (j : Fin T) : ℝ := (fs.map (fun f => (f i j).getD 0)).prod

/-- the products that `einsum` sums up (118-120); `none`: one of them is NaN or inf -/
def terms {S T : ℕ} (w : Weights S T) (fs : List (Mat S T)) (i : Fin S) (j : Fin T) : Option ℝ :=
  if Sel fs i then (selWeight w fs i j).map (fun x => prodAt fs i j * x) else some 0

/-- sum of terms, NaN if one of them is -/
def osum {ι : Type} [Fintype ι] (f : ι → Option ℝ) : Option ℝ :=
  if ∀ i, f i ≠ none then some (∑ i, (f i).getD 0) else none

/-- `weinsum("t", ...)` for given arrays (40-120) -/
def weinsumT {S T : ℕ} (w : Weights S T) (fs : List (Mat S T)) (j : Fin T) : Option ℝ := osum (fun i => terms w fs i j)

/-- `weinsum("s", ...)` for given arrays without NaN (40-120): the states without NaN remain, here all -/
def weinsumS {S T : ℕ} (w : Weights S T) (fs : List (Mat S T)) (i : Fin S) : Option ℝ := osum (fun j => terms w fs i j)

/-- `weinsum("", ...)` (40-120) -/
def weinsum0 {S T : ℕ} (w : Weights S T) (fs : List (Mat S T)) : Option ℝ := osum (fun p : Fin S × Fin T => terms w fs p.1 p.2)

/-- the assertion of no NaN (68-71, 144-147, 193-196) -/
def NoNan {S T : ℕ} (v : Mat S T) : Prop := ∀ i j, v i j ≠ none

/-- operations over one axis without weights (151-160, 200-207, 256-263); `none`: an exception (unknown operation, min or max of nothing)
or NaN (mean or standard deviation of nothing) -/
def npOp {n : ℕ} (op : String) (x : Fin n → ℝ) : Option ℝ :=
  if op = "mean_no_weights" then (if n = 0 then none else some ((∑ i, x i) / n))
  else if op = "sum" then some (∑ i, x i)
  else if op = "min" then (if h : 0 < n then some (Finset.univ.inf' ⟨⟨0, h⟩, Finset.mem_univ _⟩ x) else none)
  else if op = "max" then (if h : 0 < n then some (Finset.univ.sup' ⟨⟨0, h⟩, Finset.mem_univ _⟩ x) else none)
  else if op = "std" then (if n = 0 then none else some (Real.sqrt ((∑ i, (x i - (∑ k, x k) / n) ^ 2) / n)))
  else none

/-- entry as a number -/
def num {S T : ℕ} (v : Mat S T) (i : Fin S) (j : Fin T) : ℝ := (v i j).getD 0

/-- `reduce_states` (122-169) for one variable: a value by turbine -/
def reduceStates {S T : ℕ} (w : Weights S T) (op : String) (v : Mat S T) (j : Fin T) : Option ℝ :=
  if NoNan v then
    if op = "weights" then weinsumT w [v] j else npOp op (fun i => num v i j)
  else none

/-- `reduce_turbines` (171-216) for one variable: a value by state; there is no "std" -/
def reduceTurbines {S T : ℕ} (w : Weights S T) (op : String) (v : Mat S T) (i : Fin S) : Option ℝ :=
  if NoNan v then
    if op = "weights" then weinsumS w [v] i
    else if op = "std" then none
    else npOp op (fun j => num v i j)
  else none

/-- `reduce_all` (218-269) for one variable. "mean_no_weights" is a sum (256-257); a vector without state dimension is broadcast over the
states by `einsum` (255). -/
def reduceAll {S T : ℕ} (w : Weights S T) (sop top : String) (v : Mat S T) : Option ℝ :=
  if ∀ j, reduceStates w sop v j ≠ none then
    let sdata : Fin T → ℝ := fun j => (reduceStates w sop v j).getD 0
    if top = "weights" then
      if sop = "weights" then weinsum0 w [v] else weinsum0 w [fun _ j => some (sdata j)]
    else if top = "mean_no_weights" then some (∑ j, sdata j)
    else if top = "std" then none
    else npOp top sdata
  else none

/-- `calc_states_mean` (271-291) -/
def calcStatesMean {S T : ℕ} (w : Weights S T) (useWeights : Bool) (v : Mat S T) (j : Fin T) : Option ℝ :=
  reduceStates w (if useWeights then "weights" else "mean_no_weights") v j

/-- `calc_farm_mean` (357-373) -/
def calcFarmMean {S T : ℕ} (w : Weights S T) (v : Mat S T) : Option ℝ := reduceAll w "weights" "weights" v

/-- `calc_farm_sum` (375-391) -/
def calcFarmSum {S T : ℕ} (w : Weights S T) (v : Mat S T) : Option ℝ := reduceAll w "sum" "sum" v

/-- `calc_mean_farm_power` (393-410) for the power `v` -/
def calcMeanFarmPower {S T : ℕ} (w : Weights S T) (v : Mat S T) : Option ℝ := reduceAll w "weights" "sum" v

/-- Duration of a time series in hours (465-473), times in nanoseconds; `none`: index error. The number of seconds is cut to an integer. -/
def seriesHours (times : List ℤ) (deltaT : Option ℤ) : Option ℝ :=
  match times.getLast?, times.head? with
  | some t1, some t0 =>
      (match deltaT with
        | some d => some d
        | none => (times[times.length - 2]?).bind (fun t' => if times.length < 2 then none else some (t1 - t'))).map
        (fun d => ((Int.tdiv (t1 - t0 + d) 1000000000 : ℤ) : ℝ) / 3600)
  | _, _ => none

/-- Duration in hours (465-481): `series` are the times, if the states are times -/
def durationHours (series : Option (List ℤ)) (deltaT : Option ℤ) (hours : Option ℝ) (annual : Bool) : Option ℝ :=
  match series with
  | some times => if hours.isSome then none else seriesHours times deltaT
  | none => match hours with
    | some h => some h
    | none => if annual then some 8760 else none

/-- `calc_turbine_yield` (412-489): yield of turbine `j`, with power unit `unit` in W (a number or by turbine). `none`: an exception or NaN. -/
def calcTurbineYield {S T : ℕ} (w : Weights S T) (v : Mat S T) (unit : Fin T → ℝ) (series : Option (List ℤ)) (deltaT : Option ℤ)
    (hours : Option ℝ) (annual : Bool) (j : Fin T) : Option ℝ :=
  match durationHours series deltaT hours annual, calcStatesMean w true v j with
  | some d, some m =>
      if annual then (if d = 0 then none else some (m * d * unit j / 1000000000 * (8760 / d)))
      else some (m * d * unit j / 1000000000)
  | _, _ => none

/-- `calc_farm_yield` (535-571) for turbine yields in a column called `col`: P50, and P75 and P90 for a given uncertainty; `none`: KeyError.
The column `YLD` is expected, while `calc_turbine_yield(ambient=True)` calls it `AMB_YLD`. -/
def calcFarmYield {T : ℕ} (col : String) (y : Fin T → ℝ) (uncert : Option ℝ) : Option (ℝ × Option (ℝ × ℝ)) :=
  if col = "YLD" then
    let f := ∑ j, y j
    some (f, uncert.map (fun u => (f * (1 - 0.675 * u), f * (1 - 1.282 * u))))
  else none

/-- name of the column of the yields (447-452, 488) -/
def yieldColumn (ambient : Bool) : String := if ambient then "AMB_YLD" else "YLD"

/-- `add_capacity` (491-528), one entry -/
def capacity (P Pnom : ℝ) : ℝ := P / Pnom

/-- `add_efficiency` (573-587), one entry -/
def efficiency (P P0 : ℝ) : ℝ := if P < 1e-10 then 0 else min (P / max P0 1e-12) 1

/-- `calc_farm_efficiency` (591-603) -/
def farmEfficiency {S T : ℕ} (w : Weights S T) (P P0 : Mat S T) : Option ℝ :=
  match calcMeanFarmPower w P, calcMeanFarmPower w P0 with
  | some p, some p0 => some (min (p / max p0 1e-14) 1)
  | _, _ => none

end

end Foxes.FarmEval
