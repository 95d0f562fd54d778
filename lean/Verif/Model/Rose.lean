import Mathlib.Analysis.SpecialFunctions.Trigonometric.Basic
import Mathlib.Algebra.Order.Archimedean.Real.Basic
import Mathlib.Data.List.GetD
import Mathlib.Order.WithBot

/-!
Model of the wind roses: `foxes/output/rose_plot.py`.

Simplifications: real numbers for floats (so `np.arange` has exactly the expected number of entries; in
floating point `np.arange(0, 360, 360 / n)` has n + 1 entries for n = 161, 175, 227, ..., which then
makes `get_data` fail); bounds of wind speed bins may be infinite; NaN results of empty bins are
`none`; matplotlib is not modelled except for the angles and the bars that are handed over.
-/

noncomputable section

namespace Foxes.Rose

/-- `np.arange(a, b, d)` for d > 0. -/
def arange (a b d : ℝ) : List ℝ := (List.range ⌈(b - a) / d⌉₊).map fun i : ℕ => a + (i : ℝ) * d

/-- `wd_delta = 360 / wd_sectors` (rose_plot.py 170, 475). -/
def delta (n : ℕ) : ℝ := 360 / n

/-- `wd[wd >= 360 - wd_delta / 2] -= 360` (rose_plot.py 171, 476). -/
def wrap (n : ℕ) (wd : ℝ) : ℝ := if wd ≥ 360 - delta n / 2 then wd - 360 else wd

/-- `wd_bins = np.arange(-wd_delta / 2, 360, wd_delta)` (rose_plot.py 172, 477). -/
def wdBins (n : ℕ) : List ℝ := arange (-(delta n) / 2) 360 (delta n)

/-- The dimensions of a result variable. -/
inductive Dims where
  | state
  | stateTurbine
  | statePoint
  | other
deriving DecidableEq

/-- A result variable: dimensions and data, one row for each state (rows of length one for dimension
(state,)). -/
structure RVar where
  dims : Dims
  rows : List (List ℝ)

/-- The results, farm results or point results (rose_plot.py 53-60). -/
structure Results where
  points : Bool
  vars : List (String × RVar)

/-- The constructor (rose_plot.py 52-60): farm results and point results, `use_points`; error if
none is usable. (With `use_points` and without point results, the error comes at the first use.) -/
def choose (farm point : Option (List (String × RVar))) (usePoints : Bool) : Option Results :=
  if usePoints || (farm.isNone && point.isSome) then point.map fun v => ⟨true, v⟩
  else farm.map fun v => ⟨false, v⟩

/-- `data[:, t]`: IndexError if there is no such column. -/
def column (rows : List (List ℝ)) (t : ℕ) : Option (List ℝ) := rows.mapM fun r => r[t]?

/-- The weights of the states (rose_plot.py 154-163). -/
def weights (r : Results) (turbine point : ℕ) : Option (List ℝ) := do
  let w ← r.vars.lookup "weight"
  match w.dims with
  | .state => column w.rows 0
  | .stateTurbine => column w.rows turbine
  | .statePoint => column w.rows point
  | .other => none

/-- `self.results[var].to_numpy()[:, t]` (rose_plot.py 167-169): IndexError for one-dimensional data. -/
def values (r : Results) (var : String) (turbine point : ℕ) : Option (List ℝ) := do
  let v ← r.vars.lookup var
  match v.dims with
  | .state => none
  | _ => column v.rows (if r.points then point else turbine)

/-- Bin number of a value in `np.histogram2d` (`np.histogramdd`): `searchsorted(edges, x, side="right")`,
one less at the last edge; values below the first or above the last edge are left out. -/
def binOf (edges : List (WithTop ℝ)) (x : ℝ) : Option ℕ :=
  let c := (edges.filter fun e => decide (e ≤ (x : WithTop ℝ))).length
  let c := if edges.getLast? = some (x : WithTop ℝ) then c - 1 else c
  if c = 0 ∨ c = edges.length then none else some (c - 1)

/-- `np.histogram2d(wd, ws, (wd_bins, ws_bins), weights=w)[0][i, j]`. -/
def hist (wdEdges wsEdges : List (WithTop ℝ)) (wd ws w : List ℝ) (i j : ℕ) : ℝ :=
  (List.zipWith (fun (p : ℝ × ℝ) w => if binOf wdEdges p.1 = some i ∧ binOf wsEdges p.2 = some j then w else 0)
    (wd.zip ws) w).sum

/-- `0.5 * (ws_bins[:-1] + ws_bins[1:])` of possibly infinite bounds. -/
def mids : List (WithTop ℝ) → List (WithTop ℝ)
  | a :: b :: l => ((0.5 : ℝ) : WithTop ℝ) * (a + b) :: mids (b :: l)
  | _ => []

/-- The data of a wind rose (rose_plot.py 177-193). -/
structure RoseData where
  wdCoord : List ℝ
  wsCoord : List (WithTop ℝ)
  wdBounds : List ℝ
  wsBounds : List (WithTop ℝ)
  freq : ℕ → ℕ → ℝ

/-- numpy requires at least one edge and monotonically increasing edges (otherwise ValueError). -/
def edgesOk (edges : List (WithTop ℝ)) : Bool := !edges.isEmpty && decide (edges.Pairwise (· ≤ ·))

/-- `RosePlotOutput.get_data` (rose_plot.py 116-195). -/
def getData (r : Results) (n : ℕ) (wsVar : String) (wsBins : List ℝ) (wdVar : String) (turbine point : ℕ) (addInf : Bool) :
    Option RoseData := do
  let w ← weights r turbine point
  let wsBins : List (WithTop ℝ) := wsBins.map (fun x : ℝ => (x : WithTop ℝ)) ++ (if addInf then [⊤] else [])
  let ws ← values r wsVar turbine point
  let wd ← values r wdVar turbine point
  if n = 0 then none
  else if !edgesOk wsBins then none
  else
    return ⟨arange 0 360 (delta n), mids wsBins, wdBins n, wsBins, fun i j =>
      100 * hist ((wdBins n).map (fun x : ℝ => (x : WithTop ℝ))) wsBins (wd.map (wrap n)) ws w i j⟩

/-- `np.radians(np.mod(90 - wd, 360))` (rose_plot.py 255-256, 285): polar angle of a wind direction. -/
def plotAngle (wd : ℝ) : ℝ := (let x := 90 - wd; x - 360 * (⌊x / 360⌋ : ℝ)) * Real.pi / 180

/-- The bars of one sector (rose_plot.py 272-281): bottom and height for each wind speed bin. -/
def bars (freq : ℕ → ℕ → ℝ) (nWs i : ℕ) : List (ℝ × ℝ) :=
  (List.range nWs).map fun j => (((List.range j).map fun k => freq i k).sum, freq i j)

/-- The contractions of `WindRoseBinPlot` (rose_plot.py 480-495). -/
inductive Contraction where
  | weights
  | meanNoWeights
  | sumNoWeights
  | other (s : String)

/-- One bin of `WindRoseBinPlot.get_data` (rose_plot.py 480-491); `none` is NaN. -/
def binValue (c : Contraction) (wdEdges wsEdges : List (WithTop ℝ)) (wd ws w var : List ℝ) (i j : ℕ) : Option ℝ :=
  match c with
  | .weights =>
    let z := hist wdEdges wsEdges wd ws w i j
    if z < 1e-13 then none
    else some (hist wdEdges wsEdges wd ws (List.zipWith (· * ·) w var) i j / z)
  | .meanNoWeights =>
    let z := hist wdEdges wsEdges wd ws (wd.map fun _ => 1) i j
    if z < 1 then none else some (hist wdEdges wsEdges wd ws var i j / z)
  | .sumNoWeights => some (hist wdEdges wsEdges wd ws var i j)
  | .other _ => none

/-- The data of a bin plot (rose_plot.py 497-509). -/
structure BinData where
  wdCoord : List (WithTop ℝ)
  wsCoord : List (WithTop ℝ)
  value : ℕ → ℕ → Option ℝ

/-- The weights for bin plots (rose_plot.py 463-471): no weights that depend on points. -/
def binWeights (r : Results) (turbine : ℕ) : Option (List ℝ) := do
  let wv ← r.vars.lookup "weight"
  match wv.dims with
  | .state => column wv.rows 0
  | .stateTurbine => column wv.rows turbine
  | _ => none

/-- `WindRoseBinPlot.get_data` (rose_plot.py 424-511), from farm results. -/
def getBinData (r : Results) (vname : String) (wsBins : List ℝ) (n : ℕ) (wdVar wsVar : String) (turbine : ℕ)
    (c : Contraction) : Option BinData := do
  let w ← binWeights r turbine
  let var ← values r vname turbine turbine
  let ws ← values r wsVar turbine turbine
  let wd ← values r wdVar turbine turbine
  let wsBins : List (WithTop ℝ) := wsBins.map fun x : ℝ => (x : WithTop ℝ)
  if n = 0 then none
  else if !edgesOk wsBins then none
  else match c with
    | .other _ => none
    | c =>
      let wdE := (wdBins n).map fun x : ℝ => (x : WithTop ℝ)
      return ⟨mids wdE, mids wsBins, binValue c wdE wsBins (wd.map (wrap n)) ws w var⟩

/-- `results.rename_vars({a: b})` (xarray): ValueError if there is no variable `a`, or if there is another variable `b` already. -/
def rename (vars : List (String × RVar)) (a b : String) : Option (List (String × RVar)) :=
  if (vars.lookup a).isNone then none
  else if a ≠ b ∧ (vars.lookup b).isSome then none
  else some (vars.map fun p => (if p.1 = a then b else p.1, p.2))

/-- The constructor of `StatesRosePlotOutput` (rose_plot.py 381-396), from the ambient results `vars` of a farm that has one turbine with its rotor
centre at the user's point (rose_plot.py 381-394; how they are calculated from the states: `Model/Rotor.lean`, `Model/Downwind.lean`). -/
def statesRose (vars : List (String × RVar)) (wsVar : String) : Option Results := do
  let vars ← rename vars wsVar "AMB_WS"
  choose (some vars) none false

end Foxes.Rose
