import Verif.Model.WindDir
/-
Model of the wind farm container (foxes/core/wind_farm.py) and of the layout functions in foxes/input/farm_layout: row.py, grid.py,
ring.py, from_csv.py, from_json.py. Real numbers replace doubles. What is printed is not modelled. Sharing of lists between turbines is
the subject of Verif/Model/TurbineObj.lean; here a turbine holds its own list.
-/
namespace Foxes.Layout
open Foxes.WindDir

noncomputable section
open scoped Classical

/-- A turbine in a farm: ground position, index, name, models, rotor diameter, hub height (core/turbine.py:71-76) -/
structure Turb where
  xy : ℝ × ℝ
  index : ℕ
  name : String
  models : List String
  D : Option ℝ
  H : Option ℝ

/-- A turbine before it is added: index and name may be missing (core/turbine.py:36-45) -/
structure TurbIn where
  xy : ℝ × ℝ
  index : Option ℕ
  name : Option String
  models : List String
  D : Option ℝ
  H : Option ℝ

/-- `WindFarm.add_turbine` (core/wind_farm.py:49-53) -/
def addTurbine (farm : List Turb) (t : TurbIn) : List Turb :=
  let index := t.index.getD farm.length
  let name := t.name.getD ("T" ++ toString index)
  farm ++ [{ xy := t.xy, index := index, name := name, models := t.models, D := t.D, H := t.H }]

/-- The turbine parameters that are common to a layout (`turbine_parameters`) -/
structure Pars where
  models : List String
  D : Option ℝ
  H : Option ℝ

/-- The loop of row.py:44-53, grid.py:50-60 and ring.py:51-65 over the positions `xys`, starting with number `i`: adds a turbine with index
`indices[i]` and name `names[i]`, if given. The flag is `false` after an IndexError, the turbines added before remain. -/
def addLoop (pars : Pars) (indices : Option (List ℕ)) (names : Option (List String)) : ℕ → List (ℝ × ℝ) → List Turb → List Turb × Bool
  | _, [], farm => (farm, true)
  | i, xy :: xys, farm =>
      match indices.map (fun l => l[i]?), names.map (fun l => l[i]?) with
      | some none, _ => (farm, false)
      | _, some none => (farm, false)
      | ix, nm => addLoop pars indices names (i + 1) xys
          (addTurbine farm { xy := xy, index := ix.join, name := nm.join, models := pars.models, D := pars.D, H := pars.H })

/-- positions of `add_row` (row.py:41-47) -/
def rowXY (base step : ℝ × ℝ) (n : ℕ) : List (ℝ × ℝ) := (List.range n).map (fun i : ℕ => (base.1 + (i : ℝ) * step.1, base.2 + (i : ℝ) * step.2))

/-- `add_row` (row.py:6-53) -/
def addRow (farm : List Turb) (base step : ℝ × ℝ) (n : ℕ) (indices : Option (List ℕ)) (names : Option (List String)) (pars : Pars) : List Turb × Bool :=
  addLoop pars indices names 0 (rowXY base step n) farm

/-- positions of `add_grid` (grid.py:44-54); `np.ndindex(n0, n1)` runs through the pairs with the last index fastest -/
def gridXY (base v0 v1 : ℝ × ℝ) (n0 n1 : ℕ) : List (ℝ × ℝ) :=
  ((List.range n0).flatMap (fun a => (List.range n1).map (fun b => (a, b)))).map
    (fun p => (base.1 + p.1 * v0.1 + p.2 * v1.1, base.2 + p.1 * v0.2 + p.2 * v1.2))

/-- `add_grid` (grid.py:7-60) -/
def addGrid (farm : List Turb) (base v0 v1 : ℝ × ℝ) (n0 n1 : ℕ) (indices : Option (List ℕ)) (names : Option (List String)) (pars : Pars) : List Turb × Bool :=
  addLoop pars indices names 0 (gridXY base v0 v1 n0 n1) farm

/-- assignment of a float to an entry of an integer array: cut towards zero (ring.py:65 with an integer array) -/
def npTrunc (x : ℝ) : ℤ := if 0 ≤ x then ⌊x⌋ else ⌈x⌉

/-- the angle `a[0]` in pass `i` of ring.py:48-65; `isInt`: `offset_deg` is an integer, and so is the array -/
def ringAngle (isInt : Bool) (off : ℝ) (n : ℕ) : ℕ → ℝ
  | 0 => off
  | i + 1 => if isInt then (npTrunc (ringAngle isInt off n i + 360 / n) : ℝ) else ringAngle isInt off n i + 360 / n

/-- radius of the ring (ring.py:47) -/
def ringR (dist : ℝ) (n : ℕ) : ℝ := n * dist / (2 * Real.pi)

/-- positions of `add_ring` (ring.py:46-57) -/
def ringXY (isInt : Bool) (base : ℝ × ℝ) (dist off : ℝ) (n : ℕ) : List (ℝ × ℝ) :=
  (List.range n).map (fun i => (base.1 + ringR dist n * (wd2wdvec (ringAngle isInt off n i) 1).1, base.2 + ringR dist n * (wd2wdvec (ringAngle isInt off n i) 1).2))

/-- `add_ring` (ring.py:7-65); division by zero for no turbines, before anything is added -/
def addRing (farm : List Turb) (isInt : Bool) (base : ℝ × ℝ) (dist off : ℝ) (n : ℕ) (indices : Option (List ℕ)) (names : Option (List String)) (pars : Pars) :
    List Turb × Bool :=
  if n = 0 then (farm, false) else addLoop pars indices names 0 (ringXY isInt base dist off n) farm

/-- A row of a table as read by from_csv.py:86-120 with the columns chosen by the user; `none`: this column was not chosen, or, for `H` and
`D`, is not in the table -/
structure CsvRow where
  label : ℕ
  x : ℝ
  y : ℝ
  name : Option String
  id : Option ℕ
  H : Option ℝ
  D : Option ℝ
  pre : List String
  ttype : Option String
  post : List String

/-- `add_from_csv` (from_csv.py:74-120) for distinct row labels, without `turbine_ids` -/
def addFromCsv (farm : List Turb) (rows : List CsvRow) (baseName : String) (shift : Bool) (pars : Pars) : List Turb :=
  rows.foldl (fun farm r => addTurbine farm
    { xy := (r.x, r.y), index := r.id, name := some (r.name.getD (baseName ++ toString (r.label + (if shift then 1 else 0)))),
      models := r.pre ++ r.ttype.toList ++ pars.models ++ r.post, D := r.D.orElse (fun _ => pars.D), H := r.H.orElse (fun _ => pars.H) }) farm

/-- `add_from_csv` with `turbine_ids` (from_csv.py:93-94): entry `turbine_ids[i]`, where `i` is the row *label*; `false`: IndexError, after the rows before
have been added -/
def addFromCsvIds (ids : List ℕ) (baseName : String) (shift : Bool) (pars : Pars) : List CsvRow → List Turb → List Turb × Bool
  | [], farm => (farm, true)
  | r :: rs, farm =>
    match ids[r.label]? with
    | none => (farm, false)
    | some i => addFromCsvIds ids baseName shift pars rs (addFromCsv farm [{ r with id := some i }] baseName shift pars)

/-- An entry of a json file (from_json.py:47-66) -/
structure JsonEntry where
  name : String
  x : ℝ
  y : ℝ
  id : Option ℕ
  H : Option ℝ
  D : Option ℝ
  models : Option (List String)

/-- `add_from_json` (from_json.py:34-67): the file has a list of farms, each with entries by name; `none`: KeyError unless there is exactly one.
The result also has the new name of the farm. -/
def addFromJson (farm : List Turb) (farmName : String) (setName : Bool) (file : List (String × List JsonEntry)) (pars : Pars) : Option (List Turb × String) :=
  match file with
  | [(fname, es)] =>
      some (es.foldl (fun farm e => addTurbine farm
        { xy := (e.x, e.y), index := e.id, name := some e.name,
          models := match e.models with
            | some ms => ms ++ pars.models
            | none => pars.models
          D := e.D.orElse (fun _ => pars.D), H := e.H.orElse (fun _ => pars.H) }) farm, if setName then fname else farmName)
  | _ => none

/-- smallest entry; `np.min` of nothing raises -/
def npMin : List ℝ → Option ℝ
  | [] => none
  | x :: xs => some (xs.foldl min x)

/-- largest entry -/
def npMax : List ℝ → Option ℝ
  | [] => none
  | x :: xs => some (xs.foldl max x)

/-- extra space around a farm (wind_farm.py:125-143): none, in m, or in rotor diameters -/
inductive Extra
  | none
  | m (e : ℝ)
  | d (e : ℝ)

/-- `WindFarm.get_xy_bounds` (wind_farm.py:118-145) for a farm without boundary: the lower left and upper right points. `rd` is the rotor
diameter of a turbine (wind_farm.py:147-166). -/
def xyBounds (farm : List Turb) (rd : Turb → ℝ) (extra : Extra) : Option ((ℝ × ℝ) × (ℝ × ℝ)) :=
  let margin : Turb → ℝ := match extra with
    | .d e => fun t => e * rd t
    | _ => fun _ => 0
  let add : ℝ := match extra with
    | .m e => e
    | _ => 0
  match npMin (farm.map (fun t => t.xy.1 - margin t)), npMin (farm.map (fun t => t.xy.2 - margin t)),
        npMax (farm.map (fun t => t.xy.1 + margin t)), npMax (farm.map (fun t => t.xy.2 + margin t)) with
  | some a, some b, some c, some d => some ((a - add, b - add), (c + add, d + add))
  | _, _, _, _ => none

/-- `WindFarm.get_rotor_diameters` (wind_farm.py:162-166) for one turbine: its own diameter, else that of its type -/
def rotorDiameter (t : Turb) (typeD : ℝ) : ℝ := t.D.getD typeD

end

end Foxes.Layout
