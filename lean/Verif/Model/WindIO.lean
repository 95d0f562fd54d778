import Verif.Model.InputStates
import Verif.Model.PowerCurve
import Mathlib.Algebra.Order.Floor.Semiring

/-!
Model of the windIO input of site and wind farm: `foxes/input/yaml/windio/read_fields.py`, `read_site.py`, `read_farm.py`, the
constructor of `foxes/utils/dict.py:Dict`, and `CpCtFromTwo.__init__` (`foxes/models/turbine_types/CpCt_from_two.py`).

Simplifications: real numbers for floats, times are numbers, printing is not modelled (with verbosity above 2 `read_site` fails for
scalar coordinates, since numbers have no shape); Python dictionaries are association lists in insertion order.
-/

noncomputable section

namespace Foxes.WindIO
open Foxes.InputStates

/-- A numpy array: shape and entries. -/
structure Arr where
  shape : List ℕ
  val : List ℕ → ℝ

/-- A number as array without axes. -/
def Arr.scalar (x : ℝ) : Arr := ⟨[], fun _ => x⟩

/-- The entries of the windIO wind resource: a number, a list of numbers (or array with one axis), a dictionary with `data` and `dims`,
or anything else. -/
inductive WVal where
  | num (x : ℝ)
  | list (xs : List ℝ)
  | field (a : Arr) (dims : List String)
  | other

/-- The kinds of errors. -/
inductive Err where
  | key
  | value
  | type
  | notImplemented
deriving DecidableEq

/-- A coordinate: a number or a list. -/
inductive Coord where
  | num (x : ℝ)
  | list (xs : List ℝ)

/-- `fields[v]` and `dims[v]`. -/
structure Field where
  a : Arr
  dims : List String

/-- `coords`, `fields` and `dims` (read_site.py 257-259). -/
structure Res where
  coords : List (String × Coord)
  fields : List (String × Field)

/-- `d[k] = v` for Python dictionaries. -/
def put {α : Type} (k : String) (v : α) : List (String × α) → List (String × α)
  | [] => [(k, v)]
  | (k', v') :: l => if k' = k then (k, v) :: l else (k', v') :: put k v l

/-- `wio2foxes` (read_fields.py 11-25). -/
def wio2foxes : List (String × String) :=
  [("time", "time"), ("x", "X"), ("y", "Y"), ("height", "H"), ("wind_turbine", "turbine"), ("wind_direction", "WD"), ("wind_speed", "WS"),
   ("probability", "weight"), ("sector_probability", "sector_probability"), ("turbulence_intensity", "TI"), ("LMO", "MOL"), ("z0", "z0"),
   ("reference_height", "H")]

/-- The variables that are ignored (read_fields.py 136-150). -/
def ignored : List String :=
  ["weibull_a", "weibull_k", "potential_temperature", "friction_velocity", "k", "epsilon", "ABL_height", "lapse_rate",
   "capping_inversion_thickness", "capping_inversion_strength", "tau_x", "tau_y", "fc"]

/-- `_read_multi_dimensional_coordinate` (read_fields.py 33-62); `none`: the flag is False. -/
def asCoord : WVal → Option Coord
  | .num x => some (.num x)
  | .list xs => some (.list xs)
  | _ => none

/-- `_read_multi_dimensional_data` (read_fields.py 65-101); `ok none`: the flag is False. -/
def asData : WVal → Except Err (Option Field)
  | .num x => .ok (some ⟨.scalar x, []⟩)
  | .field a dims =>
    match dims.mapM (fun c => wio2foxes.lookup c) with
    | none => .error .key
    | some ds => if ds.length ≠ a.shape.length then .error .value else .ok (some ⟨a, ds⟩)
  | _ => .ok none

/-- Names of coordinates only, of coordinates or data, of data only (read_fields.py 156-186). -/
def coordNames : List String := ["time", "wind_turbine"]
@[inherit_doc coordNames] def mixedNames : List String := ["wind_direction", "wind_speed", "x", "y", "height"]
@[inherit_doc coordNames] def dataNames : List String :=
  ["probability", "sector_probability", "turbulence_intensity", "LMO", "z0", "reference_height"]

/-- The name in foxes. -/
def fname (name : String) : String := (wio2foxes.lookup name).getD name

/-- Reading data, with the error at the end of `read_wind_resource_field` (read_fields.py 187-188). -/
def addData (name : String) (v : WVal) (r : Res) : Except Err Res :=
  match asData v with
  | .error e => .error e
  | .ok none => .error .notImplemented
  | .ok (some f) => .ok { r with fields := put (fname name) f r.fields }

/-- `read_wind_resource_field` (read_fields.py 104-188). -/
def readField (name : String) (v : WVal) (r : Res) : Except Err Res :=
  if name ∈ ignored then .ok r
  else if name ∈ coordNames then
    match asCoord v with
    | some c => .ok { r with coords := put (fname name) c r.coords }
    | none => .error .notImplemented
  else if name ∈ mixedNames then
    match asCoord v with
    | some c => .ok { r with coords := put (fname name) c r.coords }
    | none => addData name v r
  else if name ∈ dataNames then addData name v r
  else .error .notImplemented

/-- The loop over the wind resource (read_site.py 257-261). -/
def readAll : List (String × WVal) → Res → Except Err Res
  | [], r => .ok r
  | (n, v) :: l, r =>
    match readField n v r with
    | .error e => .error e
    | .ok r' => readAll l r'

/-- What `_get_profiles` decides (read_site.py 14-42): the profile of the wind speed, `ovars` and `fixval`. -/
structure Prof where
  profile : Option String
  ovars : List String
  fixval : List (String × Arr)

/-- `_get_profiles` (read_site.py 14-42) with `ovars` and `fixval` of `get_states` (read_site.py 186-188). -/
def getProfiles (r : Res) : Prof :=
  let ovars := ["WS", "WD", "TI", "RHO"]
  let fixval := [("TI", Arr.scalar 0.05), ("RHO", Arr.scalar 1.225)]
  match r.fields.lookup "z0", r.fields.lookup "H" with
  | some _, some h =>
    if (r.fields.lookup "MOL").isSome then ⟨some "ABLLogWsProfile", ovars ++ ["MOL"], fixval ++ [("H", h.a)]⟩
    else ⟨some "ABLLogNeutralWsProfile", ovars, fixval ++ [("H", h.a)]⟩
  | _, _ => ⟨none, ovars, fixval⟩

/-- The states that are created: time series or time series at several heights, with the parameters that matter. -/
inductive StatesCfg where
  | timeseries (index : List ℝ) (data : List (String × Arr)) (ovars : List String) (fix : List (String × Arr)) (profile : Option String)
  | multiHeight (times heights : List ℝ) (data : List (String × Arr)) (ovars : List String) (fix : List (String × Arr))

/-- `_get_SingleStateStates` (read_site.py 45-80): `for c in coords` runs over the names, which are no numbers, so the flag is False
unless there are no coordinates at all; then `coords[FC.TIME]` raises KeyError. -/
def getSingle (r : Res) : Except Err (Option StatesCfg) :=
  if r.coords = [] then .error .key else .ok none

/-- The fields that are numbers, and `fix.update({v: d for v, d in fixval.items() if v not in data})` (read_site.py 92-101, 135-146). -/
def getFix (r : Res) (fixval : List (String × Arr)) (data : List (String × Arr)) : List (String × Arr) :=
  let fix := (r.fields.filter fun f => decide (f.2.dims = [])).map fun f => (f.1, f.2.a)
  (fixval.filter fun f => !(data.any fun d => d.1 = f.1)).foldl (fun d f => put f.1 f.2 d) fix

/-- `_get_Timeseries` (read_site.py 83-118); pandas raises if the index is a number or if a column does not fit the index. -/
def getTimeseries (r : Res) (p : Prof) : Except Err (Option StatesCfg) :=
  match r.coords with
  | [("time", c)] =>
    let data := (r.fields.filter fun f => decide (f.2.dims = ["time"])).map fun f => (f.1, f.2.a)
    match c with
    | .num _ => .error .type
    | .list ts =>
      if data.all fun d => d.2.shape = [ts.length] then .ok (some (.timeseries ts data p.ovars (getFix r p.fixval data) p.profile))
      else .error .value
  | _ => .ok none

/-- `np.swapaxes(d, 0, 1)`. -/
def Arr.swap (a : Arr) : Arr :=
  ⟨match a.shape with
    | [n, m] => [m, n]
    | s => s,
   fun i => match i with
    | [k, l] => a.val [l, k]
    | i => a.val i⟩

/-- A field of `_get_MultiHeightNCTimeseries` as data with dimensions (time, height), or `none` (read_site.py 137-145). -/
def heightData (f : String × Field) : Option (String × Arr) :=
  if f.2.dims = ["time", "H"] then some (f.1, f.2.a)
  else if f.2.dims = ["H", "time"] then some (f.1, f.2.a.swap)
  else none

/-- The lengths of the coordinates; a number is a coordinate without dimension. -/
def Coord.length? : Coord → Option ℕ
  | .num _ => none
  | .list xs => some xs.length

/-- `_get_MultiHeightNCTimeseries` (read_site.py 121-162); xarray raises if data do not fit the coordinates. Scalar coordinates are an
error here: later in the code, since loading needs the sizes of both dimensions. -/
def getMultiHeight (r : Res) (p : Prof) : Except Err (Option StatesCfg) :=
  if r.coords.length = 2 then
    match r.coords.lookup "time", r.coords.lookup "H" with
    | some (.list ts), some (.list hs) =>
      let data := r.fields.filterMap heightData
      if data.all fun d => d.2.shape = [ts.length, hs.length] then .ok (some (.multiHeight ts hs data p.ovars (getFix r p.fixval data)))
      else .error .value
    | some _, some _ => .error .key
    | _, _ => .ok none
  else .ok none

/-- `get_states` (read_site.py 165-208). -/
def getStates (r : Res) : Except Err StatesCfg :=
  let p := getProfiles r
  match getSingle r with
  | .error e => .error e
  | .ok (some s) => .ok s
  | .ok none =>
    match getTimeseries r p with
    | .error e => .error e
    | .ok (some s) => .ok s
    | .ok none =>
      match getMultiHeight r p with
      | .error e => .error e
      | .ok (some s) => .ok s
      | .ok none => .error .value

/-- `read_site` (read_site.py 211-274), from the contents of `wind_resource`. -/
def readSite (wr : List (String × WVal)) : Except Err StatesCfg :=
  match readAll wr ⟨[], []⟩ with
  | .error e => .error e
  | .ok r => getStates r

/-! ### The states of a time series -/

/-- The inputs of the profiles (abl_log_ws.py 56, abl_log_neutral_ws.py 51). -/
def profInputs : String → List String
  | "ABLLogWsProfile" => ["WS", "H", "z0", "MOL"]
  | _ => ["WS", "H", "z0"]

/-- Constructor parameters of `Timeseries` (a `StatesTable`, states_table.py 60-100) from windIO; numbers as fixed variables. -/
def tableCfg (ovars : List String) (fix : List (String × Arr)) (profile : Option String) : TableCfg where
  ovars := ovars
  var2col := id
  fixed := fix.map fun f => (f.1, f.2.val [])
  profiles := match profile with
    | none => []
    | some p => [("WS", profInputs p)]

/-- The pandas data frame (read_site.py 103-104). -/
def table (index : List ℝ) (data : List (String × Arr)) : Table where
  cols := data.map (·.1)
  rows := (List.range index.length).map fun i v => match data.lookup v with
    | some a => a.val [i]
    | none => 0

/-! ### Wind farm -/

/-- Keys of dictionaries in a yaml file. -/
inductive Key where
  | int (n : ℕ)
  | str (s : String)
deriving DecidableEq

/-- `Dict(d)` (utils/dict.py 30-54): `super().__init__(**tmp)` raises TypeError unless all keys are strings. -/
def toDict {α : Type} (d : List (Key × α)) : Except Err (List (Key × α)) :=
  if d.all fun p => match p.1 with
    | .str _ => true
    | .int _ => false
  then .ok d else .error .type

/-- A curve: wind speeds and values. -/
structure Curve where
  ws : List ℝ
  val : List ℝ

/-- The description of a turbine in windIO. -/
structure WTurbine where
  name : String
  power : Option Curve
  cp : Option Curve
  ct : Option Curve
  H : ℝ
  D : ℝ

/-- Turbine types of foxes: `PCtFromTwo` with tables for power and thrust, and the wind speed variables for the look-up. -/
structure TType where
  tabP : List (ℝ × ℝ)
  tabCt : List (ℝ × ℝ)
  H : ℝ
  D : ℝ
  wsP : Foxes.PowerCurve.Var
  wsCt : Foxes.PowerCurve.Var
  rho : ℝ

/-- `set_index(...).sort_index()` (PCt_from_two.py 205, 222). -/
def sortTab (tab : List (ℝ × ℝ)) : List (ℝ × ℝ) := tab.insertionSort (fun a b => a.1 ≤ b.1)

/-- Power and thrust coefficient at a wind speed, at the air density of the curve and without yaw (PCt_from_two.py 380-406, see
`Model/PowerCurve.lean` for the corrections). -/
def TType.power (t : TType) (ws : ℝ) : ℝ := Foxes.PowerCurve.interp (sortTab t.tabP) ws
@[inherit_doc TType.power] def TType.thrust (t : TType) (ws : ℝ) : ℝ := Foxes.PowerCurve.interp (sortTab t.tabCt) ws

/-- `pd.DataFrame(data={"ws": ..., "P": ...})` (read_farm.py 67-68): ValueError for different lengths. -/
def frame (c : Curve) : Except Err (List (ℝ × ℝ)) := if c.ws.length = c.val.length then .ok (c.ws.zip c.val) else .error .value

/-- `_get_wse_var` (read_farm.py 70-75). -/
def wseVar (n : ℕ) : Except Err Foxes.PowerCurve.Var :=
  if n = 1 then .ok .rews else if n = 2 then .ok .rews2 else if n = 3 then .ok .rews3 else .error .value

/-- `np.linspace(a, b, N)[k]`. -/
def linspaceAt (a b : ℝ) (N k : ℕ) : ℝ := if N = 1 then a else a + k * ((b - a) / (N - 1))

/-- `CpCtFromTwo.__init__` (CpCt_from_two.py 67-84): power in kW on a fine wind speed grid. -/
def cpTable (rho D : ℝ) (tab : List (ℝ × ℝ)) : Except Err (List (ℝ × ℝ)) :=
  match (tab.map (·.1)).min?, (tab.map (·.1)).max? with
  | some a, some b =>
    let N := ⌊(b - a) / 0.0001⌋₊
    .ok ((List.range N).map fun k =>
      let ws := linspaceAt a b N k
      (ws, 0.5 * rho * (Real.pi * (D / 2) ^ 2) * Foxes.PowerCurve.interp tab ws * ws ^ 3 / 1000))
  | _, _ => .error .value

/-- `d[k]` of dictionaries: KeyError if there is no entry. -/
def item {α : Type} : Option α → Except Err α
  | some a => .ok a
  | none => .error .key

/-- One turbine type (read_farm.py 44-128). -/
def readType (expP expCt : ℕ) (t : WTurbine) : Except Err TType :=
  match t.power, t.cp with
  | some p, _ => do
    let ct ← item t.ct
    let tp ← frame p
    let tc ← frame ct
    let vct ← wseVar expCt
    let vp ← wseVar expP
    return ⟨tp, tc, t.H, t.D, vp, vct, 1.225⟩
  | none, some c => do
    let ct ← item t.ct
    let tcp ← frame c
    let tc ← frame ct
    let tp ← cpTable 1.225 t.D tcp
    return ⟨tp, tc, t.H, t.D, .rews3, .rews2, 1.225⟩
  | none, none => .error .key

/-- The farm part of the windIO input: `turbines`, `turbine_types`, `layouts`. -/
structure WLayout where
  x : List ℝ
  y : List ℝ
  types : Option (List Key)

@[inherit_doc WLayout] structure WFarm where
  turbines : Option WTurbine
  types : Option (List (Key × WTurbine))
  layouts : List WLayout

/-- Models from turbine types: `ttypes` and the turbine types of the model book (read_farm.py 40-128). -/
def readTypes (expP expCt : ℕ) : List (Key × WTurbine) → Except Err (List (Key × String) × List (String × TType))
  | [] => .ok ([], [])
  | (k, t) :: l => do
    let m ← readType expP expCt t
    let r ← readTypes expP expCt l
    return ((k, t.name) :: r.1, (t.name, m) :: r.2)

/-- A turbine of the farm: position and turbine model. -/
structure Turb where
  x : ℝ
  y : ℝ
  model : String
deriving DecidableEq

/-- `tmap[i]`, or 0 without map (read_farm.py 159). -/
def typeKey (tmap : Option (List Key)) (i : ℕ) : Except Err Key :=
  match tmap with
  | none => .ok (.int 0)
  | some m => match m[i]? with
    | some k => .ok k
    | none => .error .value

/-- The loop of `read_layout` (read_farm.py 158-163), from turbine number `i` of the layout on. -/
def layoutFrom (ttypes : List (Key × String)) (tmap : Option (List Key)) : ℕ → List (ℝ × ℝ) → Except Err (List Turb)
  | _, [] => .ok []
  | i, (x, y) :: l => do
    let k ← typeKey tmap i
    let tt ← item (ttypes.lookup k)
    let r ← layoutFrom ttypes tmap (i + 1) l
    return ⟨x, y, tt⟩ :: r

/-- `read_layout` (read_farm.py 131-166). -/
def readLayout (ttypes : List (Key × String)) (l : WLayout) : Except Err (List Turb) := layoutFrom ttypes l.types 0 (l.x.zip l.y)

/-- All layouts (read_farm.py 206-220). -/
def readLayouts (ttypes : List (Key × String)) : List WLayout → Except Err (List Turb)
  | [] => .ok []
  | l :: ls => do
    let a ← readLayout ttypes l
    let b ← readLayouts ttypes ls
    return a ++ b

/-- The types of the farm (read_farm.py 40-41): `turbine_types`, whose keys were checked when the input became a `Dict`, or the entry
`turbines` under key 0. -/
def farmTypes (f : WFarm) : Except Err (List (Key × WTurbine)) :=
  match f.types, f.turbines with
  | some ts, _ => toDict ts
  | none, some t => .ok [(.int 0, t)]
  | none, none => .error .key

/-- The exponents of wind speed averages (read_farm.py 195-201): 1 unless both are given. -/
def exponents (expP expCt : Option ℕ) : ℕ × ℕ :=
  match expP, expCt with
  | some a, some b => (a, b)
  | _, _ => (1, 1)

/-- `read_farm` (read_farm.py 169-222): the turbines and the turbine types in the model book, the last type of a name wins. -/
def readFarm (f : WFarm) (expP expCt : Option ℕ) : Except Err (List Turb × List (String × TType)) := do
  let ts ← farmTypes f
  let e := exponents expP expCt
  let (tt, book) ← readTypes e.1 e.2 ts
  let turbs ← readLayouts tt f.layouts
  return (turbs, book.reverse)

end Foxes.WindIO
