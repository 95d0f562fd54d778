import Verif.Model.ResultFiles
/-
Layouts and point results in files: `FarmLayoutOutput` (foxes/output/farm_layout.py), read again by `add_from_csv` and `add_from_json`
(foxes/input/farm_layout/from_csv.py, from_json.py), `write_nc` (foxes/utils/xarray_utils.py), `PointCalculator` (foxes/output/calc_points.py),
`StateTurbineTable.get_dataset` with a file (foxes/output/state_turbine_table.py) and the edges of `StateTurbineMap`
(foxes/output/state_turbine_map.py). Floats are exact rational numbers here, or NaN. Quoting and encoding of texts in files are not modelled.
-/
namespace Foxes.LayoutOut
open Foxes.Factory (digitsVal)
open Foxes.ResultFiles (roundEven)

/-- the exceptions -/
inductive Err where
  | typeError | valueError | indexError | keyError | nameError
deriving DecidableEq

/-- a float -/
inductive Flt where
  | nan
  | val (q : ℚ)
deriving DecidableEq

/-- what a name can be: a text, or what pandas makes of the texts in a column (numpy integer, float, NaN, bool) -/
inductive Cell where
  | text (s : String)
  | int (n : ℕ)
  | flt (q : ℚ)
  | nan
  | bool (b : Bool)
deriving DecidableEq

/-- the index of a turbine: a Python integer or a numpy integer (from_csv.py:97 takes it from a data frame) -/
inductive Idx where
  | py (n : ℕ)
  | np (n : ℕ)
deriving DecidableEq

/-- a turbine (core/turbine.py:36-79) with one position for all states -/
structure Turb where
  name : Cell
  index : Idx
  x : ℚ
  y : ℚ
  H : Option Flt
  D : Option Flt
  models : List String
deriving DecidableEq

/-! ### The layout -/

/-- assignment of `None` to an entry of an array of floats gives NaN (numpy) -/
def toFlt : Option Flt → Flt
  | none => .nan
  | some f => f

/-- where the coordinates come from (farm_layout.py:58-68): the farm, or a state of the results -/
inductive Src where
  | farm
  | results (xyh : List (List (ℚ × ℚ × ℚ))) (state : ℕ)

/-- `get_layout_data` (farm_layout.py:70-100). Simplified: results with another number of turbines always raise. -/
def layoutData (src : Src) (ts : List Turb) : Except Err (List (ℚ × ℚ × Flt)) :=
  match src with
  | .farm => .ok (ts.map (fun t => (t.x, t.y, toFlt t.H)))
  | .results xyh s =>
      match xyh[s]? with
      | none => .error .indexError
      | some row => if row.length = ts.length then .ok (row.map (fun p => (p.1, p.2.1, .val p.2.2))) else .error .valueError

/-- `np.round(q, d)`: half to even. Simplified: exact. -/
def rnd (d : ℕ) (q : ℚ) : ℚ := if q < 0 then -((roundEven (-q * 10 ^ d) : ℚ) / 10 ^ d) else (roundEven (q * 10 ^ d) : ℚ) / 10 ^ d

/-- rounding of floats -/
def rndF (d : ℕ) : Flt → Flt
  | .nan => .nan
  | .val q => .val (rnd d q)

/-- the text of a name in a file; `pr` prints floats -/
def cellText (pr : ℚ → String) : Cell → String
  | .text s => s
  | .int n => Nat.repr n
  | .flt q => pr q
  | .nan => ""
  | .bool true => "True"
  | .bool false => "False"

/-- a row of the csv file; an empty cell is `none` -/
structure CsvRow where
  index : ℕ
  name : String
  x : ℚ
  y : ℚ
  h : Option ℚ
  D : Option ℚ
  ttype : Option String
deriving DecidableEq

/-- a float in a csv file: NaN is an empty cell -/
def cellOf : Flt → Option ℚ
  | .nan => none
  | .val q => some q

/-- row `i` (farm_layout.py:366-376) -/
def csvRow (pr : ℚ → String) (types : Option (List String)) (i : ℕ) (t : Turb) (p : ℚ × ℚ × Flt) : CsvRow :=
  { index := i, name := cellText pr t.name, x := rnd 4 p.1, y := rnd 4 p.2.1, h := cellOf (rndF 4 p.2.2), D := cellOf (toFlt t.D),
    ttype := types.bind (·[i]?) }

/-- `write_csv` (farm_layout.py:344-378); `types`: the names of the turbine types, if a column for them is wanted (one per turbine,
farm_controller.py) -/
def writeCsv (pr : ℚ → String) (src : Src) (types : Option (List String)) (ts : List Turb) : Except Err (List CsvRow) :=
  (layoutData src ts).map (fun d => (List.zip ts d).mapIdx (fun i p => csvRow pr types i p.1 p.2))

/-! ### Reading csv files -/

/-- texts that `pandas.read_csv` takes as missing (pandas documentation, `na_values`) -/
def naTexts : List String := ["", "#N/A", "#N/A N/A", "#NA", "-1.#IND", "-1.#QNAN", "-NaN", "-nan", "1.#IND", "1.#QNAN", "<NA>", "N/A", "NA", "NULL", "NaN",
  "None", "n/a", "nan", "null"]

/-- integers in a csv file (signs are part of `other` below) -/
def intText (s : String) : Option ℕ := if s.toList ≠ [] ∧ s.toList.all Char.isDigit then some (digitsVal s.toList) else none

/-- numbers in a csv file; `other`: all number formats that are not integers without sign -/
def fltText (other : String → Option ℚ) (s : String) : Option ℚ :=
  match intText s with
  | some n => some n
  | none => other s

/-- truth values in a csv file -/
def boolText (s : String) : Option Bool :=
  if s ∈ ["True", "TRUE", "true"] then some true else if s ∈ ["False", "FALSE", "false"] then some false else none

/-- one cell of a column, after the type of the column is known -/
def cellAs (f : String → Option Cell) (s : String) : Cell := if s ∈ naTexts then .nan else (f s).getD (.text s)

/-- all present texts of a column have the form -/
def allAre {β : Type} (f : String → Option β) (l : List String) : Bool := l.all (fun s => s ∈ naTexts || (f s).isSome)

/-- a column as `pandas.read_csv` returns it: integers if all are, and none is missing; else floats if all present ones are; else truth values
if all present ones are; else texts. Simplified: numbers beyond 64 bits are not modelled. -/
def readColumn (other : String → Option ℚ) (l : List String) : List Cell :=
  if l.all (fun s => (intText s).isSome) then l.map (cellAs (fun s => (intText s).map .int))
  else if allAre (fltText other) l then l.map (cellAs (fun s => (fltText other s).map .flt))
  else if allAre boolText l then l.map (cellAs (fun s => (boolText s).map .bool))
  else l.map (cellAs (fun _ => none))

/-- the parameters of `add_from_csv` (from_csv.py:7-25) that matter here: is the column given (`name`, `h`, `D`, type)? `x` and `y` are the
default names. -/
structure ReadPars where
  colName : Bool
  colH : Bool
  colD : Bool
  colType : Bool
  base : String
  shift : Bool
  H : Option Flt
  D : Option Flt
  models : List String

/-- a number column: empty cells are NaN -/
def readFlt : Option ℚ → Flt
  | none => .nan
  | some q => .val q

/-- the turbine of a row, before it is added (from_csv.py:86-119); the label of the row is its number. A missing column for the type raises
KeyError, see `readCsv`. -/
def readRow (P : ReadPars) (i : ℕ) (n : Cell) (r : CsvRow) (idx : ℕ) : Turb :=
  { name := if P.colName then n else .text (P.base ++ toString (i + if P.shift then 1 else 0)), index := .py idx, x := r.x, y := r.y,
    H := if P.colH then some (readFlt r.h) else P.H, D := if P.colD then some (readFlt r.D) else P.D,
    models := (if P.colType then r.ttype.toList else []) ++ P.models }

/-- `add_from_csv` (from_csv.py:69-120) with a file of `write_csv`, and `add_turbine` (wind_farm.py:34-56), without `col_id` -/
def readCsv (other : String → Option ℚ) (P : ReadPars) (farm : List Turb) (rows : List CsvRow) : Except Err (List Turb) :=
  if P.colType ∧ ∃ r ∈ rows, r.ttype = none then .error .keyError
  else .ok (farm ++ (List.zip (readColumn other (rows.map CsvRow.name)) rows).mapIdx (fun i p => readRow P i p.1 p.2 (farm.length + i)))

/-! ### json files -/

/-- the entry of a turbine (farm_layout.py:121-126) -/
structure JEntry where
  id : Idx
  name : Cell
  x : ℚ
  y : ℚ
deriving DecidableEq

/-- `d[k] = v`, a new key goes to the end -/
def put {β : Type} (k : Cell) (v : β) : List (Cell × β) → List (Cell × β)
  | [] => [(k, v)]
  | p :: l => if p.1 = k then (k, v) :: l else p :: put k v l

/-- `get_layout_dict` (farm_layout.py:102-128), without the name of the farm -/
def layoutDict (src : Src) (ts : List Turb) : Except Err (List (Cell × JEntry)) :=
  (layoutData src ts).map (fun d => (List.zip ts d).foldl (fun acc p => put p.1.name ⟨p.1.index, p.1.name, p.2.1, p.2.2.1⟩ acc) [])

/-- a turbine in the file: key, index, position -/
structure JFile where
  key : String
  id : ℕ
  x : ℚ
  y : ℚ
deriving DecidableEq

/-- a key of a json object: numpy integers and bools raise TypeError -/
def jsonKey (pr : ℚ → String) : Cell → Except Err String
  | .text s => .ok s
  | .flt q => .ok (pr q)
  | .nan => .ok "NaN"
  | .int _ => .error .typeError
  | .bool _ => .error .typeError

/-- a number in json: numpy integers raise TypeError -/
def jsonIdx : Idx → Except Err ℕ
  | .py n => .ok n
  | .np _ => .error .typeError

/-- one entry -/
def jsonEntry (pr : ℚ → String) (p : Cell × JEntry) : Except Err JFile :=
  match jsonKey pr p.1 with
  | .error e => .error e
  | .ok k => match jsonIdx p.2.id with
    | .error e => .error e
    | .ok n => .ok ⟨k, n, p.2.x, p.2.y⟩

/-- `json.dump` of the dictionary -/
def dump (pr : ℚ → String) : List (Cell × JEntry) → Except Err (List JFile)
  | [] => .ok []
  | p :: l => match jsonEntry pr p with
    | .error e => .error e
    | .ok a => match dump pr l with
      | .error e => .error e
      | .ok b => .ok (a :: b)

/-- a file on disk: nothing, a complete json file, or an incomplete one -/
inductive Disk where
  | absent
  | complete (farm : String) (l : List JFile)
  | broken
deriving DecidableEq

/-- `write_json` (farm_layout.py:380-397): the file is opened for writing, which empties it, before the data is dumped. The result is
the exception, if any, and the file. -/
def writeJson (pr : ℚ → String) (src : Src) (farmName : String) (ts : List Turb) (old : Disk) : Option Err × Disk :=
  match layoutDict src ts with
  | .error e => (some e, old)
  | .ok d => match dump pr d with
    | .error e => (some e, .broken)
    | .ok l => (none, .complete farmName l)

/-- `add_from_json` (from_json.py:34-67) of such a file: keys of the same text are merged by the reader, the last one counts at the place of
the first. Neither "H" nor "D" nor "turbine_models" are in the file. -/
def readJson (H D : Option Flt) (models : List String) (farm : List Turb) : Disk → Option (List Turb × String)
  | .complete name l =>
      some ((l.foldl (fun acc e => put (.text e.key) e acc) []).foldl
        (fun farm p => farm ++ [{ name := p.1, index := .py p.2.id, x := p.2.x, y := p.2.y, H := H, D := D, models := models }]) farm, name)
  | _ => none

/-- the hub height or rotor diameter in a calculation (init_farm_data.py:96-104): the value of the turbine type if the turbine has `None` -/
def used (own : Option Flt) (ofType : ℚ) : Flt :=
  match own with
  | none => .val ofType
  | some f => f

/-! ### Figures -/

/-- the rotor diameter for normalised plots (farm_layout.py:207-220), not from results -/
def commonD : List (Option ℚ) → Option ℚ → Except Err ℚ
  | [], none => .error .valueError
  | [], some d => .ok d
  | hD :: l, none => commonD l hD
  | hD :: l, some d => if some d = hD then commonD l (some d) else .error .valueError

/-- entry `t` of each row -/
def column (t : ℕ) (a : List (List ℚ)) : List ℚ := a.map (fun r => r.getD t 0)

/-- the variable named after the prefix of length `k` -/
def colVar (vars : String → Option (List (List ℚ))) (c : String) (k : ℕ) : Except Err (List (List ℚ)) :=
  match vars (String.ofList (c.toList.drop k)) with
  | some a => .ok a
  | none => .error .keyError

/-- the colours of the turbines (farm_layout.py:230-252), one per turbine: `mean_X` is the sum of values times weights (weights per state and
turbine), or the sum, the smallest or the largest value. No state: the reductions `min` and `max` raise ValueError. -/
def colorBy (vars : String → Option (List (List ℚ))) (weight : List (List ℚ)) (n : ℕ) (c : String) : Except Err (List ℚ) :=
  if c.toList.take 5 = "mean_".toList then
    (colVar vars c 5).map (fun a => (List.range n).map (fun t => (List.zipWith (· * ·) (column t a) (column t weight)).sum))
  else if c.toList.take 4 = "sum_".toList then (colVar vars c 4).map (fun a => (List.range n).map (fun t => (column t a).sum))
  else if c.toList.take 4 = "min_".toList then
    (colVar vars c 4).bind (fun a => if a = [] then .error .valueError else .ok ((List.range n).map (fun t => ((column t a).min?).getD 0)))
  else if c.toList.take 4 = "max_".toList then
    (colVar vars c 4).bind (fun a => if a = [] then .error .valueError else .ok ((List.range n).map (fun t => ((column t a).max?).getD 0)))
  else .error .keyError

/-! ### Datasets in files -/

/-- an array of one or two dimensions -/
inductive Arr where
  | one (l : List ℚ)
  | two (l : List (List ℚ))
deriving DecidableEq

/-- a variable of a dataset -/
structure Var where
  dims : List String
  data : Arr
deriving DecidableEq

/-- a dataset: coordinates and data variables -/
structure DS where
  coords : List (String × Var)
  data : List (String × Var)
deriving DecidableEq

/-- an entry `name: array` or `name: (dims, array)` of `data_vars` -/
structure Entry where
  name : String
  dims : Option (List String)
  arr : Arr

/-- the variable of an entry (xarray): an array of one dimension without names of dimensions gets its own name as dimension; two dimensions
without names raise -/
def Entry.var (e : Entry) : Except Err Var :=
  match e.dims, e.arr with
  | some d, a => .ok ⟨d, a⟩
  | none, .one l => .ok ⟨[e.name], .one l⟩
  | none, .two _ => .error .valueError

/-- a variable with its own name as its only dimension -/
def isIndex (p : String × Var) : Bool := p.2.dims == [p.1]

/-- all variables -/
def vars : List Entry → Except Err (List (String × Var))
  | [] => .ok []
  | e :: l => match e.var with
    | .error x => .error x
    | .ok v => (vars l).map ((e.name, v) :: ·)

/-- `Dataset(coords=coords, data_vars=entries)` (xarray): variables that are named like their only dimension become coordinates. Simplified: the
sizes of dimensions are not checked. -/
def dataset (coords : List (String × Var)) (es : List Entry) : Except Err DS :=
  (vars es).map (fun vs => ⟨coords ++ vs.filter isIndex, vs.filter (fun p => !isIndex p)⟩)

/-- `ds[v]` -/
def DS.get (ds : DS) (v : String) : Except Err Var :=
  match (ds.coords ++ ds.data).lookup v with
  | some x => .ok x
  | none => .error .keyError

/-- `get_default_digits` (variables.py:283-320) -/
def defaultDigits (v : String) : Option ℕ :=
  if v ∈ ["WD", "AMB_WD", "P", "AMB_P", "T", "AMB_T", "YLD", "AMB_YLD"] then some 3
  else if v ∈ ["WS", "AMB_WS", "REWS", "AMB_REWS", "REWS2", "AMB_REWS2", "REWS3", "AMB_REWS3"] then some 4
  else if v ∈ ["RHO", "AMB_RHO", "CAP", "AMB_CAP", "EFF"] then some 5
  else if v ∈ ["TI", "AMB_TI", "CT", "AMB_CT"] then some 6
  else none

/-- rounding of arrays -/
def Arr.round (d : ℕ) : Arr → Arr
  | .one l => .one (l.map (rnd d))
  | .two l => .two (l.map (List.map (rnd d)))

/-- the digits of a variable (xarray_utils.py:36, 42): `round.get(v, default)`; an entry can be `None` -/
def digits (round : String → Option (Option ℕ)) (v : String) : Option ℕ := (round v).getD (defaultDigits v)

/-- a variable after rounding -/
def roundVar (round : String → Option (Option ℕ)) (p : String × Var) : String × Var :=
  match digits round p.1 with
  | some d => (p.1, ⟨p.2.dims, p.2.data.round d⟩)
  | none => p

/-- `write_nc` (xarray_utils.py:6-60): the contents of the file, which is also what the dataset of the caller is afterwards, because the data of
its variables is replaced. Coordinates of dimensions cannot be assigned (ValueError). `round = none` is `round=None`. -/
def writeNc (round : Option (String → Option (Option ℕ))) (ds : DS) : Except Err DS :=
  match round with
  | none => .ok ds
  | some r =>
      if ds.coords.any (fun p => isIndex p && (digits r p.1).isSome) then .error .valueError
      else .ok ⟨ds.coords.map (roundVar r), ds.data.map (roundVar r)⟩

/-- `StateTurbineTable.get_dataset` (state_turbine_table.py:37-94) without selections: the returned dataset and the file -/
def tableOut (ren : String → String) (states turbines : List ℚ) (res : List (String × List (List ℚ))) (toFile : Option (Option (String → Option (Option ℕ)))) :
    Except Err (DS × Option DS) :=
  (dataset [(ren "state", ⟨[ren "state"], .one states⟩), (ren "turbine", ⟨[ren "turbine"], .one turbines⟩)]
    (res.map (fun p => ⟨ren p.1, some [ren "state", ren "turbine"], .two p.2⟩))).bind
    (fun ds => match toFile with
      | none => .ok (ds, none)
      | some r => (writeNc r ds).map (fun d => (d, some d)))

/-! ### Results at points -/

/-- a point -/
abbrev P3 := ℚ × ℚ × ℚ

/-- points for all states, or for each state (calc_points.py:88-100) -/
inductive Pts where
  | fixed (p : List P3)
  | perState (p : List (List P3))

/-- the algorithm: the number of states, and the results for the selected states with points for each of them -/
structure Algo where
  nStates : ℕ
  run : List ℕ → List (List P3) → List (String × List (List ℚ))

/-- `calc_points` of the algorithm (downwind.py:768-813, algorithm.py:404-424) for the states `sel`: fixed points are repeated, another number of
states raises ValueError -/
def Algo.calcPoints (A : Algo) (sel : List ℕ) (p : Pts) : Except Err (List (String × List (List ℚ))) :=
  match p with
  | .fixed q => .ok (A.run sel (List.replicate sel.length q))
  | .perState q => if q.length = sel.length then .ok (A.run sel q) else .error .valueError

/-- sum over states with weights: `einsum("s,sp->p")`; `n` points -/
def wsum (w : List ℚ) (a : List (List ℚ)) (n : ℕ) : List ℚ := (List.range n).map (fun p => (List.zipWith (fun w r => w * r.getD p 0) w a).sum)

/-- number of points -/
def Pts.n : Pts → ℕ
  | .fixed p => p.length
  | .perState p => (p.head?.getD []).length

/-- the points handed to the algorithm (calc_points.py:88-100): always per state, for all states of the algorithm -/
def expand (A : Algo) : Pts → Pts
  | .fixed q => .perState (List.replicate A.nStates q)
  | .perState q => .perState q

/-- the dataset of the results: with states, or the mean over states (calc_points.py:104-113), weights of turbine `wt` -/
def resultDS (labels : List ℚ) (n : ℕ) (mean : Option (List ℚ)) (res : List (String × List (List ℚ))) : Except Err DS :=
  match mean with
  | none => .ok ⟨[("state", ⟨["state"], .one labels⟩)], res.map (fun p => (p.1, ⟨["state", "point"], .two p.2⟩))⟩
  | some w => if res.all (fun p => p.2.length = w.length) then dataset [] (res.map (fun p => ⟨p.1, none, .one (wsum w p.2 n)⟩)) else .error .valueError

/-- the coordinates of the points in the file (calc_points.py:117-133) -/
def fileXyz (n : ℕ) (mean : Option (List ℚ)) (p : Pts) : List Entry :=
  let comp (f : P3 → ℚ) : Option (List String) × Arr := match p, mean with
    | .fixed q, _ => (some ["point"], .one (q.map f))
    | .perState q, none => (some ["state", "point"], .two (q.map (List.map f)))
    | .perState q, some w => (some ["point"], .one (wsum w (q.map (List.map f)) n))
  [⟨"x", (comp (·.1)).1, (comp (·.1)).2⟩, ⟨"y", (comp (·.2.1)).1, (comp (·.2.1)).2⟩, ⟨"z", (comp (·.2.2)).1, (comp (·.2.2)).2⟩]

/-- `ds[v].to_numpy()` with the dimensions given -/
def fileVars (dims : List String) (ds : DS) : List String → Except Err (List Entry)
  | [] => .ok []
  | v :: l => match ds.get v with
    | .error e => .error e
    | .ok x => (fileVars dims ds l).map (⟨v, some dims, x.data⟩ :: ·)

/-- the dataset for the file (calc_points.py:115-142); `writeVars = none`: all data variables of the results -/
def fileDS (labels : List ℚ) (mean : Option (List ℚ)) (p : Pts) (writeVars : Option (List String)) (pres : DS) : Except Err DS :=
  (fileVars (if mean.isSome then ["point"] else ["state", "point"]) pres (writeVars.getD (pres.data.map Prod.fst))).bind
    (fun es => dataset (if mean.isSome then [] else [("state", ⟨["state"], .one labels⟩)]) (fileXyz p.n mean p ++ es))

/-- the weights of turbine `wt` -/
def weightsOf (weight : List (List ℚ)) (wt : ℕ) : Except Err (List ℚ) :=
  if weight.all (fun r => wt < r.length) then .ok (column wt weight) else .error .indexError

/-- the weights, if the mean is wanted -/
def meanOf (weight : List (List ℚ)) : Option ℕ → Except Err (Option (List ℚ))
  | none => .ok none
  | some wt => (weightsOf weight wt).map some

/-- `PointCalculator.calculate` (calc_points.py:44-147): `sel` are the states selected by further arguments, all by default; `mean`: the turbine
whose weights are used, for `states_mean=True`. The results, and the dataset for the file (before `write_nc`). The variables of one name in a file
are not merged here. Simplified: points with other shapes raise before (ValueError). -/
def pointCalc (A : Algo) (weight : List (List ℚ)) (labels : List ℚ) (sel : List ℕ) (p : Pts) (mean : Option ℕ) (toFile : Option (Option (List String))) :
    Except Err (DS × Option DS) :=
  (A.calcPoints sel (expand A p)).bind (fun res =>
    (meanOf weight mean).bind (fun w =>
      (resultDS labels p.n w res).bind (fun pres =>
        match toFile with
        | none => .ok (pres, none)
        | some wv => (fileDS labels w p wv pres).map (fun f => (pres, some f)))))

/-! ### The state-turbine map -/

/-- the edges along the states axis (state_turbine_map.py:75-76) -/
def mapEdges (states : List ℚ) : Except Err (List ℚ) :=
  match states.reverse with
  | a :: b :: _ => .ok (states ++ [a + (a - b)])
  | _ => .error .indexError

end Foxes.LayoutOut
