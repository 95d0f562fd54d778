import Mathlib.Data.List.Basic
import Mathlib.Data.List.InsertIdx
/-
Lists of models and their parameters: the models of a farm calculation in their order (foxes/algorithms/downwind/downwind.py,
foxes/algorithms/iterative/iterative.py), names of models (foxes/core/model.py), parameters given by the user as dictionaries, which are
Python objects that can be shared and changed, sums and lists of models (foxes/core/farm_data_model.py, foxes/core/point_data_model.py),
keyword parameters of sequential runs (foxes/algorithms/sequential/sequential.py).
-/
namespace Foxes.ModelLists

/-! ### Names of models -/

/-- `Model.__init__` (core/model.py:28-35): the name of the object number `k` of class `t` -/
def objName (t : String) (k : ℕ) : String := if k = 0 then t else t ++ "_instance" ++ toString k

/-- counters of all classes, `Model._ids` (core/model.py:22, 29-31); a class that is not listed starts at 0 -/
abbrev Ids := String → ℕ

/-- construct one object of class `t`: its name, and the counters afterwards -/
def construct (t : String) (ids : Ids) : String × Ids := (objName t (ids t), fun u => if u = t then ids t + 1 else ids u)

/-- construct objects of the given classes one after the other -/
def constructAll : List String → Ids → List String × Ids
  | [], ids => ([], ids)
  | t :: ts, ids =>
      let r := construct t ids
      let q := constructAll ts r.2
      (r.1 :: q.1, q.2)

/-! ### Parameters -/

/-- values of parameters: the flags set by the algorithm, or anything else -/
inductive Val where
  | flag (b : Bool)
  | other (n : ℕ)
deriving DecidableEq

/-- the contents of a dictionary of keyword parameters -/
abbrev Kw := String → Option Val

/-- all dictionaries that exist, by their identity; those from `next` on do not exist yet -/
structure Heap where
  cells : ℕ → Kw
  next : ℕ

/-- the kinds of models in the list -/
inductive Kind where
  | ctrl | init | rotor | amb | wakes | reorder | urelax
deriving DecidableEq

/-- one entry of the model list: the name under which parameters are looked up, and the key that the algorithm sets -/
structure Entry where
  kind : Kind
  name : String
  set : Option (String × Bool)

/-- `calc_pars[-1][key] = flag` -/
def app (s : Option (String × Bool)) (c : Kw) : Kw :=
  match s with
  | none => c
  | some (k, b) => fun u => if u = k then some (.flag b) else c u

/-- `calc_parameters.get(name, {})` (downwind.py:438, 443, 447, 452, 458, 463, 468): the dictionary object of the user, or a new one -/
def getPars (user : String → Option ℕ) (name : String) (h : Heap) : ℕ × Heap :=
  match user name with
  | some a => (a, h)
  | none => (h.next, { cells := fun x => if x = h.next then fun _ => none else h.cells x, next := h.next + 1 })

/-- the parameter list of a model list: for each entry look up the dictionary, then set the key in it -/
def addPars (user : String → Option ℕ) : List Entry → Heap → List ℕ × Heap
  | [], h => ([], h)
  | e :: es, h =>
      let r := getPars user e.name h
      let h2 : Heap := { r.2 with cells := fun x => if x = r.1 then app e.set (r.2.cells x) else r.2.cells x }
      let q := addPars user es h2
      (r.1 :: q.1, q.2)

/-- the names the algorithm knows its controller and rotor model by: those the user gave (downwind.py:119-120, 182-183) -/
structure Cfg where
  ctrl : String
  rotor : String

/-- the classes of the models that are constructed for a calculation -/
def classes (ambient reorder : Bool) : List String :=
  ["InitFarmData", "SetAmbFarmResults"] ++ (if ambient then [] else ["FarmWakesCalculation"]) ++ (if reorder then ["ReorderFarmOutput"] else [])

/-- the model list of `Downwind._collect_farm_models` (downwind.py:436-468). `reorder`: `outputs != False`. Constructing the models and
looking up parameters do not affect each other and are written one after the other here. -/
def entries (cfg : Cfg) (ambient reorder : Bool) (ids : Ids) : List Entry :=
  let names := (constructAll (classes ambient reorder) ids).1
  [⟨.ctrl, cfg.ctrl, some ("pre_rotor", true)⟩,
   ⟨.init, names.getD 0 "", none⟩,
   ⟨.rotor, cfg.rotor, some ("store", true)⟩,
   ⟨.ctrl, cfg.ctrl, some ("pre_rotor", false)⟩,
   ⟨.amb, names.getD 1 "", none⟩] ++
  (if ambient then [] else [⟨.wakes, names.getD 2 "", none⟩]) ++
  (if reorder then [⟨.reorder, names.getD (if ambient then 2 else 3) "", none⟩] else [])

/-- the keyword parameters the `calculate` functions accept (farm_controller.py:369, rotor_model.py:326-335, init_farm_data.py:50,
set_amb_farm_results.py:44, farm_wakes_calc.py:37, reorder_farm_output.py:50, urelax.py:51) -/
def accepted : Kind → List String
  | .ctrl => ["pre_rotor", "downwind_index"]
  | .rotor => ["rpoints", "rpoint_weights", "store", "downwind_index"]
  | _ => []

open scoped Classical in
/-- one call `m.calculate(algo, mdata, fdata, **parameters[mi])` (farm_data_model.py:290): TypeError for unknown parameters -/
noncomputable def call (k : Kind) (kw : Kw) : Option (Kind × Kw) := if ∀ u, kw u ≠ none → u ∈ accepted k then some (k, kw) else none

/-- the calls of one farm calculation, with the parameters each model finds, and the dictionaries afterwards; `none`: TypeError
(farm_data_model.py:289-292). The parameters are read when the calculation runs, after the list is complete. -/
noncomputable def calls (cfg : Cfg) (user : String → Option ℕ) (ambient reorder : Bool) (ids : Ids) (h : Heap) : Option (List (Kind × Kw)) × Heap :=
  let es := entries cfg ambient reorder ids
  let r := addPars user es h
  ((List.zip es r.1).mapM (fun p => call p.1.kind (r.2.cells p.2)), r.2)

/-! ### Relaxation -/

/-- the entry points of `set_urelax` (iterative.py:99-125) that are used -/
structure Relax where
  first : Bool
  preRotor : Bool
  postRotor : Bool
  preWake : Bool
  last : Bool

/-- a model of the list of the first iteration; for the wakes: is a relaxation model attached? -/
inductive Item where
  | plain (k : Kind)
  | relaxedWakes
  | relax (point : String)
deriving DecidableEq

/-- the list of the base class without reordering (downwind.py:436-463) -/
def baseList (ambient : Bool) : List Item :=
  [.plain .ctrl, .plain .init, .plain .rotor, .plain .ctrl, .plain .amb] ++ (if ambient then [] else [.plain .wakes])

/-- `Iterative._collect_farm_models` in the first iteration (iterative.py:172-208): Python's `insert` at positions that count the models
inserted before; `none`: IndexError -/
def relaxed (r : Relax) (ambient : Bool) : Option (List Item) :=
  let l0 := baseList ambient
  let l1 := if r.first then l0.insertIdx 0 (.relax "first") else l0
  let n1 := if r.first then 1 else 0
  let l2 := if r.preRotor then l1.insertIdx (2 + n1) (.relax "pre_rotor") else l1
  let n2 := if r.preRotor then n1 + 1 else n1
  let l3 := if r.postRotor then l2.insertIdx (4 + n2) (.relax "post_rotor") else l2
  let n3 := if r.postRotor then n2 + 1 else n2
  let l4 := if r.preWake then (if 5 + n3 < l3.length then some (l3.set (5 + n3) .relaxedWakes) else none) else some l3
  l4.map (fun l => if r.last then l ++ [.relax "last"] else l)

/-- does the calculation of a model of this list raise? `URelax.calculate` calls `fdata.states_i0(counter=True, algo=algo)`, which has no
parameter `algo` (urelax.py:74, core/data.py:96); the wakes call `urelax.calculate` with one argument too many (farm_wakes_calc.py:160) -/
def itemRaises : Item → Bool
  | .plain _ => false
  | .relaxedWakes => true
  | .relax _ => true

/-! ### Sums and lists of models -/

/-- models: single ones, or lists of models -/
inductive Mdl where
  | leaf (i : ℕ)
  | list (ms : List Mdl)

/-- `__add__` (farm_data_model.py:151-157, point_data_model.py:137-143), also inherited by lists -/
def add (a b : Mdl) : Mdl :=
  match b with
  | .list ms => .list (a :: ms)
  | .leaf i => .list [a, .leaf i]

mutual
/-- `calculate` of a model called without parameters (`{}`): `step i` is the calculation of a single model, `none` an exception.
`dflt`: the default of `parameters` is None (point models, point_data_model.py:223), otherwise it is the empty list (farm models,
farm_data_model.py:252), which raises ValueError unless there are no models (farm_data_model.py:284-287). -/
def calc0 {D : Type} (dflt : Bool) (step : ℕ → D → Option D) : Mdl → D → Option D
  | .leaf i, d => step i d
  | .list ms, d => if dflt || ms.isEmpty then calcAll dflt step ms d else none
/-- `parameters=None`: each model is called with `{}` (farm_data_model.py:277-278, 289-292, point_data_model.py:251-252, 262-264) -/
def calcAll {D : Type} (dflt : Bool) (step : ℕ → D → Option D) : List Mdl → D → Option D
  | [], d => some d
  | m :: ms, d => (calc0 dflt step m d).bind (calcAll dflt step ms)
end

mutual
/-- the single models of a model, in order -/
def leaves : Mdl → List ℕ
  | .leaf i => [i]
  | .list ms => leavesAll ms
/-- the single models of several models -/
def leavesAll : List Mdl → List ℕ
  | [] => []
  | m :: ms => leaves m ++ leavesAll ms
end

/-- lists of models as objects: constructing one without argument uses the shared default list `models=[]` (farm_data_model.py:177-188,
point_data_model.py:163-174); `shared`: contents of this default, `own`: the other lists -/
structure Lists where
  shared : List ℕ
  own : List (List ℕ)

/-- which list of models an object holds -/
inductive Ref where
  | dflt
  | own (i : ℕ)

/-- `FarmDataModelList()` or `FarmDataModelList(models=l)` -/
def newList (arg : Option (List ℕ)) (s : Lists) : Ref × Lists :=
  match arg with
  | none => (.dflt, s)
  | some l => (.own s.own.length, { s with own := s.own ++ [l] })

/-- the models of an object -/
def models (r : Ref) (s : Lists) : List ℕ :=
  match r with
  | .dflt => s.shared
  | .own i => s.own.getD i []

/-- `append` (farm_data_model.py:193-203) -/
def append (r : Ref) (m : ℕ) (s : Lists) : Lists :=
  match r with
  | .dflt => { s with shared := s.shared ++ [m] }
  | .own i => { s with own := s.own.modify i (· ++ [m]) }

/-! ### Keyword parameters of sequential runs -/

/-- one function call on the way from `Sequential.__next__` to `calculate`: parameters that are passed explicitly (a repeated keyword raises
TypeError), parameters the function takes out of the keywords -/
structure Layer where
  explicit : List String
  takes : List String

/-- the calls: `Iterative.calc_farm` (sequential.py:200-205, iterative.py:272), `Downwind.calc_farm` (iterative.py:304, downwind.py:517),
`Algorithm.calc_farm` (downwind.py:580-586), `_launch_parallel_farm_calc` (algorithm.py:830-836, iterative.py:252-256, downwind.py:476),
`run_calculation` of the engine (downwind.py:508-510, engines/single.py:72-85), `FarmDataModelList.calculate` (engines/single.py:159) -/
def seqLayers : List Layer :=
  [⟨["self", "outputs", "finalize", "ret_dwnd_order"], []⟩,
   ⟨["self", "outputs", "finalize"], ["calc_parameters", "ambient"]⟩,
   ⟨["self", "parameters", "outputs"], []⟩,
   ⟨["self", "mlist", "parameters", "outputs", "chunk_store", "sel", "isel"], []⟩,
   ⟨["self", "mlist", "farm_data", "iterative", "parameters", "outputs", "chunk_store", "sel", "isel"], ["normalize"]⟩,
   ⟨["self", "algo", "model", "model_data", "out_vars", "farm_data", "iterative", "parameters", "chunk_store", "sel", "isel"], ["point_data"]⟩]

/-- pass keywords through the calls; those that are left at the end reach `FarmDataModelList.calculate`, which knows no others than
the ones passed (farm_data_model.py:252); `none`: TypeError. Otherwise the keywords taken by each function. -/
def pass : List Layer → List String → Option (List (List String))
  | [], ks => if ks = [] then some [] else none
  | l :: ls, ks =>
      if ks.any (fun k => l.explicit.contains k) then none
      else (pass ls (ks.filter (fun k => !l.takes.contains k))).map (fun r => ks.filter (fun k => l.takes.contains k) :: r)

/-- `Sequential.__next__` with the user's `calc_pars` (sequential.py:200-205): are they accepted? The models of the documented format
(sequential.py:88-90) are the keys -/
def seqAccepts (keys : List String) : Bool := (pass seqLayers keys).isSome

/-- is the calculation of one step ambient? Only `calc_pars` decides, `self.ambient` is not passed on (sequential.py:200-205) -/
def seqAmbient (_selfAmbient : Bool) (calcPars : String → Option Bool) : Bool := (calcPars "ambient").getD false

end Foxes.ModelLists
