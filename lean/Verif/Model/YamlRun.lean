import Verif.Model.WindIO
import Verif.Model.Factory

/-!
Model of running foxes from a dictionary: `foxes/input/yaml/dict.py` (`read_dict`, `get_output_obj`, `_get_object`, `run_obj_function`, `run_outputs`, `run_dict`), and the
parameters the command line tools pass (`foxes/input/yaml/yaml.py`, `foxes/input/yaml/windio/windio.py`).

Simplifications: Python objects are values of an abstract type `V`; constructors, calculations and output functions are arbitrary functions that return a value or an error, their
side effects on other objects are not modelled; directories and printing are not modelled; strings are lists of characters where they are cut into pieces.
-/

namespace Foxes.YamlRun
open Foxes.WindIO (Err item put)

/-- A dictionary of parameters. -/
abbrev D (V : Type) := List (String × V)

/-- `d.update(e)` -/
def update {V : Type} (d e : D V) : D V := e.foldl (fun d p => put p.1 p.2 d) d

/-- `del d[k]` -/
def del {V : Type} (k : String) (d : D V) : D V := d.filter (fun p => p.1 ≠ k)

/-- The operations of the library that a run uses. -/
structure Ops (V : Type) where
  /-- the Python integer -/
  int : ℤ → V
  /-- the Python string -/
  str : String → V
  /-- truth value -/
  truth : V → Bool
  /-- None -/
  none : V
  /-- `v is None` -/
  isNone : V → Bool
  /-- a list of strings -/
  strs : List String → V
  newStates : D V → Except Err V
  newBook : V
  addModel : V → String → String → D V → Except Err V
  newFarm : D V → Except Err V
  addLayout : V → String → D V → Except Err V
  newEngine : D V → Except Err V
  newAlgo : D V → Except Err V
  algoFarm : V → V
  calcFarm : V → D V → Except Err V
  calcPoints : V → Option V → V → D V → Except Err V

/-- The entry `wind_farm`: the list of layouts, each with its function name and parameters, and the other parameters. -/
structure FarmD (V : Type) where
  layouts : Option (List (Option String × D V))
  pars : D V

/-- Labels of results: one label or a list. -/
inductive Labels where
  | one (l : String)
  | many (l : List String)

/-- A parameter of a function: a string (maybe a label) or another value. -/
inductive Arg (V : Type) where
  | str (s : String)
  | val (v : V)

/-- A function call of an output. -/
structure FunD (V : Type) where
  fn : Option String
  pltClose : Bool := false
  labels : Option Labels := none
  args : List (String × Arg V)

/-- An output: its type or the label of an object, and the functions. -/
structure OutD (V : Type) where
  type : Option String := none
  object : Option String := none
  functions : Option (List (FunD V))
  pars : D V := []

/-- The input dictionary. -/
structure IDict (V : Type) where
  states : Option (D V) := none
  modelBook : Option (List (String × List (Option String × D V))) := none
  windFarm : Option (FarmD V) := none
  engine : Option (D V) := none
  verbosity : Option V := none
  algorithm : Option (D V) := none
  calcFarm : Option (D V) := none
  calcPoints : Option (D V) := none
  outputs : Option (List (OutD V)) := none

/-- The other arguments of `read_dict`. -/
structure Params (V : Type) where
  farm : Option V := none
  states : Option V := none
  mbook : Option V := none
  algo : Option V := none
  enginePars : Option (D V) := none
  iterative : Option Bool := none
  verbosity : Option ℤ := none
  algoPars : D V := []

/-- One model of the model book (dict.py 102-105). -/
def addOne {V : Type} (o : Ops V) (sec : String) (b : V) (m : Option String × D V) : Except Err V := do
  let n ← item m.1
  o.addModel b sec n m.2

/-- One section of the model book (dict.py 96-105). -/
def addSection {V : Type} (o : Ops V) (b : V) (s : String × List (Option String × D V)) : Except Err V := s.2.foldlM (addOne o s.1) b

/-- The model book (dict.py 90-113). -/
def readBook {V : Type} (o : Ops V) (i : IDict V) : Except Err V := (i.modelBook.getD []).foldlM (addSection o) o.newBook

/-- One layout (dict.py 124-128). -/
def addLay {V : Type} (o : Ops V) (vb : Option ℤ) (f : V) (l : Option String × D V) : Except Err V := do
  let n ← item l.1
  match vb with
  | none => o.addLayout f n l.2
  | some v => o.addLayout f n (put "verbosity" (o.int (v - 1)) l.2)

/-- The wind farm (dict.py 115-128); the entry `layouts` is taken out of the input. -/
def readFarm {V : Type} (o : Ops V) (vb : Option ℤ) (i : IDict V) : Except Err (V × IDict V) := do
  let fd ← item i.windFarm
  let ls ← item fd.layouts
  let f ← o.newFarm fd.pars
  let f ← ls.foldlM (addLay o vb) f
  pure (f, { i with windFarm := some { fd with layouts := none } })

/-- The value for a constructor argument: the given one, if no algorithm is given as well (dict.py 78-88, 107-113, 129-134; AssertionError as `value`). -/
def given {V : Type} (algo : Option V) (v : V) : Except Err V := if algo.isSome then .error .value else .ok v

/-- The states (dict.py 76-88); only used if no algorithm is given. -/
def getStates {V : Type} (o : Ops V) (p : Params V) (i : IDict V) : Except Err (Option V) :=
  match p.states, p.algo with
  | some s, a => (given a s).map some
  | none, none => do
    let d ← item i.states
    let s ← o.newStates d
    pure (some s)
  | none, some _ => .ok none

/-- The model book (dict.py 90-113). -/
def getBook {V : Type} (o : Ops V) (p : Params V) (i : IDict V) : Except Err (Option V) :=
  match p.mbook, p.algo with
  | some s, a => (given a s).map some
  | none, none => (readBook o i).map some
  | none, some _ => .ok none

/-- The farm (dict.py 115-134). -/
def getFarm {V : Type} (o : Ops V) (p : Params V) (i : IDict V) : Except Err (Option V × IDict V) :=
  match p.farm, p.algo with
  | some s, a => (given a s).map (fun f => (some f, i))
  | none, none => (readFarm o p.verbosity i).map (fun r => (some r.1, r.2))
  | none, some _ => .ok (none, i)

/-- The engine (dict.py 136-147); the verbosity goes to the input dictionary, not to the engine. -/
def getEngine {V : Type} (o : Ops V) (p : Params V) (i : IDict V) : Except Err (Option V × IDict V) :=
  match p.enginePars, i.engine with
  | some e, _ => (o.newEngine e).map (fun e => (some e, i))
  | none, some e => (o.newEngine e).map (fun e => (some e, match p.verbosity with | none => i | some v => { i with verbosity := some (o.int (v - 1)) }))
  | none, none => .ok (none, i)

/-- The parameters of the algorithm (dict.py 151-159). -/
def algoDict {V : Type} (o : Ops V) (p : Params V) (farm states mbook : V) (a : D V) : D V :=
  let a := if p.iterative = some true then put "algo_type" (o.str "Iterative") a else a
  let a := update a [("farm", farm), ("states", states), ("mbook", mbook)]
  let a := match p.verbosity with
    | none => a
    | some v => put "verbosity" (o.int (v - 1)) a
  update a (p.algoPars.filter (fun q => !o.isNone q.2))

/-- The algorithm (dict.py 149-160): the entry `algo_type` is asked for when the algorithm is announced (dict.py 154). -/
def getAlgo {V : Type} (o : Ops V) (p : Params V) (farm states mbook : Option V) (i : IDict V) : Except Err (V × IDict V) :=
  match p.algo, farm, states, mbook with
  | some a, _, _, _ => .ok (a, i)
  | none, some f, some s, some m => do
    let a ← item i.algorithm
    let _ ← item ((if p.iterative = some true then put "algo_type" (o.str "Iterative") a else a).lookup "algo_type")
    let ad := algoDict o p f s m a
    let alg ← o.newAlgo ad
    pure (alg, { i with algorithm := some ad })
  | none, _, _, _ => .error .type

/-- What is there before the algorithm is created. -/
structure Parts (V : Type) where
  states : Option V
  mbook : Option V
  farm : Option V
  engine : Option V
  idict : IDict V

/-- The first part of `read_dict` (dict.py 76-147). -/
def readParts {V : Type} (o : Ops V) (p : Params V) (i : IDict V) : Except Err (Parts V) := do
  let st ← getStates o p i
  let mb ← getBook o p i
  let fa ← getFarm o p i
  let en ← getEngine o p fa.2
  pure ⟨st, mb, fa.1, en.1, en.2⟩

/-- `read_dict` (dict.py 13-164): algorithm, engine, and the input dictionary as it is afterwards. -/
def readDict {V : Type} (o : Ops V) (p : Params V) (i : IDict V) : Except Err (V × Option V × IDict V) := do
  let r ← readParts o p i
  let a ← getAlgo o p r.farm r.states r.mbook r.idict
  pure (a.1, r.engine, a.2)

/-! ### Outputs -/

/-- The operations on output objects: constructing one of a class with parameters, whether the class asks for farm results, calling a function, `results[i]` and `obj[indices]`. -/
structure OutOps (V : Type) where
  none : V
  str : String → V
  new : String → D V → Except Err V
  needsFarmResults : String → Bool
  call : V → String → D V → Except Err V
  nth : V → ℕ → Except Err V
  index : V → List ℕ → Except Err V

/-- `int(x)` for strings of digits. -/
def pyInt (s : List Char) : Except Err ℕ := if s ≠ [] ∧ s.all Char.isDigit then .ok (Factory.digitsVal s) else .error .value

/-- The part before the first bracket, and the part after it (dict.py 232-235). -/
def cutBracket : List Char → List Char × Option (List Char)
  | [] => ([], none)
  | c :: s => if c = '[' then ([], some s) else let r := cutBracket s; (c :: r.1, r.2)

/-- `_get_object` (dict.py 229-238): closing brackets are dropped; a bracket at the start is not taken as index. -/
def getObject {V : Type} (o : OutOps V) (rl : D V) (d : String) : Except Err V :=
  let s := d.toList.filter (· ≠ ']')
  match cutBracket s with
  | (c :: name, some inds) => do
    let ns ← (Factory.pySplit ',' inds).mapM pyInt
    let v ← item (rl.lookup (String.ofList (c :: name)))
    o.index v ns
  | _ => item (rl.lookup (String.ofList s))

/-- One parameter of a function (dict.py 292-295): strings that start with `$` are replaced; the empty string has no first character (IndexError as `value`). -/
def resolve {V : Type} (o : OutOps V) (rl : D V) (a : String × Arg V) : Except Err (String × V) :=
  match a.2 with
  | .val v => .ok (a.1, v)
  | .str s =>
    match s.toList with
    | [] => .error .value
    | c :: _ => if c = '$' then (getObject o rl s).map (fun v => (a.1, v)) else .ok (a.1, o.str s)

/-- Labels that mean that the result is not stored (dict.py 312). -/
def ignored (k : String) : Bool := k ∈ ["", "none", "None", "_", "__"]

/-- `_set_label` (dict.py 311-321); AssertionError as `value`. -/
def setLabel {V : Type} (rl : D V) (k : String) (r : V) : Except Err (D V) :=
  if ignored k then .ok rl
  else if k.toList.head? ≠ some '$' then .error .value
  else if '[' ∈ k.toList ∨ ']' ∈ k.toList ∨ ',' ∈ k.toList then .error .value
  else .ok (put k r rl)

/-- Storing a list of results (dict.py 323-325), starting at number `i`. -/
def setMany {V : Type} (o : OutOps V) (res : V) (i : ℕ) (rl : D V) : List String → Except Err (D V)
  | [] => .ok rl
  | k :: l => do
    let r ← o.nth res i
    let rl ← setLabel rl k r
    setMany o res (i + 1) rl l

/-- Storing the results (dict.py 308-327). -/
def store {V : Type} (o : OutOps V) (res : V) (rl : D V) : Option Labels → Except Err (D V)
  | none => .ok rl
  | some (.one k) => setLabel rl k res
  | some (.many l) => setMany o res 0 rl l

/-- `run_obj_function` (dict.py 241-329), without the parameters `algo` and `farm`, and positional arguments. -/
def runFunction {V : Type} (o : OutOps V) (obj : V) (f : FunD V) (rl : D V) : Except Err (V × D V) := do
  let n ← item f.fn
  let args ← f.args.mapM (resolve o rl)
  let r ← o.call obj n args
  let res := if f.pltClose then o.none else r
  let rl ← store o res rl f.labels
  pure (res, rl)

/-- The functions of one output (dict.py 416-419). -/
def runFunctions {V : Type} (o : OutOps V) (obj : V) : List (FunD V) → D V → Except Err (List V × D V)
  | [], rl => .ok ([], rl)
  | f :: l, rl => do
    let (r, rl) ← runFunction o obj f rl
    let (rs, rl) ← runFunctions o obj l rl
    pure (r :: rs, rl)

/-- The object of an output (dict.py 381-414): `none` if it is skipped since there are no farm results. -/
def outObject {V : Type} (o : OutOps V) (fr : Bool) (d : OutD V) (rl : D V) : Except Err (Option V × List (FunD V)) :=
  match d.type, d.object with
  | some t, _ => do
    let fs ← item d.functions
    if o.needsFarmResults t ∧ fr = false then pure (none, fs)
    else
      let v ← o.new t d.pars
      pure (some v, fs)
  | none, some l => do
    let v ← getObject o rl l
    let fs ← item d.functions
    pure (some v, fs)
  | none, none => .error .key

/-- The loop over outputs (dict.py 379-421): for each the list of results, `none` if skipped. -/
def runOuts {V : Type} (o : OutOps V) (fr : Bool) : List (OutD V) → D V → Except Err (List (Option (List V)) × D V)
  | [], rl => .ok ([], rl)
  | d :: l, rl => do
    let (obj, fs) ← outObject o fr d rl
    match obj with
    | none => do
      let (r, rl) ← runOuts o fr l rl
      pure (none :: r, rl)
    | some v => do
      let (rs, rl) ← runFunctions o v fs rl
      let (r, rl) ← runOuts o fr l rl
      pure (some rs :: r, rl)

/-- What `run_outputs` returns: the list alone, or with the labels. -/
inductive OutRet (V : Type) where
  | list (r : List (Option (List V)))
  | both (r : List (Option (List V))) (rl : D V)

/-- `run_outputs` (dict.py 332-426): `return out if not ret_rlabels else out, rlabels` is a pair in both cases. -/
def runOutputs {V : Type} (o : OutOps V) (fr : Bool) (outs : Option (List (OutD V))) (_retLabels : Bool) : Except Err (OutRet V) := do
  let (r, rl) ← runOuts o fr (outs.getD []) []
  pure (.both r rl)

/-! ### Runs -/

/-- What happens during a run. -/
inductive Event where
  | init
  | farm
  | points
  | outputs
  | finalize
deriving DecidableEq

/-- `rdict.pop_item("run", True)` and the farm calculation (dict.py 467-473). -/
def runFarm {V : Type} (o : Ops V) (alg : V) (i : IDict V) : Except Err (Option V) × IDict V :=
  let rd := i.calcFarm.getD []
  let i' := { i with calcFarm := i.calcFarm.map (del "run") }
  if ((rd.lookup "run").map o.truth).getD true then ((o.calcFarm alg (del "run" rd)).map some, i')
  else (.ok none, i')

/-- The point calculation (dict.py 476-488); the outer option says whether the entry is there. -/
def runPoints {V : Type} (o : Ops V) (alg : V) (fr : Option V) (i : IDict V) : Except Err (Option (Option V)) × IDict V :=
  match i.calcPoints with
  | none => (.ok none, i)
  | some rd =>
    match rd.lookup "run" with
    | none => (.error .key, i)
    | some b =>
      let rd1 := del "run" rd
      if o.truth b then
        match rd1.lookup "points" with
        | none => (.error .key, { i with calcPoints := some rd1 })
        | some pts =>
          let rd2 := del "points" rd1
          ((o.calcPoints alg fr pts rd2).map (fun r => some (some r)), { i with calcPoints := some rd2 })
      else (.ok (some none), { i with calcPoints := some rd1 })

/-- The result of a run: farm results, point results if asked for, and what `run_outputs` returns. -/
structure RunRes (V : Type) where
  farm : Option V
  points : Option (Option V)
  out : OutRet V

/-- The rest of a run after `read_dict` (dict.py 466-500): result, events, and the input dictionary afterwards. -/
def runRest {V : Type} (o : Ops V) (oo : OutOps V) (alg : V) (en : Option V) (i : IDict V) : Except Err (RunRes V) × List Event × IDict V :=
  let ev0 := if en.isSome then [Event.init] else []
  match runFarm o alg i with
  | (.error e, i1) => (.error e, ev0, i1)
  | (.ok fr, i1) =>
    let ev1 := if fr.isSome then ev0 ++ [Event.farm] else ev0
    match runPoints o alg fr i1 with
    | (.error e, i2) => (.error e, ev1, i2)
    | (.ok pr, i2) =>
      let ev2 := if (pr.getD none).isSome then ev1 ++ [Event.points] else ev1
      match runOutputs oo fr.isSome i2.outputs false with
      | .error e => (.error e, ev2, i2)
      | .ok r => (.ok ⟨fr, pr, r⟩, ev2 ++ [Event.outputs] ++ (if en.isSome then [Event.finalize] else []), i2)

/-- `run_dict` (dict.py 429-500). In case of an error in `read_dict` the changes of the input are not followed up. -/
def runDict {V : Type} (o : Ops V) (oo : OutOps V) (p : Params V) (i : IDict V) : Except Err (RunRes V) × List Event × IDict V :=
  match readParts o p i with
  | .error e => (.error e, [], i)
  | .ok r =>
    match getAlgo o p r.farm r.states r.mbook r.idict with
    | .error e => (.error e, if r.engine.isSome then [Event.init] else [], r.idict)
    | .ok a => runRest o oo a.1 r.engine a.2

/-! ### Command line tools -/

/-- The options of the command line tools (yaml.py 23-67, windio.py 93-142) after parsing. -/
structure Cli where
  outputDir : Option String := none
  rotor : Option String := none
  pwakes : Option (List String) := none
  wakes : Option (List String) := none
  frame : Option String := none
  engine : Option String := none
  nProcs : Option ℤ := none
  chunkStates : Option ℤ := none
  chunkPoints : Option ℤ := none
  iterative : Bool := false
  verbosity : Option ℤ := none

/-- An optional value as Python value. -/
def optV {V A : Type} (o : Ops V) (f : A → V) : Option A → V
  | none => o.none
  | some a => f a

/-- `epars` (yaml.py 73-87, windio.py 149-163). -/
def cliEngine {V : Type} (o : Ops V) (v : ℤ) (a : Cli) : Option (D V) :=
  if a.engine.isSome ∨ a.nProcs.isSome ∨ a.chunkStates.isSome ∨ a.chunkPoints.isSome then
    some [("engine_type", optV o o.str a.engine), ("n_procs", optV o o.int a.nProcs), ("chunk_size_states", optV o o.int a.chunkStates),
      ("chunk_size_points", optV o o.int a.chunkPoints), ("verbosity", o.int v)]
  else none

/-- The parameters for the algorithm (yaml.py 91-94, windio.py 183-186). -/
def cliAlgo {V : Type} (o : Ops V) (a : Cli) : D V :=
  [("rotor_model", optV o o.str a.rotor), ("partial_wakes", optV o o.strs a.pwakes), ("wake_models", optV o o.strs a.wakes), ("wake_frame", optV o o.str a.frame)]

/-- The arguments `foxes_yaml` passes to `run_dict` (yaml.py 69-100). -/
def yamlParams {V : Type} (o : Ops V) (a : Cli) : Params V :=
  { enginePars := cliEngine o (a.verbosity.getD 1) a, iterative := some a.iterative, verbosity := a.verbosity, algoPars := cliAlgo o a }

/-- `foxes_yaml` after reading the file (yaml.py 89-100). -/
def foxesYaml {V : Type} (o : Ops V) (oo : OutOps V) (a : Cli) (i : IDict V) : Except Err (RunRes V) × List Event × IDict V := runDict o oo (yamlParams o a) i

/-- The arguments `foxes_windio` passes to `run_dict` (windio.py 149-191). The defaults of its options (windio.py 98-142). -/
def windioParams {V : Type} (o : Ops V) (a : Cli) (algo : V) : Params V :=
  let a := { a with rotor := some (a.rotor.getD "centre"), pwakes := some (a.pwakes.getD ["centre"]), wakes := some (a.wakes.getD ["Jensen_linear_k007"]),
                    frame := some (a.frame.getD "rotor_wd"), chunkPoints := some (a.chunkPoints.getD 5000) }
  { algo := some algo, enginePars := cliEngine o (a.verbosity.getD 1) a, iterative := some a.iterative, verbosity := some (a.verbosity.getD 1), algoPars := cliAlgo o a }

/-- `foxes_windio` after translation of the input (windio.py 174-191): the output directory of the command line is read from an option that does not exist (AttributeError as
`type`). -/
def foxesWindio {V : Type} (o : Ops V) (oo : OutOps V) (a : Cli) (algo : V) (i : IDict V) : Except Err (RunRes V) × List Event × IDict V :=
  if a.outputDir.isSome then (.error .type, [], i) else runDict o oo (windioParams o a algo) i

end Foxes.YamlRun
