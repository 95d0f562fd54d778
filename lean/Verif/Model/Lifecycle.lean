/-
Model of the life cycle of models and algorithms: foxes/core/model.py:86-285,
foxes/core/algorithm.py:217-273, 679-757, 793-844, 874-939.

A model object is a number. `St` is everything these functions read or write, for all model objects of the
program at once.
-/
namespace Foxes.Lifecycle

/-- The static part: which sub-models an object reports (`sub_models()`, core/model.py:86-96), its `name`
(key of `data_stash`) and its storage key `type_name` in the algorithm's `idata_mem` (core/algorithm.py:233). -/
structure Graph where
  subs : Nat → List Nat
  name : Nat → String
  key : Nat → String

/-- `D`: the large data of an object that `set_running` moves to the stash (e.g. `mbook`, `dbook`, `idata_mem`
for an algorithm, core/algorithm.py:713-721; `scans` for ScanStates, input/states/scan.py:115-116; the table for
StatesTable, input/states/states_table.py:342-346). Every object is taken to have such data; for one that has
none, think of the empty dict.
`own k = none`: the attribute has been deleted. -/
structure St (D : Type) where
  init : Nat → Bool
  run : Nat → Bool
  own : Nat → Option D
  stash : String → Option D
  mem : List String
  loads : List Nat       -- log of load_data calls
  finals : List Nat      -- log of completed finalizations

inductive Err
  | valueError | keyError | attributeError | recursionError
deriving DecidableEq, Repr

/-- outcome of a method call: an exception carries the state it leaves behind -/
abbrev Res (D : Type) := Except (Err × St D) (St D)

variable {D : Type}

/-- sequencing: an exception ends the method -/
def andThen (r : Res D) (f : St D → Res D) : Res D :=
  match r with
  | .ok s => f s
  | .error e => .error e

/-- `for c in l: body(c)` -/
def forEach (body : Nat → St D → Res D) : List Nat → St D → Res D
  | [], s => .ok s
  | c :: l, s => andThen (body c s) (forEach body l)

def upd {α β : Type} [DecidableEq α] (f : α → β) (a : α) (b : β) : α → β := fun x => if x = a then b else f x

/-- the end of `set_running`: the flag (core/model.py:216), then the move of the large data done by the
overriding classes (core/algorithm.py:713-721, input/states/states_table.py:342-346, …) -/
def moveOut (G : Graph) (m : Nat) (s : St D) : Res D :=
  match s.own m with
  | none => .error (.attributeError, { s with run := upd s.run m true })
  | some d => .ok { s with run := upd s.run m true, stash := upd s.stash (G.name m) (some d), own := upd s.own m none }

/-- the end of `unset_running`: the flag (core/model.py:255), then the data come back from the stash
(core/algorithm.py:754-757, input/states/states_table.py:377-379, …) -/
def moveIn (G : Graph) (m : Nat) (s : St D) : Res D :=
  match s.stash (G.name m) with
  | none => .error (.keyError, { s with run := upd s.run m false })
  | some d => .ok { s with run := upd s.run m false, stash := upd s.stash (G.name m) none, own := upd s.own m (some d) }

/-- `Model.set_running` (core/model.py:203-216), sub-models first. The first argument is
Python's recursion limit. -/
def setRunning (G : Graph) : Nat → Nat → St D → Res D
  | 0, _, s => .error (.recursionError, s)
  | f + 1, m, s =>
      if s.run m then .error (.valueError, s)
      else andThen (forEach (fun c s => if s.run c then .ok s else setRunning G f c s) (G.subs m) s) (moveOut G m)

/-- `Model.unset_running` (core/model.py:245-255), sub-models first -/
def unsetRunning (G : Graph) : Nat → Nat → St D → Res D
  | 0, _, s => .error (.recursionError, s)
  | f + 1, m, s =>
      if s.run m then
        andThen (forEach (fun c s => if s.run c then unsetRunning G f c s else .ok s) (G.subs m) s) (moveIn G m)
      else .error (.valueError, s)

/-- `Algorithm.store_model_data` (core/algorithm.py:233-239) without `force`; `a` is the algorithm, whose
`idata_mem` property raises while it is running (core/algorithm.py:149-152) -/
def storeModelData (G : Graph) (a m : Nat) (s : St D) : Res D :=
  if s.run a then .error (.valueError, s)
  else if G.key m ∈ s.mem then .error (.keyError, s)
  else .ok { s with mem := G.key m :: s.mem }

/-- `Algorithm.del_model_data` (core/algorithm.py:269-273) -/
def delModelData (G : Graph) (a m : Nat) (s : St D) : Res D :=
  if s.run a then .error (.valueError, s)
  else if G.key m ∈ s.mem then .ok { s with mem := s.mem.filter (fun k => k != G.key m) }
  else .error (.keyError, s)

/-- `Model.load_data` (core/model.py:121-125): raises after initialization; the log entry is ours -/
def loadData (m : Nat) (s : St D) : Res D :=
  if s.init m then .error (.valueError, s) else .ok { s with loads := s.loads ++ [m] }

/-- `Model.initialize` (core/model.py:141-158), with `force=False` -/
def initModel (G : Graph) (a : Nat) : Nat → Nat → St D → Res D
  | 0, _, s => .error (.recursionError, s)
  | f + 1, m, s =>
      if s.run m then .error (.valueError, s)
      else if s.init m then .ok s
      else
        andThen (forEach (fun c s => if s.init c then .ok s else initModel G a f c s) (G.subs m) s) fun s =>
        andThen (loadData m s) fun s =>
        andThen (storeModelData G a m s) fun s =>
        .ok { s with init := upd s.init m true }

/-- `Model.finalize` (core/model.py:269-285) -/
def finModel (G : Graph) (a : Nat) : Nat → Nat → St D → Res D
  | 0, _, s => .error (.recursionError, s)
  | f + 1, m, s =>
      if s.run m then .error (.valueError, s)
      else if s.init m then
        andThen (forEach (finModel G a f) (G.subs m) s) fun s =>
        andThen (delModelData G a m s) fun s =>
        .ok { s with init := upd s.init m false, finals := s.finals ++ [m] }
      else .ok s

/-- the two loops over `mdls` in `Algorithm.calc_farm` (core/algorithm.py:824-827 and 839-842) -/
def setAll (G : Graph) (lim : Nat) (mdls : List Nat) (s : St D) : Res D :=
  forEach (setRunning G lim) mdls s

def unsetAll (G : Graph) (lim : Nat) (mdls : List Nat) (s : St D) : Res D :=
  forEach (unsetRunning G lim) mdls s

/-- `Algorithm.calc_farm` (core/algorithm.py:811-844); `launch = false`: the parallel calculation raised.
`data_stash = {}` is a fresh local dictionary. -/
def calcFarm (G : Graph) (lim a : Nat) (args : List Nat) (launch : Bool) (s : St D) : Res D :=
  if s.run a then .error (.valueError, s)
  else andThen (setAll G lim (a :: args) { s with stash := fun _ => none }) fun s =>
    if launch then unsetAll G lim (a :: args) s else .error (.valueError, s)

/-- `Algorithm.calc_points` (core/algorithm.py:896-922) -/
def calcPoints (G : Graph) (lim a : Nat) (launch : Bool) (s : St D) : Res D :=
  if s.run a then .error (.valueError, s)
  else andThen (setRunning G lim a { s with stash := fun _ => none }) fun s =>
    if launch then unsetRunning G lim a s else .error (.valueError, s)

/-- `Algorithm.initialize` (core/algorithm.py:211-215) -/
def initAlgo (G : Graph) (lim a : Nat) (s : St D) : Res D :=
  if s.run a then .error (.valueError, s) else initModel G a lim a s

/-- `Algorithm.finalize` (core/algorithm.py:934-936), `clear_mem=False` -/
def finAlgo (G : Graph) (lim a : Nat) (s : St D) : Res D :=
  if s.run a then .error (.valueError, s) else finModel G a lim a s

/-- calls a user can make on an algorithm object -/
inductive Call
  | initialize
  | finalize
  | calcFarm (args : List Nat) (launch : Bool)
  | calcPoints (launch : Bool)
deriving DecidableEq, Repr

def call (G : Graph) (lim a : Nat) (c : Call) (s : St D) : Res D :=
  match c with
  | .initialize => initAlgo G lim a s
  | .finalize => finAlgo G lim a s
  | .calcFarm args l => calcFarm G lim a args l s
  | .calcPoints l => calcPoints G lim a l s

/-- the state after a call, whether it returned or raised -/
def after (r : Res D) : St D := match r with | .ok s => s | .error (_, s) => s

end Foxes.Lifecycle
