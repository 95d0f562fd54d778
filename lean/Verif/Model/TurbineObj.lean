import Mathlib.Data.List.Basic
/-
Model of the list objects of turbines (foxes/core/turbine.py): which turbines share the list of models. Python lists are objects; here they
are cells of a heap, and a turbine holds the addresses of its two lists. Cell 0 is the list that is the default value of the parameter
`turbine_models` (turbine.py:39): it is created once, when the class is defined, and is used by all turbines without models.
-/
namespace Foxes.TurbineObj

/-- a states selection of a model: none, or one flag per state (turbine.py:22-24) -/
abbrev SSel := Option (List Bool)

/-- a turbine: addresses of the lists `models` and `mstates_sel` (turbine.py:74-80) -/
structure Obj where
  mref : ℕ
  sref : ℕ

/-- the heap and the turbines -/
structure World where
  mlists : ℕ → List String
  slists : ℕ → List SSel
  next : ℕ
  turbs : List Obj

/-- at the start only the default list exists, and it is empty -/
def World.start : World := { mlists := fun _ => [], slists := fun _ => [], next := 1, turbs := [] }

/-- new value in a cell -/
def put {α : Type} (f : ℕ → α) (i : ℕ) (x : α) : ℕ → α := fun j => if j = i then x else f j

/-- `Turbine(turbine_models=<list at address r>)` (turbine.py:71-80): the list object itself is stored, a new list of selections is made -/
def create (w : World) (r : ℕ) : World :=
  { w with slists := put w.slists w.next (List.replicate (w.mlists r).length none), next := w.next + 1, turbs := w.turbs ++ [⟨r, w.next⟩] }

/-- a new list object -/
def alloc (w : World) (ms : List String) : World := { w with mlists := put w.mlists w.next ms, next := w.next + 1 }

/-- `create` for `n` turbines with the same list -/
def createN (w : World) (r : ℕ) : ℕ → World
  | 0 => w
  | n + 1 => createN (create w r) r n

/-- `list.insert` for an index that is not negative -/
def pyInsert {α : Type} (i : ℕ) (x : α) (l : List α) : List α := l.take i ++ x :: l.drop i

/-- What a user does. -/
inductive Op
  /-- a turbine with a list of its own: `Turbine(turbine_models=[...])`; also each turbine of `add_from_csv` (from_csv.py:100-107) and of `add_from_json` with
  models (from_json.py:48-56) -/
  | new (ms : List String)
  /-- a turbine without models -/
  | newDefault
  /-- `add_row`, `add_grid`, `add_ring`, `add_random` with `n` turbines and the models `ms` (row.py:45-51): one list for all -/
  | layout (ms : List String) (n : ℕ)
  /-- `turbines[t].add_model(m, s)` (turbine.py:82-95) -/
  | add (t : ℕ) (m : String) (s : SSel)
  /-- `turbines[t].insert_model(i, m, s)` (turbine.py:97-112) -/
  | insert (t : ℕ) (i : ℕ) (m : String) (s : SSel)

/-- the effect of an operation; one for a turbine that does not exist has none -/
def step (w : World) : Op → World
  | .new ms => create (alloc w ms) w.next
  | .newDefault => create w 0
  | .layout ms n => createN (alloc w ms) w.next n
  | .add t m s => match w.turbs[t]? with
    | some o => { w with mlists := put w.mlists o.mref (w.mlists o.mref ++ [m]), slists := put w.slists o.sref (w.slists o.sref ++ [s]) }
    | none => w
  | .insert t i m s => match w.turbs[t]? with
    | some o => { w with mlists := put w.mlists o.mref (pyInsert i m (w.mlists o.mref)), slists := put w.slists o.sref (pyInsert i s (w.slists o.sref)) }
    | none => w

/-- all operations -/
def run (ops : List Op) : World := ops.foldl step World.start

/-- what the user sees of the turbines: models and states selections -/
def view (w : World) : List (List String × List SSel) := w.turbs.map (fun o => (w.mlists o.mref, w.slists o.sref))

/-- The farm controller reads `mstates_sel[mi]` for each model `mi` of each turbine (foxes/core/farm_controller.py:151-156); `false`: IndexError.
(Only if all models are of one kind, pre- or post-rotor; see C21 for the other case.) -/
def controllerReads (w : World) : Bool := (view w).all (fun p => p.1.length ≤ p.2.length)

end Foxes.TurbineObj
