import Mathlib.Data.List.Dedup
/-
Model of the data that an algorithm keeps for its models between runs, and of what becomes of them if the farm gets another number of turbines
(foxes/core/algorithm.py:216-353: `store_model_data`, `get_model_data`, `del_model_data`, `update_n_turbines`, `get_models_idata`).

Simplifications: the dictionary of the code holds both the data of the models and the flags "is the same at all turbines" (under keys that begin with two
underscores, skipped by the loops); here they are two dictionaries. So class names are assumed not to begin with two underscores. Arrays are a shape and a value
at each index; numpy's treatment of NaN in `np.unique` is not modelled. The property `idata_mem` raises while the algorithm is running: see Model/Lifecycle.lean.
-/
namespace Foxes.StoredData

inductive Err
  | value | axis | key | type | index
deriving DecidableEq, Repr

/-- a numpy array: its shape, and the value at each index -/
structure Arr (V : Type) where
  shape : List Nat
  val : List Nat → V

/-- an entry of `data_vars`: dimensions and array (algorithm.py:224-227) -/
structure Var (V : Type) where
  dims : List String
  arr : Arr V

/-- what a model stores: coordinates and variables, as dictionaries in order of insertion (algorithm.py:224-227) -/
structure IData (V : Type) where
  coords : List (String × List Nat)
  vars : List (String × Var V)

/-- what the algorithm keeps: its number of turbines, the data of the models and the flags -/
structure Store (V : Type) where
  nTurbines : Nat
  models : List (String × IData V)
  flags : List (String × Option Bool)

variable {V : Type}

/-- `d[k] = v` of a python dictionary: the place is kept, a new key comes last -/
def setKey {A : Type} (l : List (String × A)) (k : String) (v : A) : List (String × A) :=
  if (l.lookup k).isSome then l.map fun p => if p.1 = k then (k, v) else p else l ++ [(k, v)]

/-- `d.update(e)` of a python dictionary -/
def updKeys {A : Type} (l e : List (String × A)) : List (String × A) := e.foldl (fun l p => setKey l p.1 p.2) l

/-! ### storing, reading and removing -/

/-- the key of a model (algorithm.py:233, 251, 269) -/
def modelKey (cls name : String) : String := cls ++ "_" ++ name

/-- `store_model_data` (algorithm.py:216-239) -/
def store (s : Store V) (cls name : String) (d : IData V) (force : Bool) : Except Err (Store V) :=
  if force then .ok { s with models := setKey s.models (modelKey cls name) d }
  else if (s.models.lookup (modelKey cls name)).isSome then .error .key
  else .ok { s with models := setKey s.models (modelKey cls name) d }

/-- `get_model_data` (algorithm.py:241-257) -/
def fetch (s : Store V) (cls name : String) : Except Err (IData V) :=
  match s.models.lookup (modelKey cls name) with
  | some d => .ok d
  | none => .error .key

/-- `del_model_data` (algorithm.py:259-273) -/
def delete (s : Store V) (cls name : String) : Except Err (Store V) :=
  if (s.models.lookup (modelKey cls name)).isSome then .ok { s with models := s.models.filter fun p => p.1 ≠ modelKey cls name }
  else .error .key

/-- `get_models_idata` (algorithm.py:330-353): the dictionaries of all models, one after the other -/
def modelsIdata (s : Store V) : IData V :=
  s.models.foldl (fun acc p => ⟨updKeys acc.coords p.2.coords, updKeys acc.vars p.2.vars⟩) ⟨[], []⟩

/-! ### another number of turbines -/

/-- all indices of an array of the given shape -/
def indices : List Nat → List (List Nat)
  | [] => [[]]
  | n :: s => (List.range n).flatMap fun i => (indices s).map fun idx => i :: idx

/-- the part of an array at position `j` of axis 1 -/
def slab (a : Arr V) (j : Nat) : List V := (indices (a.shape.set 1 1)).map fun idx => a.val (idx.set 1 j)

/-- the shape of `np.unique(a, axis=1)`: none if there is no axis 1 (AxisError) -/
def uniqueShape [DecidableEq V] (a : Arr V) : Option (List Nat) :=
  match a.shape with
  | _ :: n :: _ => some (a.shape.set 1 (((List.range n).map (slab a)).dedup.length))
  | _ => none

/-- is the variable the same at all turbines? None if it does not depend on turbines (algorithm.py:293-296) -/
def sameAtAll [DecidableEq V] (v : Var V) : Except Err (Option Bool) :=
  match v.dims.idxOf? "turbine" with
  | none => .ok none
  | some i => match uniqueShape v.arr with
    | none => .error .axis
    | some s => .ok (some (decide (s.getD i 0 = 1)))

/-- the key of the flag of a variable (algorithm.py:289) -/
def flagKey (m d : String) : String := "__" ++ m ++ "_" ++ d ++ "_turbinv"

/-- the array with `n` turbines on axis `i` (algorithm.py:306-327): the first ones, or the last one repeated. `np.take` fails for an empty selection (the empty
range becomes an array of floats) and for the last element of an empty axis. -/
def resize (n i : Nat) (a : Arr V) : Except Err (Arr V) :=
  let n0 := a.shape.getD i 0
  if n < n0 then
    if n = 0 then .error .type else .ok ⟨a.shape.set i n, a.val⟩
  else if n0 < n then
    if n0 = 0 then .error .index
    else .ok ⟨a.shape.set i n, fun idx => if idx.getD i 0 < n0 then a.val idx else a.val (idx.set i (n0 - 1))⟩
  else .ok a

/-- what the loop over the variables of one model leaves behind: variables, coordinates, new flags, and the error if there was one -/
structure Loop (V : Type) where
  vars : List (String × Var V)
  coords : List (String × List Nat)
  newk : List (String × Option Bool)
  err : Option Err

/-- the flag of a variable: the stored one, or a new one (algorithm.py:290-297) -/
def flagOf [DecidableEq V] (flags newk : List (String × Option Bool)) (k : String) (v : Var V) :
    Except Err (Option Bool × List (String × Option Bool)) :=
  match flags.lookup k with
  | some ok => .ok (ok, newk)
  | none => match sameAtAll v with
    | .error e => .error e
    | .ok ok => .ok (ok, setKey newk k ok)

/-- the new turbine coordinate, if there is one (algorithm.py:303-304) -/
def newCoords (n : Nat) (coords : List (String × List Nat)) : List (String × List Nat) :=
  if (coords.lookup "turbine").isSome then setKey coords "turbine" (List.range n) else coords

/-- the loop over the variables of model `m` (algorithm.py:288-327) -/
def loopVars [DecidableEq V] (n : Nat) (flags : List (String × Option Bool)) (m : String) :
    List (String × Var V) → List (String × List Nat) → List (String × Option Bool) → Loop V
  | [], coords, newk => ⟨[], coords, newk, none⟩
  | (d, v) :: rest, coords, newk =>
    match flagOf flags newk (flagKey m d) v with
    | .error e => ⟨(d, v) :: rest, coords, newk, some e⟩
    | .ok (none, newk) =>
      let r := loopVars n flags m rest coords newk
      { r with vars := (d, v) :: r.vars }
    | .ok (some false, newk) => ⟨(d, v) :: rest, coords, newk, some .value⟩
    | .ok (some true, newk) =>
      let coords := newCoords n coords
      match v.dims.idxOf? "turbine" with
      | none => ⟨(d, v) :: rest, coords, newk, some .value⟩
      | some i => match resize n i v.arr with
        | .error e => ⟨(d, v) :: rest, coords, newk, some e⟩
        | .ok a =>
          let r := loopVars n flags m rest coords newk
          { r with vars := (d, ⟨v.dims, a⟩) :: r.vars }

/-- the loop over the models (algorithm.py:285-327) -/
def loopModels [DecidableEq V] (n : Nat) (flags : List (String × Option Bool)) :
    List (String × IData V) → List (String × Option Bool) → List (String × IData V) × List (String × Option Bool) × Option Err
  | [], newk => ([], newk, none)
  | (m, d) :: rest, newk =>
    let r := loopVars n flags m d.vars d.coords newk
    match r.err with
    | some e => ((m, ⟨r.coords, r.vars⟩) :: rest, r.newk, some e)
    | none =>
      let q := loopModels n flags rest r.newk
      ((m, ⟨r.coords, r.vars⟩) :: q.1, q.2)

/-- `update_n_turbines` (algorithm.py:275-328) for a farm with `n` turbines: the number is set first, the flags are stored only if no error was raised -/
def update [DecidableEq V] (s : Store V) (n : Nat) : Store V × Option Err :=
  if s.nTurbines = n then (s, none)
  else
    let r := loopModels n s.flags s.models []
    match r.2.2 with
    | some e => (⟨n, r.1, s.flags⟩, some e)
    | none => (⟨n, r.1, updKeys s.flags r.2.1⟩, none)

/-- several changes of the farm, one after the other; stops at the first error -/
def updates [DecidableEq V] (s : Store V) : List Nat → Store V × Option Err
  | [] => (s, none)
  | n :: ns => match update s n with
    | (s, some e) => (s, some e)
    | (s, none) => updates s ns

end Foxes.StoredData
