/-
Model of the farm controller's ordering of turbine models,
foxes/core/farm_controller.py:120-177 and 212-276.
-/
namespace Foxes.Controller

variable {α : Type} [DecidableEq α]

/-- The entry at the current position of turbine `tj`, `jnames[tmis[tj]]` if `tmis[tj] < len(jnames)`. -/
def cur (names : List (List α)) (tmis : Nat → Nat) (tj : Nat) : Option α :=
  ((names[tj]?).getD [])[tmis tj]?

/-- `isnext` for turbine `ti` with current model `m` (farm_controller.py:135-144): no other turbine
that has the model in its list and is not finished stands at a different model. -/
def isNext (names : List (List α)) (tmis : Nat → Nat) (ti : Nat) (m : α) : Bool :=
  (List.range names.length).all fun tj =>
    !(decide (tj ≠ ti) && ((names[tj]?).getD []).contains m &&
      (match cur names tmis tj with
       | none => false
       | some m' => decide (m' ≠ m)))

/-- One chosen model: its name, and for every turbine that takes part the position in that turbine's list
(from which `mstates_sel[mi]` is read, farm_controller.py:150-156). -/
structure Entry (α : Type) where
  name : α
  pos : Nat → Option Nat

/-- the `for ti` scan of one round (farm_controller.py:132-160): the first turbine whose current model can
be run next -/
def pick (names : List (List α)) (tmis : Nat → Nat) : Option α :=
  (List.range names.length).findSome? fun ti =>
    match cur names tmis ti with
    | none => none
    | some m => if isNext names tmis ti m then some m else none

/-- advance all turbines standing at `m` (farm_controller.py:151-156) -/
def advance (names : List (List α)) (tmis : Nat → Nat) (m : α) : Nat → Nat :=
  fun tj => if cur names tmis tj = some m then tmis tj + 1 else tmis tj

/-- `while news` (farm_controller.py:129-160) with fuel; the result carries the final positions. -/
def rounds (names : List (List α)) : Nat → (Nat → Nat) → List (Entry α) × (Nat → Nat)
  | 0, tmis => ([], tmis)
  | f + 1, tmis =>
      match pick names tmis with
      | none => ([], tmis)
      | some m =>
          let e : Entry α := { name := m, pos := fun tj => if cur names tmis tj = some m then some (tmis tj) else none }
          let r := rounds names f (advance names tmis m)
          (e :: r.1, r.2)

/-- fuel that is always enough: every round advances at least one turbine -/
def fuel (names : List (List α)) : Nat := (names.map List.length).sum

inductive Err
  | valueError (ti : Nat)   -- farm_controller.py:173-175
deriving DecidableEq, Repr

/-- `_analyze_models` (farm_controller.py:120-177) on the lists of model names of all turbines -/
def analyze (names : List (List α)) : Except Err (List (Entry α)) :=
  let r := rounds names (fuel names) (fun _ => 0)
  match (List.range names.length).find? (fun ti => decide (r.2 ti ≠ ((names[ti]?).getD []).length)) with
  | some ti => .error (.valueError ti)
  | none => .ok r.1

/-- A turbine's list of models as the user gave it: name, whether it is a pre-rotor model, and the states
selection given for this position (`Turbine.models`, `Turbine.mstates_sel`). -/
structure Listed (α σ : Type) where
  name : α
  pre : Bool
  sel : σ

variable {σ : Type}

/-- the sub-list handed to `_analyze_models` (farm_controller.py:228-261); `prer` is reset for every model
(line 250), so the check for pre-rotor models after post-rotor models never fires between different entries.
Simplification: entries that are lists of models are not covered. -/
def sublist (pre : Bool) (l : List (Listed α σ)) : List α := (l.filter (fun e => e.pre == pre)).map (·.name)

/-- the states selection used for the model at position `mi` of the sub-list: `mstates_sel[mi]` of the turbine
(farm_controller.py:154), `none` for an IndexError -/
def usedSel (l : List (Listed α σ)) (mi : Nat) : Option σ := (l[mi]?).map (·.sel)

/-- execution order of one turbine's own models: pre-rotor list, then post-rotor list
(downwind.py:436-453) -/
def executed (l : List (Listed α σ)) : List α := sublist true l ++ sublist false l

end Foxes.Controller
