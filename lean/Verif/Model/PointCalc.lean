import Mathlib.Algebra.Order.Field.Basic
/-
Model of a point calculation (`calc_points`): the list of models that run at a point, the transfer of ambient results and the wake calculation.

 * foxes/algorithms/downwind/downwind.py:607-660, 691-828
 * foxes/core/point_data_model.py:212-260
 * foxes/algorithms/downwind/models/set_amb_point_results.py
 * foxes/algorithms/downwind/models/point_wakes_calc.py
 * foxes/core/ground_model.py:165-260 (without mirrors; see Model/Mirror.lean for these)

One state and one point; `V` are variable names, `K` values, `S` the farm data column of a turbine, `P` points. Wake coordinates are part of the wake model's `add`.
-/
namespace Foxes.PointCalc

inductive Err
  | keyError | attributeError | valueError
deriving DecidableEq, Repr

variable {V K S P A : Type} [DecidableEq V]

/-- the target data of one point: values of variables, if there -/
abbrev Vals (V K : Type) := V → Option K

/-- `tdata.update(res)`, `tdata[v] = res[v]` -/
def update (td res : Vals V K) : Vals V K := fun v => match res v with | some x => some x | none => td v

/-- a wake model with its ground model: the variables it changes, new wake deltas, contribution of a turbine (farm data column) to the deltas at a point, and final deltas, which are made of ambient values
and deltas (core/ground_model.py:165-260, core/wake_model.py:40-130) -/
structure Wake (V K S P A : Type) where
  keys : List V
  zero : A
  add : S → P → A → A
  fin : (V → Option K) → A → V → K

/-- contributions of the turbines (point_wakes_calc.py:122-131): all, in the order of the farm results that were handed in, or only the given one -/
def deltas (w : Wake V K S P A) (fd : List S) (only : Option ℕ) (p : P) : A :=
  match only with
  | none => fd.foldl (fun d s => w.add s p d) w.zero
  | some i => match fd[i]? with | some s => w.add s p w.zero | none => w.zero

/-- `if v not in res and v in tdata: res[v] = tdata[v].copy()` for the variables of the states (point_wakes_calc.py:133-135) -/
def known (pvars : List V) (td res : Vals V K) : Vals V K := fun v => match res v with | some x => some x | none => if pvars.contains v then td v else none

/-- one pass of the loop over the wake models (point_wakes_calc.py:112-144), `res` are the results so far; finalize_wake_deltas reads the ambient value of each variable of the wake model (dist_sliced.py:213-216) -/
def wakePass [Add K] (pvars : List V) (fd : List S) (only : Option ℕ) (p : P) (td : Vals V K) (w : Wake V K S P A) (res : Vals V K) : Except Err (Vals V K) :=
  if pvars.any (fun v => w.keys.contains v) then
    let d := deltas w fd only p
    let res1 := known pvars td res
    if w.keys.all (fun v => (res1 v).isSome) then
      .ok (fun v => if w.keys.contains v then (res1 v).map (fun x => x + w.fin res1 d v) else res1 v)
    else .error .keyError
  else .ok res

/-- the loop over the wake models -/
def wakePasses [Add K] (pvars : List V) (fd : List S) (only : Option ℕ) (p : P) (td : Vals V K) : List (Wake V K S P A) → Vals V K → Except Err (Vals V K)
  | [], res => .ok res
  | w :: ws, res =>
    match wakePass pvars fd only p td w res with
    | .ok res' => wakePasses pvars fd only p td ws res'
    | .error e => .error e

/-- a list of point models (core/point_data_model.py:246-248): each gets the data and returns results, which are stored before the next one runs -/
def runModels (ms : List (Vals V K → Vals V K)) (td : Vals V K) : Vals V K := ms.foldl (fun td m => update td (m td)) td

/-- SetAmbPointResults (set_amb_point_results.py:45-46, 87-89): ambient copies of the variables of the states -/
def setAmb (amb : V → Option V) (pvars : List V) (td : Vals V K) : Except Err (Vals V K) :=
  if (pvars.filter (fun v => (amb v).isSome)).all (fun v => (td v).isSome) then
    .ok ((pvars.filter (fun v => (amb v).isSome)).foldl (fun t v => fun x => if amb v = some x then td v else t x) td)
  else .error .keyError

/-- PointWakesCalculation (point_wakes_calc.py:108-154), the extra models run again at the end -/
def pointWakes [Add K] (pvars : List V) (ws : List (Wake V K S P A)) (emodels : List (Vals V K → Vals V K)) (fd : List S) (only : Option ℕ) (p : P) (td : Vals V K) : Except Err (Vals V K) :=
  match wakePasses pvars fd only p td ws (fun _ => none) with
  | .error e => .error e
  | .ok res => .ok (runModels emodels (update td res))

/-- what a point calculation is about -/
structure Calc (V K S P A : Type) where
  /-- FV.var2amb -/
  amb : V → Option V
  /-- output variables of the states -/
  pvars : List V
  /-- result of the states at a point -/
  states : P → Vals V K
  /-- extra point models -/
  emodels : List (Vals V K → Vals V K)
  wakes : List (Wake V K S P A)

/-- the models of `calc_points` at one point (downwind.py:642-660): states, extra models, ambient results, wakes -/
def calcPoint [Add K] (c : Calc V K S P A) (fd : List S) (ambient : Bool) (p : P) : Except Err (Vals V K) :=
  match setAmb c.amb c.pvars (runModels c.emodels (c.states p)) with
  | .error e => .error e
  | .ok td =>
    if ambient then
      -- downwind.py:819-821: waked variables are dropped
      .ok (fun v => if (c.amb v).isSome then none else td v)
    else pointWakes c.pvars c.wakes c.emodels fd none p td

/-- `calc_points` (downwind.py:749-779): farm results are needed, for the number of states, also if they are not needed for wakes -/
def calcPoints [Add K] (c : Calc V K S P A) (fd : Option (List S)) (ambient : Bool) (pts : List P) : Except Err (List (Vals V K)) :=
  match fd with
  | none => if ambient then .error .attributeError else .error .valueError
  | some f => pts.mapM (calcPoint c f ambient)

end Foxes.PointCalc
