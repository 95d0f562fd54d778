import Mathlib.Data.List.Basic
/-
Functions of the user inside a farm calculation: `foxes/models/turbine_models/calculator.py`, `rotor_centre_calc.py`, and the places where turbine
models run: the list of post-rotor models (`foxes/core/farm_data_model.py`), the controller's selections (`foxes/core/farm_controller.py`), the
ambient pass and the passes turbine by turbine (`foxes/algorithms/downwind/models/farm_wakes_calc.py`), the order of the results
(`foxes/algorithms/downwind/models/init_farm_data.py`, `reorder_farm_output.py`), `foxes/models/farm_models/turbine2farm.py`.

Simplifications: one chunk of states; a variable is a function of state and position (in the downwind order) with values in any type `V`; all sizes are those of
the chunk. Wakes and rotor are one function that sets data of one turbine.
-/
namespace Foxes.UserSteps

/-- a variable of the chunk: state, position in the downwind order -/
abbrev Arr (V : Type) := ℕ → ℕ → V

/-- farm data, or model data: the variables that are there -/
abbrev FD (V : Type) := String → Option (Arr V)

/-- `st_sel`: which entries (farm_controller.py:278-295); slices are the selections of whole columns -/
abbrev Sel := ℕ → ℕ → Bool

/-- a turbine model: from the selection and the farm data to the results; `none`: raises -/
abbrev TM (V : Type) := Sel → FD V → Option (List (String × Arr V))

variable {V : Type}

/-- `fdata[v] = a` -/
def put (fd : FD V) (v : String) (a : Arr V) : FD V := fun u => if u = v then some a else fd u

/-- `fdata.update(res)` -/
def update (fd : FD V) (res : List (String × Arr V)) : FD V := res.foldl (fun f p => put f p.1 p.2) fd

/-- one model of the list (farm_data_model.py:288-291) -/
def runOne (fd : FD V) (m : TM V × Sel) : Option (FD V) := (m.1 m.2 fd).map (update fd)

/-- `FarmDataModelList.calculate` (farm_data_model.py:288-291) -/
def runList (ms : List (TM V × Sel)) (fd : FD V) : Option (FD V) := ms.foldlM runOne fd

/-- the selection for one turbine (farm_controller.py:278-295 with `downwind_index`): only entries of that column -/
def restrict (sel : Sel) (oi : ℕ) : Sel := fun s t => sel s t && t == oi

/-- the list of models for one turbine -/
def forTurbine (ms : List (TM V × Sel)) (oi : ℕ) : List (TM V × Sel) := ms.map fun m => (m.1, restrict m.2 oi)

/-- `_evaluate` (farm_wakes_calc.py:81-105): wakes and rotor set data of turbine `oi`, then the controller runs the post-rotor models for it -/
def evaluate (rotor : ℕ → FD V → FD V) (ms : List (TM V × Sel)) (fd : FD V) (oi : ℕ) : Option (FD V) := runList (forTurbine ms oi) (rotor oi fd)

/-- the turbines that are evaluated, for one wake model (farm_wakes_calc.py:120-167): all but the first one downwind, or all but the last one upwind -/
def sweep (down : Bool) (n : ℕ) : List ℕ := if down then (List.range (n - 1)).map (· + 1) else ((List.range (n - 1)).reverse)

/-- for all wake models one after the other (farm_wakes_calc.py:111-117) -/
def sweeps (downs : List Bool) (n : ℕ) : List ℕ := downs.flatMap fun d => sweep d n

/-- a farm calculation from the ambient rotor results on (downwind.py:450-463): the post-rotor models for all turbines, then the evaluations `ois` -/
def run (rotor : ℕ → FD V → FD V) (ms : List (TM V × Sel)) (ois : List ℕ) (fd : FD V) : Option (FD V) :=
  (runList ms fd).bind fun fd' => ois.foldlM (evaluate rotor ms) fd'

/-! ## Calculator -/

/-- `Calculator` (calculator.py:5-50) -/
structure Calc (V : Type) where
  ins : List String
  outs : List String
  func : List (Arr V) → Sel → List (Arr V)

/-- `fdata[v] if v in fdata else mdata[v]` (calculator.py:96); `none`: KeyError -/
def Calc.inputs (c : Calc V) (md fd : FD V) : Option (List (Arr V)) := c.ins.mapM fun v => (fd v).or (md v)

/-- `{v: outs[vi] for vi, v in enumerate(self.out_vars)}` (calculator.py:99); `none`: IndexError -/
def zipOuts : List String → List (Arr V) → Option (List (String × Arr V))
  | [], _ => some []
  | _ :: _, [] => none
  | v :: vs, a :: as => (zipOuts vs as).map ((v, a) :: ·)

/-- `Calculator.calculate` (calculator.py:75-99) -/
def Calc.calculate (c : Calc V) (md : FD V) : TM V := fun sel fd => (c.inputs md fd).bind fun i => zipOuts c.outs (c.func i sel)

/-! ## Turbine models that compute entry by entry -/

/-- a model that sets `out` for the selected entries from the entry of `inp` (like the turbine types: `out[st_sel] = curve(fdata[v][st_sel])`,
e.g. PCt_file.py:305-350) -/
def typeModel (inp out : String) (curve : V → V) : TM V := fun sel fd =>
  (fd inp).bind fun i => (fd out).map fun o => [(out, fun s t => if sel s t then curve (i s t) else o s t)]

/-! ## RotorCentreCalc -/

/-- `RotorCentreCalc.calculate` (rotor_centre_calc.py:103-137): `centre fd w` are the results of states and wakes at the rotor centres for the rotor variable `w`
(line 124-129), which depend on the current farm data; `none`: the variable is not among the states' outputs (KeyError). -/
def centreCalc (vars : List (String × String)) (centre : FD V → String → Option (Arr V)) : TM V := fun sel fd =>
  vars.mapM fun p => (fd p.1).bind fun old => (centre fd p.2).map fun r => (p.1, fun s t => if sel s t then r s t else old s t)

/-! ## Order of the results -/

/-- positions to turbines: `fdata[v][ssel, order]` (init_farm_data.py:124-137) -/
def toOrder (order : ℕ → ℕ → ℕ) (a : Arr V) : Arr V := fun s j => a s (order s j)

/-- back to turbines: `fdata[v][ssel, order_inv]` (reorder_farm_output.py:75-86) -/
def toFarm (inv : ℕ → ℕ → ℕ) (a : Arr V) : Arr V := fun s t => a s (inv s t)

/-! ## Turbine2FarmModel -/

/-- `x[sel]` for an array of booleans of shape `(m, n)` and data of shape `(c, n)`: numpy's IndexError if the shapes do not agree -/
def boolIndex (m n c n' : ℕ) : Bool := m == c && n == n'

/-- `Turbine2FarmModel.calculate` (turbine2farm.py:72-93) in a chunk with `c` states, for a model that indexes farm data with the selection: the selection is made
for all states of the calculation -/
def t2f (model : TM V) (nStates nTurbines c : ℕ) (fd : FD V) : Option (List (String × Arr V)) :=
  if boolIndex nStates nTurbines c nTurbines then model (fun _ _ => true) fd else none

end Foxes.UserSteps
