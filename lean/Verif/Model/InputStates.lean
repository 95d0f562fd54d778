import Mathlib.Data.Real.Basic
import Mathlib.Data.List.Basic
import Mathlib.Algebra.BigOperators.Group.List.Basic
/-
Model of the input states classes ScanStates (foxes/input/states/scan.py), StatesTable and TabStates (foxes/input/states/states_table.py),
SingleStateStates (single.py) and of read_tab_file (foxes/utils/tab_files.py). Real numbers replace doubles.
-/
namespace Foxes.InputStates

noncomputable section
open scoped Classical

/-! ### ScanStates -/

/-- `np.prod(shp)` (scan.py:63-64) -/
def scanN (scans : List (List ℝ)) : ℕ := (scans.map List.length).prod

/-- Row `r` of the data after `reshape(N, n_v)` (scan.py:67-73): position `r` of the array of shape `shp` in C order has index
`r / (product of the later lengths) % (own length)` along axis `i`, where variable `i` takes its value from. -/
def scanRow (scans : List (List ℝ)) (r : ℕ) : List ℝ :=
  match scans with
  | [] => []
  | d :: ds => d.getD (r / scanN ds % d.length) 0 :: scanRow ds r

/-- values of all states by variable (scan.py:205-208) -/
def scanStates (scans : List (List ℝ)) : List (List ℝ) := (List.range (scanN scans)).map (scanRow scans)

/-- weights of all states (scan.py:211-213), also the default of `StatesTable` (states_table.py:432-434) -/
def defaultWeights (n : ℕ) : List ℝ := List.replicate n (1 / n)

/-! ### StatesTable -/

/-- A table: rows with columns. -/
structure Table where
  cols : List String
  rows : List (String → ℝ)

/-- constructor parameters used here -/
structure TableCfg where
  ovars : List String
  var2col : String → String
  fixed : List (String × ℝ)
  /-- variables with a vertical profile, with the input variables of the profile -/
  profiles : List (String × List String)

/-- `_tvars` (states_table.py:156-171): a list without repetition, in unknown order (it comes from a set), of the output variables and
the profile inputs without the fixed variables -/
def IsTvars (cfg : TableCfg) (tvars : List String) : Prop :=
  tvars.Nodup ∧ ∀ v, v ∈ tvars ↔ ((v ∈ cfg.ovars ∨ ∃ p ∈ cfg.profiles, v ∈ p.2) ∧ ∀ f ∈ cfg.fixed, f.1 ≠ v)

/-- `tcols` (states_table.py:248-256); `none`: KeyError -/
def tcols (cfg : TableCfg) (t : Table) : List String → Option (List String)
  | [] => some []
  | v :: vs =>
      if cfg.var2col v ∈ t.cols then (tcols cfg t vs).map (fun l => cfg.var2col v :: l)
      else if v ∈ cfg.profiles.map Prod.fst then tcols cfg t vs
      else none

/-- `load_data` (states_table.py:232-265): the data array, by state and position in `_tvars`; rows are those selected by `states_sel` or
`states_loc`. `none`: an exception; xarray raises if the number of columns is not the length of the coordinate `VARS`. -/
def loadTable (cfg : TableCfg) (t : Table) (sel : List ℕ) (tvars : List String) : Option (List (List ℝ)) :=
  match tcols cfg t tvars with
  | none => none
  | some cs =>
      if cs.length = tvars.length then
        sel.mapM (fun i => (t.rows[i]?).map (fun row => cs.map row))
      else none

/-- the weights (states_table.py:239-246, 429-434). `wren` is the entry of `var2col` for the weight, if there is one: the column of that
name has to exist then, `none` is the KeyError. Without entry the column `weight` is used if there is one, else all weights are equal. -/
def tableWeights (t : Table) (wren : Option String) (sel : List ℕ) : Option (List ℝ) :=
  let wcol := wren.getD "weight"
  if wcol ∈ t.cols then sel.mapM (fun i => (t.rows[i]?).map (fun row => row wcol))
  else if wren.isSome then none
  else some (defaultWeights sel.length)

/-- `calculate` (states_table.py:407-437) for one state with data row `row` at height `z`: table values, then fixed values, then profiles,
which are evaluated in order on the data so far. `prof v` is the profile of `v` as function of the data and the height. -/
def calcState (cfg : TableCfg) (tvars : List String) (prof : String → (String → Option ℝ) → ℝ → ℝ) (row : List ℝ) (z : ℝ) : String → Option ℝ :=
  let d0 : String → Option ℝ := fun v => (tvars.zip row).lookup v
  let d1 : String → Option ℝ := fun v => match cfg.fixed.lookup v with
    | some f => some f
    | none => d0 v
  cfg.profiles.foldl (fun d p => fun v => if v = p.1 then some (prof p.1 d z) else d v) d1

/-! ### Profiles given as dictionaries -/

/-- A profile as given by the user: a dictionary with or without the entry `type` -/
structure ProfDict where
  hasType : Bool

/-- `initialize` (states_table.py:162-164, single.py:111-113): `d.pop("type")` removes the entry from the user's dictionary; `none`: KeyError -/
def initProfile (d : ProfDict) : Option ProfDict := if d.hasType then some { hasType := false } else none

/-! ### TabStates -/

/-- sum of column `j` -/
def colSum (n : ℕ) (f : ℕ → ℕ → ℝ) (j : ℕ) : ℝ := ((List.range n).map (fun i => f i j)).sum

/-- `ws_freq` after `read_tab_file` (tab_files.py:46, 58-59); division by zero gives 0 here, NaN in numpy: both are dropped by `weights > 0` -/
def tabWsFreq (normalize : Bool) (nws : ℕ) (f : ℕ → ℕ → ℝ) (i j : ℕ) : ℝ := if normalize then f i j * (1000 / colSum nws f j) else f i j

/-- `wd_freq` after `read_tab_file` (tab_files.py:45, 60) -/
def tabWdFreq (normalize : Bool) (nwd : ℕ) (g : ℕ → ℝ) (j : ℕ) : ℝ := if normalize then g j * (100 / ((List.range nwd).map g).sum) else g j

/-- `weights` (states_table.py:567-568) -/
def tabWeight (normalize : Bool) (nws nwd : ℕ) (f : ℕ → ℕ → ℝ) (g : ℕ → ℝ) (i j : ℕ) : ℝ :=
  tabWsFreq normalize nws f i j * (tabWdFreq normalize nwd g j / 100) / 1000

/-- wind speeds of the bins (states_table.py:554-558); `ws i` is the upper limit of bin `i` -/
def tabWs (a : ℝ) (ws : ℕ → ℝ) (i : ℕ) : ℝ := 0.5 * ((if i = 0 then 0 else a * ws (i - 1)) + a * ws i)

/-- wind directions (tab_files.py:41-43) -/
def tabWd (nwd j : ℕ) : ℝ := j * (360 / nwd)

/-- the states (states_table.py:570-579): wind speed, wind direction, weight, in C order, those with positive weight -/
def tabStates (normalize : Bool) (a : ℝ) (nws nwd : ℕ) (ws : ℕ → ℝ) (f : ℕ → ℕ → ℝ) (g : ℕ → ℝ) : List (ℝ × ℝ × ℝ) :=
  ((List.range nws).flatMap (fun i => (List.range nwd).map (fun j => (tabWs a ws i, tabWd nwd j, tabWeight normalize nws nwd f g i j)))).filter
    (fun s => decide (s.2.2 > 0))

end

end Foxes.InputStates
