import Verif.Model.TurbineModels
/-
Model of `foxes/models/turbine_models/sector_management.py` with any number of range variables and target variables, the loading of the table, and the
repeated calls within a calculation (the model is in the list of a turbine, and is called in each pass of the downwind loop, cf. C79).

Simplifications: real numbers, one state (states do not influence each other); turbine numbers are those of existing array positions; reading of files is not
modelled.
-/
namespace Foxes.Sectors

open Foxes.TurbineModels

noncomputable section

variable {V : Type} [DecidableEq V]

/-- a row of the table after loading: turbine number, limits for each range variable, values for each target variable -/
structure Rule where
  turbine : ℕ
  ranges : List (ℝ × ℝ)
  values : List ℝ

/-- a row of the table: as `Rule`, and the turbine's name -/
structure TableRow where
  index : Option ℕ
  name : Option String
  ranges : List (ℝ × ℝ)
  values : List ℝ

/-- limits of one variable after loading (sector_management.py:145-147): `np.mod` if there is a period -/
def loadRange : Option ℝ → ℝ × ℝ → ℝ × ℝ
  | none, r => r
  | some p, r => (Foxes.WindDir.npMod r.1 p, Foxes.WindDir.npMod r.2 p)

/-- the turbine of a row (sector_management.py:97-109): by number or by name, the first one of that name; `none`: ValueError or missing column -/
def rowTurbine (byName : Bool) (tnames : List String) (r : TableRow) : Option ℕ :=
  if byName then r.name.bind fun n => tnames.findIdx? (· == n) else r.index

/-- `initialize` (sector_management.py:75-147): `colInds`, `colNames`: whether these columns are specified; `none`: raises -/
def load (colInds colNames : Bool) (tnames : List String) (periods : List (Option ℝ)) (rows : List TableRow) : Option (List Rule) :=
  if colInds = colNames then none
  else rows.mapM fun r => (rowTurbine colNames tnames r).map fun t => ⟨t, List.zipWith loadRange periods r.ranges, r.values⟩

/-- the test for one variable (sector_management.py:203-225), with the loaded limits -/
def inRange : Option ℝ → ℝ × ℝ → ℝ → Prop
  | some p, r, d => inSector p ⟨0, r.1, r.2, 0⟩ d
  | none, r, d => d ≥ r.1 ∧ d < r.2

/-- `rsel` of a row (sector_management.py:202-225): the tests of all range variables, values at the row's turbine number -/
def matchesRule (rvars : List (V × Option ℝ)) (fd : V → ℕ → ℝ) (r : Rule) : Prop :=
  ∀ x ∈ rvars.zip r.ranges, inRange x.1.2 x.2 (fd x.1.1 r.turbine)

open scoped Classical in
/-- writing of one target variable (sector_management.py:228-232): all rows that match, one after the other -/
def setTarget (sel : Rule → Prop) (rules : List Rule) (vi : ℕ) (a : ℕ → ℝ) : ℕ → ℝ := fun i =>
  rules.foldl (fun x r => if r.turbine = i ∧ sel r then r.values.getD vi x else x) (a i)

/-- `SectorManagement.calculate` (sector_management.py:192-234): which rows match is found out first, then all targets are set. The selection
of states and turbines is not used. -/
def calculate (rvars : List (V × Option ℝ)) (tvars : List V) (rules : List Rule) (fd : V → ℕ → ℝ) : V → ℕ → ℝ :=
  tvars.zipIdx.foldl (fun g x => Function.update g x.1 (setTarget (matchesRule rvars fd) rules x.2 (g x.1))) fd

/-- the passes of a calculation (farm_wakes_calc.py, cf. C79): in each, wakes and other models change the farm data, then the model is called -/
def passes (rvars : List (V × Option ℝ)) (tvars : List V) (rules : List Rule) (others : List ((V → ℕ → ℝ) → V → ℕ → ℝ)) (fd : V → ℕ → ℝ) : V → ℕ → ℝ :=
  others.foldl (fun fd f => calculate rvars tvars rules (f fd)) fd

end

end Foxes.Sectors
