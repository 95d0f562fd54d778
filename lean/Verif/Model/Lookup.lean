import Verif.Model.FieldData
import Verif.Model.PowerCurve
import Mathlib.Data.List.Lex
import Mathlib.Data.Finset.Sort
import Mathlib.Algebra.BigOperators.Group.List.Basic
/-
Model of table look-ups with any number of input variables: LookupTable (foxes/models/turbine_models/lookup_table.py), FromLookupTable
(foxes/models/turbine_types/lookup.py) and TableFactors (foxes/models/turbine_models/table_factors.py). Real numbers replace doubles.
Not modelled: NaN values, tables whose column names collide after renaming, interpolation methods other than the linear default,
extrapolation (`fill_value=None`), reading of files.
-/
namespace Foxes.Lookup
open Foxes.FieldData (along inside)
open Foxes.PowerCurve (yawFactor)

noncomputable section
open scoped Classical

/-- parameters of LookupTable (lookup_table.py:31-84): input and output variables, names of columns, default values of inputs, and the
fill value; `fill = none`: `bounds_error=True`, the default (line 218) -/
structure Cfg where
  ivars : List String
  ovars : List String
  varmap : List (String × String)
  dflt : String → Option ℝ
  fill : Option ℝ

/-- a row of the data frame: the values of its columns -/
abbrev Row := String → ℝ

/-- the column of a variable (lookup_table.py:135-136) -/
def colOf (cfg : Cfg) (v : String) : String := (cfg.varmap.lookup v).getD v

/-- the values of the input variables in a row (lookup_table.py:137) -/
def inputs (cfg : Cfg) (r : Row) : List ℝ := cfg.ivars.map (fun v => r (colOf cfg v))

/-- `data.sort_values(by=self.input_vars)` (lookup_table.py:138): inputs of the sorted rows -/
def sorted (cfg : Cfg) (rows : List Row) : List (List ℝ) := (rows.map (inputs cfg)).mergeSort (fun a b => decide (a ≤ b))

/-- pandas' `unique`: the values in the order of their first appearance -/
def firstSeen : List ℝ → List ℝ
  | [] => []
  | a :: l => a :: (firstSeen l).filter (fun b => decide (b ≠ a))

/-- `coords` (lookup_table.py:139-142) -/
def coords (cfg : Cfg) (rows : List Row) : List (List ℝ) :=
  (List.range cfg.ivars.length).map (fun k => firstSeen ((sorted cfg rows).map (fun i => i.getD k 0)))

/-- the levels of the index of pandas' pivot table: sorted values of each input (lookup_table.py:146) -/
def levels (cfg : Cfg) (rows : List Row) : List (List ℝ) :=
  (List.range cfg.ivars.length).map (fun k => (rows.map (fun r => (inputs cfg r).getD k 0)).toFinset.sort (fun a b => a ≤ b))

/-- the mean of a list of values, pandas' default for repeated index values -/
def mean (l : List ℝ) : ℝ := l.sum / l.length

/-- pandas' pivot table (lookup_table.py:146): the mean of the rows with given inputs -/
def meanAt (cfg : Cfg) (rows : List Row) (v : String) (ps : List ℝ) : ℝ :=
  mean ((rows.filter (fun r => decide (inputs cfg r = ps))).map (fun r => r (colOf cfg v)))

/-- the entry of the reshaped pivot matrix (lookup_table.py:147-152) at given positions along the levels -/
def pivot (cfg : Cfg) (rows : List Row) (v : String) (idx : List ℕ) : ℝ :=
  meanAt cfg rows v (List.zipWith (fun g i => g.getD i 0) (levels cfg rows) idx)

/-- the interpolation data (lookup_table.py:155): coordinates and values -/
structure Table where
  coords : List (List ℝ)
  val : String → List ℕ → ℝ

/-- `load_data` (lookup_table.py:124-162). `none`: AttributeError for a single input variable, as only a MultiIndex has `levshape`
(line 151), or ValueError if the rows do not fill the levels (the reshape in lines 150-152). -/
def load (cfg : Cfg) (rows : List Row) : Option Table :=
  if cfg.ivars.length ≤ 1 then none
  else if (rows.map (inputs cfg)).toFinset.card = ((levels cfg rows).map List.length).prod then some ⟨coords cfg rows, pivot cfg rows⟩
  else none

/-- multilinear interpolation in all coordinates (xarray's `interp`, lookup_table.py:221; scipy's `interpn`) -/
def multi : List (List ℝ) → List ℝ → (List ℕ → ℝ) → ℝ
  | g :: gs, p :: ps, f => along g p (fun j => multi gs ps (fun is => f (j :: is)))
  | _, _, f => f []

/-- scipy's bounds check for all coordinates -/
def insideAll (gs : List (List ℝ)) (ps : List ℝ) : Bool := (List.zipWith inside gs ps).all id

/-- the interpolated value at a point, `none`: ValueError (lookup_table.py:218-238) -/
def evalAt (cfg : Cfg) (T : Table) (v : String) (ps : List ℝ) : Option ℝ := if insideAll T.coords ps then some (multi T.coords ps (T.val v)) else cfg.fill

/-! ### Calculation: arrays are references, as in numpy -/

/-- the arrays in memory, by location; `E`: the pairs of state and turbine -/
abbrev Mem (E : Type) := ℕ → E → ℝ

/-- the contents of a Data object: the locations of its arrays -/
abbrev Env := String → Option ℕ

/-- the inputs of the look-up for one entry (lookup_table.py:192-202): from the farm data, or the default value. `none`: not found -/
def inputsAt {E : Type} (cfg : Cfg) (env : Env) (m : Mem E) (e : E) : Option (List ℝ) :=
  cfg.ivars.mapM (fun v => match env v with
    | some l => some (m l e)
    | none => cfg.dflt v)

/-- `odata[v]` for one entry -/
def odata {E : Type} (cfg : Cfg) (T : Table) (env : Env) (m : Mem E) (v : String) (e : E) : Option ℝ := (inputsAt cfg env m e).bind (evalAt cfg T v)

/-- `out[v] = fdata[v]; out[v][st_sel] = odata[v]` (lookup_table.py:241-244): the array of the farm data is changed in place -/
def store {E : Type} (env : Env) (sel : E → Bool) (val : String → E → ℝ) (m : Mem E) (v : String) : Mem E :=
  match env v with
  | some l => Function.update m l (fun e => if sel e then val v e else m l e)
  | none => m

/-- `LookupTable.calculate` (lookup_table.py:164-246). The returned arrays are the locations `env v` of the output variables. `none`:
a variable is missing or a value is out of bounds. -/
def calculate {E : Type} (cfg : Cfg) (T : Table) (env : Env) (sel : E → Bool) (m : Mem E) : Option (Mem E) :=
  if (∀ v ∈ cfg.ovars, (env v).isSome) ∧ ∀ e, sel e = true → ∀ v ∈ cfg.ovars, (odata cfg T env m v e).isSome then
    some (cfg.ovars.foldl (store env sel (fun v e => (odata cfg T env m v e).getD 0)) m)
  else none

/-! ### FromLookupTable -/

/-- parameters of FromLookupTable (lookup.py:33-110) -/
structure TypeCfg where
  ivars : List String
  varmap : List (String × String)
  dflt : String → Option ℝ
  rho : Option ℝ
  pCt : Option ℝ
  pP : Option ℝ
  wsCt : String
  wsP : String

/-- the LookupTable of the type (lookup.py:102-111) -/
def lut (t : TypeCfg) : Cfg := ⟨t.ivars, ["P", "CT"], t.varmap, t.dflt, some 0⟩

/-- the density factor (lookup.py:267-277) -/
def rhoFactor (t : TypeCfg) (rho : ℝ) : ℝ :=
  match t.rho with
  | none => 1
  | some r => (r / rho) ^ (1 / 3 : ℝ)

/-- where the air density is found, if it is needed (lookup.py:268, 276); `none`: KeyError -/
def rhoLoc (t : TypeCfg) (env : Env) : Option (Option ℕ) :=
  match t.rho with
  | none => some none
  | some _ => (env "RHO").map some

/-- the density factor of an entry -/
def rhoAt {E : Type} (t : TypeCfg) (m : Mem E) (e : E) : Option ℕ → ℝ
  | some l => rhoFactor t (m l e)
  | none => 1

/-- `fdata_lookup`: the input variables and the output variables only, as references to the same arrays (lookup.py:246-253) -/
def subEnv (t : TypeCfg) (env : Env) : Env := fun v => if v ∈ t.ivars ∨ v = "P" ∨ v = "CT" then env v else none

/-- `FromLookupTable.calculate` (lookup.py:220-316). `next`: a location from which on the memory is free, for the copies `rews2`, `rews3`.
Result: the memory afterwards and the locations of the returned `P` and `CT`. `none`: KeyError or ValueError. -/
def typeCalculate {E : Type} (t : TypeCfg) (T : Table) (env : Env) (sel : E → Bool) (next : ℕ) (m : Mem E) : Option (Mem E × ℕ × ℕ) :=
  if (∃ v ∈ t.ivars, env v = none) then none
  else
    match env "P", env "CT" with
    | some lP, some lCt =>
      if t.wsP ≠ "REWS" ∨ t.wsCt ≠ "REWS" ∨ t.rho.isSome ∨ ((env "YAWM").isSome ∧ (t.pP.isSome ∨ t.pCt.isSome)) then
        match env t.wsCt, env t.wsP, rhoLoc t env with
        | some lc, some lp, some lr =>
          let yawm := fun e => (env "YAWM").map (fun l => m l e)
          let rews2 := fun e => if sel e then m lc e * yawFactor t.pCt (1 / 2) (yawm e) else m lc e
          let rews3 := fun e => if sel e then m lp e * rhoAt t m e lr * yawFactor t.pP (1 / 3) (yawm e) else m lp e
          let m1 := Function.update (Function.update m next rews2) (next + 1) rews3
          match calculate (lut t) T (Function.update (subEnv t env) "REWS" (some next)) sel m1 with
          | none => none
          | some m2 =>
              -- `ct` is the array of the first call (lookup.py:309-310)
              match calculate (lut t) T (Function.update (subEnv t env) "REWS" (some (next + 1))) sel m2 with
              | none => none
              | some m3 => some (m3, lP, lCt)
        | _, _, _ => none
      else
        match calculate (lut t) T (subEnv t env) sel m with
        | none => none
        | some m1 => some (m1, lP, lCt)
    | _, _ => none

/-- the default nominal power (lookup.py:184-187): `self._lookup._data[col_P]`, where the dataset has variables named as in foxes, while
`col_P` is the name of the column. `none`: KeyError -/
def pNominal (t : TypeCfg) (rows : List Row) : Option ℝ :=
  let c := colOf (lut t) "P"
  if c = "P" ∨ c = "CT" ∨ c ∈ t.ivars then (rows.map (fun r => meanAt (lut t) rows c (inputs (lut t) r))).max? else none

/-! ### TableFactors -/

/-- how the controller selects entries (farm_controller.py:284-293): slices if all turbines have the model, otherwise an array, if all
turbines are calculated, or else the selection of states of one turbine -/
inductive Sel (E : Type)
  | slices
  | array (sel : E → Bool)
  | pair (sel : E → Bool)

/-- `np.sum(st_sel)` (table_factors.py:141): not possible for tuples that contain slices, or an array and a number -/
def countable {E : Type} : Sel E → Option (E → Bool)
  | .array s => some s
  | _ => none

/-- `fdata[v][st_sel] *= factors` (table_factors.py:165-166) -/
def scale {E : Type} (env : Env) (s : E → Bool) (f : E → ℝ) (m : Mem E) (v : String) : Mem E :=
  match env v with
  | some l => Function.update m l (fun e => if s e then m l e * f e else m l e)
  | none => m

/-- `TableFactors.calculate` (table_factors.py:117-168), default parameters of `interpn` (`bounds_error=True`): the arrays of the farm data
are multiplied in place -/
def factors {E : Type} (rowVar colVar : String) (ovars : List String) (rvals cvals : List ℝ) (data : ℕ → ℕ → ℝ) (sel : Sel E) (env : Env) (m : Mem E) :
    Option (Mem E) :=
  match countable sel, env rowVar, env colVar with
  | some s, some lr, some lc =>
      if (∀ v ∈ ovars, (env v).isSome) ∧ ∀ e, s e = true → insideAll [rvals, cvals] [m lr e, m lc e] = true then
        let f := fun e => multi [rvals, cvals] [m lr e, m lc e] (fun is => data (is.getD 0 0) (is.getD 1 0))
        some (ovars.foldl (scale env s f) m)
      else none
  | _, _, _ => none

end

end Foxes.Lookup
