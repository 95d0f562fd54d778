import Verif.Model.WindDir
import Mathlib.Algebra.BigOperators.Group.Finset.Basic
import Mathlib.Algebra.BigOperators.Intervals
/-
Model of FieldDataNC (foxes/input/states/field_data_nc.py): ambient states on a regular grid. Real numbers replace doubles; one target point
of one state is calculated; the grids are increasing (scipy raises otherwise, or reverses decreasing ones). Not modelled: interpolation of
NaN values, repeated output variables, `interpn` options other than `bounds_error`, reading of files other than the choice of states.
-/
namespace Foxes.FieldData
open Foxes.WindDir

noncomputable section
open scoped Classical

/-- dimensions of the data: states, height, y, x -/
inductive Axis
  | s | h | y | x
deriving DecidableEq

/-- a variable of the dataset: its dimensions and its values by index along these dimensions -/
structure NcVar where
  dims : List Axis
  val : List ℕ → ℝ

/-- the dataset: variables and coordinates -/
structure Ds where
  vars : String → Option NcVar
  h : List ℝ
  y : List ℝ
  x : List ℝ

/-- constructor parameters (field_data_nc.py:96-187) -/
structure Cfg where
  ovars : List String
  ncvar : String → String
  fixed : String → Option ℝ
  boundsError : Bool

/-- keys of `var2ncvar` (field_data_nc.py:180-182) -/
def fromData (cfg : Cfg) : List String := cfg.ovars.filter (fun v => (cfg.fixed v).isNone)

/-- one step of the loop over `var2ncvar` (field_data_nc.py:469-471) -/
def addKey (d : List (String × ℕ)) (v : String) : List (String × ℕ) := if v ∈ d.map Prod.fst then d else d ++ [(v, d.length)]

/-- `_dkys` (field_data_nc.py:464-471): the slot of each variable in the data array -/
def dkys (cfg : Cfg) : List (String × ℕ) :=
  let d0 := if "WS" ∈ cfg.ovars then [("WD", 0)] else []
  let d1 := if "WS" ∈ fromData cfg then d0 ++ [("WS", 1)] else d0
  (fromData cfg).foldl addKey d1

/-- whether a coordinate is used by a data variable (field_data_nc.py:210-218) -/
def present (cfg : Cfg) (ds : Ds) (a : Axis) : Prop := ∃ v ∈ fromData cfg, ∃ u, ds.vars (cfg.ncvar v) = some u ∧ a ∈ u.dims

/-- coordinate values (field_data_nc.py:220-227) -/
def grid (cfg : Cfg) (ds : Ds) (a : Axis) : List ℝ :=
  if present cfg ds a then
    match a with
    | .s => []
    | .h => ds.h
    | .y => ds.y
    | .x => ds.x
  else [0]

/-- position of a variable in the array of dimensions (state, height, y, x) (field_data_nc.py:229-281); `none`: wrong coordinates -/
def place (u : NcVar) (s h y x : ℕ) : Option ℝ :=
  if u.dims = [.s, .h, .y, .x] then some (u.val [s, h, y, x])
  else if u.dims = [.s, .h, .x, .y] then some (u.val [s, h, x, y])
  else if u.dims = [.s, .y, .x] then some (u.val [s, y, x])
  else if u.dims = [.s, .x, .y] then some (u.val [s, x, y])
  else if u.dims = [.s, .h] then some (u.val [s, h])
  else if u.dims = [.s] then some (u.val [s])
  else none

/-- the data array, by slot and position -/
abbrev Arr := ℕ → ℕ → ℕ → ℕ → ℕ → ℝ

/-- `data[..., k] = f` -/
def write (d : Arr) (k : ℕ) (f : ℕ → ℕ → ℕ → ℕ → ℝ) : Arr := fun j => if j = k then f else d j

/-- one variable of the loops in `_get_data` (field_data_nc.py:261-281), where `n = len(self.var2ncvar)` is the number of slots
(lines 258-260). (The code groups the variables by dimensions.) `none`: KeyError, ValueError or IndexError. -/
def putVar (cfg : Cfg) (ds : Ds) (n : ℕ) (d : Arr) (v : String) : Option Arr :=
  match ds.vars (cfg.ncvar v), (dkys cfg).lookup v with
  | some u, some k =>
      if (place u 0 0 0 0).isSome ∧ k < n then some (write d k (fun s h y x => (place u s h y x).getD 0)) else none
  | _, _ => none

/-- the loops over variables -/
def putVars (cfg : Cfg) (ds : Ds) (n : ℕ) : Arr → List String → Option Arr
  | d, [] => some d
  | d, v :: vs =>
      match putVar cfg ds n d v with
      | none => none
      | some d => putVars cfg ds n d vs

/-- the data array of `_get_data` (field_data_nc.py:258-286) -/
def getData (cfg : Cfg) (ds : Ds) : Option Arr :=
  let n := (fromData cfg).length
  match putVars cfg ds n (fun _ _ _ _ _ => 0) (fromData cfg) with
  | none => none
  | some d =>
      match cfg.fixed "WD", (dkys cfg).lookup "WD" with
      | none, _ => some d
      | some x, some k => if k < n then some (write d k (fun _ _ _ _ => x)) else none
      | some _, none => none

/-- whether wind vectors are interpolated (field_data_nc.py:726, 824) -/
def wind (cfg : Cfg) : Prop := "WD" ∈ cfg.ovars ∧ "WS" ∈ cfg.ovars

/-- `data[..., wdwsi] = wd2uv(wd, ws, axis=-1)` (field_data_nc.py:726-735); `none`: KeyError, in particular if the wind speed is fixed
(line 733) -/
def toUV (cfg : Cfg) (d : Arr) : Option Arr :=
  if wind cfg then
    match (dkys cfg).lookup "WD", (dkys cfg).lookup "WS" with
    | some i, some j =>
        some (write (write d i (fun s h y x => (wd2uv (d i s h y x) (d j s h y x)).1)) j (fun s h y x => (wd2uv (d i s h y x) (d j s h y x)).2))
    | _, _ => none
  else some d

/-- scipy's search of the grid interval: the last grid value not above `p`, limited to `0 .. n - 2` -/
def cell (g : List ℝ) (p : ℝ) : ℕ := min ((g.takeWhile (fun a => decide (a ≤ p))).length - 1) (g.length - 2)

/-- weight of grid value number `j` in scipy's linear `interpn`; axes of length one have no interpolation -/
def axisWeight (g : List ℝ) (p : ℝ) (j : ℕ) : ℝ :=
  if g.length = 1 then (if j = 0 then 1 else 0)
  else
    let i := cell g p
    let t := (p - g.getD i 0) / (g.getD (i + 1) 0 - g.getD i 0)
    (if j = i then 1 - t else 0) + (if j = i + 1 then t else 0)

/-- interpolation along one axis -/
def along (g : List ℝ) (p : ℝ) (f : ℕ → ℝ) : ℝ := ∑ j ∈ Finset.range g.length, axisWeight g p j * f j

/-- `sts = np.arange(n_states)` as a grid (field_data_nc.py:738, 745) -/
def stateGrid (n : ℕ) : List ℝ := List.map (fun i : ℕ => (i : ℝ)) (List.range n)

/-- `interpn(gvars, data, pts)` (field_data_nc.py:773-777) for one slot: the weights of the four axes multiply -/
def interpn (n : ℕ) (gh gy gx : List ℝ) (f : ℕ → ℕ → ℕ → ℕ → ℝ) (ps ph py px : ℝ) : ℝ :=
  along (stateGrid n) ps (fun s => along gh ph (fun h => along gy py (fun y => along gx px (fun x => f s h y x))))

/-- scipy's bounds check along one axis -/
def inside (g : List ℝ) (p : ℝ) : Bool :=
  match g.head?, g.getLast? with
  | some a, some b => decide (a ≤ p) && decide (p ≤ b)
  | _, _ => false

/-- target coordinate, reset if the axis is not used (field_data_nc.py:747-750) -/
def coord (cfg : Cfg) (ds : Ds) (a : Axis) (p : ℝ) : ℝ := if present cfg ds a then p else 0

/-- `calculate` (field_data_nc.py:644-836) for a data array with `n` states: output variables of state `s` at the point `(px, py, pz)`;
`none`: an exception -/
def calculate (cfg : Cfg) (ds : Ds) (n : ℕ) (data : Arr) (s : ℕ) (px py pz : ℝ) : Option (String → Option ℝ) :=
  match toUV cfg data with
  | none => none
  | some d =>
      let gh := grid cfg ds .h; let gy := grid cfg ds .y; let gx := grid cfg ds .x
      let ph := coord cfg ds .h pz; let qy := coord cfg ds .y py; let qx := coord cfg ds .x px
      if cfg.boundsError ∧ ¬ (inside gh ph ∧ inside gy qy ∧ inside gx qx) then none
      else
        let r := fun k => interpn n gh gy gx (d k) (s : ℝ) ph qy qx
        let i := ((dkys cfg).lookup "WD").getD 0
        let j := ((dkys cfg).lookup "WS").getD 0
        some (fun v =>
          if v ∉ cfg.ovars ∨ v = "weight" then none
          else if wind cfg ∧ v = "WS" then some √((r i) ^ 2 + (r j) ^ 2)
          else if wind cfg ∧ v = "WD" then some (uv2wd (r i, r j))
          else
            match (dkys cfg).lookup v with
            | some k => some (r k)
            | none => cfg.fixed v)

/-- loading and calculation in the modes `preload` and `lazy`: `dsAll` are all states; the chunk holds `n` states -/
def run (cfg : Cfg) (ds : Ds) (n s : ℕ) (px py pz : ℝ) : Option (String → Option ℝ) :=
  match getData cfg ds with
  | none => none
  | some d => calculate cfg ds n d s px py pz

/-! ### Choice of states and points when reading -/

/-- the loop over files in the mode `fly` (field_data_nc.py:681-707): each file holds a list of states; `i0`, `i1` the range of states
of the chunk, `j0` the number of states in the files before. Result: what was read, and the final `i0`. -/
def flyLoop {α : Type} (i0 i1 j0 : ℕ) : List (List α) → List α × ℕ
  | [] => ([], i0)
  | f :: fs =>
      if i0 < j0 then ([], i0)
      else
        let j1 := j0 + f.length
        if i0 < j1 then
          let a := i0 - j0
          let b := min i1 j1 - j0
          let r := flyLoop (i0 + (b - a)) i1 j1 fs
          ((f.drop a).take (b - a) ++ r.1, r.2)
        else flyLoop i0 i1 j1 fs

/-- `i0 = mdata.states_i0(counter=True)`, the loop, and the assertion (field_data_nc.py:679-711); `none`: AssertionError -/
def flyRead {α : Type} (files : List (List α)) (i0 n : ℕ) : Option (List α) :=
  let r := flyLoop i0 (i0 + n) 0 files
  if r.2 = i0 + n then some r.1 else none

/-- the states of a chunk in the mode `lazy` (field_data_nc.py:666-669), after concatenation of the files -/
def lazyRead {α : Type} (files : List (List α)) (i0 n : ℕ) : List α := (files.flatten.drop i0).take n

/-- the selected range along x and y (field_data_nc.py:380-393), from the bounds of the farm -/
def selRange (pmin pmax : ℝ × ℝ) : (ℝ × ℝ) × (ℝ × ℝ) := ((pmin.1, pmax.2), (pmin.2, pmax.2))

/-- `data.sel(x=slice(lo, hi))` for increasing coordinates (field_data_nc.py:38-39) -/
def selGrid (g : List ℝ) (r : ℝ × ℝ) : List ℝ := g.filter (fun a => decide (r.1 ≤ a) && decide (a ≤ r.2))

/-- `xy_min, xy_max` with an extra space in m (wind_farm.py:122-145, field_data_nc.py:381-383) -/
def farmBounds (xy : List (ℝ × ℝ)) (extra : ℝ) : Option ((ℝ × ℝ) × (ℝ × ℝ)) :=
  match (xy.map Prod.fst).min?, (xy.map Prod.snd).min?, (xy.map Prod.fst).max?, (xy.map Prod.snd).max? with
  | some a, some b, some c, some d => some ((a - extra, b - extra), (c + extra, d + extra))
  | _, _, _, _ => none

/-- the data source: files, or a dataset given by the user with a number of states -/
inductive Source
  | files (n : List ℕ)
  | dataset (n : ℕ)

/-- `size()` after `load_data` (field_data_nc.py:184, 355-461, 588): `_N` is set for files only; `none` is `None` -/
def size : Source → Option ℕ
  | .files n => some n.sum
  | .dataset _ => none

end

end Foxes.FieldData
