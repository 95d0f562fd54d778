import Verif.Model.WindDir
import Mathlib.Data.List.Basic
/-
Model of MultiHeightStates (foxes/input/states/multi_height.py). Real numbers replace doubles. The table is a pandas data frame after the
selection of states (lines 218-221); one target point of one state is calculated. `ipars` is modelled for the option `bounds_error` only.
-/
namespace Foxes.MultiHeight
open Foxes.WindDir

noncomputable section
open scoped Classical

/-- the data frame: its columns, the number of states, the value in a row and column -/
structure Table where
  cols : List String
  N : ℕ
  val : ℕ → String → ℝ

/-- constructor parameters (multi_height.py:53-106). `hname` is the text of a height in a column name, `str(int(h))` or `str(h)`
(line 165). -/
structure Cfg where
  ovars : List String
  heights : List ℝ
  hname : ℝ → String
  var2col : String → Option String
  fixed : String → Option ℝ
  boundsError : Bool

inductive Err
  | key | bounds | dims | index
deriving DecidableEq

/-- `self.var2col.get(v, v)` (multi_height.py:157, 167) -/
def col (cfg : Cfg) (v : String) : String := (cfg.var2col v).getD v

/-- the column of a variable at a height (multi_height.py:165-167) -/
def hcol (cfg : Cfg) (v : String) (h : ℝ) : String := col cfg (col cfg v ++ "-" ++ cfg.hname h)

/-- the loop over heights in `_find_cols` (multi_height.py:164-173) -/
def heightCols (cfg : Cfg) (cols : List String) (v : String) : List ℝ → Except Err (List String)
  | [] => .ok []
  | h :: hs =>
      if hcol cfg v h ∈ cols then
        match heightCols cfg cols v hs with
        | .error e => .error e
        | .ok l => .ok (hcol cfg v h :: l)
      else .error .key

/-- `_find_cols` (multi_height.py:153-174) -/
def findCols (cfg : Cfg) (cols : List String) (v : String) : Except Err (List String) :=
  if (cfg.fixed v).isSome then .ok []
  else if col cfg v ∈ cols then .ok [col cfg v]
  else heightCols cfg cols v cfg.heights

/-- what `load_data` keeps: `vrs` the keys of `cmap`, `cols` the selected columns, `solo` variables with one column -/
structure Loaded where
  vrs : List String
  cols : List String
  solo : List (String × String)

/-- one iteration of the loop over output variables (multi_height.py:239-245) -/
def loadStep (cfg : Cfg) (tcols : List String) (acc : Loaded) (v : String) : Except Err Loaded :=
  if v = "weight" then .ok acc
  else
    match findCols cfg tcols v with
    | .error e => .error e
    | .ok [] => .ok acc
    | .ok [c] => .ok { acc with solo := acc.solo ++ [(v, c)] }
    | .ok cls => .ok { acc with vrs := if v ∈ acc.vrs then acc.vrs else acc.vrs ++ [v], cols := acc.cols ++ cls }

/-- the loop over output variables (multi_height.py:235-245) -/
def loadLoop (cfg : Cfg) (tcols : List String) : Loaded → List String → Except Err Loaded
  | acc, [] => .ok acc
  | acc, v :: vs =>
      match loadStep cfg tcols acc v with
      | .error e => .error e
      | .ok acc => loadLoop cfg tcols acc vs

/-- `load_data` (multi_height.py:226-271): the check of the weights column, the loop, and the check by xarray that the array of shape
`(N, n_vrs, n_hts)` fits its coordinates. -/
def load (cfg : Cfg) (tab : Table) : Except Err Loaded :=
  if col cfg "weight" ∉ tab.cols ∧ (cfg.var2col "weight").isSome then .error .key
  else
    match loadLoop cfg tab.cols ⟨[], [], []⟩ cfg.ovars with
    | .error e => .error e
    | .ok ld => if ld.cols.length / cfg.heights.length = ld.vrs.length then .ok ld else .error .dims

/-- element `(s, v, j)` of `data.to_numpy().reshape(self._N, n_vrs, n_hts)` (multi_height.py:246, 258-264): position in the flat array in
C order, hence row and column of the frame -/
def elem (cfg : Cfg) (tab : Table) (ld : Loaded) (s v j : ℕ) : ℝ :=
  let k := (s * ld.vrs.length + v) * cfg.heights.length + j
  tab.val (k / ld.cols.length) (ld.cols.getD (k % ld.cols.length) "")

/-- a row of the identity matrix `coeffs` (multi_height.py:422-423) -/
def unitVec (n i : ℕ) : List ℝ := (List.range n).map (fun j => if j = i then 1 else 0)

/-- `searchsorted(self.x, x_new)` (scipy interp1d): the number of leading samples below `z`. (For sorted samples, as scipy is told by
`assume_sorted=True`, multi_height.py:425; for unsorted ones the bisection of numpy may differ.) -/
def searchsorted (hs : List ℝ) (z : ℝ) : ℕ := (hs.takeWhile (fun h => decide (h < z))).length

/-- `x_new_indices.clip(1, len(self.x) - 1)` (scipy interp1d) -/
def upper (hs : List ℝ) (z : ℝ) : ℕ := min (max (searchsorted hs z) 1) (hs.length - 1)

/-- linear interpolation of scipy's interp1d of the identity matrix: `slope * (x_new - x_lo) + y_lo` -/
def interpVec (hs : List ℝ) (z : ℝ) : List ℝ :=
  let hi := upper hs z
  let lo := hi - 1
  (List.range hs.length).map (fun j =>
    ((unitVec hs.length hi).getD j 0 - (unitVec hs.length lo).getD j 0) / (hs.getD hi 0 - hs.getD lo 0) * (z - hs.getD lo 0)
      + (unitVec hs.length lo).getD j 0)

/-- `intp(z)` (multi_height.py:422-439): weights of the heights at height `z`; below and above the heights the error or the fill value -/
def weightsAt (cfg : Cfg) (z : ℝ) : Except Err (List ℝ) :=
  match cfg.heights.head?, cfg.heights.getLast? with
  | some a, some b =>
      if z < a then (if cfg.boundsError then .error .bounds else .ok (unitVec cfg.heights.length 0))
      else if b < z then (if cfg.boundsError then .error .bounds else .ok (unitVec cfg.heights.length (cfg.heights.length - 1)))
      else .ok (interpVec cfg.heights z)
  | _, _ => .error .index

/-- the contraction over heights of the two calls of `einsum` (multi_height.py:459-466) -/
def contract (w : List ℝ) (f : ℕ → ℝ) : ℝ := ((List.range w.length).map (fun j => f j * w.getD j 0)).sum

/-- wind speed used for the wind vector at height number `j` (multi_height.py:444-458) -/
def wsAt (cfg : Cfg) (tab : Table) (ld : Loaded) (s : ℕ) : Except Err (ℕ → ℝ) :=
  if "WS" ∈ ld.vrs then .ok (fun j => elem cfg tab ld s (ld.vrs.idxOf "WS") j)
  else
    match cfg.fixed "WS", ld.solo.lookup "WS" with
    | some x, _ => .ok (fun _ => x)
    | none, some c => .ok (fun _ => tab.val s c)
    | none, none => .error .key

/-- `uv` (multi_height.py:441-462): `none` if there is no wind direction at heights -/
def windVec (cfg : Cfg) (tab : Table) (ld : Loaded) (s : ℕ) (w : List ℝ) : Except Err (Option (ℝ × ℝ)) :=
  if "WD" ∈ ld.vrs then
    match wsAt cfg tab ld s with
    | .error e => .error e
    | .ok ws =>
        let uvh := fun j => wd2uv (elem cfg tab ld s (ld.vrs.idxOf "WD") j) (ws j)
        .ok (some (contract w (fun j => (uvh j).1), contract w (fun j => (uvh j).2)))
  else .ok none

/-- the value of one output variable (multi_height.py:470-485) -/
def resultOf (cfg : Cfg) (tab : Table) (ld : Loaded) (s : ℕ) (w : List ℝ) (uv : Option (ℝ × ℝ)) (v : String) : Except Err ℝ :=
  match uv, decide (v = "WD"), decide (v = "WS") with
  | some uv, true, _ => .ok (uv2wd uv)
  | some uv, _, true => .ok √(uv.1 ^ 2 + uv.2 ^ 2)
  | _, _, _ =>
      match cfg.fixed v, ld.solo.lookup v with
      | some x, _ => .ok x
      | none, some c => .ok (tab.val s c)
      | none, none =>
          if v ∈ ld.vrs then .ok (contract w (fun j => elem cfg tab ld s (ld.vrs.idxOf v) j)) else .error .index

/-- the loop that fills `results` (multi_height.py:468-485) -/
def collect (f : String → Except Err ℝ) : List String → Except Err (List (String × ℝ))
  | [] => .ok []
  | v :: vs =>
      match f v with
      | .error e => .error e
      | .ok x =>
          match collect f vs with
          | .error e => .error e
          | .ok l => .ok ((v, x) :: l)

/-- `calculate` (multi_height.py:413-496) for state `s` and a target at height `z`: the results. -/
def calculate (cfg : Cfg) (tab : Table) (ld : Loaded) (s : ℕ) (z : ℝ) : Except Err (List (String × ℝ)) :=
  match weightsAt cfg z with
  | .error e => .error e
  | .ok w =>
      match windVec cfg tab ld s w with
      | .error e => .error e
      | .ok uv => collect (resultOf cfg tab ld s w uv) cfg.ovars

/-- the weight of a state (multi_height.py:226-233, 265-266, 488-494) -/
def weight (cfg : Cfg) (tab : Table) (s : ℕ) : ℝ :=
  if col cfg "weight" ∈ tab.cols then tab.val s (col cfg "weight") else 1 / tab.N

/-- loading and calculation -/
def run (cfg : Cfg) (tab : Table) (s : ℕ) (z : ℝ) : Except Err (List (String × ℝ)) :=
  match load cfg tab with
  | .error e => .error e
  | .ok ld => calculate cfg tab ld s z

end

/-! ### MultiHeightNCStates -/

/-- dimensions of a data variable of the dataset, compared with `(state_coord,)` and `(state_coord, h_coord)` -/
inductive NcDims
  | state | stateHeight | other
deriving DecidableEq

/-- where `MultiHeightNCStates.load_data` finds a variable -/
inductive NcSource
  | fixed | solo | heights
deriving DecidableEq

/-- the treatment of one output variable (multi_height.py:655-673, 698-702). `attrs`, `vars`: names of the attributes of the dataset and
of its data variables with dimensions. A variable found in the attributes becomes `np.full(self._N, data.attrs)`, an array filled with
the dictionary of all attributes, and `astype(float)` raises for it. `none`: an exception. -/
def ncSource (var2col : String → Option String) (fixed : List String) (attrs : List String) (vars : List (String × NcDims)) (v : String) :
    Option NcSource :=
  if v ∈ fixed ∨ v = "weight" then some .fixed
  else if (var2col v).getD v ∈ attrs then none
  else
    match vars.lookup ((var2col v).getD v) with
    | some .state => some .solo
    | some .stateHeight => some .heights
    | some .other => none
    | none => none

end Foxes.MultiHeight
