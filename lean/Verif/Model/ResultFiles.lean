import Verif.Model.TurbineFiles
import Mathlib.Data.List.Sort
/-
Results in files: the formats of files (foxes/utils/pandas_utils.py), the formats of columns (foxes/output/output.py) and the writer of farm
results (foxes/output/results_writer.py).
-/
namespace Foxes.ResultFiles
open Foxes.Factory

/-! ### Formats of files -/

/-- what reads or writes the file -/
inductive Fmt where
  | csv | h5 | nc
deriving DecidableEq

/-- the exceptions that occur; `unbound` is UnboundLocalError -/
inductive Err where
  | keyError | attributeError | typeError | valueError | indexError | unbound
deriving DecidableEq

/-- `".".join(fname.split(".")[1:])` (pandas_utils.py:101, 155) for the last component of the path -/
def sfx (name : Str) : Str := Foxes.TurbineFiles.join '.' (pySplit '.' name).tail

/-- the chain of tests (pandas_utils.py:104-111, 158-163) -/
def fmtOf (s : Str) : Option Fmt :=
  if s.take 3 = "csv".toList then some .csv
  else if s = "h5".toList then some .h5
  else if s = "nc".toList then some .nc
  else none

/-- dictionaries of keyword parameters -/
abbrev Kw := String → Option ℕ

/-- `pars.update(kwargs)` -/
def upd (a b : Kw) : Kw := fun k => match b k with | some v => some v | none => a k

/-- `read_file` (pandas_utils.py:82-120): what reads the file, with which parameters. The default parameters of all formats are empty, they
are copied. -/
def readFile (name : Str) (kwargs : Kw) : Except Err (Fmt × Kw) :=
  match fmtOf (sfx name) with
  | some f => .ok (f, upd (fun _ => none) kwargs)
  | none => .error .keyError

/-- the parameters of `DataFrame.to_csv` and `DataFrame.to_hdf` (pandas) besides the file -/
def accepts : Fmt → List String
  | .csv => ["sep", "na_rep", "float_format", "columns", "header", "index", "index_label", "mode", "encoding", "compression", "quoting", "quotechar",
      "lineterminator", "chunksize", "date_format", "doublequote", "escapechar", "decimal", "errors", "storage_options"]
  | .h5 => ["key", "mode", "complevel", "complib", "append", "format", "index", "min_itemsize", "nan_rep", "dropna", "data_columns", "errors", "encoding"]
  | .nc => []

open scoped Classical in
/-- the call of the writing function of pandas: unknown parameters raise, `to_hdf` needs `key` -/
noncomputable def pandasWrite (f : Fmt) (p : Kw) : Except Err (Fmt × Kw) :=
  if (∀ k, p k ≠ none → k ∈ accepts f) ∧ (f = .h5 → p "key" ≠ none) then .ok (f, p) else .error .typeError

/-- `write_file` after formatting (pandas_utils.py:153-175). The loop stops in its first round, so `fmt` is always `csv`; `glob` is the
dictionary `DEFAULT_WRITING_PARAMETERS["csv"]` of the class, which is not copied. Data frames have no `to_netcdf`. -/
noncomputable def writeFile (name : Str) (kwargs : Kw) (glob : Kw) : Except Err (Fmt × Kw) × Kw :=
  match fmtOf (sfx name) with
  | some .nc => (.error .attributeError, glob)
  | some f => (pandasWrite f (upd glob kwargs), upd glob kwargs)
  | none => (.error .keyError, glob)

/-- several calls of `write_file` in one process -/
noncomputable def writes : List (Str × Kw) → Kw → List (Except Err (Fmt × Kw)) × Kw
  | [], g => ([], g)
  | (n, k) :: ws, g =>
      let r := writeFile n k g
      let q := writes ws r.2
      (r.1 :: q.1, q.2)

/-! ### Formats of columns -/

/-- the number of digits of column `c`: `Output.write` (output.py:85-92), then `write_file` (pandas_utils.py:141-149). `dflt` is
`DEFAULT_FORMAT_DICT`. Formats are numbers of digits after the point here. -/
def formatOf (dflt : String → Option ℕ) (col2var : String → Option String) (user : String → Option ℕ) (c : String) : Option ℕ :=
  let v := (col2var c).getD c
  let own := match user v with
    | some d => some d
    | none => dflt v
  match own with
  | some d => some d
  | none => dflt c

/-- a floating point number, exact: sign and absolute value, so that -0.0 is there too -/
structure Num where
  neg : Bool
  mag : ℚ

/-- round half to even of a non-negative number -/
def roundEven (q : ℚ) : ℕ :=
  let m := q.floor.toNat
  let r := q - m
  if r < 1 / 2 then m else if 1 / 2 < r then m + 1 else if m % 2 = 0 then m else m + 1

/-- zeros in front, up to `d` digits -/
def pad (d : ℕ) (s : Str) : Str := List.replicate (d - s.length) '0' ++ s

/-- `"{:.df}".format(x)` for d > 0 (pandas_utils.py:148) -/
def fixed (d : ℕ) (x : Num) : Str :=
  let m := roundEven (x.mag * 10 ^ d)
  (if x.neg then ['-'] else []) ++ (Nat.repr (m / 10 ^ d)).toList ++ '.' :: pad d (Nat.repr (m % 10 ^ d)).toList

/-- `float(s)` for such texts -/
def parse (s : Str) : Option Num :=
  match s with
  | '-' :: t => match pyFloat t with | .ok q => some ⟨true, q⟩ | .error _ => none
  | t => match pyFloat t with | .ok q => some ⟨false, q⟩ | .error _ => none

/-! ### Farm results -/

/-- a data frame with cells of type `α`: the levels of its index, or the default index of numbers, and the columns -/
structure Frame (α : Type) where
  rows : ℕ
  idx : Option (List (String × List α))
  cols : List (String × List α)

variable {α : Type}

/-- the names of the columns -/
def names (F : Frame α) : List String := F.cols.map Prod.fst

/-- `df.reset_index()` (pandas): the levels become the first columns; a default index becomes `index`, or `level_0`; existing names raise.
`num` are the integers. Simplified: an exception leaves the frame as it was. -/
def resetIndex (num : ℕ → α) (F : Frame α) : Except Err (Frame α) :=
  let lev := match F.idx with
    | some l => l
    | none => [(if "index" ∈ names F then "level_0" else "index", (List.range F.rows).map num)]
  if ∃ l ∈ lev, l.1 ∈ names F then .error .valueError else .ok { rows := F.rows, idx := none, cols := lev ++ F.cols }

/-- `df.set_index(keys)` (pandas) -/
def setIndex (keys : List String) (F : Frame α) : Except Err (Frame α) :=
  match keys.mapM (fun k => (F.cols.lookup k).map (fun c => (k, c))) with
  | some l => .ok { rows := F.rows, idx := some l, cols := F.cols.filter (fun p => !keys.contains p.1) }
  | none => .error .keyError

/-- the variables asked for: all, with new names, or a list -/
inductive Vars where
  | all
  | dict (d : List (String × String))
  | list (l : List String)

/-- the names of the levels of the index -/
def levels (F : Frame α) : List String := (F.idx.getD []).map Prod.fst

/-- `df[list(cols)]` -/
def select (cs : List String) (F : Frame α) : Except Err (Frame α) :=
  match cs.mapM (fun k => (F.cols.lookup k).map (fun c => (k, c))) with
  | some l => .ok { F with cols := l }
  | none => .error .keyError

/-- new names of columns -/
def renameCols (d : List (String × String)) (F : Frame α) : Frame α := { F with cols := F.cols.map (fun p => ((d.lookup p.1).getD p.1, p.2)) }

/-- new names of levels -/
def renameLevels (d : List (String × String)) (F : Frame α) : Frame α := { F with idx := F.idx.map (List.map (fun p => ((d.lookup p.1).getD p.1, p.2))) }

/-- `_get_data_vars` (results_writer.py:52-69): the frame, and if it is the object `self.data` itself -/
def getVars (v : Vars) (F : Frame α) : Except Err (Frame α × Bool) :=
  match v with
  | .all => .ok (F, true)
  | .dict d =>
      let inds := d.filter (fun p => (levels F).contains p.1)
      let rest := d.filter (fun p => !(levels F).contains p.1)
      if rest = [] then .ok (if inds = [] then (F, true) else (renameLevels inds F, false))
      else (select (rest.map Prod.fst) F).map (fun G => (renameLevels inds (renameCols rest G), false))
  | .list l => (select l F).map (fun G => (G, false))

/-- what is left of the user's dictionary afterwards (results_writer.py:58-60) -/
def dictAfter (d : List (String × String)) (F : Frame α) : List (String × String) := d.filter (fun p => !(levels F).contains p.1)

/-- the functions of cells: the integers, `f"{t:04d}"` and `f"{t}"` -/
structure Ops (α : Type) where
  num : ℕ → α
  pad4 : α → String
  str : α → String

/-- cells that are natural numbers, with `f"{t:04d}"` (results_writer.py:117) -/
def natOps : Ops ℕ := ⟨id, fun n => String.ofList (Foxes.ResultFiles.pad 4 (Nat.repr n).toList), Nat.repr⟩

/-- the different values in the order of their first occurrence: `unique()`, and the keys of a dictionary -/
def uniq [DecidableEq α] : List α → List α
  | [] => []
  | a :: l => a :: (uniq l).filter (· ≠ a)

/-- the rows of a column at which another one has a value -/
def rowsWith [DecidableEq α] (key : List α) (t : α) (c : List α) : List α := ((List.zip key c).filter (fun p => p.1 = t)).map Prod.snd

/-- the table of one variable over states and turbines (results_writer.py:111-133) for the frame after `reset_index`. The second
`reset_index` adds a column that is not used; it raises if both `index` and `level_0` are columns. -/
def table [LinearOrder α] (o : Ops α) (byName : Bool) (vs : List String) (G : Frame α) : Except Err (Frame α) :=
  match vs with
  | [v] =>
      match G.cols.lookup (if byName then "tname" else "turbine") with
      | none => .error .keyError
      | some key =>
          if "index" ∈ names G ∧ "level_0" ∈ names G then .error .valueError
          else match G.cols.lookup "state" with
            | none => .error .keyError
            | some st =>
                let ts := (uniq key).insertionSort (· ≤ ·)
                match (if v = "state" then none else G.cols.lookup v), ts with
                | _, [] => .error .unbound
                | some c, t0 :: _ =>
                    if ∀ t ∈ ts, (rowsWith key t c).length = (rowsWith key t0 st).length then
                      .ok { rows := (rowsWith key t0 st).length, idx := some [("state", rowsWith key t0 st)],
                            cols := (uniq key).map (fun t => (v ++ (if byName then "_" ++ o.str t else "_T" ++ o.pad4 t), rowsWith key t c)) }
                    else .error .valueError
                | _, _ => .error .keyError
  | _ => .error .valueError

/-- `write_csv` (results_writer.py:71-136) without the writing itself: the frame that is written, and `self.data` afterwards -/
def writeCsv [LinearOrder α] (o : Ops α) (v : Vars) (byName tab : Bool) (F : Frame α) : Except Err (Frame α) × Frame α :=
  match getVars v F with
  | .error e => (.error e, F)
  | .ok (G, same) =>
      match resetIndex o.num G with
      | .error e => (.error e, F)
      | .ok R =>
          if tab then (table o byName (names G) R, if same then R else F)
          else match setIndex ["state", if byName then "tname" else "turbine"] R with
            | .error e => (.error e, if same then R else F)
            | .ok Q => (.ok Q, if same then Q else F)

/-- a dataset over states and turbines -/
structure Ds (α : Type) where
  states : List α
  turbines : Option (List α)
  vars : List (String × List (List α))

/-- `reshape(n, m)` of a flat array with `n * m` entries -/
def reshape (n m : ℕ) (c : List α) : List (List α) := (List.range n).map (fun i => (c.drop (i * m)).take m)

/-- `write_nc` (results_writer.py:138-186) without the writing itself. `self.data.loc[idx[0, :], "tname"]` needs a row with state label 0. -/
def writeNc [DecidableEq α] (o : Ops α) (v : Vars) (byName : Bool) (F : Frame α) : Except Err (Ds α) :=
  match getVars v F with
  | .error e => .error e
  | .ok (G, _) =>
      match G.idx with
      | some [(_, st), (_, tu)] =>
          let ns := (uniq st).length
          let nt := (uniq tu).length
          let coords : Except Err (Option (List α)) :=
            if byName then
              match F.cols.lookup "tname", F.idx with
              | some tn, some [(_, st0), _] =>
                  if o.num 0 ∈ st0 then
                    (if (rowsWith st0 (o.num 0) tn).length = nt then .ok (some (rowsWith st0 (o.num 0) tn)) else .error .valueError)
                  else .error .keyError
              | _, _ => .error .keyError
            else .ok none
          match coords with
          | .error e => .error e
          | .ok t => if G.cols ≠ [] ∧ G.rows ≠ ns * nt then .error .valueError
              else .ok { states := uniq st, turbines := t, vars := G.cols.map (fun p => (p.1, reshape ns nt p.2)) }
      | _ => .error .indexError

/-- the farm results: labels of states, names of turbines, variables over states and turbines -/
structure Results (α : Type) where
  states : List α
  tnames : List α
  vars : List (String × List (List α))

/-- the frame of the constructor (results_writer.py:39-44, downwind.py:587) -/
def fromResults (o : Ops α) (R : Results α) : Frame α :=
  { rows := R.states.length * R.tnames.length
    idx := some [("state", R.states.flatMap (fun s => List.replicate R.tnames.length s)),
      ("turbine", R.states.flatMap (fun _ => (List.range R.tnames.length).map o.num))]
    cols := R.vars.map (fun p => (p.1, p.2.flatten)) ++ [("tname", R.states.flatMap (fun _ => R.tnames))] }

/-- calls of the writer -/
inductive Op where
  | csv (v : Vars) (byName tab : Bool)
  | nc (v : Vars) (byName : Bool)

/-- the result of a call, and `self.data` afterwards -/
def step [LinearOrder α] (o : Ops α) (op : Op) (F : Frame α) : (Except Err (Frame α) ⊕ Except Err (Ds α)) × Frame α :=
  match op with
  | .csv v n t => (.inl (writeCsv o v n t F).1, (writeCsv o v n t F).2)
  | .nc v n => (.inr (writeNc o v n F), F)

/-- several calls -/
def history [LinearOrder α] (o : Ops α) : List Op → Frame α → Frame α
  | [], F => F
  | op :: ops, F => history o ops (step o op F).2

end Foxes.ResultFiles
