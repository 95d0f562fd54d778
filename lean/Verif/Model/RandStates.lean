import Mathlib.Data.Real.Basic
import Mathlib.Algebra.Order.BigOperators.Group.List
/-
Model of `foxes/input/states/create/random_abl_states.py` and `random_timeseries.py`: random states. numpy's global generator is any state machine that
gives numbers; pandas' rounding is a parameter.

Simplifications: real numbers; a missing value (nan) is `none`; tables are lists of columns; time stamps and the writing of the file are not modelled.
-/
namespace Foxes.RandStates

noncomputable section

/-- numpy's generator: what a seed does, and the next number (in `[0, 1)`) -/
structure Gen (G : Type) where
  seed : ℕ → G
  next : G → ℝ × G

variable {G : Type}

/-- `n` numbers -/
def draws (R : Gen G) : ℕ → G → List ℝ × G
  | 0, g => ([], g)
  | n + 1, g =>
    let x := R.next g
    let y := draws R n x.2
    (x.1 :: y.1, y.2)

/-- `np.random.uniform(low, high, n)` -/
def uniform (R : Gen G) (mm : ℝ × ℝ) (n : ℕ) (g : G) : List ℝ × G :=
  let d := draws R n g
  (d.1.map fun u => mm.1 + (mm.2 - mm.1) * u, d.2)

/-- one column after the other (random_abl_states.py:41-44, random_timeseries.py:53) -/
def columns (R : Gen G) (n : ℕ) : List (String × ℝ × ℝ) → G → List (String × List ℝ) × G
  | [], g => ([], g)
  | c :: cs, g =>
    let x := uniform R c.2 n g
    let y := columns R n cs x.2
    ((c.1, x.1) :: y.1, y.2)

/-! ### create_random_abl_states -/

/-- `var2col.get(v, v)` -/
def colOf (var2col : List (String × String)) (v : String) : String := (var2col.lookup v).getD v

/-- change of one column, if it is there -/
def onColumn {α : Type} (c : String) (f : List α → List α) (t : List (String × List α)) : List (String × List α) := t.map fun x => if x.1 == c then (x.1, f x.2) else x

open scoped Classical in
/-- Obukhov lengths that are not allowed are nan (random_abl_states.py:47-51) -/
def limitMol (r : ℝ × ℝ) (l : List (Option ℝ)) : List (Option ℝ) := l.map fun x => x.bind fun m => if |m| < r.1 ∨ |m| > r.2 then none else some m

open scoped Classical in
/-- weights by their sum (random_abl_states.py:54-55); pandas leaves out nan in sums; nothing useful for sum zero -/
def normalise (l : List (Option ℝ)) : List (Option ℝ) :=
  let s := (l.filterMap id).sum
  l.map fun x => x.bind fun w => if s = 0 then none else some (w / s)

/-- `create_random_abl_states` (random_abl_states.py:9-57); `molRange = none`: `mol_abs_range=None` -/
def createAbl (R : Gen G) (n : ℕ) (cols : List (String × ℝ × ℝ)) (var2col : List (String × String)) (molRange : Option (ℝ × ℝ)) (norm : Bool) (g : G) : List (String × List (Option ℝ)) × G :=
  let d := columns R n cols g
  let t0 := d.1.map fun c => (c.1, c.2.map some)
  let t1 := match molRange with
    | none => t0
    | some r => onColumn (colOf var2col "MOL") (limitMol r) t0
  let t2 := if norm then onColumn (colOf var2col "weight") normalise t1 else t1
  (t2, d.2)

/-- digits of a column (random_abl_states.py:111-119): later assignments win -/
def digitsOf (var2col : List (String × String)) (c : String) : Option ℕ :=
  if c == colOf var2col "TI" then some 6
  else if c == colOf var2col "MOL" then some 1
  else if c == colOf var2col "weight" then none
  else some 4

/-- the table that `write_random_abl_states` writes (random_abl_states.py:106-130). `digits`: the user's choice, `none` for `None`: any other choice
is replaced (lines 120-123) -/
def writeAbl (R : Gen G) (rnd : ℕ → ℝ → ℝ) (digits : Option (List (String × ℕ))) (n : ℕ) (cols : List (String × ℝ × ℝ)) (var2col : List (String × String)) (molRange : Option (ℝ × ℝ)) (norm : Bool) (g : G) :
    List (String × List (Option ℝ)) :=
  let t := (createAbl R n cols var2col molRange norm g).1
  match digits with
  | none => t
  | some _ => t.map fun c => (c.1, match digitsOf var2col c.1 with | none => c.2 | some d => c.2.map fun x => x.map (rnd d))

/-! ### random_timseries_data -/

/-- one entry of `dranges.update(data_ranges)`: known variables keep their place -/
def setRange (d : List (String × ℝ × ℝ)) (x : String × ℝ × ℝ) : List (String × ℝ × ℝ) :=
  if d.any (fun y => y.1 == x.1) then d.map (fun y => if y.1 == x.1 then x else y) else d ++ [x]

/-- the ranges (random_timeseries.py:44-46) -/
def ranges (l : List (String × ℝ × ℝ)) : List (String × ℝ × ℝ) := l.foldl setRange [("WS", 0, 30), ("WD", 0, 360)]

/-- `random_timseries_data` (random_timeseries.py:7-58): `if seed:` is false for 0 -/
def series (R : Gen G) (n : ℕ) (dataRanges : List (String × ℝ × ℝ)) (seed : Option ℕ) (g : G) : List (String × List ℝ) × G :=
  let g0 := match seed with
    | none => g
    | some s => if s = 0 then g else R.seed s
  columns R n (ranges dataRanges) g0

end

end Foxes.RandStates
