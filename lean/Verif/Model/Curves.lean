import Mathlib.Data.Real.Basic
import Mathlib.Algebra.Order.Floor.Ring
import Mathlib.Data.Real.Archimedean
/-
Model of `foxes/output/turbine_type_curves.py` (TurbineTypeCurves.plot_curves) and `foxes/output/rotor_point_plots.py` (RotorPointPlot.get_point_figure).

Simplifications: real numbers; what is asked from matplotlib is recorded; the farm calculation for one turbine is an abstract function of the list of its models and the wind speeds, after looking the
models up by name in the book, where turbine types and turbine models are one dictionary; sizes, line widths, colours, grids and file directories are left out.
-/
namespace Foxes.Curves

inductive Err
  | key | index | zerodiv | calc
deriving DecidableEq, Repr

/-- `np.arange(ws_min, ws_max + ws_step, ws_step)` (turbine_type_curves.py:118) -/
noncomputable def grid (lo hi step : ℝ) : List ℝ :=
  (List.range ⌈(hi + step - lo) / step⌉.toNat).map fun i : ℕ => lo + i * step

section curves
variable {M : Type}

/-- the entry of a name, ordered dictionary -/
def get (book : List (String × M)) (n : String) : Except Err M :=
  match book.lookup n with | some m => .ok m | none => .error .key

/-- `book[n] = m` -/
def put : List (String × M) → String → M → List (String × M)
  | [], n, m => [(n, m)]
  | (k, x) :: l, n, m => if k = n then (n, m) :: l else (k, x) :: put l n m

/-- `del book[n]` -/
def del (book : List (String × M)) (n : String) : List (String × M) := book.filter fun e => e.1 ≠ n

/-- the results of one turbine: for each variable the values for all states, if there is such a variable -/
abbrev Res := String → Option (List ℝ)

/-- a farm with one turbine with these models, calculated (turbine_type_curves.py:124-142, 150-158) -/
def farm (run : List M → List ℝ → Except Err Res) (book : List (String × M)) (names : List String) (ws : List ℝ) : Except Err Res :=
  match names.mapM (get book) with
  | .error e => .error e
  | .ok ms => run ms ws

/-- `_TurbineTypeCurves_set_Pmax` (turbine_type_curves.py:145) -/
def sname : String := "_TurbineTypeCurves_set_Pmax"

/-- the calculations (turbine_type_curves.py:142-160): the book afterwards, and the results without and with power mask; an error leaves the book as it is at that point -/
def calcs (run : List M → List ℝ → Except Err Res) (setP : ℝ → M) (book : List (String × M)) (tt : String) (ws : List ℝ) (pmax : Option ℝ) :
    List (String × M) × Except Err (Res × Option Res) :=
  match farm run book [tt] ws with
  | .error e => (book, .error e)
  | .ok r =>
    match pmax with
    | none => (book, .ok (r, none))
    | some p =>
      let b1 := put book sname (setP p)
      match farm run b1 [tt, sname, "PMask"] ws with
      | .error e => (b1, .error e)
      | .ok r1 => (del b1 sname, .ok (r, some r1))

/-- an axis: one of the caller, or the n-th that was created -/
inductive Axis (X : Type)
  | given (x : X)
  | fresh (n : ℕ)
deriving DecidableEq

/-- one plot: axis, curves (label, x values, y values), title, axis labels, legend -/
structure Plot (X : Type) where
  ax : Axis X
  lines : List (String × List ℝ × List ℝ)
  title : String
  xl : String
  yl : String
  legend : Bool

/-- either one string or a list -/
inductive StrArg
  | none
  | one (s : String)
  | many (l : List (Option String))

/-- lists of titles or labels (turbine_type_curves.py:106-113) -/
def StrArg.toList (a : StrArg) (n : ℕ) : List (Option String) :=
  match a with
  | .none => List.replicate n .none
  | .one s => [some s]
  | .many l => l

/-- default title (turbine_type_curves.py:175-181) -/
def dfltTitle (v tt : String) : String :=
  (if v = "P" then "Power curve" else if v = "CT" then "Thrust curve" else v) ++ ", " ++ tt

/-- default label (turbine_type_curves.py:187-193) -/
def dfltLabel (v : String) : String := if v = "P" then "Power [kW]" else if v = "CT" then "ct [-]" else v

def orIndex {α : Type} (o : Option α) : Except Err α := match o with | some a => .ok a | none => .error .index

def orKey {α : Type} (o : Option α) : Except Err α := match o with | some a => .ok a | none => .error .key

/-- the curves of one variable (turbine_type_curves.py:167-173) -/
def lines (ws : List ℝ) (r : Res) (r1 : Option Res) (v : String) : Except Err (List (String × List ℝ × List ℝ)) :=
  match orKey (r v) with
  | .error e => .error e
  | .ok y => match r1 with
    | none => .ok [("default", ws, y)]
    | some q => match orKey (q v) with
      | .error e => .error e
      | .ok y1 => .ok [("default", ws, y), ("PMask", ws, y1)]

/-- one pass of the loop (turbine_type_curves.py:162-200) -/
def plot1 {X : Type} (tt : String) (ws : List ℝ) (r : Res) (r1 : Option Res) (axs : List (Option X)) (titles ylabs : List (Option String)) (xlab : Option String) (i : ℕ) (v : String) :
    Except Err (Plot X) :=
  match orIndex axs[i]? with
  | .error e => .error e
  | .ok a => match lines ws r r1 v with
    | .error e => .error e
    | .ok ls => match orIndex titles[i]? with
      | .error e => .error e
      | .ok t => match orIndex ylabs[i]? with
        | .error e => .error e
        | .ok y => .ok ⟨match a with | some x => .given x | none => .fresh i, ls, t.getD (dfltTitle v tt), xlab.getD "Wind speed [m/s]", y.getD (dfltLabel v), r1.isSome⟩

/-- the axes argument (turbine_type_curves.py:114-115): one or none is put into a list -/
inductive AxArg (X : Type)
  | one (x : Option X)
  | many (l : List (Option X))

def AxArg.toList {X : Type} : AxArg X → List (Option X)
  | .one x => [x]
  | .many l => l

/-- the loop over the variables -/
def plots {X : Type} (tt : String) (ws : List ℝ) (r : Res) (r1 : Option Res) (axs : List (Option X)) (titles ylabs : List (Option String)) (xlab : Option String) : ℕ → List String → Except Err (List (Plot X))
  | _, [] => .ok []
  | i, v :: vs =>
    match plot1 tt ws r r1 axs titles ylabs xlab i v with
    | .error e => .error e
    | .ok p => match plots tt ws r r1 axs titles ylabs xlab (i + 1) vs with
      | .error e => .error e
      | .ok ps => .ok (p :: ps)

/-- `plot_curves` (turbine_type_curves.py:44-202): the book afterwards, the plots and the list that is returned -/
noncomputable def plotCurves {X : Type} (run : List M → List ℝ → Except Err Res) (setP : ℝ → M) (book : List (String × M)) (tt : String) (vars : List String) (pmax : Option ℝ)
    (titles ylabs : StrArg) (xlab : Option String) (lo hi step : ℝ) (axs : AxArg X) : List (String × M) × Except Err (List (Plot X) × List (Option X)) :=
  if step = 0 then (book, .error .zerodiv)
  else
    let ws := grid lo hi step
    match calcs run setP book tt ws pmax with
    | (b, .error e) => (b, .error e)
    | (b, .ok (r, r1)) =>
      match plots tt ws r r1 axs.toList (titles.toList vars.length) (ylabs.toList vars.length) xlab 0 vars with
      | .error e => (b, .error e)
      | .ok ps => (b, .ok (ps, axs.toList))

end curves

/-! ### Rotor points -/

/-- one pass of the loop over the weights (rotor_point_plots.py:106-115): the labels from i+1 on give those from i on; none is the empty string -/
noncomputable def labelStep (w : List ℝ) (t : List (Option ℝ)) (i : ℕ) : List (Option ℝ) :=
  if (w.getD (i + 1) 0 - w.getD i 0) / (w.getLastD 0 - w.getD 0 0) > 5 / 100 then some (w.getD i 0) :: t
  else if i = 0 then some (w.getD 0 0) :: none :: t.drop 1
  else none :: t

/-- the labels for the sorted different weights (rotor_point_plots.py:104-115) -/
noncomputable def labels (w : List ℝ) : Except Err (List (Option ℝ)) :=
  match w.getLast? with
  | none => .error .index
  | some m => .ok ((List.range (w.length - 1)).reverse.foldl (labelStep w) [some m])

/-- `np.sort(np.unique(weights))` (rotor_point_plots.py:89) -/
noncomputable def unique (w : List ℝ) : List ℝ := w.dedup.mergeSort (· ≤ ·)

/-- where it is drawn (rotor_point_plots.py:76-80): figure and axis of the caller only if the figure is given -/
def whereTo {G X : Type} (axes : G → List X) (fig : Option G) (ax : Option X) : Except Err (Option (G × X)) :=
  match fig with
  | none => .ok none
  | some g => match ax with
    | some x => .ok (some (g, x))
    | none => match (axes g).head? with
      | some x => .ok (some (g, x))
      | none => .error .index

structure RotorFig (G X : Type) where
  place : Option (G × X)
  dots : List ((ℝ × ℝ) × ℝ)
  ticks : List ℝ
  labels : List (Option ℝ)
  title : Option String

/-- `get_point_figure` (rotor_point_plots.py:46-120): points in the rotor plane with weights in percent, colour bar ticks and labels, title -/
noncomputable def pointFigure {G X : Type} (axes : G → List X) (fig : Option G) (ax : Option X) (name : String) (title : Option String)
    (points : List (ℝ × ℝ × ℝ)) (weights : List ℝ) : Except Err (RotorFig G X) :=
  match whereTo axes fig ax with
  | .error e => .error e
  | .ok pl =>
    let w := weights.map (· * 100)
    let wl := unique w
    let t := title.getD name
    match labels wl with
    | .error e => .error e
    | .ok ls => .ok ⟨pl, (points.map fun p => (p.2.1, p.2.2)).zip w, wl, ls, if t = "" then none else some t⟩

end Foxes.Curves
