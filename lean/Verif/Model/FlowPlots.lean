import Verif.Model.Slice
/-
Model of the two dimensional flow plots: `foxes/output/flow_plots_2d/flow_plots.py`, `get_fig.py`, and the flow animation of sequential runs,
`foxes/output/seq_plugins/seq_flow_ani_plugin.py`. The slices the plots are made from are those of `Verif.Model.Slice`.

Simplifications: a figure is what is drawn on it: a mesh of colours (or contours) with limits of the colour scale, arrows, lines for the rotors, and a title;
fonts, sizes, labels of axes and the colour map itself are not modelled. Real numbers, no NaN; labels of states are natural numbers.
-/
noncomputable section

namespace Foxes.FlowPlots

open Foxes.Slice Foxes.WindDir

/-- `FV.WD`, `FV.WS` (variables.py) -/
def WD : String := "WD"
def WS : String := "WS"

/-- `list(set([var] + [FV.WD, FV.WS]))` (flow_plots.py:99, 248, 398, 550, 738, 924): the order is that of the set, which depends on the hashes of the strings (and these on
the seed of the interpreter); `order` is the function `list(set(·))` of the running interpreter -/
def plotVars (order : List String → List String) (var : String) : List String := order [var, WD, WS]

/-- an arrow: where it starts, and its components -/
structure Arrow where
  x : ℝ
  y : ℝ
  u : ℝ
  v : ℝ

/-- a line: the two ends -/
structure Line where
  x1 : ℝ
  y1 : ℝ
  x2 : ℝ
  y2 : ℝ

/-- the mesh of an image: axes, and the value of row `j`, column `i` (get_fig.py:110-138): drawn at `x[i]`, `y[j]` -/
structure Mesh where
  x : List ℝ
  y : List ℝ
  zz : ℕ → ℕ → ℝ

/-- the numbers of the entries `[0::n]` -/
def everyIdx (n len : ℕ) : List ℕ := (List.range len).filter (fun i => i % n = 0)

/-- the arrows (get_fig.py:140-147): the horizontal wind vector at every `n`-th point, row by row; a step of zero is a ValueError -/
def arrows (n : ℕ) (xs ys : List ℝ) (wd ws : ℕ → ℕ → ℝ) : Option (List Arrow) :=
  if n = 0 then none
  else some ((everyIdx n ys.length).flatMap fun j => (everyIdx n xs.length).map fun i =>
    ⟨xs.getD i 0, ys.getD j 0, (wd2uv (wd i j) (ws i j)).1, (wd2uv (wd i j) (ws i j)).2⟩)

/-- the arrows if asked for (flow_plots.py:117-131; get_fig.py:141) -/
def quiver (q : Option ℕ) (xs ys : List ℝ) (wd ws : ℕ → ℕ → ℝ) : Option (Option (List Arrow)) :=
  match q with
  | none => some none
  | some n => (arrows n xs ys wd ws).map some

/-- `vmin={var: vmin} if vmin is not None else {}` (flow_plots.py:106-107) -/
def limit (var : String) (v : Option ℝ) : List (String × ℝ) := v.toList.map fun x => (var, x)

/-- the parameters of the slice that belong to a plot: the other modifications of `kwargs`, and the limits for the plotted variable -/
def plotMods (m : Mods) (var : String) (vmin vmax : Option ℝ) : Mods := { m with vmin := limit var vmin, vmax := limit var vmax }

/-- a figure of mean values: mesh, arrows, and the data that `ret_data` returns -/
structure MeanFig where
  mesh : Mesh
  arrows : Option (List Arrow)
  data : ℕ → ℕ → ℝ

/-- `get_mean_fig_xy/xz/yz` (flow_plots.py:99-161, 248-311, 398-462) from the values of the slice -/
def meanFigOf (vs : List String) (var : String) (q : Option ℕ) (g : Grid) (get : List ℕ → ℝ) : Option MeanFig :=
  (quiver q g.a g.b (fun i j => get [i, j, vs.idxOf WD]) (fun i j => get [i, j, vs.idxOf WS])).map fun ar =>
    ⟨⟨g.a, g.b, fun j i => get [i, j, vs.idxOf var]⟩, ar, fun i j => get [i, j, 0]⟩

/-- `get_mean_fig_xy/xz/yz` (flow_plots.py:17-462) -/
def meanFig (order : List String → List String) (fl : Flow) (sts : List St) (o : Ori) (var : String) (grid : Option Grid) (m : Mods) (vmin vmax : Option ℝ)
    (sel isel : Option (List ℕ)) (q : Option ℕ) : Option MeanFig :=
  (meanSlice fl sts o .numpy (some (plotVars order var)) grid (plotMods m var vmin vmax) sel isel).bind fun r =>
    match r.data with
    | .numpy _ _ get => meanFigOf (plotVars order var) var q r.grid get
    | _ => none

/-! ## Rotors -/

/-- what the rotor lines need of a turbine in one state of the farm results: `X`, `Y`, `H`, `D`, `AMB_WD` and `YAWM` -/
structure RTurb where
  x : ℝ
  y : ℝ
  h : ℝ
  D : ℝ
  wd : ℝ
  yawm : ℝ

/-- `turb_angle` (flow_plots.py:604-607): without a variable `YAWM` in the results, the wind direction alone -/
def angle (hasYaw : Bool) (t : RTurb) : ℝ := if hasYaw then t.wd + t.yawm else t.wd

/-- a line through `(x, y)` to both sides (get_fig.py:209-213) -/
def line (x y dx dy : ℝ) : Line := ⟨x + dx, y + dy, x - dx, y - dy⟩

/-- the rotor in a horizontal plot (get_fig.py:188-194) -/
def lineXY (hasYaw : Bool) (t : RTurb) : Line :=
  line t.x t.y (t.D / 2 * Real.sin (npMod (angle hasYaw t + 90) 360 * Real.pi / 180)) (t.D / 2 * Real.cos (npMod (angle hasYaw t + 90) 360 * Real.pi / 180))

/-- the rotor in vertical plots (get_fig.py:196-205) -/
def lineXZ (t : RTurb) : Line := line t.x t.h 0 (t.D / 2)
def lineYZ (t : RTurb) : Line := line t.y t.h 0 (t.D / 2)

/-- the lines for the rotors (get_fig.py:183-220): the kind of plot is guessed from the labels of the axes; with other labels `x` is not defined
(UnboundLocalError as soon as there is a turbine) -/
def rotorLines (xlabel ylabel : String) (hasYaw : Bool) (ts : List RTurb) : Option (List Line) :=
  if xlabel = "x [m]" ∧ ylabel = "y [m]" then some (ts.map (lineXY hasYaw))
  else if xlabel = "x [m]" ∧ ylabel = "z [m]" then some (ts.map lineXZ)
  else if xlabel = "y [m]" ∧ ylabel = "z [m]" then some (ts.map lineYZ)
  else if ts = [] then some [] else none

/-- the default labels of the state plots (flow_plots.py:467-468, 653-654, 839-840) -/
def defaultLabels : Ori → String × String
  | .xy => ("x [m]", "y [m]")
  | .xz => ("x [m]", "z [m]")
  | .yz => ("y [m]", "z [m]")

/-! ## Plots of states -/

/-- the parameter `title` -/
inductive Title where
  | none
  | text (t : String)
  | fn (f : ℕ → ℕ → String)

/-- the title of a state figure (flow_plots.py:594-600, 779-786, 965-972; get_fig.py:157-176). `suffix`: the rest of the title, with the position of the plane -/
def shownTitle (t : Title) (animated : Bool) (suffix : String) (si s : ℕ) : String :=
  match t with
  | .none => "State " ++ toString s ++ (if animated then "" else suffix)
  | .text t => t
  | .fn f => f si s

/-- the parameters of the state plots that matter here -/
structure Args where
  var : String
  xlabel : String
  ylabel : String
  title : Title
  suffix : String
  addBar : Bool
  vmin : Option ℝ
  vmax : Option ℝ
  quiverN : Option ℕ
  animated : Bool
  rotors : Bool

/-- one figure: the limits of the colours are those of matplotlib's data range if `none` -/
structure Fig where
  mesh : Mesh
  vmin : Option ℝ
  vmax : Option ℝ
  arrows : Option (List Arrow)
  lines : List Line
  title : String
  bar : Bool

/-- is there a colour bar (flow_plots.py:591-592; 777-778, 963-964)? -/
def barOf (o : Ori) (a : Args) (si : ℕ) : Bool :=
  match o with
  | .xy => if a.animated && decide (0 < si) then false else a.addBar
  | _ => if a.animated && decide (0 < si) && a.vmin.isSome && a.vmax.isSome then false else a.addBar

/-- all values of the plotted variable -/
def allVals (nS : ℕ) (na nb : ℕ) (get : List ℕ → ℝ) (k : ℕ) : List ℝ :=
  (List.range nS).flatMap fun s => (List.range na).flatMap fun i => (List.range nb).map fun j => get [s, i, j, k]

/-- the limits of the colours (flow_plots.py:588-590): animated horizontal plots take the range of all values; `none`: ValueError for no values. -/
def limitsOf (o : Ori) (a : Args) (vals : List ℝ) : Option (Option ℝ × Option ℝ) :=
  match o, a.animated with
  | .xy, true =>
    (a.vmin.or vals.min?).bind fun lo => (a.vmax.or vals.max?).map fun hi => (some lo, some hi)
  | _, _ => some (a.vmin, a.vmax)

/-- the rotor lines of figure number `si` (flow_plots.py:602-619): entry `si` of the farm results *of the object*, not of the selected states -/
def figLines (a : Args) (hasYaw : Bool) (fres : List (List RTurb)) (si : ℕ) : Option (List Line) :=
  if a.rotors then (fres[si]?).bind (rotorLines a.xlabel a.ylabel hasYaw) else some []

/-- one figure of the generator (flow_plots.py:587-647) -/
def stateFig (o : Ori) (a : Args) (vs : List String) (hasYaw : Bool) (fres : List (List RTurb)) (states : List ℕ) (g : Grid) (get : List ℕ → ℝ) (si s : ℕ) :
    Option Fig :=
  (limitsOf o a (allVals states.length g.a.length g.b.length get (vs.idxOf a.var))).bind fun lim =>
    (figLines a hasYaw fres si).bind fun ls =>
      (quiver a.quiverN g.a g.b (fun i j => get [si, i, j, vs.idxOf WD]) (fun i j => get [si, i, j, vs.idxOf WS])).map fun ar =>
        ⟨⟨g.a, g.b, fun j i => get [si, i, j, vs.idxOf a.var]⟩, lim.1, lim.2, ar, ls, shownTitle a.title a.animated a.suffix si s, barOf o a si⟩

/-- all figures of the generator, from the data -/
def figsOf (o : Ori) (a : Args) (vs : List String) (hasYaw : Bool) (fres : List (List RTurb)) (states : List ℕ) (g : Grid) (get : List ℕ → ℝ) : Option (List Fig) :=
  (List.zip (List.range states.length) states).mapM fun p => stateFig o a vs hasYaw fres states g get p.1 p.2

/-- `gen_states_fig_xy/xz/yz` (flow_plots.py:464-1020) with `precalc=False` -/
def statesFigs (order : List String → List String) (fl : Flow) (sts : List St) (o : Ori) (a : Args) (hasYaw : Bool) (fres : List (List RTurb)) (grid : Option Grid)
    (m : Mods) (sel isel : Option (List ℕ)) : Option (List Fig) :=
  (statesSlice fl sts o .numpy (some (plotVars order a.var)) grid (plotMods m a.var a.vmin a.vmax) sel isel).bind fun r =>
    match r.data with
    | .numpy _ _ get => figsOf o a (plotVars order a.var) hasYaw fres r.states r.grid get
    | _ => none

/-- which figure `get_fig` returns (get_fig.py:99-107, 222-240): `given`, if the user gave one; `new` for a new one; `none` for `None` -/
inductive FigRef where
  | given | new
deriving DecidableEq

/-- (same lines) -/
def returned (given addBar : Bool) : Option FigRef :=
  if addBar then some (if given then .given else .new) else (if given then some .given else none)

/-! ## Animations of sequential runs -/

/-- one iteration of a sequential run, as the plugin sees it: number and label of the state, the data of the slice (one state), the grid, the turbines -/
structure Iter where
  counter : ℕ
  label : ℕ
  get : List ℕ → ℝ
  grid : Grid
  turbs : List RTurb

/-- what the plugin keeps (seq_flow_ani_plugin.py:90-100): farm results if rotors are shown, data, states, and the grid of the first iteration -/
structure Kept where
  turbs : Option (List RTurb)
  get : List ℕ → ℝ
  states : List ℕ
  grid : Option Grid

/-- the plugin: orientation, parameters (`title` changes), the function for titles, the stored data -/
structure Plugin where
  orientation : String
  args : Args
  tfun : Option (ℕ → ℕ → String)
  data : List Kept

/-- the constructor (seq_flow_ani_plugin.py:36-43): a title function is taken out of the parameters -/
def Plugin.new (orientation : String) (a : Args) : Plugin :=
  match a.title with
  | .fn f => ⟨orientation, { a with title := .none }, some f, []⟩
  | _ => ⟨orientation, a, none, []⟩

/-- `update` (seq_flow_ani_plugin.py:58-100): KeyError for other orientations -/
def Plugin.update (p : Plugin) (it : Iter) : Option Plugin :=
  if p.orientation = "xy" ∨ p.orientation = "xz" ∨ p.orientation = "yz" then
    some { p with
      args := (match p.tfun with | some f => { p.args with title := .text (f it.counter it.label) } | none => p.args)
      data := p.data ++ [⟨if p.args.rotors then some it.turbs else none, it.get, [it.label], if p.data.isEmpty then some it.grid else none⟩] }
  else none

/-- `gen_images` (seq_flow_ani_plugin.py:102-143), one image: always the horizontal plot. For other orientations `len(y_pos)` (get_fig.py:110) is a
TypeError, since the grid data have a number there. After the first image there is no colour bar if both limits are given (lines 138-142). -/
def Plugin.image (p : Plugin) (vs : List String) (hasYaw : Bool) (g : Grid) (first : Bool) (k : Kept) : Option Fig :=
  if p.orientation = "xy" then
    (k.states.head?).bind fun s =>
      stateFig .xy { p.args with addBar := if !first && p.args.vmin.isSome && p.args.vmax.isSome then false else p.args.addBar } vs hasYaw
        (match k.turbs with | some t => [t] | none => []) k.states g k.get 0 s
  else none

/-- the images, one for each stored entry; the grid of the latest entry that has one -/
def Plugin.imagesFrom (p : Plugin) (vs : List String) (hasYaw : Bool) : Option Grid → Bool → List Kept → Option (List Fig)
  | _, _, [] => some []
  | g, first, k :: l =>
    ((match k.grid with | some g' => some g' | none => g)).bind fun g' =>
      (p.image vs hasYaw g' first k).bind fun f =>
        (p.imagesFrom vs hasYaw (some g') false l).map fun fs => f :: fs

/-- `gen_images` -/
def Plugin.images (p : Plugin) (vs : List String) (hasYaw : Bool) : Option (List Fig) := p.imagesFrom vs hasYaw none true p.data

/-- a sequential run with the plugin -/
def Plugin.run (p : Plugin) (its : List Iter) : Option Plugin := its.foldlM Plugin.update p

end Foxes.FlowPlots
