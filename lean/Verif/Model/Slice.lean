import Verif.Model.Frames
import Mathlib.Algebra.Order.Archimedean.Real.Basic
import Mathlib.Data.List.GetD

/-!
Model of the two dimensional slices through the flow: the grid functions of
`foxes/output/grids.py`, `foxes/output/slice_data.py` and
`foxes/output/slices_data.py`.

Simplifications: real numbers for floats; no NaN; state labels are natural
numbers; `states_isel` with non-negative indices; the point calculation
`algo.calc_points` is a parameter, the value of each variable at each point of
each selected state; file output is not modelled.
-/

noncomputable section

namespace Foxes.Slice

open Foxes.Frames Foxes.WindDir

/-- A turbine of the farm results: `FV.X`, `FV.Y`, `FV.H` (grids.py 115-120, 250-252). -/
structure Turb where
  x : ℝ
  y : ℝ
  h : ℝ

/-- One state of the farm results: the label on the state coordinate and the turbines. -/
structure St where
  label : ℕ
  turbs : List Turb

/-- `farm_results.isel({FC.STATE: states_isel})`: IndexError for indices out of range
(grids.py 106-107, 241-242, 387-388; downwind.py 771-772). -/
def iselect (is : List ℕ) (sts : List St) : Option (List St) := is.mapM fun i => sts[i]?

/-- `farm_results.sel({FC.STATE: states_sel})`: KeyError for unknown labels
(grids.py 108-109, 243-244, 389-390; downwind.py 773-774). Repeated labels of the
state coordinate (for which xarray raises an error) are not modelled. -/
def lselect (ls : List ℕ) (sts : List St) : Option (List St) :=
  ls.mapM fun l => sts.find? fun s => s.label == l

/-- The selection of states, first by index and then by label (grids.py 105-109, 240-244, 386-390;
the same in `Downwind.calc_points`, downwind.py 769-774). -/
def select (isel sel : Option (List ℕ)) (sts : List St) : Option (List St) :=
  ((isel.elim some iselect) sts).bind (sel.elim some lselect)

/-- `xmin if xmin is not None else min(...) - xspace` (grids.py 113-114, 261); error for
the minimum of nothing. -/
def lower (given : Option ℝ) (vals : List ℝ) (space : ℝ) : Option ℝ :=
  match given with
  | some v => some v
  | none => vals.min?.map (· - space)

/-- `xmax if xmax is not None else max(...) + xspace` (grids.py 116-117, 264-265). -/
def upper (given : Option ℝ) (vals : List ℝ) (space : ℝ) : Option ℝ :=
  match given with
  | some v => some v
  | none => vals.max?.map (· + space)

/-- `zmin if zmin is not None else np.minimum(np.min(zz) - zspace, 0.0)` (grids.py 262, 408). -/
def lowerZ (given : Option ℝ) (vals : List ℝ) (space : ℝ) : Option ℝ :=
  match given with
  | some v => some v
  | none => vals.min?.map fun m => min (m - space) 0

/-- The coordinate of the plane: `0.5 * (z_min + z_max)` with both equal to `z` if given
(grids.py 115, 118, 151; 263, 266, 297; 409, 412, 443). -/
def plane (given : Option ℝ) (vals : List ℝ) : Option ℝ := do
  let lo ← lower given vals 0
  let hi ← upper given vals 0
  return 0.5 * (lo + hi)

/-- Python's `int(x)` of a float: rounding towards zero. -/
def pyInt (x : ℝ) : ℤ := if 0 ≤ x then ⌊x⌋ else ⌈x⌉

/-- `int((x_max - x_min) / resolution + 0.5) + 1` (grids.py 122-123, 271-272, 417-418).
Resolution zero (division by zero) is excluded in `counts`. -/
def count (lo hi res : ℝ) : ℤ := pyInt ((hi - lo) / res + 0.5) + 1

/-- The numbers of points in the two directions (grids.py 121-129, 270-278, 416-424):
either from the resolution or given, otherwise ValueError. -/
def counts (resolution : Option ℝ) (nImg : Option (ℤ × ℤ)) (aLo aHi bLo bHi : ℝ) : Option (ℤ × ℤ) :=
  match resolution, nImg with
  | some r, none => if r = 0 then none else some (count aLo aHi r, count bLo bHi r)
  | none, some n => some n
  | _, _ => none

/-- `np.linspace(lo, hi, num=n, endpoint=True)` (grids.py 132-147, 281-296, 427-442): error for
negative n, the single point `lo` for n = 1, otherwise n points from lo to hi. -/
def linspace (lo hi : ℝ) (n : ℤ) : Option (List ℝ) :=
  if n < 0 then none
  else some ((List.range n.toNat).map fun i : ℕ => lo + (i : ℝ) * ((hi - lo) / ((n : ℝ) - 1)))

/-- The grid points of one state after `reshape(n_states, n_pts, 3)` of an array of shape
(n_states, n_a, n_b, 3) (row-major order; grids.py 154-157 and 165-174, 300-303 and 311-320,
446-449 and 457-466). -/
def flatten {α : Type} (as bs : List ℝ) (f : ℝ → ℝ → α) : List α :=
  as.flatMap fun a => bs.map fun b => f a b

/-- Result of the grid functions: two coordinate arrays, the coordinate of the plane, and the points
for each state. In the order of the axes `a`, `b`, `c` of the orientation, e.g. x, z, y for "xz". -/
structure Grid where
  a : List ℝ
  b : List ℝ
  c : ℝ
  pts : List (List V3)

/-- All turbines of all states. -/
def allTurbs (sts : List St) : List Turb := sts.flatMap St.turbs

/-- `get_grid_xy` (grids.py 48-174). -/
def gridXY (sts : List St) (resolution : Option ℝ) (nImg : Option (ℤ × ℤ))
    (xmin ymin xmax ymax z : Option ℝ) (xspace yspace : ℝ) (sel isel : Option (List ℕ)) :
    Option Grid := do
  let sts ← select isel sel sts
  let xs := (allTurbs sts).map Turb.x
  let ys := (allTurbs sts).map Turb.y
  let hs := (allTurbs sts).map Turb.h
  let xLo ← lower xmin xs xspace
  let yLo ← lower ymin ys yspace
  let xHi ← upper xmax xs xspace
  let yHi ← upper ymax ys yspace
  let zPos ← plane z hs
  let n ← counts resolution nImg xLo xHi yLo yHi
  let xPos ← linspace xLo xHi n.1
  let yPos ← linspace yLo yHi n.2
  return ⟨xPos, yPos, zPos, sts.map fun _ => flatten xPos yPos fun x y => ⟨x, y, zPos⟩⟩

/-- `n_x = np.append(wd2uv(x_direction), [0.0])` (grids.py 246, 392). -/
def axX (dir : ℝ) : V3 := ⟨(wd2uv dir 1).1, (wd2uv dir 1).2, 0⟩

/-- `n_z = np.array([0.0, 0.0, 1.0])` (grids.py 247, 393). -/
def axZ : V3 := ⟨0, 0, 1⟩

/-- `n_y = np.cross(n_z, n_x)` (grids.py 248, 394). -/
def axY (dir : ℝ) : V3 := axZ.cross (axX dir)

/-- The position of a turbine (grids.py 251-254, 397-400). -/
def Turb.pos (t : Turb) : V3 := ⟨t.x, t.y, t.h⟩

/-- `get_grid_xz` (grids.py 177-320), the result in the order x, z, y (slice_data.py 454, 957). -/
def gridXZ (sts : List St) (resolution : Option ℝ) (nImg : Option (ℤ × ℤ)) (dir : ℝ)
    (xmin zmin xmax zmax y : Option ℝ) (xspace zspace : ℝ) (sel isel : Option (List ℕ)) :
    Option Grid := do
  let sts ← select isel sel sts
  let xx := (allTurbs sts).map fun t => t.pos.dot (axX dir)
  let yy := (allTurbs sts).map fun t => t.pos.dot (axY dir)
  let zz := (allTurbs sts).map fun t => t.pos.dot axZ
  let xLo ← lower xmin xx xspace
  let zLo ← lowerZ zmin zz zspace
  let xHi ← upper xmax xx xspace
  let zHi ← upper zmax zz zspace
  let yPos ← plane y yy
  let n ← counts resolution nImg xLo xHi zLo zHi
  let xPos ← linspace xLo xHi n.1
  let zPos ← linspace zLo zHi n.2
  return ⟨xPos, zPos, yPos, sts.map fun _ => flatten xPos zPos fun x z =>
    ((V3.smul x (axX dir)).add (V3.smul yPos (axY dir))).add (V3.smul z axZ)⟩

/-- `get_grid_yz` (grids.py 323-466), the result in the order y, z, x (slice_data.py 599, 1102). -/
def gridYZ (sts : List St) (resolution : Option ℝ) (nImg : Option (ℤ × ℤ)) (dir : ℝ)
    (ymin zmin ymax zmax x : Option ℝ) (yspace zspace : ℝ) (sel isel : Option (List ℕ)) :
    Option Grid := do
  let sts ← select isel sel sts
  let xx := (allTurbs sts).map fun t => t.pos.dot (axX dir)
  let yy := (allTurbs sts).map fun t => t.pos.dot (axY dir)
  let zz := (allTurbs sts).map fun t => t.pos.dot axZ
  let yLo ← lower ymin yy yspace
  let zLo ← lowerZ zmin zz zspace
  let yHi ← upper ymax yy yspace
  let zHi ← upper zmax zz zspace
  let xPos ← plane x xx
  let n ← counts resolution nImg yLo yHi zLo zHi
  let yPos ← linspace yLo yHi n.1
  let zPos ← linspace zLo zHi n.2
  return ⟨yPos, zPos, xPos, sts.map fun _ => flatten yPos zPos fun y z =>
    ((V3.smul xPos (axX dir)).add (V3.smul y (axY dir))).add (V3.smul z axZ)⟩

/-- A numpy array of the point results: dimensions (state,) or (state, point). -/
inductive Arr where
  | s (vals : List ℝ)
  | sp (nPts : ℕ) (rows : List (List ℝ))

/-- The point results: labels of the states, the variables with their data, among them
the weights `FV.WEIGHT` (set_amb_point_results.py 61; reduced to (state,) by `combine_results` if they
do not depend on the point, engine.py 526-532). -/
structure PointRes where
  states : List ℕ
  vars : List (String × Arr)

/-- Python dictionary access. -/
def look {α : Type} (l : List (String × α)) (k : String) : Option α := l.lookup k

/-- What the point calculation computes: variables with their values, and the weights,
which depend only on the state or also on the point. -/
structure Flow where
  vars : List (String × (St → V3 → ℝ))
  weight : (St → ℝ) ⊕ (St → V3 → ℝ)

/-- `FV.WEIGHT` (variables.py). -/
def WEIGHT : String := "weight"

/-- `calc_point_results` (grids.py 11-45) with `algo.calc_points` (downwind.py 693-827): the states are
selected again from the complete farm results, the points need one row for each selected
state (algorithm.py 417-424: otherwise ValueError). -/
def calcPoints (fl : Flow) (sts : List St) (pts : List (List V3)) (sel isel : Option (List ℕ)) :
    Option PointRes := do
  let sts ← select isel sel sts
  if pts.length ≠ sts.length then none
  else
    let rows (f : St → V3 → ℝ) : Arr :=
      .sp (pts.headD []).length (List.zipWith (fun s row => row.map (f s)) sts pts)
    return ⟨sts.map St.label,
      fl.vars.map (fun (v, f) => (v, rows f)) ++
        [(WEIGHT, match fl.weight with
          | .inl w => .s (sts.map w)
          | .inr w => rows w)]⟩

/-- `np.einsum("s,sp->p", weights, values)` (slice_data.py 151-154): ValueError if the values do
not have two dimensions or a wrong number of states. -/
def einsumS (w : List ℝ) : Arr → Option (List ℝ)
  | .s _ => none
  | .sp np rows =>
    if rows.length ≠ w.length then none
    else some ((List.range np).map fun p => (List.zipWith (fun a row => a * row.getD p 0) w rows).sum)

/-- `np.einsum("sp,sp->p", weights, values)` (slice_data.py 156-159). -/
def einsumSP (w : List (List ℝ)) : Arr → Option (List ℝ)
  | .s _ => none
  | .sp np rows =>
    if rows.length ≠ w.length then none
    else some ((List.range np).map fun p =>
      (List.zipWith (fun (a row : List ℝ) => a.getD p 0 * row.getD p 0) w rows).sum)

/-- The variables: all variables of the results by default; keys of a dictionary are unique; the
result of `drop_vars` is thrown away (slice_data.py 141-144, 649-652). -/
def varList (vnames : Option (List String)) (pr : PointRes) : List String :=
  (vnames.getD (pr.vars.map Prod.fst)).eraseDups

/-- The mean over states (slice_data.py 147-163). -/
def meanData (pr : PointRes) (vnames : List String) : Option (List (String × List ℝ)) := do
  let w ← look pr.vars WEIGHT
  vnames.mapM fun v => do
    let a ← look pr.vars v
    let m ← match w with
      | .s w => einsumS w a
      | .sp _ w => einsumSP w a
    return (v, m)

/-- `a_pos /= normalize_a` etc. (slice_data.py 69-74). -/
def divBy (norm : Option ℝ) (x : ℝ) : ℝ := norm.elim x (x / ·)

/-- The modification of one value: division, then lower and upper limits (slice_data.py 76-82). -/
def modVal (normV vmin vmax : List (String × ℝ)) (v : String) (x : ℝ) : ℝ :=
  let x := (look normV v).elim x (x / ·)
  let x := (look vmin v).elim x (max x ·)
  (look vmax v).elim x (min x ·)

/-- An xarray variable: the names of its dimensions and its value for each tuple of indices. -/
structure XVar where
  dims : List String
  get : List ℕ → ℝ

/-- An xarray Dataset: coordinates, variables and attributes. (Name clashes between dimensions,
coordinates and variables are not modelled.) -/
structure XDs where
  coords : List (String × List ℝ)
  vars : List (String × XVar)
  attrs : List (String × ℝ)

/-- A pandas DataFrame with MultiIndex: names and values of the index, and the columns. -/
structure Frame where
  names : List String
  index : List (List ℕ)
  cols : List (String × List ℝ)

/-- The three data formats. For numpy: the shape (without the axis of variables) and the value for each
tuple of indices. -/
inductive Out where
  | numpy (shape : List ℕ) (nVars : ℕ) (get : List ℕ → ℝ)
  | pandas (f : Frame)
  | xarray (d : XDs)

/-- `d.reshape(n_a, n_b)[i, j]` of an array of shape (n_a * n_b,). -/
def cell2 (nb : ℕ) (d : List ℝ) (i j : ℕ) : ℝ := d.getD (i * nb + j) 0

/-- Whether `reshape(n_a, n_b)` works for all variables (otherwise ValueError). -/
def fits (na nb : ℕ) (data : List (String × List ℝ)) : Bool := data.all fun d => d.2.length == na * nb

/-- `np2np_p` (grids.py 469-496). -/
def np2np (as bs : List ℝ) (data : List (String × List ℝ)) : Option Out :=
  if fits as.length bs.length data then
    some (.numpy [as.length, bs.length] data.length fun idx =>
      match idx with
      | [i, j, vi] => (data[vi]?).elim 0 fun d => cell2 bs.length d.2 i j
      | _ => 0)
  else none

/-- `label_map.get(o, o)`. -/
def lab (labelMap : List (String × String)) (o : String) : String := (look labelMap o).getD o

/-- The orientation 'xy' or 'xz' or 'yz'. -/
inductive Ori where
  | xy
  | xz
  | yz
deriving DecidableEq

/-- First letter of the orientation. -/
def Ori.a : Ori → String
  | .xy => "x"
  | .xz => "x"
  | .yz => "y"

/-- Second letter of the orientation. -/
def Ori.b : Ori → String
  | .xy => "y"
  | .xz => "z"
  | .yz => "z"

/-- `list(set("xyz") - set(ori))[0]` (grids.py 634, 677): the remaining letter. -/
def Ori.c (o : Ori) : String := ((["x", "y", "z"].filter (· ≠ o.a)).filter (· ≠ o.b)).headD ""

/-- `np2pd_p` (grids.py 535-564): the index are the *numbers* of the points. The lengths of the columns
must be the length of the index (otherwise ValueError). -/
def np2pd (o : Ori) (labelMap : List (String × String)) (as bs : List ℝ)
    (data : List (String × List ℝ)) : Option Out :=
  if fits as.length bs.length data then
    some (.pandas ⟨[lab labelMap o.a, lab labelMap o.b],
      (List.range as.length).flatMap fun i => (List.range bs.length).map fun j => [i, j], data⟩)
  else none

/-- `np2xr_p` (grids.py 606-643): the names of the variables are not mapped. -/
def np2xr (o : Ori) (labelMap : List (String × String)) (as bs : List ℝ) (c : ℝ)
    (data : List (String × List ℝ)) : Option Out :=
  if fits as.length bs.length data then
    some (.xarray ⟨[(lab labelMap o.b, bs), (lab labelMap o.a, as)],
      data.map fun d => (d.1, ⟨[lab labelMap o.b, lab labelMap o.a], fun idx =>
        match idx with
        | [j, i] => cell2 bs.length d.2 i j
        | _ => 0⟩),
      [(lab labelMap o.c, c)]⟩)
  else none

/-- `data_format`. -/
inductive Format where
  | numpy
  | pandas
  | xarray
  | other (s : String)

/-- What the user may change of the coordinates and values. -/
structure Mods where
  normX : Option ℝ := none
  normY : Option ℝ := none
  normZ : Option ℝ := none
  normV : List (String × ℝ) := []
  vmin : List (String × ℝ) := []
  vmax : List (String × ℝ) := []
  labelMap : List (String × String) := []

/-- The normalization of the first axis: `normalize_x` for "xy" and "xz", `normalize_y` for "yz"
(slice_data.py 315-318, 460-463, 605-608, 818-821, 963-966, 1108-1111). -/
def Mods.normA (m : Mods) : Ori → Option ℝ
  | .xy => m.normX
  | .xz => m.normX
  | .yz => m.normY

/-- The normalization of the second axis (same lines). -/
def Mods.normB (m : Mods) : Ori → Option ℝ
  | .xy => m.normY
  | .xz => m.normZ
  | .yz => m.normZ

/-- The normalization of the coordinate of the plane (same lines). -/
def Mods.normC (m : Mods) : Ori → Option ℝ
  | .xy => m.normZ
  | .xz => m.normY
  | .yz => m.normX

/-- The result of the functions: the data, the states (`ret_states`) and the grid (`ret_grid`). -/
structure Result where
  data : Out
  states : List ℕ
  grid : Grid

/-- The grid data returned with `ret_grid` after `_data_mod`: the coordinate arrays have been divided
in place, the coordinate of the plane and the points have not (slice_data.py 69-74, 332-335). -/
def modGrid (o : Ori) (m : Mods) (g : Grid) : Grid :=
  ⟨g.a.map (divBy (m.normA o)), g.b.map (divBy (m.normB o)), g.c, g.pts⟩

/-- `_calc_mean_data` (slice_data.py 110-195), `get_mean_data_xy/xz/yz` (197-625). -/
def meanSlice (fl : Flow) (sts : List St) (o : Ori) (fmt : Format) (vnames : Option (List String))
    (grid : Option Grid) (m : Mods) (sel isel : Option (List ℕ)) : Option Result := do
  let g ← grid
  let pr ← calcPoints fl sts g.pts sel isel
  let data ← meanData pr (varList vnames pr)
  let as := g.a.map (divBy (m.normA o))
  let bs := g.b.map (divBy (m.normB o))
  let c := divBy (m.normC o) g.c
  let data := data.map fun d => (d.1, d.2.map (modVal m.normV m.vmin m.vmax d.1))
  let out ← match fmt with
    | .numpy => np2np as bs data
    | .pandas => np2pd o m.labelMap as bs data
    | .xarray => np2xr o m.labelMap as bs c data
    | .other _ => none
  return ⟨out, pr.states, modGrid o m g⟩

/-- Rows of a (state, point) array; arrays of dimension (state,) do not reshape to (n_s, n_a, n_b)
unless there is a single point. -/
def statesRows (na nb : ℕ) : Arr → Option (List (List ℝ))
  | .s vals => if na * nb = 1 then some (vals.map fun x => [x]) else none
  | .sp np rows => if np = na * nb then some rows else none

/-- `{v: point_results[v].to_numpy() for v in variables}` (slice_data.py 656). -/
def statesData (pr : PointRes) (vnames : List String) : Option (List (String × Arr)) :=
  vnames.mapM fun v => (look pr.vars v).map fun a => (v, a)

/-- Apply a function to all values of an array. -/
def Arr.map (f : ℝ → ℝ) : Arr → Arr
  | .s vals => .s (vals.map f)
  | .sp np rows => .sp np (rows.map fun r => r.map f)

/-- `d.reshape(n_s, n_a, n_b)` for all variables (grids.py 528-531, 682-686). -/
def reshapeS (na nb : ℕ) (data : List (String × Arr)) : Option (List (String × List (List ℝ))) :=
  data.mapM fun d => (statesRows na nb d.2).map fun r => (d.1, r)

/-- `np2np_sp` (grids.py 499-532). -/
def np2npS (states : List ℕ) (as bs : List ℝ) (data : List (String × Arr)) : Option Out := do
  let data ← reshapeS as.length bs.length data
  return .numpy [states.length, as.length, bs.length] data.length fun idx =>
    match idx with
    | [s, i, j, vi] => (data[vi]?).elim 0 fun d => cell2 bs.length (d.2.getD s []) i j
    | _ => 0

/-- `np2pd_sp` (grids.py 567-603): pandas refuses columns that are two dimensional arrays. -/
def np2pdS (o : Ori) (labelMap : List (String × String)) (states : List ℕ) (as bs : List ℝ)
    (data : List (String × Arr)) : Option Out := do
  let cols ← data.mapM fun d => match d.2 with
    | .s vals =>
      if vals.length = states.length * as.length * bs.length then some (d.1, vals) else none
    | .sp _ _ => none
  return .pandas ⟨[lab labelMap "state", lab labelMap o.a, lab labelMap o.b],
    states.flatMap fun s => (List.range as.length).flatMap fun i =>
      (List.range bs.length).map fun j => [s, i, j], cols⟩

/-- `np2xr_sp` (grids.py 646-692): here the names of the variables are mapped. -/
def np2xrS (o : Ori) (labelMap : List (String × String)) (states : List ℕ) (as bs : List ℝ) (c : ℝ)
    (data : List (String × Arr)) : Option Out := do
  let data ← reshapeS as.length bs.length data
  return .xarray ⟨[(lab labelMap "state", states.map fun s : ℕ => (s : ℝ)), (lab labelMap o.b, bs),
      (lab labelMap o.a, as)],
    data.map fun d => (lab labelMap d.1,
      ⟨[lab labelMap "state", lab labelMap o.b, lab labelMap o.a], fun idx =>
        match idx with
        | [s, j, i] => cell2 bs.length (d.2.getD s []) i j
        | _ => 0⟩),
    [(lab labelMap o.c, c)]⟩

/-- `_calc_states_data` (slice_data.py 627-698), `get_states_data_xy/xz/yz` (700-1128). -/
def statesSlice (fl : Flow) (sts : List St) (o : Ori) (fmt : Format) (vnames : Option (List String))
    (grid : Option Grid) (m : Mods) (sel isel : Option (List ℕ)) : Option Result := do
  let g ← grid
  let pr ← calcPoints fl sts g.pts sel isel
  let data ← statesData pr (varList vnames pr)
  let as := g.a.map (divBy (m.normA o))
  let bs := g.b.map (divBy (m.normB o))
  let c := divBy (m.normC o) g.c
  let data := data.map fun d => (d.1, d.2.map (modVal m.normV m.vmin m.vmax d.1))
  let out ← match fmt with
    | .numpy => np2npS pr.states as bs data
    | .pandas => np2pdS o m.labelMap pr.states as bs data
    | .xarray => np2xrS o m.labelMap pr.states as bs c data
    | .other _ => none
  return ⟨out, pr.states, modGrid o m g⟩

/-- One variable after `xr.concat`: a new first dimension for the number of the data set (slices_data.py 88, 138, 186). -/
def stackVar (name : String) (dsl : List XDs) (v : String) (w : XVar) : XVar :=
  ⟨name :: w.dims, fun idx =>
    match idx with
    | k :: rest => ((dsl[k]?).bind fun d => look d.vars v).elim 0 fun w => w.get rest
    | _ => 0⟩

/-- `xr.concat(dsl, pd.Index(z_list, name="z"))` of data sets with the same coordinates and variables,
and `del out.attrs["z"]`: KeyError if the attribute is missing (slices_data.py 88-90, 138-140). -/
def concat (name : String) (vals : List ℝ) (dsl : List XDs) : Option XDs :=
  match dsl with
  | [] => none
  | d0 :: _ =>
    match look d0.attrs name with
    | none => none
    | some _ => some ⟨(name, vals) :: d0.coords,
        d0.vars.map (fun v => (v.1, stackVar name dsl v.1 v.2)),
        d0.attrs.filter fun a => a.1 ≠ name⟩

/-- The new order of dimensions of a variable: first the named ones, then the others (`...`). -/
def transposeVar (first : List String) (w : XVar) : XVar :=
  let new := first ++ w.dims.filter fun n => !first.contains n
  ⟨new, fun idx => w.get (w.dims.map fun n => idx.getD (new.idxOf n) 0)⟩

/-- `out.transpose(d1, ..., dn, ...)` (slices_data.py 235, 280, 325): the named dimensions first, ValueError if
one of them is missing. -/
def transpose (first : List String) (d : XDs) : Option XDs :=
  if d.vars.all fun v => first.all fun n => v.2.dims.contains n then
    some ⟨d.coords, d.vars.map (fun v => (v.1, transposeVar first v.2)), d.attrs⟩
  else none

/-- The data set of a result in xarray format. -/
def Result.ds (r : Result) : Option XDs :=
  match r.data with
  | .xarray d => some d
  | _ => none

/-- `SlicesData.get_mean_data_xy/xz/yz` (slices_data.py 48-190): one slice for each value. `grid` is the
grid function of the coordinate of the plane. -/
def meanSlices (fl : Flow) (sts : List St) (o : Ori) (vnames : Option (List String))
    (vals : List ℝ) (grid : ℝ → Option Grid) (m : Mods) (sel isel : Option (List ℕ)) : Option XDs := do
  let dsl ← vals.mapM fun c =>
    (meanSlice fl sts o .xarray vnames (grid c) m sel isel).bind Result.ds
  concat o.c vals dsl

/-- The dimensions named in the calls of `transpose` (slices_data.py 235, 280, 325). -/
def firstDims : Ori → List String
  | .xy => ["state", "z"]
  | .xz => ["state", "z", "y"]
  | .yz => ["state", "z", "y", "x"]

/-- `SlicesData.get_states_data_xy/xz/yz` (slices_data.py 192-325). -/
def statesSlices (fl : Flow) (sts : List St) (o : Ori) (vnames : Option (List String))
    (vals : List ℝ) (grid : ℝ → Option Grid) (m : Mods) (sel isel : Option (List ℕ)) : Option XDs := do
  let dsl ← vals.mapM fun c =>
    (statesSlice fl sts o .xarray vnames (grid c) m sel isel).bind Result.ds
  (concat o.c vals dsl).bind (transpose (firstDims o))

end Foxes.Slice
