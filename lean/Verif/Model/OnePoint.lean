import Verif.Model.FieldData
/-
Model of OnePointFlowStates (foxes/input/states/one_point_flow.py) and of the calculation of wind displacements by
`Timelines._precalc_data` (foxes/models/wake_frames/timelines.py:57-180) which it uses. Real numbers replace doubles; the vectorised
calculation is written for one point of one state, which is how the masks of the code act. A calm state (wind speed zero) gives NaN in the
code, for which all comparisons fail; here it gives zero, for which they fail, too. Time stamps are in seconds and increasing. The
interpolation along the axes of states and points (at their nodes) is left out.
-/
namespace Foxes.OnePoint
open Foxes.WindDir Foxes.FieldData

noncomputable section
open scoped Classical

abbrev V2 := ℝ × ℝ

/-- `np.einsum("...d,...d->...", a, b)` -/
def dot (a b : V2) : ℝ := a.1 * b.1 + a.2 * b.2

/-- `np.linalg.norm(a, axis=-1)` -/
def nrm (a : V2) : ℝ := √(a.1 ^ 2 + a.2 ^ 2)

/-- `hdxy0 / np.linalg.norm(hdxy0)` (one_point_flow.py:278) -/
def unit (a : V2) : V2 := (a.1 / nrm a, a.2 / nrm a)

/-! ### Displacements -/

/-- the index of the states: time stamps, or something else, with the number of states -/
inductive Index
  | stamps (t : List ℝ)
  | other (n : ℕ)

/-- number of states -/
def Index.size : Index → ℕ
  | .stamps t => t.length
  | .other n => n

/-- differences of neighbours, in whole seconds -/
def diffs : List ℝ → List ℤ
  | a :: b :: l => ⌊b - a⌋ :: diffs (b :: l)
  | _ => []

/-- `dt` (timelines.py:63-84), in whole seconds; `none`: TypeError or KeyError -/
def timeSteps (idx : Index) (dtMin : Option ℝ) : Option (List ℤ) :=
  match dtMin with
  | some m => some (List.replicate (max (idx.size - 1) 1) ⌊m * 60⌋)
  | none =>
      match idx with
      | .stamps t => if t.length = 1 then none else some (diffs t)
      | .other _ => none

/-- a vector times a number -/
def scale (d : ℤ) (u : V2) : V2 := (u.1 * d, u.2 * d)

/-- `dxy` for one height (timelines.py:131-136) -/
def displacements (uv : List V2) (dt : List ℤ) : List V2 :=
  match dt with
  | [d] => uv.map (scale d)
  | _ => List.zipWith (fun u d => scale d u) uv.dropLast dt ++ [scale (dt.getLastD 0) (uv.getLastD (0, 0))]

/-- the weights after the loop over heights (timelines.py:122-128): `tdata[FV.WEIGHT]` of shape (n, 1, 1) is compared with the first
weights of shape (n,), so all pairs are compared; `none`: AssertionError -/
def weightLoop : Option (List ℝ) → List (List ℝ) → Option (Option (List ℝ))
  | w, [] => some w
  | none, w :: ws => weightLoop (some w) ws
  | some w0, w :: ws => if ∀ a ∈ w, ∀ b ∈ w0, a = b then weightLoop (some w0) ws else none

/-- kind of base states: tables without heights, or with heights -/
inductive Base
  | table
  | multiHeight

/-- construction of `mdata` from the data of the base states (timelines.py:86-93): the dimensions of the weights of table states are given
as a string (states_table.py:263), read letter by letter (data.py:147-151), which raises for arrays with one axis; `none`: IndexError -/
def mdataOk (b : Base) (givenWeights : Bool) : Bool :=
  match b with
  | .table => !givenWeights
  | .multiHeight => true

/-- `weight_data` of `_precalc_data` for `nh` heights and `n` states; weights as given, or equal (states_table.py:429-434,
multi_height.py:488-494) -/
def weights (b : Base) (given : Option (List ℝ)) (n nh : ℕ) : Option (Option (List ℝ)) :=
  if mdataOk b given.isSome then
    weightLoop none (List.replicate nh (given.getD (List.replicate n (1 / (n : ℝ)))))
  else none

/-- the choice of heights in `load_data` (one_point_flow.py:126-136); `none`: KeyError -/
def chooseHeights (tl base : Option (List ℝ)) (refz : Option ℝ) : Option (List ℝ) :=
  match tl, base, refz with
  | some l, _, _ => some l
  | none, some l, _ => some l
  | none, none, some z => some [z]
  | none, none, none => none

/-! ### Traces -/

/-- `_eval_trace` without displacement (one_point_flow.py:277-285); `none` is NaN -/
def evalLocal (p hdxy0 : V2) : Option ℝ :=
  let projx := dot p (unit hdxy0)
  if 1e-10 ≤ projx ∧ projx ≤ 1e-10 then some (-1) else none

/-- `_eval_trace` with displacement (one_point_flow.py:277-295); `none` is NaN -/
def evalTrace (p hdxy hdxy0 : V2) : Option ℝ :=
  let nx := unit hdxy0
  let projx := dot p nx
  let lx := dot hdxy nx
  if (lx < 0 ∧ lx ≤ projx ∧ projx ≤ 0) ∨ (0 < lx ∧ 0 ≤ projx ∧ projx ≤ lx) then some (projx / |lx|) else none

/-- the loop backwards in time (one_point_flow.py:300-313), from state `k` on; `tshift` as in the code; result: `trace_si`, coefficient -/
def back (dxy : ℕ → V2) (tshift : ℤ) (p : V2) : ℕ → ℤ × Option ℝ
  | 0 =>
      let hdxy := -dxy 0
      let p := p + hdxy
      match evalTrace p hdxy (dxy (((0 : ℕ) : ℤ) - tshift).toNat) with
      | some w => (0, some w)
      | none => (-1, none)
  | k + 1 =>
      let hdxy := -dxy (k + 1)
      let p := p + hdxy
      match evalTrace p hdxy (dxy (((k + 1 : ℕ) : ℤ) - tshift).toNat) with
      | some w => (k + 1, some w)
      | none => back dxy (tshift - 1) p k

/-- the loop forwards in time (one_point_flow.py:325-339), from state `k` on -/
def fwd (dxy : ℕ → V2) (n : ℕ) (tshift : ℤ) (p : V2) (k : ℕ) : ℤ × Option ℝ :=
  if k < n then
    let hdxy := dxy k
    let p := p + hdxy
    match evalTrace p hdxy (dxy ((k : ℤ) - tshift).toNat) with
    | some w => (k, some w)
    | none => fwd dxy n (tshift + 1) p (k + 1)
  else (k, none)
termination_by n - k

/-- `calc_states_indices` (one_point_flow.py:260-341) for the state with counter `s` among `n` states, and the point at `p` relative to the
reference -/
def statesIndices (dxy : ℕ → V2) (n s : ℕ) (p : V2) : ℤ × Option ℝ :=
  match evalLocal p (dxy s) with
  | some c => (s, some c)
  | none =>
      match back dxy 0 p s with
      | (k, some c) => (k, some c)
      | (_, none) => fwd dxy n 1 p (s + 1)

/-- Python's index into an array of length `n` -/
def pyIdx (n : ℕ) (i : ℤ) : ℕ := if i < 0 then (i + n).toNat else i.toNat

/-- `_interp_time` (one_point_flow.py:390-417) -/
def interpTime (n : ℕ) (data : ℕ → ℝ) (r : ℤ × Option ℝ) : ℝ :=
  if r.1 < 0 then data 0
  else if (n : ℤ) ≤ r.1 then data (n - 1)
  else
    match r.2 with
    | none => 0
    | some c =>
        if c ≤ 0 then -c * data (pyIdx n r.1) + (1 - -c) * data (pyIdx n (r.1 - 1))
        else c * data (pyIdx n (r.1 - 1)) + (1 - c) * data (pyIdx n r.1)

/-! ### The calculation -/

/-- what `_precalc_data` stores (timelines.py:107-168), by height and state, for `n` states at given heights -/
structure Lines where
  n : ℕ
  heights : List ℝ
  dxy : ℕ → ℕ → V2
  val : String → ℕ → ℕ → ℝ

/-- `_precalc_data` (timelines.py:107-168) from the results of the base states by height and state -/
def precalc (n : ℕ) (heights : List ℝ) (wd ws : ℕ → ℕ → ℝ) (other : String → ℕ → ℕ → ℝ) (dt : List ℤ) : Lines :=
  let uv := fun h s => wd2uv (wd h s) (ws h s)
  { n := n, heights := heights,
    dxy := fun h s => (displacements ((List.range n).map (uv h)) dt).getD s (0, 0),
    val := fun v h s => if v = "U" then (uv h s).1 else if v = "V" then (uv h s).2 else other v h s }

/-- the value of a stored variable at a point (one_point_flow.py:376-388, 419-459, 475-484): interpolation in time at each height, then
between the heights if there are several of them; `none`: out of bounds -/
def value (L : Lines) (boundsError : Bool) (ref : V2) (s : ℕ) (p : V2) (z : ℝ) (v : String) : Option ℝ :=
  let at' := fun h => interpTime L.n (L.val v h) (statesIndices (L.dxy h) L.n s (p - ref))
  if 1 < L.heights.length then
    if boundsError = true ∧ inside L.heights z = false then none else some (along L.heights z at')
  else some (at' 0)

/-- the loop over output variables (one_point_flow.py:461-471, 475-484): the wind variables replace all results so far -/
def results (f : String → ℝ) (wd ws : ℝ) : List (String × ℝ) → List String → List (String × ℝ)
  | res, [] => res
  | res, v :: vs =>
      if v ≠ "WS" ∧ v ≠ "WD" then results f wd ws (res.filter (fun e => e.1 ≠ v) ++ [(v, f v)]) vs
      else if v ∉ res.map Prod.fst then results f wd ws [("WD", wd), ("WS", ws)] vs
      else results f wd ws res vs

/-- `calculate` (one_point_flow.py:343-493) for local state `i` of a chunk that starts with state `i0`; `none`: out of bounds. (The weights
are set unchanged, see `weights`.) -/
def calculate (L : Lines) (boundsError : Bool) (ref : V2) (ovars : List String) (i0 i : ℕ) (p : V2) (z : ℝ) : Option (List (String × ℝ)) :=
  match value L boundsError ref (i0 + i) p z "U", value L boundsError ref (i0 + i) p z "V" with
  | some u, some w =>
      some (results (fun v => (value L boundsError ref (i0 + i) p z v).getD 0) (uv2wd (u, w)) (nrm (u, w)) [] ovars)
  | _, _ => none

end

end Foxes.OnePoint
