import Verif.Model.Frames
/-
Model of the wake frame Streamlines2D, foxes/models/wake_frames/streamlines.py, for one state. Real numbers replace doubles, `none` is NaN.
-/
namespace Foxes.Streamlines
open Foxes.Frames Foxes.WindDir

noncomputable section
open scoped Classical

/-- one point of a streamline: `data[s, t, i]` with x, y, z, wd (streamlines.py:67-68). x and y are both NaN or both numbers -/
structure Row where
  xy : Option (ℝ × ℝ)
  z : ℝ
  wd : Option ℝ

/-- the first point (streamlines.py:72-74): rotor centre and `AMB_WD` -/
def start (hub : V3) (wd0 : Option ℝ) : Row := ⟨some (hub.x, hub.y), hub.z, wd0⟩

/-- the next point (streamlines.py:80-83) -/
def nextXY (step : ℝ) (r : Row) : Option (ℝ × ℝ) :=
  match r.xy, r.wd with
  | some p, some w => some (p.1 + step * (wd2uv w 1).1, p.2 + step * (wd2uv w 1).2)
  | _, _ => none

/-- one step (streamlines.py:79-103); `flow` is the wind direction that the states return at a point, NaN is replaced by the previous direction -/
def next (step : ℝ) (flow : Option (ℝ × ℝ) → ℝ → Option ℝ) (r : Row) : Row :=
  let xy := nextXY step r
  ⟨xy, r.z, match flow xy r.z with
    | some w => some w
    | none => r.wd⟩

/-- `_calc_streamlines` (streamlines.py:58-105) for one turbine, point `i` -/
def streamline (step : ℝ) (flow : Option (ℝ × ℝ) → ℝ → Option ℝ) (hub : V3) (wd0 : Option ℝ) : ℕ → Row
  | 0 => start hub wd0
  | i + 1 => next step flow (streamline step flow hub wd0 i)

/-- `np.argmin` of `n` values: the first NaN if there is one, otherwise the first minimum (numpy semantics; used in streamlines.py:149) -/
def npArgmin (n : ℕ) (d : ℕ → Option ℝ) : ℕ :=
  match (List.range n).find? fun i => decide (d i = none) with
  | some i => i
  | none => ((List.range n).find? fun i => decide (∀ j < n, (d i).getD 0 ≤ (d j).getD 0)).getD 0

/-- distance of a target from a streamline point (streamlines.py:148) -/
def dist2D (p : V3) (r : Row) : Option ℝ := r.xy.map fun q => √((p.x - q.1) ^ 2 + (p.y - q.2) ^ 2)

/-- `_calc_coos` (streamlines.py:146-168) for one target point: the coordinates x, y (`none`: both NaN) and z; `n` points per streamline -/
def calcCoos (step : ℝ) (n : ℕ) (data : ℕ → Row) (p : V3) : Option (ℝ × ℝ) × ℝ :=
  let selp := npArgmin n fun i => dist2D p (data i)
  let r := data selp
  let slen := step * selp
  let xy := match r.xy, r.wd with
    | some q, some w =>
      let nx := wd2uv w 1
      let delta := (p.x - q.1, p.y - q.2)
      let projx := delta.1 * nx.1 + delta.2 * nx.2
      if -step < projx ∧ projx < step then some (slen + projx, delta.1 * -nx.2 + delta.2 * nx.1) else none
    | _, _ => none
  (xy, p.z - r.z)

/-- streamlines of all turbines: turbine, point -/
abbrev Lines := ℕ → ℕ → Row

/-- `get_streamline_data` (streamlines.py:128-134): the stored data are used if their first points are the rotor centres of the `n` turbines
(comparisons with NaN are false; rotor centres are numbers) -/
def getData (store : Option Lines) (n : ℕ) (hubs : ℕ → V3) (fresh : Lines) : Lines :=
  match store with
  | some l => if ∀ t < n, (l t 0).xy = some ((hubs t).x, (hubs t).y) ∧ (l t 0).z = (hubs t).z then l else fresh
  | none => fresh

/-- comparison of two indices by `np.lexsort` (streamlines.py:209): `keys` from the primary one on; NaN is larger than all numbers -/
def lexLe : List (ℕ → Option ℝ) → ℕ → ℕ → Prop
  | [], _, _ => True
  | k :: ks, i, j =>
    match k i, k j with
    | some a, some b => a < b ∨ (a = b ∧ lexLe ks i j)
    | some _, none => True
    | none, some _ => False
    | none, none => lexLe ks i j

/-- `np.lexsort(keys)` of `n` indices: a stable sort, the last key is the primary one (numpy semantics; streamlines.py:209) -/
def lexsort (n : ℕ) (keys : List (ℕ → Option ℝ)) : List ℕ :=
  (List.range n).mergeSort fun i j => decide (lexLe keys.reverse i j)

/-- `calc_order` (streamlines.py:195-211): key `t` is the x coordinate in the wake frame of turbine `t` -/
def calcOrder (step : ℝ) (npts n : ℕ) (lines : Lines) (hubs : ℕ → V3) : List ℕ :=
  lexsort n ((List.range n).map fun t j => (calcCoos step npts (lines t) (hubs j)).1.map fun xy => xy.1)

/-- The streamline data during a farm calculation. `InitFarmData` calls `calc_order` (init_farm_data.py:115) when the farm data `AMB_WD` are still
NaN (engine.py:375-381; they are set later, set_amb_farm_results.py:66-68), and then reorders the stored streamlines like the turbines
(init_farm_data.py:124-135; skipped if all are equal). Later calls (`wd0`: now `AMB_WD` in the order of the calculation) use what is stored.
Returns the order and the streamlines used by `get_wake_coos` -/
def farmCalc (step : ℝ) (npts n : ℕ) (flow : Option (ℝ × ℝ) → ℝ → Option ℝ) (hubs : ℕ → V3) (wd0 : ℕ → Option ℝ) : List ℕ × Lines :=
  let l0 : Lines := getData none n hubs fun t => streamline step flow (hubs t) none
  let order := calcOrder step npts n l0 hubs
  let hubs' := fun k => hubs (order.getD k 0)
  let store : Lines := fun k => l0 (order.getD k 0)
  (order, getData (some store) n hubs' fun t => streamline step flow (hubs' t) (wd0 t))

/-- `get_centreline_points` (streamlines.py:272-287): linear interpolation of the streamline points at `min(x, xs[-1])`, zero outside. (The
interpolation over states is at the grid points. NaN streamlines are not modelled here.) -/
def centrelinePoint (step : ℝ) (npts : ℕ) (data : ℕ → Row) (x : ℝ) : V3 :=
  let pts := fun i => (⟨((data i).xy.getD (0, 0)).1, ((data i).xy.getD (0, 0)).2, (data i).z⟩ : V3)
  let x := min x (step * (npts - 1 : ℕ))
  if x < 0 then ⟨0, 0, 0⟩
  else
    let i := min ⌊x / step⌋₊ (npts - 2)
    let t := x / step - i
    (V3.smul (1 - t) (pts i)).add (V3.smul t (pts (i + 1)))

end

end Foxes.Streamlines
