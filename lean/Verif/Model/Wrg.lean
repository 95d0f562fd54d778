import Verif.Model.FieldData
import Mathlib.Analysis.SpecialFunctions.Pow.Real
import Mathlib.Analysis.SpecialFunctions.Exp
/-
Model of ambient states from wind resource grids: foxes/utils/wrg_utils.py and foxes/input/states/wrg_states.py.
Real numbers replace doubles. The text format of the file is not modelled: a file is its header and its rows of numbers.
-/
namespace Foxes.Wrg
open Foxes.FieldData (along inside)

noncomputable section
open scoped Classical

/-- one row of the file: coordinates and, by sector, frequency, scale and shape as written in the file (wrg_utils.py:45-58) -/
structure Row where
  x : ℝ
  y : ℝ
  f : ℕ → ℝ
  a : ℕ → ℝ
  k : ℕ → ℝ

/-- header (wrg_utils.py:31-43) and rows -/
structure File where
  nx : ℕ
  ny : ℕ
  x0 : ℝ
  y0 : ℝ
  res : ℕ
  ns : ℕ
  rows : List Row

/-- the quantities of a sector -/
inductive Q | A | K | F
deriving DecidableEq

/-- values in physical units (wrg_utils.py:64-66): column of the reader's data frame at row `r` -/
def scaled (r : Row) (s : ℕ) : Q → ℝ
  | .A => r.a s / 10
  | .K => r.k s / 100
  | .F => r.f s / 10

/-- the reader accepts the file (wrg_utils.py:68-71) -/
def accepted (F : File) : Prop := F.rows.length = F.nx * F.ny

/-- `.to_numpy().reshape(ny, nx)[j, i]` (wrg_states.py:146-148) -/
def gridValue (F : File) (i j s : ℕ) (q : Q) : ℝ := scaled (F.rows.getD (j * F.nx + i) ⟨0, 0, fun _ => 0, fun _ => 0, fun _ => 0⟩) s q

/-- conversion of a float to an integer by `np.asarray(., dtype=int)`: towards zero (wrg_states.py:118-119) -/
def trunc (r : ℝ) : ℤ := if 0 ≤ r then ⌊r⌋ else ⌈r⌉

/-- start or end of a Python slice of `n` items -/
def pyIndex (n : ℕ) (i : ℤ) : ℕ := if i < 0 then (i + n).toNat else min i.toNat n

/-- indices selected along one axis (wrg_states.py:114-129), `bnd` are the bounds of the farm including the extra space, `none`: no selection -/
def selected (n : ℕ) (p0 : ℝ) (res : ℕ) (bnd : Option (ℝ × ℝ)) : List ℕ :=
  match bnd with
  | none => List.range n
  | some (lo, hi) =>
    let a := pyIndex n (trunc ((lo - p0) / res))
    let b := pyIndex n (trunc ((hi - p0) / res) + 1)
    ((List.range n).drop a).take (b - a)

/-- the coordinates of selected indices (wrg_states.py:126-129) -/
def coords (p0 : ℝ) (res : ℕ) (sel : List ℕ) : List ℝ := sel.map fun i : ℕ => p0 + (i : ℝ) * res

/-- `load_data` (wrg_states.py:101-151): selected indices along x and y; `none`: ValueError (wrg_utils.py:68-71, wrg_states.py:130-131) -/
def load (F : File) (bnd : Option ((ℝ × ℝ) × (ℝ × ℝ))) : Option (List ℕ × List ℕ) :=
  let sx := selected F.nx F.x0 F.res (bnd.map Prod.fst)
  let sy := selected F.ny F.y0 F.res (bnd.map Prod.snd)
  if accepted F ∧ 2 ≤ sx.length ∧ 2 ≤ sy.length then some (sx, sy) else none

/-- `self._wds` (wrg_states.py:160): sector directions -/
def wds (ns : ℕ) : List ℝ := List.map (fun s : ℕ => 360 / (ns : ℝ) * s) (List.range ns)

/-- number of states (wrg_states.py:163) -/
def size (bins : List ℝ) (ns : ℕ) : ℕ := (bins.length - 1) * ns

/-- wind speed, wind direction and bin width of state `k` (wrg_states.py:161-168): the array of shape (bins, sectors, 3), reshaped -/
def stateData (bins : List ℝ) (ns k : ℕ) : ℝ × ℝ × ℝ :=
  let b := bins.getD (k / ns) 0
  let b' := bins.getD (k / ns + 1) 0
  (0.5 * (b + b'), (wds ns).getD (k % ns) 0, b' - b)

/-- interpolation of A, k or f at the point `(px, py)` and the direction `wd` (wrg_states.py:243-245) -/
def interp (F : File) (R : List ℕ × List ℕ) (q : Q) (px py wd : ℝ) : ℝ :=
  along (coords F.x0 F.res R.1) px fun i => along (coords F.y0 F.res R.2) py fun j => along (wds F.ns) wd fun s =>
    gridValue F (R.1.getD i 0) (R.2.getD j 0) s q

/-- the weight of a state (wrg_states.py:272-281) -/
def weight (ws dws A k f : ℝ) : ℝ := f * (dws * (k / A * (ws / A) ^ (k - 1) * Real.exp (-(ws / A) ^ k)))

/-- result of `calculate` at one point: wind speed, wind direction, weight -/
structure Res where
  ws : ℝ
  wd : ℝ
  weight : ℝ

/-- `calculate` (wrg_states.py:198-283) for state `k` at one point with default parameters, `none`: ValueError of `interpn`. The height of the point is
not used -/
def calculate (F : File) (R : List ℕ × List ℕ) (bins : List ℝ) (k : ℕ) (px py : ℝ) : Option Res :=
  let d := stateData bins F.ns k
  if inside (coords F.x0 F.res R.1) px && inside (coords F.y0 F.res R.2) py && inside (wds F.ns) d.2.1 then
    some ⟨d.1, d.2.1, weight d.1 d.2.2 (interp F R .A px py d.2.1) (interp F R .K px py d.2.1) (interp F R .F px py d.2.1)⟩
  else none

end

end Foxes.Wrg
