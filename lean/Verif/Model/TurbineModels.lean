import Verif.Model.Cubic
import Verif.Model.WakeModels
import Verif.Model.WindDir
/-
Models of turbine models: foxes/models/turbine_models/set_farm_vars.py, power_mask.py, sector_management.py, kTI_model.py,
thrust2ct.py, together with the reordering of data in foxes/algorithms/downwind/models/init_farm_data.py. One state at a time; arrays
over turbines are functions of the index, `none` is NaN, and `order i` is the turbine at downwind position `i`.
-/
namespace Foxes.TurbineModels

/-! ### SetFarmVars -/

section SetFarmVars
variable {K : Type} [DecidableEq K]

/-- numpy's `!=` for values that may be NaN: NaN differs from everything -/
def npNe (a b : Option K) : Bool :=
  match a, b with
  | some x, some y => decide (x ≠ y)
  | _, _ => true

/-- Reordering of model data with dimensions (state, turbine) in `InitFarmData.calculate` (init_farm_data.py:131-135). `differs` is
the `np.any(...)` over all states and turbines of the chunk; here it is given by the data of the chunk `chunk s t`. -/
def reorderMdata (nS n : Nat) (order : Nat → Nat → Nat) (chunk : Nat → Nat → Option K) : Nat → Nat → Option K :=
  if (List.range nS).any (fun s => (List.range n).any (fun t => npNe (chunk s t) (chunk 0 0)))
  then fun s i => chunk s (order s i) else chunk

/-- `SetFarmVars.calculate` (set_farm_vars.py:274-289) for one variable: new farm data from model data `data`, old farm data `old` and
the selection `sel`. -/
def setFarmVars (preRotor : Bool) (order : Nat → Nat → Nat) (data old : Nat → Nat → Option K) (sel : Nat → Nat → Bool) :
    Nat → Nat → Option K := fun s i =>
  let d := if preRotor then data s i else data s (order s i)
  if sel s i && d.isSome then d else old s i

/-- What the results report for turbine `t`: the farm data at its downwind position `inv s t` (ReorderFarmOutput, see C10). -/
def reported (inv : Nat → Nat → Nat) (fdata : Nat → Nat → Option K) : Nat → Nat → Option K := fun s t => fdata s (inv s t)

/-- A post-rotor `SetFarmVars` in a run that starts with `InitFarmData` (Downwind, and the first sweep of Iterative): user data `user`
in farm order are loaded (set_farm_vars.py:130-150), reordered by `InitFarmData`, and reordered again by the model. -/
def postRotorRun (nS n : Nat) (order inv : Nat → Nat → Nat) (user old : Nat → Nat → Option K) (sel : Nat → Nat → Bool) :
    Nat → Nat → Option K :=
  reported inv (setFarmVars false order (reorderMdata nS n order user) old sel)

/-- A pre-rotor `SetFarmVars`, for a variable other than X, Y, H, D, WD, YAW: it runs before `InitFarmData` (downwind.py:437-443), which
does not reorder the variable, so the farm order values are read as values in downwind order. -/
def preRotorRun (inv : Nat → Nat → Nat) (order : Nat → Nat → Nat) (user old : Nat → Nat → Option K) (sel : Nat → Nat → Bool) :
    Nat → Nat → Option K :=
  reported inv (setFarmVars true order user old sel)

/-- `fdata[FV.D][:, ti] = D` in `InitFarmData.calculate` (init_farm_data.py:97-105), after `SetFarmVars.load_data` replaced the
diameter by an array over *all* states (set_farm_vars.py:166-176): numpy assigns an array of length `m` to a slice of length `n` only if
`m = n` or `m = 1`, otherwise it raises. -/
def assignPerState (n m : Nat) (src : Nat → Option K) : Option (List (Option K)) :=
  if m = n then some ((List.range n).map src)
  else if m = 1 then some ((List.range n).map (fun _ => src 0))
  else none

end SetFarmVars

/-! ### PowerMask -/

noncomputable section

/-- `4 a^3 - 8 a^2 + 4 a`, the power coefficient of momentum theory (power_mask.py:183) -/
def cpOfA (a : ℝ) : ℝ := 4 * a ^ 3 - 8 * a ^ 2 + 4 * a

/-- `0.5 * ws**3 * rho * pi * r**2` (power_mask.py:181, 188), the power in the wind -/
def windPower (ws rho D : ℝ) : ℝ := 0.5 * ws ^ 3 * rho * Real.pi * (D / 2) ^ 2

/-- minimum of the positive entries, `none` for infinity (power_mask.py:197-199) -/
def minPos (l : List ℝ) : Option ℝ := (l.filter (fun x => 0 < x)).min?

/-- new induction factor for the ratio `c = cp / e` (power_mask.py:190-199) -/
def newInduction (c : ℝ) : Option ℝ := minPos (Foxes.Cubic.found (Foxes.Cubic.cubicRoots (-c) 4 (-8) 4))

/-- which entries are modified (power_mask.py:159-168); `maxP` may be NaN, `pRated` is `self._P_rated[i]` at array position `i` -/
def maskActive (sel : Bool) (P : ℝ) (maxP : Option ℝ) (pRated pLim : ℝ) : Prop :=
  sel = true ∧ ∃ m, maxP = some m ∧ ((m < pRated ∧ P > m) ∨ (m > pRated ∧ P > pRated - pLim))

open scoped Classical in
/-- `PowerMask.calculate` (power_mask.py:153-208) for one state and one array position; result power and thrust coefficient (`none`: not
finite). `ct2a` is the induction model. -/
def powerMask (ct2a : ℝ → ℝ) (factorP : ℝ) (sel : Bool) (P ct : ℝ) (maxP : Option ℝ) (pRated pLim ws rho D : ℝ) : ℝ × Option ℝ :=
  if maskActive sel P maxP pRated pLim then
    let m := maxP.getD 0
    let cp := P / windPower ws rho D * factorP
    let e := cp / cpOfA (ct2a ct)
    let cp' := m / windPower ws rho D * factorP
    (m, (newInduction (cp' / e)).map (fun a => 4 * a * (1 - a)))
  else (P, some ct)

/-! ### SectorManagement -/

/-- one row of the table: turbine index, range data `(min, max)` for each range variable (after `np.mod`), target value -/
structure Row where
  turbine : Nat
  lo : ℝ
  hi : ℝ
  value : ℝ

/-- `np.mod` of the limits of a periodic variable (sector_management.py:145-147) -/
def loadRow (period : ℝ) (r : Row) : Row := { r with lo := Foxes.WindDir.npMod r.lo period, hi := Foxes.WindDir.npMod r.hi period }

/-- range test for a periodic variable (sector_management.py:205-219) -/
def inSector (period : ℝ) (r : Row) (d : ℝ) : Prop :=
  let d := Foxes.WindDir.npMod d period
  if r.hi < r.lo then d ≥ r.lo ∨ d < r.hi else d ≥ r.lo ∧ d < r.hi

open scoped Classical in
/-- `SectorManagement.calculate` (sector_management.py:192-234) for one state, one periodic range variable with values `wd` and one
target variable `old`: the rows are written one after the other. All arrays are indexed by array position (downwind order), and so is
the turbine index of the row. -/
def sectorManagement (period : ℝ) (rows : List Row) (wd old : Nat → ℝ) : Nat → ℝ := fun i =>
  rows.foldl (fun v r => if r.turbine = i ∧ inSector period (loadRow period r) (wd r.turbine) then r.value else v) (old i)

/-! ### kTI and Thrust2Ct -/

/-- `kTI.calculate` (kTI_model.py:131-138) at one entry -/
def kTI (kti kb ti old : ℝ) (sel : Bool) : ℝ := if sel then kti * ti + kb else old

/-- `Thrust2Ct.calculate` (thrust2ct.py:85-94) at one entry -/
def thrust2ct (T rho D ws old : ℝ) (sel : Bool) : ℝ :=
  if sel then 2 * T / (rho * (Real.pi * (D / 2) ^ 2) * ws ^ 2) else old

end

end Foxes.TurbineModels
