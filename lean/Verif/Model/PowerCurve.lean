import Mathlib.Analysis.SpecialFunctions.Pow.Real
import Mathlib.Analysis.SpecialFunctions.Trigonometric.Basic
import Mathlib.Data.List.Sort
/-
Model of the power and thrust curves of turbine types: foxes/models/turbine_types/PCt_file.py (and the same code in PCt_from_two.py),
CpCt_file.py, wsrho2PCt_from_two.py. Real numbers replace doubles.
-/
namespace Foxes.PowerCurve

noncomputable section
open scoped Classical

/-- one row of the table: wind speed, power, thrust coefficient -/
structure Row where
  ws : ℝ
  P : ℝ
  ct : ℝ

/-- `data.set_index(self.col_ws).sort_index()` (PCt_file.py:188) -/
def sortTable (rows : List Row) : List Row := rows.insertionSort (fun a b => a.ws ≤ b.ws)

/-- the part of `np.interp(x, xp, fp, left=0, right=0)` for `x` not below the first sample: the last sample not above `x` and the next
one define the line; the last sample has its own value; beyond it the result is `right = 0` -/
def interpFrom : List (ℝ × ℝ) → ℝ → ℝ
  | [], _ => 0
  | [p], x => if x = p.1 then p.2 else 0
  | p :: q :: l, x => if x < q.1 then (q.2 - p.2) / (q.1 - p.1) * (x - p.1) + p.2 else interpFrom (q :: l) x

/-- `np.interp(x, xp, fp, left=0.0, right=0.0)` (PCt_file.py:340-345) for sorted samples. (numpy raises for an empty table.) -/
def interp (tab : List (ℝ × ℝ)) (x : ℝ) : ℝ :=
  match tab with
  | [] => 0
  | p :: l => if x < p.1 then 0 else interpFrom (p :: l) x

/-- `data_ws`, `data_P` (PCt_file.py:189-190) -/
def tabP (rows : List Row) : List (ℝ × ℝ) := rows.map (fun r => (r.ws, r.P))
/-- `data_ws`, `data_ct` (PCt_file.py:189, 191) -/
def tabCt (rows : List Row) : List (ℝ × ℝ) := rows.map (fun r => (r.ws, r.ct))

/-- `P_nominal`, if not given by the user: `np.max(self.data_P) / FC.P_UNITS[self.P_unit]` (PCt_file.py:193-194); `none`: numpy raises
for an empty table. `unitW` is the unit in Watts (constants.py:180). -/
def pNominal (rows : List Row) (unitW : ℝ) : Option ℝ := ((rows.map Row.P).max?).map (fun m => m / unitW)

/-- wind speed variables the look-up may use (`WSCT`, `WSP`) -/
inductive Var
  | rews | rews2 | rews3 | ws
deriving DecidableEq

/-- parameters of the turbine type (PCt_file.py:94-103): `rho` the density of the curve, exponents `pCt`, `pP`; `none` is `None` -/
structure Cfg where
  rows : List Row
  rho : Option ℝ
  pCt : Option ℝ
  pP : Option ℝ
  wsCt : Var
  wsP : Var

/-- factor for the power wind speed from the density correction (PCt_file.py:309-316) -/
def rhoFactor (cfg : Cfg) (rho : ℝ) : ℝ :=
  match cfg.rho with
  | none => 1
  | some r => (r / rho) ^ (1 / 3 : ℝ)

/-- factors for the two wind speeds from yaw misalignment (PCt_file.py:319-333); `yawm = none`: the variable is not in the farm data -/
def yawFactor (p : Option ℝ) (e : ℝ) (yawm : Option ℝ) : ℝ :=
  match p, yawm with
  | some p, some y => (Real.cos (y / 180 * Real.pi) ^ p) ^ e
  | _, _ => 1

/-- `PCtFile.calculate` (PCt_file.py:305-347) for one selected entry. `fdata` are the wind speed variables of the farm data. `view`:
`st_sel` is a slice (all turbines have this type, farm_controller.py:285-286), so that `fdata[...][st_sel]` is a view of the farm data
and `*=` writes to it; otherwise it is a copy. Results: power, thrust coefficient, farm data afterwards. -/
def calculate (cfg : Cfg) (view : Bool) (fdata : Var → ℝ) (rho : ℝ) (yawm : Option ℝ) : ℝ × ℝ × (Var → ℝ) :=
  let f2 := yawFactor cfg.pCt (1 / 2) yawm
  let f3 := rhoFactor cfg rho * yawFactor cfg.pP (1 / 3) yawm
  if view then
    let fd := fun v => if v = cfg.wsP then fdata v * rhoFactor cfg rho else fdata v
    let fd := fun v => if v = cfg.wsCt then fd v * f2 else fd v
    let fd := fun v => if v = cfg.wsP then fd v * yawFactor cfg.pP (1 / 3) yawm else fd v
    (interp (tabP cfg.rows) (fd cfg.wsP), interp (tabCt cfg.rows) (fd cfg.wsCt), fd)
  else
    (interp (tabP cfg.rows) (fdata cfg.wsP * f3), interp (tabCt cfg.rows) (fdata cfg.wsCt * f2), fdata)

/-! ### modify_cutin -/

/-- One iteration of the smoothing on `steps + 1` points (PCt_file.py:265, 270); numpy evaluates the right-hand side first. `cast` is
the conversion to the data type of the wind speed column (PCt_file.py:258-260): the identity for floats, truncation for integers. -/
def smooth (cast : ℝ → ℝ) (steps : ℕ) (a : ℝ) (f : ℕ → ℝ) : ℕ → ℝ := fun i =>
  if 0 < i ∧ i < steps then cast (a * f (i - 1) + (1 - a) * f (i + 1)) else f i

/-- `new_ct` / `new_P` after the iterations (PCt_file.py:259-270) -/
def ramp (cast : ℝ → ℝ) (steps iterations : ℕ) (a top : ℝ) : ℕ → ℝ :=
  (smooth cast steps a)^[iterations] (fun i => if i = steps then cast top else 0)

/-- The rows skipped when searching the cut-in wind speed (PCt_file.py:242-247). -/
def belowCutin (modCt modP : Bool) (r : Row) : Bool := (!modCt || decide (r.ct < 1e-5)) && (!modP || decide (r.P < 0.1))

/-- `PCtFile.modify_cutin` (PCt_file.py:234-277) for sorted data; `none`: IndexError at `ws[i]` (line 253) -/
def modifyCutin (cast : ℝ → ℝ) (modCt modP : Bool) (steps iterations : ℕ) (a b : ℝ) (rows : List Row) : Option (List Row) :=
  if modCt || modP then
    match rows.dropWhile (belowCutin modCt modP) with
    | [] => none
    | r :: rest =>
        if r.ws > 0 then
          some ((List.range steps).map (fun i =>
              { ws := cast (i * (r.ws / steps)),
                P := if modP then ramp cast steps iterations b r.P i else 0,
                ct := if modCt then ramp cast steps iterations a r.ct i else 0 }) ++ r :: rest)
        else some rows
  else some rows

/-- `astype(int)` of a non-negative value -/
def truncInt (x : ℝ) : ℝ := ((⌊x⌋ : ℤ) : ℝ)

/-! ### Columns -/

/-- the columns `PCtFile.load_data` reads (PCt_file.py:188-191), with default names; `false`: KeyError -/
def loadable (cols : List String) : Bool := cols.contains "ws" && cols.contains "P" && cols.contains "ct"

/-- the columns of the table that `CpCtFile.__init__` hands over to `PCtFile` (CpCt_file.py:69-76) -/
def cpCtColumns : List String := ["ws", "cp", "P"]

/-! ### WsRho2PCtFromTwo -/

/-- `scipy.interpolate.interpn(..., bounds_error=True)` in the wind speed: raises outside of the range (wsrho2PCt_from_two.py:298, 338).
`table ws rho` is the interpolated table. -/
def interpnBounded (lo hi : ℝ) (table : ℝ → ℝ → ℝ) (ws rho : ℝ) : Option ℝ := if lo ≤ ws ∧ ws ≤ hi then some (table ws rho) else none

/-- power and thrust of `WsRho2PCtFromTwo.calculate` (wsrho2PCt_from_two.py:266-343) for one selected entry; `none`: it raises. `loP hiP`,
`loCt hiCt` are the wind speed ranges of the two tables. The range of the density is not modelled. -/
def wsRho (loP hiP loCt hiCt : ℝ) (tP tCt : ℝ → ℝ → ℝ) (pP pCt : Option ℝ) (wsP wsCt rho : ℝ) (yawm : Option ℝ) : Option (ℝ × ℝ) := do
  let P ← if loP ≤ wsP ∧ wsP ≤ hiP then interpnBounded loP hiP tP (wsP * yawFactor pP (1 / 3) yawm) rho else some 0
  let ct ← if loP ≤ wsCt ∧ wsCt ≤ hiP then interpnBounded loCt hiCt tCt (wsP * yawFactor pCt (1 / 2) yawm) rho else some 0
  return (P, ct)

end

end Foxes.PowerCurve
