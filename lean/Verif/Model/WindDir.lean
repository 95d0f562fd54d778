import Verif.Model.DeltaWd
import Mathlib.Analysis.SpecialFunctions.Complex.Arg
/-
Model of foxes/utils/wind_dir.py:4-112 and of the yaw turbine models
(foxes/models/turbine_models/yaw2yawm.py, yawm2yaw.py), for one array element. Real numbers replace doubles.
(`delta_wd`, wind_dir.py:115-142, is modelled in Verif/Model/DeltaWd.lean.)
-/
namespace Foxes.WindDir

noncomputable section

/-- `np.mod(x, m)` for `m > 0`: the remainder in `[0, m)` of floored division (numpy semantics; used in wind_dir.py:89). -/
def npMod (x m : ℝ) : ℝ := x - m * ⌊x / m⌋

/-- `wd2wdvec(wd, ws)` (wind_dir.py:28-34): components x (east) and y (north). -/
def wd2wdvec (wd ws : ℝ) : ℝ × ℝ :=
  let wdr := wd * Real.pi / 180
  (ws * Real.sin wdr, ws * Real.cos wdr)

/-- `wd2uv(wd, ws)` (wind_dir.py:58). -/
def wd2uv (wd ws : ℝ) : ℝ × ℝ := (-(wd2wdvec wd ws).1, -(wd2wdvec wd ws).2)

/-- `np.arctan2(y, x)`: the polar angle of the point (x, y), 0 for the origin. (Signed zeros are not modelled.) -/
def arctan2 (y x : ℝ) : ℝ := Complex.arg ⟨x, y⟩

/-- `uv2wd(uv)` (wind_dir.py:80-89). -/
def uv2wd (uv : ℝ × ℝ) : ℝ := npMod (180 + arctan2 uv.1 uv.2 * 180 / Real.pi) 360

/-- `wdvec2wd(wdvec)` (wind_dir.py:112). -/
def wdvec2wd (v : ℝ × ℝ) : ℝ := uv2wd (-v.1, -v.2)

/-- `YAW2YAWM.calculate` (yaw2yawm.py:58-62): new yaw misalignment. -/
def yaw2yawm (wd yaw : ℝ) : ℝ := deltaWd wd yaw

/-- `YAWM2YAW.calculate` (yawm2yaw.py:59-63): new yaw. -/
def yawm2yaw (wd yawm : ℝ) : ℝ := npMod (wd + yawm) 360

end

end Foxes.WindDir
