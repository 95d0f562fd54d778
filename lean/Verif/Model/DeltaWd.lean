import Mathlib.Algebra.Order.Field.Basic
/- Model of foxes/utils/wind_dir.py:115-142. -/
namespace Foxes.WindDir

variable {K : Type} [Field K] [LinearOrder K]

/-- `delta_wd(wd_a, wd_b)` for one element (wind_dir.py:137-142): first the correction of values below
-180, then that of values above 180. -/
def deltaWd (a b : K) : K :=
  let out := b - a
  let out := if out < -180 then out + 360 else out
  if out > 180 then out - 360 else out

end Foxes.WindDir
