import Mathlib.Analysis.SpecialFunctions.Trigonometric.Inverse

/-! Model of `foxes/utils/two_circles.py`: the overlap area of two discs, for one element of the
numpy arrays (all operations of the file are elementwise; the masks `sel0`, `sela`, `selb` become
`if`s). Real numbers replace doubles. -/

namespace Foxes.Circles

noncomputable section

/-- One summand of `area`, `foxes/utils/two_circles.py` lines 42-44 (and 46-48):
`r**2 * arccos(clip(e/r, -1, 1)) - e * sqrt(max(r**2 - e**2, 0))`. -/
def cap (r e : ℝ) : ℝ :=
  r ^ 2 * Real.arccos (max (min (e / r) 1) (-1)) - e * √(max (r ^ 2 - e ^ 2) 0)

/-- `area`, `foxes/utils/two_circles.py` lines 39-55. -/
def area (r1 r2 d : ℝ) : ℝ :=
  let d1 := (r1 ^ 2 - r2 ^ 2 + d ^ 2) / (2 * d)
  let d2 := d - d1
  cap r1 d1 + cap r2 d2

/-- `calc_area`, `foxes/utils/two_circles.py` lines 84-119, one array element. -/
def calcArea (r1 r2 d : ℝ) : ℝ :=
  if d < r1 + r2 then
    if r1 ≥ r2 then
      if d ≤ r1 - r2 then Real.pi * r2 ^ 2 else area r1 r2 d
    else
      if d ≤ r2 - r1 then Real.pi * r1 ^ 2 else area r2 r1 d
  else 0

end

end Foxes.Circles
