import Mathlib.Analysis.SpecialFunctions.Trigonometric.Inverse
import Mathlib.Analysis.SpecialFunctions.Pow.Real
/-
Model of foxes/utils/cubic_roots.py:3-80 for arrays with a single polynomial. Real numbers replace doubles; `none` is NaN.
-/
namespace Foxes.Cubic

noncomputable section

/-- `Q` (cubic_roots.py:48), coefficients of the normalised polynomial `x^3 + b x^2 + c x + d` -/
def Q (b c : ℝ) : ℝ := (3 * c - b * b) / 9
/-- `R` (cubic_roots.py:49) -/
def R (b c d : ℝ) : ℝ := (9 * b * c - 27 * d - 2 * b * (b * b)) / 54
/-- `D` (cubic_roots.py:50-51) -/
def disc (b c d : ℝ) : ℝ := Q b c * Q b c * Q b c + R b c d * R b c d

/-- `cubic_roots(a0, a1, a2, a3)` (cubic_roots.py:39-80) for one polynomial. The first entry is also written by the branch `Q == 0`
(lines 54-66); the branch `D <= 0` (lines 68-77) comes later and overwrites it. For `Q = R = 0` it divides zero by zero: NaN. For
`Q = 0`, `R < 0` numpy's power of a negative number is NaN. -/
def cubicRoots (a0 a1 a2 a3 : ℝ) : Option ℝ × Option ℝ × Option ℝ :=
  let b := a2 / a3
  let c := a1 / a3
  let d := a0 / a3
  let q := Q b c
  let r := R b c d
  let b3 := 1 / 3 * b
  if disc b c d ≤ 0 then
    if q = 0 then (none, none, none)
    else
      let theta := Real.arccos (r / √(-(q * q * q)))
      let s := √(-q)
      (some (2 * s * Real.cos (theta / 3) - b3), some (2 * s * Real.cos ((theta + 2 * Real.pi) / 3) - b3),
        some (2 * s * Real.cos ((theta + 4 * Real.pi) / 3) - b3))
  else if q = 0 then
    (if r < 0 then none else some ((2 * r) ^ (1 / 3 : ℝ) - b3), none, none)
  else (none, none, none)

/-- the roots in the output that are not NaN -/
def found (o : Option ℝ × Option ℝ × Option ℝ) : List ℝ := [o.1, o.2.1, o.2.2].filterMap id

end

end Foxes.Cubic
